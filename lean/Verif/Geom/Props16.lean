import Verif.Geom.Props2
import Verif.Geom.Props4
import Verif.Geom.Clip

/-!
# C120: inside changes at the edges; C121: the part of a line inside a polygon
-/

set_option linter.unusedSectionVars false

namespace Verif.Geom
open Verif PyFloat PyTrig

/-! ## Specification -/

/-- Specification: the sides of a polygon, from each vertex to the next one and from the last to the first. -/
def sides (vs : List (P ℝ)) : List (P ℝ × P ℝ) := vs.zip (vs.rotate 1)

/-- Specification: the two segments have a point in common. -/
def Meet (l : Line ℝ) (e : P ℝ × P ℝ) : Prop := ∃ t s, 0 ≤ t ∧ t ≤ 1 ∧ 0 ≤ s ∧ s ≤ 1 ∧ segPt l t = segPt ⟨e.1, e.2⟩ s

/-- Specification: the point lies on the segment. -/
def OnSeg (p : P ℝ) (l : Line ℝ) : Prop := ∃ t, 0 ≤ t ∧ t ≤ 1 ∧ p = segPt l t

/-- Specification: the way `l` stays clear of the corners of the polygon, and its ends are not on a side. -/
def ClearWay (vs : List (P ℝ)) (l : Line ℝ) : Prop :=
  (∀ v ∈ vs, ¬ OnSeg v l) ∧ ∀ e ∈ sides vs, ¬ OnSeg l.p1 ⟨e.1, e.2⟩ ∧ ¬ OnSeg l.p2 ⟨e.1, e.2⟩

open Classical in
/-- Specification: how many sides the way meets. -/
noncomputable def crossings (vs : List (P ℝ)) (l : Line ℝ) : ℕ := (sides vs).countP fun e => decide (Meet l e)

/-! ## One side -/

/-- Twice the area of the triangle `a b c`, positive if it turns left. -/
def cr (a b c : P ℝ) : ℝ := (b.x - a.x) * (c.y - a.y) - (b.y - a.y) * (c.x - a.x)

/-- The vertex is passed on the right by a point moving from `a` to `b`. -/
def Passed (a b u : P ℝ) : Prop := (a.y < u.y ∧ u.y ≤ b.y ∧ cr a b u < 0) ∨ (b.y < u.y ∧ u.y ≤ a.y ∧ 0 < cr a b u)

theorem edgeCrosses_cr (p u v : P ℝ) : edgeCrosses p (u, v) = true ↔ (u.y ≤ p.y ∧ p.y < v.y ∧ 0 < cr u v p) ∨ (v.y ≤ p.y ∧ p.y < u.y ∧ cr u v p < 0) := by
  unfold edgeCrosses cr
  simp only [Bool.and_eq_true, bne_iff_ne, real_lt, real_add, real_mul, real_sub, real_div, decide_eq_true_eq, ne_eq, decide_eq_decide]
  rcases lt_or_ge p.y v.y with h1 | h1 <;> rcases lt_or_ge p.y u.y with h2 | h2
  · simp [h1, h2, not_le.2 h1, not_le.2 h2]
  · have hd : u.y - v.y < 0 := by linarith
    have : (u.x - v.x) * (p.y - v.y) / (u.y - v.y) + v.x - p.x = ((v.x - u.x) * (p.y - u.y) - (v.y - u.y) * (p.x - u.x)) / (v.y - u.y) := by
      have : v.y - u.y ≠ 0 := by linarith
      have : u.y - v.y ≠ 0 := by linarith
      field_simp; ring
    have h3 : p.x < (u.x - v.x) * (p.y - v.y) / (u.y - v.y) + v.x ↔ 0 < (v.x - u.x) * (p.y - u.y) - (v.y - u.y) * (p.x - u.x) := by
      rw [← sub_pos, this]
      exact div_pos_iff_of_pos_right (by linarith)
    simp only [h1, h2, h3, not_le.2 h1, not_lt.2 h2, true_and, false_and, or_false, iff_false, not_true, not_false_iff]
  · have : (u.x - v.x) * (p.y - v.y) / (u.y - v.y) + v.x - p.x = -((v.x - u.x) * (p.y - u.y) - (v.y - u.y) * (p.x - u.x)) / (u.y - v.y) := by
      have : u.y - v.y ≠ 0 := by linarith
      field_simp; ring
    have h3 : p.x < (u.x - v.x) * (p.y - v.y) / (u.y - v.y) + v.x ↔ (v.x - u.x) * (p.y - u.y) - (v.y - u.y) * (p.x - u.x) < 0 := by
      rw [← sub_pos, this, div_pos_iff_of_pos_right (by linarith)]
      constructor <;> intro <;> linarith
    simp [h1, h2, h3, not_lt.2 h1, not_le.2 h2]
  · simp [not_lt.2 h1, not_lt.2 h2]

/-- Arithmetic of the six cases. -/
theorem cases_aux {ya yb yu yv s1 s2 s3 s4 : ℝ} (hD : s1 - s2 = s4 - s3) (hY : s1 * (yb - ya) + s3 * (yv - yu) = (s1 - s2) * (yu - ya))
    (hab : ya ≤ yb) (huv : yu ≤ yv) (h0 : yv = ya → yu = ya → yb = ya → s1 = 0)
    (h5 : yv = yb → yu = yb → s3 * s4 < 0 → s2 ≠ 0) (h6 : yb = ya → yu = ya → s1 * s2 < 0 → s3 ≠ 0)
    (h1 : yu ≤ ya → ya < yv → s1 ≠ 0) (h2 : yu ≤ yb → yb < yv → s2 ≠ 0) (h3 : ya < yu → yu ≤ yb → s3 ≠ 0) (h4 : ya < yv → yv ≤ yb → s4 ≠ 0) :
    (Xor (Xor (yu ≤ ya ∧ ya < yv ∧ 0 < s1) (yu ≤ yb ∧ yb < yv ∧ 0 < s2)) (s1 * s2 < 0 ∧ s3 * s4 < 0)) ↔ Xor (ya < yu ∧ yu ≤ yb ∧ s3 < 0) (ya < yv ∧ yv ≤ yb ∧ s4 < 0) := by
  have r1 : s3 * (yv - ya) = s4 * (yu - ya) - s1 * (yb - ya) := by linear_combination hY + (yu - ya) * hD
  have r2 : s2 * (yv - ya) = s1 * (yv - yb) - s4 * (yv - yu) := by linear_combination hY - (yv - yu) * hD
  have r3 : s3 * (yv - yb) = s4 * (yu - yb) - s2 * (yb - ya) := by linear_combination r1 + (ya - yb) * hD
  have r4 : s2 * (yu - ya) = s1 * (yu - yb) - s3 * (yv - yu) := by linear_combination hY
  simp only [mul_neg_iff]
  rcases le_or_gt yv ya with c1 | c1
  · -- both below
    have hS : ¬ ((0 < s1 ∧ s2 < 0 ∨ s1 < 0 ∧ 0 < s2) ∧ (0 < s3 ∧ s4 < 0 ∨ s3 < 0 ∧ 0 < s4)) := by
      rintro ⟨⟨p1, p2⟩ | ⟨p1, p2⟩, ⟨p3, p4⟩ | ⟨p3, p4⟩⟩
      · linarith
      · have e1 : 0 ≤ s3 * (yv - ya) := mul_nonneg_of_nonpos_of_nonpos p3.le (by linarith)
        have e2 : s4 * (yu - ya) ≤ 0 := mul_nonpos_of_nonneg_of_nonpos p4.le (by linarith)
        have e3 : 0 ≤ s1 * (yb - ya) := mul_nonneg p1.le (by linarith)
        have f1 : s3 * (yv - ya) = 0 := by linarith
        have f2 : s4 * (yu - ya) = 0 := by linarith
        have f3 : s1 * (yb - ya) = 0 := by linarith
        have g1 := (mul_eq_zero.1 f1).resolve_left p3.ne
        have g2 := (mul_eq_zero.1 f2).resolve_left p4.ne'
        have g3 := (mul_eq_zero.1 f3).resolve_left p1.ne'
        exact p1.ne' (h0 (by linarith) (by linarith) (by linarith))
      · have e1 : s3 * (yv - ya) ≤ 0 := mul_nonpos_of_nonneg_of_nonpos p3.le (by linarith)
        have e2 : 0 ≤ s4 * (yu - ya) := mul_nonneg_of_nonpos_of_nonpos p4.le (by linarith)
        have e3 : s1 * (yb - ya) ≤ 0 := mul_nonpos_of_nonpos_of_nonneg p1.le (by linarith)
        have f1 : s3 * (yv - ya) = 0 := by linarith
        have f2 : s4 * (yu - ya) = 0 := by linarith
        have f3 : s1 * (yb - ya) = 0 := by linarith
        have g1 := (mul_eq_zero.1 f1).resolve_left p3.ne'
        have g2 := (mul_eq_zero.1 f2).resolve_left p4.ne
        have g3 := (mul_eq_zero.1 f3).resolve_left p1.ne
        exact p1.ne (h0 (by linarith) (by linarith) (by linarith))
      · linarith
    simp only [hS, not_lt.2 c1, not_lt.2 (c1.trans hab), not_lt.2 (huv.trans c1), false_and, and_false, xor_false, id]
  rcases le_or_gt yv yb with c2 | c2
  · rcases le_or_gt yu ya with c3 | c3
    · -- u ≤ a < v ≤ b
      have k1 := h1 c3 c1
      have k4 := h4 c1 c2
      have hv : 0 < yv - ya := by linarith
      have key : ((0 < s1 ∧ s2 < 0 ∨ s1 < 0 ∧ 0 < s2) ∧ (0 < s3 ∧ s4 < 0 ∨ s3 < 0 ∧ 0 < s4)) ↔ (0 < s1 ∧ 0 < s4 ∨ s1 < 0 ∧ s4 < 0) := by
        constructor
        · rintro ⟨⟨p1, p2⟩ | ⟨p1, p2⟩, ⟨p3, p4⟩ | ⟨p3, p4⟩⟩
          · linarith
          · exact .inl ⟨p1, p4⟩
          · exact .inr ⟨p1, p4⟩
          · linarith
        · rintro (⟨p1, p4⟩ | ⟨p1, p4⟩)
          · have q2 : s2 * (yv - ya) < 0 := by
              rw [r2]; nlinarith [mul_nonneg p1.le (sub_nonneg.2 c2), mul_pos p4 (show 0 < yv - yu by linarith)]
            have q3 : s3 * (yv - ya) < 0 := by
              rw [r1]; nlinarith [mul_nonneg p4.le (sub_nonneg.2 c3), mul_pos p1 (show 0 < yb - ya by linarith)]
            exact ⟨.inl ⟨p1, neg_of_mul_neg_left q2 hv.le⟩, .inr ⟨neg_of_mul_neg_left q3 hv.le, p4⟩⟩
          · have q2 : 0 < s2 * (yv - ya) := by
              rw [r2]; nlinarith [mul_nonneg (neg_nonneg.2 p1.le) (sub_nonneg.2 c2), mul_pos (neg_pos.2 p4) (show 0 < yv - yu by linarith)]
            have q3 : 0 < s3 * (yv - ya) := by
              rw [r1]; nlinarith [mul_nonneg (neg_nonneg.2 p4.le) (sub_nonneg.2 c3), mul_pos (neg_pos.2 p1) (show 0 < yb - ya by linarith)]
            exact ⟨.inr ⟨p1, pos_of_mul_pos_left q2 hv.le⟩, .inl ⟨pos_of_mul_pos_left q3 hv.le, p4⟩⟩
      rw [key]
      simp only [c3, c1, c2, not_lt.2 c3, not_lt.2 c2, true_and, false_and, and_false, xor_comm False]
      unfold Xor
      rcases lt_or_gt_of_ne k1 with p1 | p1 <;> rcases lt_or_gt_of_ne k4 with p4 | p4 <;> simp [p1, p4, not_lt.2 p1.le, not_lt.2 p4.le]
    · -- a < u ≤ v ≤ b
      have k3 := h3 c3 (huv.trans c2)
      have k4 := h4 c1 c2
      have hb : 0 < yb - ya := by linarith
      have key : ((0 < s1 ∧ s2 < 0 ∨ s1 < 0 ∧ 0 < s2) ∧ (0 < s3 ∧ s4 < 0 ∨ s3 < 0 ∧ 0 < s4)) ↔ (0 < s3 ∧ s4 < 0 ∨ s3 < 0 ∧ 0 < s4) := by
        refine ⟨And.right, fun h => ⟨?_, h⟩⟩
        rcases h with ⟨p3, p4⟩ | ⟨p3, p4⟩
        · right
          constructor
          · have : s1 * (yb - ya) < 0 := by
              have : s1 * (yb - ya) = s4 * (yu - ya) - s3 * (yv - ya) := by linarith
              rw [this]; nlinarith [mul_pos (neg_pos.2 p4) (sub_pos.2 c3), mul_pos p3 (sub_pos.2 c1)]
            exact neg_of_mul_neg_left this hb.le
          · have : 0 ≤ s2 * (yb - ya) := by
              have : s2 * (yb - ya) = s4 * (yu - yb) - s3 * (yv - yb) := by linarith
              rw [this]; nlinarith [mul_nonneg (neg_nonneg.2 p4.le) (sub_nonneg.2 (huv.trans c2)), mul_nonneg p3.le (sub_nonneg.2 c2)]
            rcases (nonneg_of_mul_nonneg_left this hb).lt_or_eq with h | h
            · exact h
            · exfalso
              rw [← h] at r3
              have e1 := mul_nonneg (neg_nonneg.2 p4.le) (sub_nonneg.2 (huv.trans c2))
              have e2 := mul_nonneg p3.le (sub_nonneg.2 c2)
              have f1 : -s4 * (yb - yu) = 0 := by linarith
              have f2 : s3 * (yb - yv) = 0 := by linarith
              have g1 := (mul_eq_zero.1 f1).resolve_left (by linarith)
              have g2 := (mul_eq_zero.1 f2).resolve_left p3.ne'
              exact h5 (by linarith) (by linarith) (mul_neg_of_pos_of_neg p3 p4) h.symm
        · left
          constructor
          · have : 0 < s1 * (yb - ya) := by
              have : s1 * (yb - ya) = s4 * (yu - ya) - s3 * (yv - ya) := by linarith
              rw [this]; nlinarith [mul_pos p4 (sub_pos.2 c3), mul_pos (neg_pos.2 p3) (sub_pos.2 c1)]
            exact pos_of_mul_pos_left this hb.le
          · have : 0 ≤ -s2 * (yb - ya) := by
              have : s2 * (yb - ya) = s4 * (yu - yb) - s3 * (yv - yb) := by linarith
              rw [neg_mul, this]; nlinarith [mul_nonneg p4.le (sub_nonneg.2 (huv.trans c2)), mul_nonneg (neg_nonneg.2 p3.le) (sub_nonneg.2 c2)]
            rcases (nonneg_of_mul_nonneg_left this hb).lt_or_eq with h | h
            · linarith
            · exfalso
              have h : s2 = 0 := by linarith
              rw [h] at r3
              have e1 := mul_nonneg p4.le (sub_nonneg.2 (huv.trans c2))
              have e2 := mul_nonneg (neg_nonneg.2 p3.le) (sub_nonneg.2 c2)
              have f1 : s4 * (yb - yu) = 0 := by linarith
              have f2 : -s3 * (yb - yv) = 0 := by linarith
              have g1 := (mul_eq_zero.1 f1).resolve_left p4.ne'
              have g2 := (mul_eq_zero.1 f2).resolve_left (by linarith)
              exact h5 (by linarith) (by linarith) (mul_neg_of_neg_of_pos p3 p4) h
      rw [key]
      simp only [not_le.2 c3, c3, c1, c2, huv.trans c2, not_lt.2 c2, true_and, false_and, and_false, xor_false, xor_comm False, id]
      unfold Xor
      rcases lt_or_gt_of_ne k3 with p1 | p1 <;> rcases lt_or_gt_of_ne k4 with p4 | p4 <;> simp [p1, p4, not_lt.2 p1.le, not_lt.2 p4.le]
  · rcases le_or_gt yu ya with c3 | c3
    · -- u ≤ a ≤ b < v
      have k1 := h1 c3 c1
      have k2 := h2 (c3.trans hab) c2
      have hv : 0 < yv - yu := by linarith
      have r5 : s3 * (yv - yu) = (s1 - s2) * (yu - ya) - s1 * (yb - ya) := by linarith
      have r6 : s4 * (yv - yu) = s1 * (yv - yb) - s2 * (yv - ya) := by linear_combination r5 - (yv - yu) * hD
      have key : ((0 < s1 ∧ s2 < 0 ∨ s1 < 0 ∧ 0 < s2) ∧ (0 < s3 ∧ s4 < 0 ∨ s3 < 0 ∧ 0 < s4)) ↔ (0 < s1 ∧ s2 < 0 ∨ s1 < 0 ∧ 0 < s2) := by
        refine ⟨And.left, fun h => ⟨h, ?_⟩⟩
        rcases h with ⟨p1, p2⟩ | ⟨p1, p2⟩
        · right
          have q4 : 0 < s4 * (yv - yu) := by rw [r6]; nlinarith [mul_pos p1 (sub_pos.2 c2), mul_pos (neg_pos.2 p2) (sub_pos.2 c1)]
          have e1 := mul_nonneg (show 0 ≤ s1 - s2 by linarith) (sub_nonneg.2 c3)
          have e2 := mul_nonneg p1.le (sub_nonneg.2 hab)
          have q3 : s3 * (yv - yu) ≤ 0 := by rw [r5]; linarith
          refine ⟨?_, pos_of_mul_pos_left q4 hv.le⟩
          rcases (nonpos_of_mul_nonpos_left q3 hv).lt_or_eq with h | h
          · exact h
          · exfalso
            rw [h] at r5
            have f1 : (s1 - s2) * (ya - yu) = 0 := by linarith
            have f2 : s1 * (yb - ya) = 0 := by linarith
            have g1 := (mul_eq_zero.1 f1).resolve_left (by linarith)
            have g2 := (mul_eq_zero.1 f2).resolve_left p1.ne'
            exact h6 (by linarith) (by linarith) (mul_neg_of_pos_of_neg p1 p2) h
        · left
          have q4 : 0 < -s4 * (yv - yu) := by rw [neg_mul, r6]; nlinarith [mul_pos (neg_pos.2 p1) (sub_pos.2 c2), mul_pos p2 (sub_pos.2 c1)]
          have e1 := mul_nonneg (show 0 ≤ s2 - s1 by linarith) (sub_nonneg.2 c3)
          have e2 := mul_nonneg (neg_nonneg.2 p1.le) (sub_nonneg.2 hab)
          have q3 : 0 ≤ s3 * (yv - yu) := by rw [r5]; linarith
          refine ⟨?_, by linarith [pos_of_mul_pos_left q4 hv.le]⟩
          rcases (nonneg_of_mul_nonneg_left q3 hv).lt_or_eq with h | h
          · exact h
          · exfalso
            rw [← h] at r5
            have f1 : (s2 - s1) * (ya - yu) = 0 := by linarith
            have f2 : -s1 * (yb - ya) = 0 := by linarith
            have g1 := (mul_eq_zero.1 f1).resolve_left (by linarith)
            have g2 := (mul_eq_zero.1 f2).resolve_left (by linarith)
            exact h6 (by linarith) (by linarith) (mul_neg_of_neg_of_pos p1 p2) h.symm
      rw [key]
      simp only [c3, c1, c2, c3.trans hab, not_lt.2 c3, not_le.2 c2, true_and, false_and, and_false, xor_false, id]
      unfold Xor
      rcases lt_or_gt_of_ne k1 with p1 | p1 <;> rcases lt_or_gt_of_ne k2 with p4 | p4 <;> simp [p1, p4, not_lt.2 p1.le, not_lt.2 p4.le]
    · rcases le_or_gt yu yb with c4 | c4
      · -- a < u ≤ b < v
        have k2 := h2 c4 c2
        have k3 := h3 c3 c4
        have key : ((0 < s1 ∧ s2 < 0 ∨ s1 < 0 ∧ 0 < s2) ∧ (0 < s3 ∧ s4 < 0 ∨ s3 < 0 ∧ 0 < s4)) ↔ (0 < s2 ∧ 0 < s3 ∨ s2 < 0 ∧ s3 < 0) := by
          constructor
          · rintro ⟨⟨p1, p2⟩ | ⟨p1, p2⟩, ⟨p3, p4⟩ | ⟨p3, p4⟩⟩
            · linarith
            · exact .inr ⟨p2, p3⟩
            · exact .inl ⟨p2, p3⟩
            · linarith
          · rintro (⟨p2, p3⟩ | ⟨p2, p3⟩)
            · have q4 : 0 < -s4 * (yb - yu) := by
                have : -s4 * (yb - yu) = s3 * (yv - yb) + s2 * (yb - ya) := by linarith
                rw [this]; nlinarith [mul_pos p3 (sub_pos.2 c2), mul_nonneg p2.le (sub_nonneg.2 hab)]
              have q1 : 0 < -s1 * (yb - yu) := by
                have : -s1 * (yb - yu) = s2 * (yu - ya) + s3 * (yv - yu) := by linarith
                rw [this]; nlinarith [mul_pos p2 (sub_pos.2 c3), mul_nonneg p3.le (sub_nonneg.2 huv)]
              have := pos_of_mul_pos_left q4 (by linarith)
              have := pos_of_mul_pos_left q1 (by linarith)
              exact ⟨.inr ⟨by linarith, p2⟩, .inl ⟨p3, by linarith⟩⟩
            · have q4 : 0 < s4 * (yb - yu) := by
                have : s4 * (yb - yu) = -s3 * (yv - yb) + -s2 * (yb - ya) := by linarith
                rw [this]; nlinarith [mul_pos (neg_pos.2 p3) (sub_pos.2 c2), mul_nonneg (neg_nonneg.2 p2.le) (sub_nonneg.2 hab)]
              have q1 : 0 < s1 * (yb - yu) := by
                have : s1 * (yb - yu) = -s2 * (yu - ya) + -s3 * (yv - yu) := by linarith
                rw [this]; nlinarith [mul_pos (neg_pos.2 p2) (sub_pos.2 c3), mul_nonneg (neg_nonneg.2 p3.le) (sub_nonneg.2 huv)]
              exact ⟨.inl ⟨pos_of_mul_pos_left q1 (by linarith), p2⟩, .inr ⟨p3, pos_of_mul_pos_left q4 (by linarith)⟩⟩
        rw [key]
        simp only [c3, c1, c2, c4, not_le.2 c3, not_le.2 c2, true_and, false_and, and_false, xor_comm False]
        unfold Xor
        rcases lt_or_gt_of_ne k2 with p1 | p1 <;> rcases lt_or_gt_of_ne k3 with p4 | p4 <;> simp [p1, p4, not_lt.2 p1.le, not_lt.2 p4.le]
      · -- both above
        have hS : ¬ ((0 < s1 ∧ s2 < 0 ∨ s1 < 0 ∧ 0 < s2) ∧ (0 < s3 ∧ s4 < 0 ∨ s3 < 0 ∧ 0 < s4)) := by
          rintro ⟨⟨p1, p2⟩ | ⟨p1, p2⟩, ⟨p3, p4⟩ | ⟨p3, p4⟩⟩
          · linarith
          · have e1 := mul_pos (neg_pos.2 p3) (sub_pos.2 c2)
            have e2 := mul_pos p4 (sub_pos.2 c4)
            have e3 := mul_nonneg (neg_nonneg.2 p2.le) (sub_nonneg.2 hab)
            linarith
          · have e1 := mul_pos p3 (sub_pos.2 c2)
            have e2 := mul_pos (neg_pos.2 p4) (sub_pos.2 c4)
            have e3 := mul_nonneg p2.le (sub_nonneg.2 hab)
            linarith
          · linarith
        simp only [hS, not_le.2 c3, not_le.2 c4, not_le.2 c2, false_and, and_false, xor_false, id]

theorem cr_seg (u v a b : P ℝ) (t : ℝ) : cr u v (segPt ⟨a, b⟩ t) = cr u v a + t * (cr u v b - cr u v a) := by simp only [cr, segPt]; ring

theorem cr_seg_self (u v : P ℝ) (t : ℝ) : cr u v (segPt ⟨u, v⟩ t) = 0 := by simp only [cr, segPt]; ring

theorem cr_D (a b u v : P ℝ) : cr u v a - cr u v b = cr a b v - cr a b u := by simp only [cr]; ring

theorem cr_y (a b u v : P ℝ) : cr u v a * (b.y - a.y) + cr a b u * (v.y - u.y) = (cr u v a - cr u v b) * (u.y - a.y) := by simp only [cr]; ring

theorem cr_x (a b u v : P ℝ) : cr u v a * (b.x - a.x) + cr a b u * (v.x - u.x) = (cr u v a - cr u v b) * (u.x - a.x) := by simp only [cr]; ring

/-- A point of the line through `u` and `v`. -/
theorem on_line {u v p : P ℝ} (huv : u ≠ v) (h : cr u v p = 0) : ∃ t, p = segPt ⟨u, v⟩ t := by
  by_cases hx : v.x - u.x = 0
  · have hy : v.y - u.y ≠ 0 := fun hy => huv (P.ext_real (by linarith) (by linarith))
    refine ⟨(p.y - u.y) / (v.y - u.y), P.ext_real ?_ ?_⟩
    · simp only [segPt, hx, mul_zero, add_zero]
      unfold cr at h
      rw [hx, zero_mul, zero_sub, neg_eq_zero] at h
      linarith [(mul_eq_zero.1 h).resolve_left hy]
    · simp only [segPt]; field_simp; ring
  · refine ⟨(p.x - u.x) / (v.x - u.x), P.ext_real ?_ ?_⟩
    · simp only [segPt]; field_simp; ring
    · simp only [segPt]; unfold cr at h; field_simp; linarith

/-- A point of the line that lies between two heights. -/
theorem onSeg_of_height {u v p : P ℝ} (h : cr u v p = 0) (h1 : u.y ≤ p.y) (h2 : p.y ≤ v.y) (h3 : u.y < v.y) : OnSeg p ⟨u, v⟩ := by
  obtain ⟨t, ht⟩ := on_line (show u ≠ v by rintro rfl; exact lt_irrefl _ h3) h
  have hy : p.y = u.y + t * (v.y - u.y) := congrArg P.y ht
  have hd : 0 < v.y - u.y := by linarith
  refine ⟨t, ?_, ?_, ht⟩
  · by_contra hc; nlinarith
  · by_contra hc; nlinarith

/-- A point on a level line, between the ends. -/
theorem onSeg_of_level {u v p : P ℝ} (h1 : u.y = p.y) (h2 : v.y = p.y) (h3 : (p.x - u.x) * (p.x - v.x) < 0) : OnSeg p ⟨u, v⟩ := by
  have hd : v.x - u.x ≠ 0 := by
    intro h
    rw [show p.x - v.x = p.x - u.x by linarith] at h3
    exact absurd h3 (not_lt.2 (mul_self_nonneg _))
  refine ⟨(p.x - u.x) / (v.x - u.x), ?_, ?_, P.ext_real (by simp only [segPt]; field_simp; ring) (by simp only [segPt]; rw [h1, h2]; ring)⟩
  · rcases mul_neg_iff.1 h3 with ⟨p1, p2⟩ | ⟨p1, p2⟩
    · exact div_nonneg p1.le (by linarith)
    · exact div_nonneg_of_nonpos p1.le (by linarith)
  · rcases mul_neg_iff.1 h3 with ⟨p1, p2⟩ | ⟨p1, p2⟩
    · rw [div_le_one (by linarith)]; linarith
    · rw [div_le_one_of_neg (by linarith)]; linarith

/-- Segments whose ends do not touch each other meet exactly if each has its ends on both sides of the other. -/
theorem meet_iff {a b u v : P ℝ} (hu : ¬ OnSeg u ⟨a, b⟩) (hv : ¬ OnSeg v ⟨a, b⟩) (ha : ¬ OnSeg a ⟨u, v⟩) (hb : ¬ OnSeg b ⟨u, v⟩) :
    Meet ⟨a, b⟩ (u, v) ↔ cr u v a * cr u v b < 0 ∧ cr a b u * cr a b v < 0 := by
  have hD := cr_D a b u v
  constructor
  · rintro ⟨t, s, t0, t1, s0, s1, h⟩
    have t0' : 0 < t := t0.lt_of_ne (by rintro rfl; exact ha ⟨s, s0, s1, by rw [← h]; simp [segPt]⟩)
    have t1' : t < 1 := t1.lt_of_ne (by rintro rfl; exact hb ⟨s, s0, s1, by rw [← h]; simp [segPt]⟩)
    have s0' : 0 < s := s0.lt_of_ne (by rintro rfl; exact hu ⟨t, t0, t1, by rw [h]; simp [segPt]⟩)
    have s1' : s < 1 := s1.lt_of_ne (by rintro rfl; exact hv ⟨t, t0, t1, by rw [h]; simp [segPt]⟩)
    have e1 : cr u v a + t * (cr u v b - cr u v a) = 0 := by rw [← cr_seg, h, cr_seg_self]
    have e2 : cr a b u + s * (cr a b v - cr a b u) = 0 := by rw [← cr_seg, ← h, cr_seg_self]
    have huv : u ≠ v := by rintro rfl; exact hu ⟨t, t0, t1, by rw [h]; simp [segPt]⟩
    by_cases hz : cr u v a = 0
    · exfalso
      have hz2 : cr u v b = 0 := by rw [hz] at e1; nlinarith
      obtain ⟨α, hα⟩ := on_line huv hz
      obtain ⟨β, hβ⟩ := on_line huv hz2
      have hα' : α < 0 ∨ 1 < α := by by_contra hc; push Not at hc; exact ha ⟨α, hc.1, hc.2, hα⟩
      have hβ' : β < 0 ∨ 1 < β := by by_contra hc; push Not at hc; exact hb ⟨β, hc.1, hc.2, hβ⟩
      have hmix : α + t * (β - α) = s := by
        have ex := congrArg P.x h
        have ey := congrArg P.y h
        rw [hα, hβ] at ex ey
        simp only [segPt] at ex ey
        by_cases hx : v.x - u.x = 0
        · have hy : v.y - u.y ≠ 0 := fun hy => huv (P.ext_real (by linarith) (by linarith))
          exact mul_right_cancel₀ hy (by linarith)
        · exact mul_right_cancel₀ hx (by linarith)
      have hne : β - α ≠ 0 := by
        intro hc
        rcases hα' with hα' | hα' <;> rw [hc, mul_zero, add_zero] at hmix <;> linarith
      have hmem : 0 ≤ -α / (β - α) ∧ -α / (β - α) ≤ 1 := by
        rcases hα' with hα' | hα' <;> rcases hβ' with hβ' | hβ'
        · nlinarith
        · exact ⟨div_nonneg (by linarith) (by linarith), by rw [div_le_one (by linarith)]; linarith⟩
        · exact ⟨div_nonneg_of_nonpos (by linarith) (by linarith), by rw [div_le_one_of_neg (by linarith)]; linarith⟩
        · nlinarith
      refine hu ⟨-α / (β - α), hmem.1, hmem.2, ?_⟩
      have e : α + -α / (β - α) * (β - α) = 0 := by field_simp; ring
      rw [hα, hβ]
      apply P.ext_real
      · simp only [segPt]; linear_combination -(v.x - u.x) * e
      · simp only [segPt]; linear_combination -(v.y - u.y) * e
    · have hz3 : cr a b u ≠ 0 := by
        intro hz3
        have hz4 : cr a b v = 0 := by rw [hz3] at e2; nlinarith
        rw [hz3, hz4, sub_zero] at hD
        apply hz; nlinarith
      have sq1 : 0 < cr u v a ^ 2 := by positivity
      have sq3 : 0 < cr a b u ^ 2 := by positivity
      constructor
      · have : t * (cr u v a * cr u v b) = -(1 - t) * cr u v a ^ 2 := by linear_combination cr u v a * e1
        by_contra hc
        push Not at hc
        nlinarith [mul_nonneg t0 hc]
      · have : s * (cr a b u * cr a b v) = -(1 - s) * cr a b u ^ 2 := by linear_combination cr a b u * e2
        by_contra hc
        push Not at hc
        nlinarith [mul_nonneg s0 hc]
  · rintro ⟨h1, h2⟩
    have hDne : cr u v a - cr u v b ≠ 0 := by
      intro h
      rw [show cr u v b = cr u v a by linarith] at h1
      exact absurd h1 (not_lt.2 (mul_self_nonneg _))
    have hDne' : cr a b u - cr a b v ≠ 0 := by intro h; apply hDne; linarith
    have rng : ∀ p q : ℝ, p * q < 0 → 0 ≤ p / (p - q) ∧ p / (p - q) ≤ 1 := by
      intro p q h
      rcases mul_neg_iff.1 h with ⟨p1, p2⟩ | ⟨p1, p2⟩
      · exact ⟨div_nonneg p1.le (by linarith), by rw [div_le_one (by linarith)]; linarith⟩
      · exact ⟨div_nonneg_of_nonpos p1.le (by linarith), by rw [div_le_one_of_neg (by linarith)]; linarith⟩
    refine ⟨cr u v a / (cr u v a - cr u v b), cr a b u / (cr a b u - cr a b v), (rng _ _ h1).1, (rng _ _ h1).2, (rng _ _ h2).1, (rng _ _ h2).2, ?_⟩
    have e3 : cr a b u - cr a b v = -(cr u v a - cr u v b) := by linarith
    rw [e3]
    apply P.ext_real
    · simp only [segPt]; field_simp; linear_combination cr_x a b u v
    · simp only [segPt]; field_simp; linear_combination cr_y a b u v

theorem edge_parity_aux {a b u v : P ℝ} (hu : ¬ OnSeg u ⟨a, b⟩) (hv : ¬ OnSeg v ⟨a, b⟩) (ha : ¬ OnSeg a ⟨u, v⟩) (hb : ¬ OnSeg b ⟨u, v⟩) (hab : a.y ≤ b.y) (huv : u.y ≤ v.y) :
    Xor (Xor (edgeCrosses a (u, v) = true) (edgeCrosses b (u, v) = true)) (Meet ⟨a, b⟩ (u, v)) ↔ Xor (Passed a b u) (Passed a b v) := by
  have aux := cases_aux (ya := a.y) (yb := b.y) (yu := u.y) (yv := v.y) (cr_D a b u v) (cr_y a b u v) hab huv
    (by intro h1 h2 h3; simp only [cr, h1, h2]; ring)
    (by
      intro h1 h2 h3 _
      refine hb (onSeg_of_level h2 h1 ?_)
      simp only [cr, h1, h2] at h3
      have e : ((b.x - a.x) * (b.y - a.y) - (b.y - a.y) * (u.x - a.x)) * ((b.x - a.x) * (b.y - a.y) - (b.y - a.y) * (v.x - a.x)) =
        (b.y - a.y) ^ 2 * ((b.x - u.x) * (b.x - v.x)) := by ring
      rw [e] at h3
      by_contra hc
      push Not at hc
      linarith [mul_nonneg (sq_nonneg (b.y - a.y)) hc])
    (by
      intro h1 h2 h3 _
      refine hu (onSeg_of_level (by linarith) (by linarith) ?_)
      simp only [cr, h1, h2, sub_self, mul_zero, zero_sub] at h3
      have e : -((v.y - a.y) * (a.x - u.x)) * -((v.y - a.y) * (b.x - u.x)) = (v.y - a.y) ^ 2 * ((u.x - a.x) * (u.x - b.x)) := by ring
      rw [e] at h3
      by_contra hc
      push Not at hc
      linarith [mul_nonneg (sq_nonneg (v.y - a.y)) hc])
    (fun h1 h2 h3 => ha (onSeg_of_height h3 h1 h2.le (by linarith)))
    (fun h1 h2 h3 => hb (onSeg_of_height h3 h1 h2.le (by linarith)))
    (fun h1 h2 h3 => hu (onSeg_of_height h3 h1.le h2 (by linarith)))
    (fun h1 h2 h3 => hv (onSeg_of_height h3 h1.le h2 (by linarith)))
  have pass : ∀ w : P ℝ, Passed a b w ↔ (a.y < w.y ∧ w.y ≤ b.y ∧ cr a b w < 0) := by
    intro w
    exact ⟨fun h => h.elim id fun h => absurd (h.1.trans_le h.2.1) (not_lt.2 hab), Or.inl⟩
  have edge : ∀ w : P ℝ, edgeCrosses w (u, v) = true ↔ (u.y ≤ w.y ∧ w.y < v.y ∧ 0 < cr u v w) := by
    intro w
    rw [edgeCrosses_cr]
    exact ⟨fun h => h.elim id fun h => absurd (h.1.trans_lt h.2.1) (not_lt.2 huv), Or.inl⟩
  rw [pass, pass, edge, edge, meet_iff hu hv ha hb]
  exact aux

theorem onSeg_swap {p a b : P ℝ} : OnSeg p ⟨a, b⟩ ↔ OnSeg p ⟨b, a⟩ := by
  constructor <;> rintro ⟨t, h0, h1, h⟩ <;> refine ⟨1 - t, by linarith, by linarith, ?_⟩ <;> rw [h] <;> apply P.ext_real <;> simp only [segPt] <;> ring

theorem meet_swap {l : Line ℝ} {u v : P ℝ} : Meet l (u, v) ↔ Meet l (v, u) := by
  constructor <;> rintro ⟨t, s, h0, h1, h2, h3, h⟩ <;> refine ⟨t, 1 - s, h0, h1, by linarith, by linarith, ?_⟩ <;> rw [h] <;> apply P.ext_real <;> simp only [segPt] <;> ring

theorem meet_swap' {a b : P ℝ} {e : P ℝ × P ℝ} : Meet ⟨a, b⟩ e ↔ Meet ⟨b, a⟩ e := by
  constructor <;> rintro ⟨t, s, h0, h1, h2, h3, h⟩ <;> refine ⟨1 - t, s, by linarith, by linarith, h2, h3, ?_⟩ <;> rw [← h] <;> apply P.ext_real <;> simp only [segPt] <;> ring

theorem passed_swap {a b u : P ℝ} : Passed a b u ↔ Passed b a u := by
  have : cr b a u = -cr a b u := by simp only [cr]; ring
  unfold Passed
  rw [this, or_comm, neg_lt_zero, Left.neg_pos_iff]

theorem crosses_swap {p u v : P ℝ} : edgeCrosses p (u, v) = edgeCrosses p (v, u) := by
  have : cr v u p = -cr u v p := by simp only [cr]; ring
  rw [Bool.eq_iff_iff, edgeCrosses_cr, edgeCrosses_cr, this, or_comm, neg_lt_zero, Left.neg_pos_iff]

/-- The test of one edge at two points differs if the way between the points meets the edge, or passes exactly one of its ends. -/
theorem edge_parity {a b u v : P ℝ} (hu : ¬ OnSeg u ⟨a, b⟩) (hv : ¬ OnSeg v ⟨a, b⟩) (ha : ¬ OnSeg a ⟨u, v⟩) (hb : ¬ OnSeg b ⟨u, v⟩) :
    Xor (Xor (edgeCrosses a (u, v) = true) (edgeCrosses b (u, v) = true)) (Meet ⟨a, b⟩ (u, v)) ↔ Xor (Passed a b u) (Passed a b v) := by
  rcases le_total a.y b.y with hab | hab <;> rcases le_total u.y v.y with huv | huv
  · exact edge_parity_aux hu hv ha hb hab huv
  · have := edge_parity_aux (u := v) (v := u) hv hu (onSeg_swap.not.1 ha) (onSeg_swap.not.1 hb) hab huv
    rw [meet_swap, crosses_swap, crosses_swap (p := b), this, xor_comm]
  · have := edge_parity_aux (a := b) (b := a) (onSeg_swap.not.1 hu) (onSeg_swap.not.1 hv) hb ha hab huv
    rw [meet_swap', xor_comm (edgeCrosses a (u, v) = true), this, passed_swap, passed_swap (u := v)]
  · have := edge_parity_aux (a := b) (b := a) (u := v) (v := u) (onSeg_swap.not.1 hv) (onSeg_swap.not.1 hu) (onSeg_swap.not.1 hb) (onSeg_swap.not.1 ha) hab huv
    rw [meet_swap', meet_swap, crosses_swap, crosses_swap (p := b), xor_comm (edgeCrosses a (v, u) = true), this, passed_swap, passed_swap (u := u), xor_comm]

/-! ## C120 -/

theorem zip_pairs {α : Type} (z : α) (vs : List α) (a : α) : (a :: vs).zip (vs ++ [z]) = pairsFrom a vs ++ [(vs.getLastD a, z)] := by
  induction vs generalizing a with
  | nil => simp [pairsFrom]
  | cons v vs ih => rw [List.cons_append, List.zip_cons_cons, ih, List.getLastD_cons]; rfl

theorem sides_perm (vs : List (P ℝ)) : (sides vs).Perm (cycPairs vs) := by
  unfold sides
  cases vs with
  | nil => exact List.Perm.refl _
  | cons v vs =>
    rw [List.rotate_cons_succ, List.rotate_zero, zip_pairs, cycPairs_cons]
    exact List.perm_append_singleton _ _

theorem parity_step {α : Type} (f g h k : α → Bool) (l : List α) (hx : ∀ x ∈ l, ((f x ^^ g x) ^^ h x) = k x) :
    (l.countP f + l.countP g + l.countP h) % 2 = l.countP k % 2 := by
  induction l with
  | nil => rfl
  | cons x l ih =>
    have := ih fun y hy => hx y (by simp [hy])
    have h0 := hx x (by simp)
    simp only [List.countP_cons]
    cases h1 : f x <;> cases h2 : g x <;> cases h3 : h x <;> rw [h1, h2, h3] at h0 <;> simp only [Bool.xor_true, Bool.xor_false, Bool.not_true, Bool.not_false] at h0 <;>
      rw [← h0] <;> simp only [if_true, Bool.false_eq_true, if_false] <;> omega

/-- **C120**: whether a point is inside changes exactly at the sides.  For every polygon, with any number of vertices, convex or not, also one that crosses itself, and every two points
with a straight way between them that avoids the corners: the answers at the two points differ exactly if the way meets an odd number of sides. -/
theorem C120_parity (vs : List (P ℝ)) (a b : P ℝ) (h : ClearWay vs ⟨a, b⟩) :
    (polyPointInside vs a ≠ polyPointInside vs b) ↔ Odd (crossings vs ⟨a, b⟩) := by
  classical
  unfold crossings
  rw [(sides_perm vs).countP_eq, pointInside_parity, pointInside_parity]
  have key := parity_step (edgeCrosses a) (edgeCrosses b) (fun e => decide (Meet ⟨a, b⟩ e)) (fun e => decide (Passed a b e.1) != decide (Passed a b e.2)) (cycPairs vs) (by
    intro e he
    obtain ⟨h1, h2⟩ := cycPairs_mem he
    have h3 := h.2 e ((sides_perm vs).mem_iff.2 he)
    have := edge_parity (h.1 _ h1) (h.1 _ h2) h3.1 h3.2
    rw [Bool.eq_iff_iff]
    unfold Xor at this
    cases h1 : edgeCrosses a e <;> cases h2 : edgeCrosses b e <;> by_cases h4 : Meet ⟨a, b⟩ e <;> by_cases h5 : Passed a b e.1 <;> by_cases h6 : Passed a b e.2 <;>
      simp [h1, h2, h4, h5, h6] at this ⊢)
  rw [sides_even (fun v => decide (Passed a b v))] at key
  rw [Nat.odd_iff]
  rcases Nat.mod_two_eq_zero_or_one ((cycPairs vs).countP (edgeCrosses a)) with h1 | h1 <;>
    rcases Nat.mod_two_eq_zero_or_one ((cycPairs vs).countP (edgeCrosses b)) with h2 | h2 <;> simp [h1, h2] <;> omega

/-- **C120**, in absolute terms: a point is inside exactly if a straight way from it to a point on one side of all vertices, avoiding the corners, meets an odd number of sides. -/
theorem C120_inside (vs : List (P ℝ)) (a z : P ℝ) (h : ClearWay vs ⟨a, z⟩)
    (hz : (∀ v ∈ vs, z.x < v.x) ∨ (∀ v ∈ vs, v.x < z.x) ∨ (∀ v ∈ vs, z.y < v.y) ∨ (∀ v ∈ vs, v.y < z.y)) :
    polyPointInside vs a = true ↔ Odd (crossings vs ⟨a, z⟩) := by
  have h0 : polyPointInside vs z = false := C53_point_inside_outside vs z (hz.imp id (Or.imp (fun h v hv => (h v hv).le) (Or.imp id fun h v hv => (h v hv).le)))
  rw [← C120_parity vs a z h, h0]
  simp

/-- Non-vacuity: a way across one side of a triangle. -/
example : ClearWay [⟨0, 0⟩, ⟨4, 0⟩, ⟨0, 4⟩] ⟨⟨1, 1⟩, ⟨1, -2⟩⟩ ∧ polyPointInside [⟨0, 0⟩, ⟨4, 0⟩, ⟨0, (4 : ℝ)⟩] ⟨1, 1⟩ = true := by
  have on : ∀ p a b : P ℝ, OnSeg p ⟨a, b⟩ → ∃ t, 0 ≤ t ∧ t ≤ 1 ∧ p.x = a.x + t * (b.x - a.x) ∧ p.y = a.y + t * (b.y - a.y) := by
    rintro p a b ⟨t, h0, h1, h⟩
    exact ⟨t, h0, h1, congrArg P.x h, congrArg P.y h⟩
  refine ⟨⟨?_, ?_⟩, ?_⟩
  · intro v hv h
    simp only [List.mem_cons, List.not_mem_nil, or_false] at hv
    rcases hv with rfl | rfl | rfl <;> obtain ⟨t, h0, h1, hx, hy⟩ := on _ _ _ h <;> dsimp only at hx hy <;> linarith
  · intro e he
    have : e ∈ [((⟨0, 0⟩, ⟨4, 0⟩) : P ℝ × P ℝ), (⟨4, 0⟩, ⟨0, 4⟩), (⟨0, 4⟩, ⟨0, 0⟩)] := he
    simp only [List.mem_cons, List.not_mem_nil, or_false] at this
    rcases this with rfl | rfl | rfl <;> constructor <;> intro h <;> obtain ⟨t, h0, h1, hx, hy⟩ := on _ _ _ h <;> dsimp only at hx hy <;> linarith
  · norm_num [polyPointInside, cycPairs, pairsFrom, edgeCrosses]

end Verif.Geom
