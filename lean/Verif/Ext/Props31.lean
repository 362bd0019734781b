import Verif.Ext.Rays
import Verif.Ext.Props24
import Verif.Geom.Props19
import Mathlib.Tactic.IntervalCases

/-!
# C178: corners of a polygon and the rays from them
-/

set_option linter.unusedSectionVars false

namespace Verif.Ext
open Verif PyFloat PyTrig Geom

/-! ## Specification -/

/-- Specification: the corner at a vertex of a polygon: the vertex before it, the vertex and the vertex after it, all around. -/
noncomputable def cornerAt (vs : List (P ℝ)) (k : Nat) : P ℝ × P ℝ × P ℝ :=
  (vs.getD ((k + vs.length - 1) % vs.length) ⟨0, 0⟩, vs.getD k ⟨0, 0⟩, vs.getD ((k + 1) % vs.length) ⟨0, 0⟩)

/-- Specification: the area of a polygon, positive if its vertices are in counter-clockwise order. -/
noncomputable def signedArea (vs : List (P ℝ)) : ℝ := ((cycPairs vs).map fun e => e.1.x * e.2.y - e.2.x * e.1.y).sum / 2

/-- Specification: the polygon turns at this vertex the way it goes round: the corner is not straight, and points out of the polygon. -/
def SticksOut (eps : ℝ) (vs : List (P ℝ)) (k : Nat) : Prop :=
  eps ≤ |leftOf (cornerAt vs k).1 (cornerAt vs k).2.1 (cornerAt vs k).2.2| ∧ 0 < signedArea vs * leftOf (cornerAt vs k).1 (cornerAt vs k).2.1 (cornerAt vs k).2.2

/-- Specification: the ray leads away from both sides of the corner. -/
def LeadsAway (a b c : P ℝ) (ray : Line ℝ) : Prop :=
  (ray.p2.x - b.x) * (a.x - b.x) + (ray.p2.y - b.y) * (a.y - b.y) ≤ 0 ∧ (ray.p2.x - b.x) * (c.x - b.x) + (ray.p2.y - b.y) * (c.y - b.y) ≤ 0

/-- Specification: on the edge of a rectangle. -/
def OnEdge (box : Box ℝ) (p : P ℝ) : Prop := box.Contains p ∧ (p.x = box.p1.x ∨ p.x = box.p2.x ∨ p.y = box.p1.y ∨ p.y = box.p2.y)

/-- Specification: where the bisector of the angle at `b` meets the line from `a` to `c`: it divides it in the proportion of the two sides. -/
noncomputable def bisectFoot (a b c : P ℝ) : P ℝ := segPt ⟨a, c⟩ (segLen ⟨b, a⟩ / (segLen ⟨b, c⟩ + segLen ⟨b, a⟩))

/-- Specification: a direction that is exactly upright, or exactly level, or clearly neither. -/
def ClearDir (eps : ℝ) (d b : P ℝ) : Prop :=
  (b.x - d.x = 0 ∨ eps ≤ |b.x - d.x|) ∧ (b.y - d.y = 0 ∨ b.x - d.x = 0 ∨ eps ≤ |(b.y - d.y) / (b.x - d.x)|)

/-! ## Rays -/

theorem rayEnd_spec {eps : ℝ} (heps : 0 < eps) (box : Box ℝ) (d b : P ℝ) (hb : box.Contains b) (hne : b ≠ d) (hc : ClearDir eps d b) :
    ∃ q k, rayEnd eps box box d b = .ok q ∧ 0 ≤ k ∧ q.x - b.x = k * (b.x - d.x) ∧ q.y - b.y = k * (b.y - d.y) ∧ OnEdge box q := by
  obtain ⟨bx1, bx2, by1, by2⟩ := hb
  obtain ⟨hx, hy⟩ := hc
  unfold rayEnd
  dsimp only
  rw [real_sub, real_sub]
  generalize hdx : b.x - d.x = dx at *
  generalize hdy : b.y - d.y = dy at *
  by_cases h0 : dx = 0
  · rw [if_pos ((floatEq_iff _ _ _).2 (by rw [h0]; simpa using heps))]
    have hxe : d.x = b.x := by linarith
    have hy0 : dy ≠ 0 := by
      intro h
      exact hne (P.ext_real hxe.symm (by linarith))
    refine ⟨_, (if 0 < dy then (box.p2.y - b.y) / dy else (box.p1.y - b.y) / dy), rfl, ?_, ?_, ?_, ?_⟩
    · split
      · rename_i h; exact div_nonneg (by linarith) h.le
      · rename_i h; exact div_nonneg_of_nonpos (by linarith) (not_lt.1 h)
    · simp [hxe, h0]
    · simp only [real_lt, real_zero, decide_eq_true_eq]
      split <;> field_simp
    · simp only [real_lt, real_zero, decide_eq_true_eq]
      split
      · exact ⟨⟨by simpa [hxe] using bx1, by simpa [hxe] using bx2, by dsimp only; linarith, le_refl _⟩, Or.inr (Or.inr (Or.inr rfl))⟩
      · exact ⟨⟨by simpa [hxe] using bx1, by simpa [hxe] using bx2, le_refl _, by dsimp only; linarith⟩, Or.inr (Or.inr (Or.inl rfl))⟩
  · have hx' : eps ≤ |dx| := hx.resolve_left h0
    rw [if_neg (by rw [floatEq_iff]; simpa using hx'), insc_pdiv h0]
    show ∃ q k, slantedEnd eps box box dx (dy / dx) _ = .ok q ∧ _
    have hm' : dy = 0 ∨ eps ≤ |dy / dx| := by
      rcases hy with h | h | h
      · exact Or.inl h
      · exact absurd h h0
      · exact Or.inr h
    obtain ⟨m, hm⟩ : ∃ m, m = dy / dx := ⟨_, rfl⟩
    rw [← hm] at hm' ⊢
    have hdym : dy = m * dx := by rw [hm]; field_simp
    obtain ⟨c, hcc⟩ : ∃ c, c = m *. PyFloat.neg d.x +. d.y := ⟨_, rfl⟩
    rw [← hcc]
    have hbc : b.y = m * b.x + c := by
      rw [hcc]
      simp only [real_add, real_mul, real_neg]
      linear_combination hdy - m * hdx + hdym
    -- it is enough to find the point by its first coordinate
    have fin : ∀ x : ℝ, 0 ≤ (x - b.x) / dx → OnEdge box ⟨x, m * x + c⟩ → ∃ k, 0 ≤ k ∧ x - b.x = k * dx ∧ (m * x + c) - b.y = k * dy ∧ OnEdge box ⟨x, m * x + c⟩ := by
      intro x hk he
      refine ⟨(x - b.x) / dx, hk, by field_simp, ?_, he⟩
      rw [hbc, hdym]
      field_simp
      ring
    have wrap : ∀ x y : ℝ, y = m * x + c → 0 ≤ (x - b.x) / dx → OnEdge box ⟨x, y⟩ → slantedEnd eps box box dx m c = .ok ⟨x, y⟩ →
        ∃ q k, slantedEnd eps box box dx m c = .ok q ∧ 0 ≤ k ∧ q.x - b.x = k * dx ∧ q.y - b.y = k * dy ∧ OnEdge box q := by
      rintro x y rfl h1 h2 h3
      obtain ⟨k, k1, k2, k3, k4⟩ := fin x h1 h2
      exact ⟨_, k, h3, k1, k2, k3, k4⟩
    rcases lt_or_gt_of_ne h0 with hneg | hpos
    · by_cases hm0 : m = 0
      · have e : slantedEnd eps box box dx m c = .ok ⟨box.p1.x, c⟩ := by
          unfold slantedEnd
          rw [if_neg (by simpa using hneg.le), if_pos ((floatEq_iff _ _ _).2 (by rw [hm0]; simpa using heps))]
        refine wrap box.p1.x c (by rw [hm0]; ring) (div_nonneg_of_nonpos (by linarith) hneg.le) ⟨⟨le_refl _, by dsimp only; linarith, ?_, ?_⟩, Or.inl rfl⟩ e
        · have : c = b.y := by rw [hbc, hm0]; ring
          rw [this]; exact by1
        · have : c = b.y := by rw [hbc, hm0]; ring
          rw [this]; exact by2
      · have hme : eps ≤ |m| := by
          rcases hm' with h | h
          · exact absurd (by rw [hm, h]; simp) hm0
          · exact h
        have e : ∀ y, y = (if m < 0 then min box.p2.y (box.p1.x * m + c) else max box.p1.y (box.p1.x * m + c)) → slantedEnd eps box box dx m c = .ok ⟨(y - c) / m, y⟩ := by
          rintro y rfl
          unfold slantedEnd
          rw [if_neg (by simpa using hneg.le), if_neg (by rw [floatEq_iff]; simpa using hme)]
          dsimp only
          simp only [real_lt, real_zero, decide_eq_true_eq, pmin_real, pmax_real, real_mul, real_add, real_sub]
          rw [insc_pdiv hm0]
          rfl
        rcases lt_or_gt_of_ne hm0 with hmn | hmp
        · have ey := e _ rfl
          rw [if_pos hmn] at ey
          generalize hyv : min box.p2.y (box.p1.x * m + c) = y at ey
          have y1 : y ≤ box.p2.y := by rw [← hyv]; exact min_le_left _ _
          have y2 : y ≤ box.p1.x * m + c := by rw [← hyv]; exact min_le_right _ _
          have y3 : b.y ≤ y := by
            rw [← hyv]
            refine le_min by2 ?_
            rw [hbc]
            nlinarith
          have hxx : y = m * ((y - c) / m) + c := by field_simp; ring
          have x1 : (y - c) / m ≤ b.x := by
            rw [div_le_iff_of_neg hmn]; linarith
          have x2 : box.p1.x ≤ (y - c) / m := by
            rw [le_div_iff_of_neg hmn]; linarith
          refine wrap _ _ hxx (div_nonneg_of_nonpos (by linarith) hneg.le) ⟨⟨x2, by dsimp only; linarith, by dsimp only; linarith, y1⟩, ?_⟩ ey
          rcases min_choice box.p2.y (box.p1.x * m + c) with h | h
          · right; right; right; dsimp only; rw [← hyv, h]
          · left
            dsimp only
            rw [← hyv, h]
            field_simp
            ring
        · have ey := e _ rfl
          rw [if_neg (not_lt.2 hmp.le)] at ey
          generalize hyv : max box.p1.y (box.p1.x * m + c) = y at ey
          have y1 : box.p1.y ≤ y := by rw [← hyv]; exact le_max_left _ _
          have y2 : box.p1.x * m + c ≤ y := by rw [← hyv]; exact le_max_right _ _
          have y3 : y ≤ b.y := by
            rw [← hyv]
            refine max_le by1 ?_
            rw [hbc]
            nlinarith
          have hxx : y = m * ((y - c) / m) + c := by field_simp; ring
          have x1 : (y - c) / m ≤ b.x := by
            rw [div_le_iff₀ hmp]; linarith
          have x2 : box.p1.x ≤ (y - c) / m := by
            rw [le_div_iff₀ hmp]; linarith
          refine wrap _ _ hxx (div_nonneg_of_nonpos (by linarith) hneg.le) ⟨⟨x2, by dsimp only; linarith, y1, by dsimp only; linarith⟩, ?_⟩ ey
          rcases max_choice box.p1.y (box.p1.x * m + c) with h | h
          · right; right; left; dsimp only; rw [← hyv, h]
          · left
            dsimp only
            rw [← hyv, h]
            field_simp
            ring
    · by_cases hm0 : m = 0
      · have e : slantedEnd eps box box dx m c = .ok ⟨box.p2.x, c⟩ := by
          unfold slantedEnd
          rw [if_pos (by simpa using hpos), if_pos ((floatEq_iff _ _ _).2 (by rw [hm0]; simpa using heps))]
        refine wrap box.p2.x c (by rw [hm0]; ring) (div_nonneg (by linarith) hpos.le) ⟨⟨by dsimp only; linarith, le_refl _, ?_, ?_⟩, Or.inr (Or.inl rfl)⟩ e
        · have : c = b.y := by rw [hbc, hm0]; ring
          rw [this]; exact by1
        · have : c = b.y := by rw [hbc, hm0]; ring
          rw [this]; exact by2
      · have hme : eps ≤ |m| := by
          rcases hm' with h | h
          · exact absurd (by rw [hm, h]; simp) hm0
          · exact h
        have e : ∀ y, y = (if 0 < m then min box.p2.y (box.p2.x * m + c) else max box.p1.y (box.p2.x * m + c)) → slantedEnd eps box box dx m c = .ok ⟨(y - c) / m, y⟩ := by
          rintro y rfl
          unfold slantedEnd
          rw [if_pos (by simpa using hpos), if_neg (by rw [floatEq_iff]; simpa using hme)]
          dsimp only
          simp only [real_lt, real_zero, decide_eq_true_eq, pmin_real, pmax_real, real_mul, real_add, real_sub]
          rw [insc_pdiv hm0]
          rfl
        rcases lt_or_gt_of_ne hm0 with hmn | hmp
        · have ey := e _ rfl
          rw [if_neg (not_lt.2 hmn.le)] at ey
          generalize hyv : max box.p1.y (box.p2.x * m + c) = y at ey
          have y1 : box.p1.y ≤ y := by rw [← hyv]; exact le_max_left _ _
          have y2 : box.p2.x * m + c ≤ y := by rw [← hyv]; exact le_max_right _ _
          have y3 : y ≤ b.y := by
            rw [← hyv]
            refine max_le by1 ?_
            rw [hbc]
            nlinarith
          have hxx : y = m * ((y - c) / m) + c := by field_simp; ring
          have x1 : b.x ≤ (y - c) / m := by
            rw [le_div_iff_of_neg hmn]; linarith
          have x2 : (y - c) / m ≤ box.p2.x := by
            rw [div_le_iff_of_neg hmn]; linarith
          refine wrap _ _ hxx (div_nonneg (by linarith) hpos.le) ⟨⟨by dsimp only; linarith, x2, y1, by dsimp only; linarith⟩, ?_⟩ ey
          rcases max_choice box.p1.y (box.p2.x * m + c) with h | h
          · right; right; left; dsimp only; rw [← hyv, h]
          · right; left
            dsimp only
            rw [← hyv, h]
            field_simp
            ring
        · have ey := e _ rfl
          rw [if_pos hmp] at ey
          generalize hyv : min box.p2.y (box.p2.x * m + c) = y at ey
          have y1 : y ≤ box.p2.y := by rw [← hyv]; exact min_le_left _ _
          have y2 : y ≤ box.p2.x * m + c := by rw [← hyv]; exact min_le_right _ _
          have y3 : b.y ≤ y := by
            rw [← hyv]
            refine le_min by2 ?_
            rw [hbc]
            nlinarith
          have hxx : y = m * ((y - c) / m) + c := by field_simp; ring
          have x1 : b.x ≤ (y - c) / m := by
            rw [le_div_iff₀ hmp]; linarith
          have x2 : (y - c) / m ≤ box.p2.x := by
            rw [div_le_iff₀ hmp]; linarith
          refine wrap _ _ hxx (div_nonneg (by linarith) hpos.le) ⟨⟨by dsimp only; linarith, x2, by dsimp only; linarith, y1⟩, ?_⟩ ey
          rcases min_choice box.p2.y (box.p2.x * m + c) with h | h
          · right; right; right; dsimp only; rw [← hyv, h]
          · right; left
            dsimp only
            rw [← hyv, h]
            field_simp
            ring

/-- **C178**, rays: from a corner that is not straight, with its vertex inside the rectangle, the ray starts at the vertex, runs along the bisector of the corner, away from both sides of it, and ends on the edge of the rectangle. -/
theorem C178_ray {eps : ℝ} (heps : 0 < eps) (box : Box ℝ) (a b c : P ℝ) (hl : leftOf a b c ≠ 0) (hb : box.Contains b) (hc : ClearDir eps (bisectFoot a b c) b) :
    ∃ ray, cornerRay eps box box (a, b, c) = .ok ray ∧ BisectsAt a b c ray ∧ LeadsAway a b c ray ∧ OnEdge box ray.p2 := by
  have e1 : b.distance c = segLen ⟨b, c⟩ := distance_real _ _
  have e2 : b.distance a = segLen ⟨b, a⟩ := distance_real _ _
  have s1 := segLen_sq ⟨b, c⟩
  have s2 := segLen_sq ⟨b, a⟩
  dsimp only at s1 s2
  have n1 : 0 ≤ segLen ⟨b, c⟩ := Real.sqrt_nonneg _
  have n2 : 0 ≤ segLen ⟨b, a⟩ := Real.sqrt_nonneg _
  have p1 : 0 < segLen ⟨b, c⟩ := by
    rcases n1.lt_or_eq with h | h
    · exact h
    · exfalso
      rw [← h] at s1
      have hx : c.x - b.x = 0 := by nlinarith [sq_nonneg (c.x - b.x), sq_nonneg (c.y - b.y)]
      have hy : c.y - b.y = 0 := by nlinarith [sq_nonneg (c.x - b.x), sq_nonneg (c.y - b.y)]
      apply hl
      unfold leftOf
      linear_combination (b.x - a.x) * hy - (b.y - a.y) * hx
  have p2 : 0 < segLen ⟨b, a⟩ := by
    rcases n2.lt_or_eq with h | h
    · exact h
    · exfalso
      rw [← h] at s2
      have hx : a.x - b.x = 0 := by nlinarith [sq_nonneg (a.x - b.x), sq_nonneg (a.y - b.y)]
      have hy : a.y - b.y = 0 := by nlinarith [sq_nonneg (a.x - b.x), sq_nonneg (a.y - b.y)]
      apply hl
      unfold leftOf
      linear_combination - (c.y - a.y) * hx + (c.x - a.x) * hy
  unfold cornerRay
  dsimp only
  rw [e1, e2]
  rw [insc_pdiv (show segLen ⟨b, c⟩ +. segLen ⟨b, a⟩ ≠ 0 from by rw [real_add]; positivity)]
  rw [show (Except.ok (segLen ⟨b, a⟩ / (segLen ⟨b, c⟩ +. segLen ⟨b, a⟩)) : Except PyErr ℝ) = Except.ok (segLen ⟨b, a⟩ / (segLen ⟨b, c⟩ + segLen ⟨b, a⟩)) from rfl]
  change ∃ ray, (do let q ← rayEnd eps box box ((Line.mk a c).pointAt (segLen ⟨b, a⟩ / (segLen ⟨b, c⟩ + segLen ⟨b, a⟩))) b; pure (Line.mk b q)) = .ok ray ∧ _
  rw [pointAt_real]
  change ∃ ray, (do let q ← rayEnd eps box box (bisectFoot a b c) b; pure (Line.mk b q)) = .ok ray ∧ _
  have fx : (b.x - (bisectFoot a b c).x) * (segLen ⟨b, c⟩ + segLen ⟨b, a⟩) = segLen ⟨b, c⟩ * (b.x - a.x) + segLen ⟨b, a⟩ * (b.x - c.x) := by
    unfold bisectFoot segPt
    dsimp only
    field_simp
    ring
  have fy : (b.y - (bisectFoot a b c).y) * (segLen ⟨b, c⟩ + segLen ⟨b, a⟩) = segLen ⟨b, c⟩ * (b.y - a.y) + segLen ⟨b, a⟩ * (b.y - c.y) := by
    unfold bisectFoot segPt
    dsimp only
    field_simp
    ring
  have hne : b ≠ bisectFoot a b c := by
    intro h
    rw [← h] at fx fy
    have gx : segLen ⟨b, c⟩ * (b.x - a.x) + segLen ⟨b, a⟩ * (b.x - c.x) = 0 := by rw [← fx]; ring
    have gy : segLen ⟨b, c⟩ * (b.y - a.y) + segLen ⟨b, a⟩ * (b.y - c.y) = 0 := by rw [← fy]; ring
    have : segLen ⟨b, a⟩ * leftOf a b c = 0 := by
      unfold leftOf
      linear_combination (b.y - a.y) * gx - (b.x - a.x) * gy
    rcases mul_eq_zero.1 this with h | h
    · exact p2.ne' h
    · exact hl h
  obtain ⟨q, k, hq, hk, qx, qy, he⟩ := rayEnd_spec heps box _ b hb hne hc
  refine ⟨⟨b, q⟩, by rw [hq]; rfl, ⟨rfl, ?_⟩, ?_, he⟩
  all_goals generalize segLen ⟨b, c⟩ = d1 at *
  all_goals generalize segLen ⟨b, a⟩ = d2 at *
  · dsimp only
    rw [qx, qy]
    have hs : (d1 + d2) ≠ 0 := by positivity
    apply mul_left_cancel₀ hs
    linear_combination (k * (a.x - b.x) * d1 - k * (c.x - b.x) * d2) * fx + (k * (a.y - b.y) * d1 - k * (c.y - b.y) * d2) * fy + k * d1 ^ 2 * s2 - k * d2 ^ 2 * s1
  · have cs : -(d1 * d2) ≤ (a.x - b.x) * (c.x - b.x) + (a.y - b.y) * (c.y - b.y) := by
      apply neg_le_of_abs_le
      apply abs_le_of_sq_le_sq _ (by positivity)
      rw [mul_pow, s1, s2]
      nlinarith [sq_nonneg ((a.x - b.x) * (c.y - b.y) - (a.y - b.y) * (c.x - b.x))]
    have hs : 0 < d1 + d2 := by positivity
    constructor
    · dsimp only
      rw [qx, qy]
      have : (k * (b.x - (bisectFoot a b c).x) * (a.x - b.x) + k * (b.y - (bisectFoot a b c).y) * (a.y - b.y)) * (d1 + d2) = -(k * d2 * (d1 * d2 + ((a.x - b.x) * (c.x - b.x) + (a.y - b.y) * (c.y - b.y)))) := by
        linear_combination k * (a.x - b.x) * fx + k * (a.y - b.y) * fy + k * d1 * s2
      have h0 : 0 ≤ k * d2 * (d1 * d2 + ((a.x - b.x) * (c.x - b.x) + (a.y - b.y) * (c.y - b.y))) := mul_nonneg (by positivity) (by linarith)
      by_contra hcon
      push Not at hcon
      have := mul_pos hcon hs
      linarith
    · dsimp only
      rw [qx, qy]
      have : (k * (b.x - (bisectFoot a b c).x) * (c.x - b.x) + k * (b.y - (bisectFoot a b c).y) * (c.y - b.y)) * (d1 + d2) = -(k * d1 * (d1 * d2 + ((a.x - b.x) * (c.x - b.x) + (a.y - b.y) * (c.y - b.y)))) := by
        linear_combination k * (c.x - b.x) * fx + k * (c.y - b.y) * fy + k * d2 * s1
      have h0 : 0 ≤ k * d1 * (d1 * d2 + ((a.x - b.x) * (c.x - b.x) + (a.y - b.y) * (c.y - b.y))) := mul_nonneg (by positivity) (by linarith)
      by_contra hcon
      push Not at hcon
      have := mul_pos hcon hs
      linarith

/-- Non-vacuity: a corner whose ray runs to the left. -/
example : ∃ ray, cornerRay (1/10 : ℝ) ⟨⟨-3, -3⟩, ⟨3, 3⟩⟩ ⟨⟨-3, -3⟩, ⟨3, 3⟩⟩ (⟨1, 1⟩, ⟨0, 0⟩, ⟨1, -1⟩) = .ok ray ∧ BisectsAt ⟨1, 1⟩ ⟨0, 0⟩ ⟨1, -1⟩ ray ∧ LeadsAway ⟨1, 1⟩ ⟨0, 0⟩ ⟨1, -1⟩ ray ∧ OnEdge ⟨⟨-3, -3⟩, ⟨3, 3⟩⟩ ray.p2 := by
  have hf : bisectFoot ⟨1, 1⟩ ⟨0, 0⟩ ⟨1, -1⟩ = ⟨1, 0⟩ := by
    have h : segLen ⟨⟨0, 0⟩, ⟨1, -1⟩⟩ = segLen ⟨⟨0, 0⟩, ⟨1, 1⟩⟩ := by unfold segLen sqDist; norm_num
    have hp : segLen ⟨⟨0, 0⟩, ⟨1, 1⟩⟩ ≠ 0 := by
      have : 0 < segLen ⟨⟨0, 0⟩, ⟨1, 1⟩⟩ := Real.sqrt_pos.2 (by unfold sqDist; norm_num)
      exact this.ne'
    unfold bisectFoot
    rw [h]
    generalize segLen ⟨⟨0, 0⟩, ⟨1, 1⟩⟩ = x at *
    apply P.ext_real <;> (simp only [segPt]; field_simp; try norm_num)
  exact C178_ray (by norm_num) _ _ _ _ (by norm_num [leftOf]) (by norm_num [Box.Contains]) (by rw [hf]; norm_num [ClearDir])

/-- Specification: a corner whose ray is well defined. -/
def RayClear (eps : ℝ) (box : Box ℝ) (t : P ℝ × P ℝ × P ℝ) : Prop :=
  leftOf t.1 t.2.1 t.2.2 ≠ 0 ∧ box.Contains t.2.1 ∧ ClearDir eps (bisectFoot t.1 t.2.1 t.2.2) t.2.1

/-- **C178**, all rays: one for each corner, in the same order. -/
theorem C178_rays {eps : ℝ} (heps : 0 < eps) (box : Box ℝ) (ts : List (P ℝ × P ℝ × P ℝ)) (h : ∀ t ∈ ts, RayClear eps box t) :
    ∃ rays, polygonRays eps box box ts = .ok rays ∧
      List.Forall₂ (fun t ray => BisectsAt t.1 t.2.1 t.2.2 ray ∧ LeadsAway t.1 t.2.1 t.2.2 ray ∧ OnEdge box ray.p2) ts rays := by
  induction ts with
  | nil => exact ⟨[], rfl, .nil⟩
  | cons t r ih =>
    obtain ⟨rays, e, f⟩ := ih fun x hx => h x (by simp [hx])
    obtain ⟨h1, h2, h3⟩ := h t (by simp)
    obtain ⟨ray, e', f'⟩ := C178_ray heps box t.1 t.2.1 t.2.2 h1 h2 h3
    refine ⟨ray :: rays, ?_, .cons f' f⟩
    unfold polygonRays
    rw [e', e]
    rfl

/-! ## Corners -/

theorem cornersFrom_length {α : Type} (l : List α) : ∀ a b, (cornersFrom a b l).length = l.length := by
  induction l with
  | nil => intro a b; rfl
  | cons c r ih => intro a b; simp [cornersFrom, ih]

theorem cornersFrom_get {α : Type} (l : List α) : ∀ (a b : α) (i : Nat) (h : i < (cornersFrom a b l).length),
    (cornersFrom a b l)[i] = ((a :: b :: l)[i]'(by rw [cornersFrom_length] at h; simp; omega), (b :: l)[i]'(by rw [cornersFrom_length] at h; simp; omega), l[i]'(by rwa [cornersFrom_length] at h)) := by
  induction l with
  | nil => intro a b i h; exact absurd h (by simp [cornersFrom])
  | cons c r ih =>
    intro a b i h
    cases i with
    | zero => rfl
    | succ i =>
      have := ih b c i (by simpa [cornersFrom] using h)
      simpa [cornersFrom] using this

theorem cornerAt_eq (vs : List (P ℝ)) (k : Nat) {N : Nat} (h : vs.length = N) :
    cornerAt vs k = (vs.getD ((k + N - 1) % N) ⟨0, 0⟩, vs.getD k ⟨0, 0⟩, vs.getD ((k + 1) % N) ⟨0, 0⟩) := by
  subst h; rfl

theorem corners_all (vs : List (P ℝ)) (n : Nat) (hn : vs.length = n + 2) :
    cornersFrom (vs.getD n ⟨0, 0⟩) (vs.getD (n + 1) ⟨0, 0⟩) vs = ((n + 1) :: List.range (n + 1)).map (cornerAt vs) := by
  apply List.ext_getElem
  · simp [cornersFrom_length, hn]
  · intro i h1 h2
    rw [cornersFrom_length] at h1
    rw [cornersFrom_get]
    rw [List.getElem_map, cornerAt_eq vs _ hn]
    match i with
    | 0 =>
      have m1 : (n + 1 + (n + 2) - 1) % (n + 2) = n := by
        rw [show n + 1 + (n + 2) - 1 = n + (n + 2) from by omega, Nat.add_mod_right]
        exact Nat.mod_eq_of_lt (by omega)
      have m2 : (n + 1 + 1) % (n + 2) = 0 := Nat.mod_self _
      simp only [List.getElem_cons_zero, m1, m2]
      rw [List.getD_eq_getElem _ _ (show 0 < vs.length by omega)]
    | 1 =>
      have m1 : (0 + (n + 2) - 1) % (n + 2) = n + 1 := by
        rw [show 0 + (n + 2) - 1 = n + 1 from by omega]
        exact Nat.mod_eq_of_lt (by omega)
      have m2 : (0 + 1) % (n + 2) = 1 := Nat.mod_eq_of_lt (by omega)
      simp only [List.getElem_cons_succ, List.getElem_cons_zero, List.getElem_range, m1, m2]
      rw [List.getD_eq_getElem _ _ (show 0 < vs.length by omega), List.getD_eq_getElem _ _ (show 1 < vs.length by omega)]
    | i + 2 =>
      have m1 : (i + 1 + (n + 2) - 1) % (n + 2) = i := by
        rw [show i + 1 + (n + 2) - 1 = i + (n + 2) from by omega, Nat.add_mod_right]
        exact Nat.mod_eq_of_lt (by omega)
      have m2 : (i + 1 + 1) % (n + 2) = i + 2 := Nat.mod_eq_of_lt (by omega)
      simp only [List.getElem_cons_succ, List.getElem_range, m1, m2]
      rw [List.getD_eq_getElem _ _ (show i < vs.length by omega), List.getD_eq_getElem _ _ (show i + 1 < vs.length by omega), List.getD_eq_getElem _ _ (show i + 2 < vs.length by omega)]

theorem firstTwo_open {eps : ℝ} (vs : List (P ℝ)) (n : Nat) (hn : vs.length = n + 2) (ho : (vs.getD (n + 1) ⟨0, 0⟩).eq eps (vs.getD 0 ⟨0, 0⟩) = false) :
    firstTwo eps vs = .ok (vs.getD n ⟨0, 0⟩, vs.getD (n + 1) ⟨0, 0⟩) := by
  obtain ⟨ws, l, rfl⟩ : ∃ ws l, vs = ws ++ [l] := ⟨vs.dropLast, vs.getLast (by intro h; simp [h] at hn), (List.dropLast_append_getLast _).symm⟩
  have hw : ws.length = n + 1 := by simpa using hn
  obtain ⟨us, k, rfl⟩ : ∃ us k, ws = us ++ [k] := ⟨ws.dropLast, ws.getLast (by intro h; simp [h] at hw), (List.dropLast_append_getLast _).symm⟩
  have hu : us.length = n := by simpa using hw
  subst hu
  have g1 : (us ++ [k] ++ [l]).getD (us.length + 1) ⟨0, 0⟩ = l := by
    rw [List.getD_eq_getElem?_getD, show us.length + 1 = (us ++ [k]).length from by simp, List.getElem?_concat_length]; rfl
  have g2 : (us ++ [k] ++ [l]).getD us.length ⟨0, 0⟩ = k := by
    rw [List.getD_eq_getElem?_getD, List.append_assoc, List.getElem?_append_right (le_refl _)]; simp
  rw [g1] at ho ⊢
  rw [g2]
  have hh : ∃ h r, us ++ [k] ++ [l] = h :: r := by cases us <;> simp
  obtain ⟨h, r, hr⟩ := hh
  rw [hr] at ho
  have ho' : l.eq eps h = false := by simpa using ho
  unfold firstTwo
  have hrev : (us ++ [k] ++ [l]).reverse = l :: k :: us.reverse := by simp
  have hhead : (us ++ [k] ++ [l]).head? = some h := by rw [hr]; rfl
  rw [hrev, hhead]
  simp [ho']

theorem area_flag (vs : List (P ℝ)) : (polyArea vs <. PyFloat.zero) = decide (0 < signedArea vs) := by
  have : polyArea vs = - signedArea vs := by
    rw [polyArea_eq]
    unfold signedArea
    rw [← neg_div]
    congr 1
    induction cycPairs vs with
    | nil => simp
    | cons e r ih => simp only [List.map_cons, List.sum_cons, ih]; ring
  rw [this, real_lt, real_zero]
  congr 1
  simp

theorem isPointy_iff (eps : ℝ) (s : ℝ) (hs : s ≠ 0) (t : P ℝ × P ℝ × P ℝ) :
    isPointy eps (decide (0 < s)) t = true ↔ eps ≤ |leftOf t.1 t.2.1 t.2.2| ∧ 0 < s * leftOf t.1 t.2.1 t.2.2 ∨ (0 < s ∧ leftOf t.1 t.2.1 t.2.2 = 0 ∧ eps ≤ 0) := by
  have hc : ((Line.mk t.1 t.2.1).p2.sub (Line.mk t.1 t.2.1).p1).cross (t.2.2.sub (Line.mk t.1 t.2.1).p1) = leftOf t.1 t.2.1 t.2.2 := by
    unfold leftOf; simp [P.cross, P.sub]; try ring
  unfold isPointy Line.whichSide
  dsimp only at hc ⊢
  rw [hc]
  generalize leftOf t.1 t.2.1 t.2.2 = v
  by_cases hz : |v| < eps
  · have : isZero eps v = true := (isZero_iff _ _).2 hz
    simp only [this, Bool.and_self, if_true]
    constructor
    · simp
    · rintro (⟨h, -⟩ | ⟨-, h, h'⟩)
      · linarith
      · rw [h] at hz; simp at hz; linarith
  · have : isZero eps v = false := by
      rw [Bool.eq_false_iff]; exact fun h => hz ((isZero_iff _ _).1 h)
    simp only [this, Bool.and_false, Bool.false_eq_true, if_false, real_le, real_zero, decide_eq_true_eq]
    have hz' : eps ≤ |v| := not_lt.1 hz
    rcases lt_trichotomy v 0 with hv | hv | hv
    · rw [if_neg (not_le.2 hv)]
      rcases lt_or_gt_of_ne hs with h | h
      · simp [hz', mul_pos_of_neg_of_neg h hv, not_lt.2 h.le]
      · have : ¬ 0 < s * v := not_lt.2 (mul_neg_of_pos_of_neg h hv).le
        simp [this, h, hv.ne]
    · subst hv
      have he : eps ≤ 0 := by simpa using hz'
      rcases lt_or_gt_of_ne hs with h | h
      · simp [not_lt.2 h.le]
      · simp [h, he]
    · rw [if_pos hv.le]
      rcases lt_or_gt_of_ne hs with h | h
      · have : ¬ 0 < s * v := not_lt.2 (mul_neg_of_neg_of_pos h hv).le
        simp [this, not_lt.2 h.le, hv.ne']
      · simp [hz', mul_pos h hv, h]

theorem all_once (n : Nat) : ((n + 1) :: List.range (n + 1)).Nodup ∧ ∀ k, k ∈ (n + 1) :: List.range (n + 1) ↔ k < n + 2 := by
  refine ⟨by simp [List.nodup_range], fun k => ?_⟩
  simp
  omega

/-- **C178**, corners that stick out: for a polygon with area whose first vertex is not repeated, these are the corners that turn the way the polygon goes round, each once. -/
theorem C178_convex {eps : ℝ} (heps : 0 < eps) (vs : List (P ℝ)) (hn : 2 ≤ vs.length) (ho : (vs.getD (vs.length - 1) ⟨0, 0⟩).eq eps (vs.getD 0 ⟨0, 0⟩) = false) (ha : signedArea vs ≠ 0) :
    ∃ ks : List Nat, convexVertices eps vs = .ok (ks.map (cornerAt vs)) ∧ ks.Nodup ∧ ∀ k, k ∈ ks ↔ k < vs.length ∧ SticksOut eps vs k := by
  obtain ⟨n, hn⟩ : ∃ n, vs.length = n + 2 := ⟨vs.length - 2, by omega⟩
  rw [show vs.length - 1 = n + 1 from by omega] at ho
  obtain ⟨nd, mem⟩ := all_once n
  refine ⟨((n + 1) :: List.range (n + 1)).filter (fun k => isPointy eps (decide (0 < signedArea vs)) (cornerAt vs k)), ?_, nd.filter _, ?_⟩
  · unfold convexVertices
    rw [firstTwo_open vs n hn ho]
    refine congrArg Except.ok ?_
    dsimp only
    rw [corners_all vs n hn, area_flag, List.filter_map]
    rfl
  · intro k
    rw [List.mem_filter, mem, hn, isPointy_iff _ _ ha]
    unfold SticksOut
    have : ¬ eps ≤ 0 := by linarith
    simp [this]

/-- Non-vacuity: a square. -/
example : ∃ ks : List Nat, convexVertices (1/10 : ℝ) [⟨0, 0⟩, ⟨2, 0⟩, ⟨2, 2⟩, ⟨0, 2⟩] = .ok (ks.map (cornerAt [⟨0, 0⟩, ⟨2, 0⟩, ⟨2, 2⟩, ⟨0, 2⟩])) ∧ ks.Nodup ∧
    ∀ k, k ∈ ks ↔ k < 4 ∧ SticksOut (1/10) [⟨0, 0⟩, ⟨2, 0⟩, ⟨2, 2⟩, ⟨0, 2⟩] k :=
  C178_convex (by norm_num) _ (by simp) (by rw [Bool.eq_false_iff, ne_eq, eq_iff]; norm_num [sqDist]) (by norm_num [signedArea, cycPairs, pairsFrom])

/-! ## Corners that point inwards -/

/-- Specification: the polygon turns at this vertex against the way it goes round: the corner points into the polygon. -/
def PointsIn (vs : List (P ℝ)) (k : Nat) : Prop := signedArea vs * leftOf (cornerAt vs k).1 (cornerAt vs k).2.1 (cornerAt vs k).2.2 < 0

/-- Specification: no corner is straight. -/
def NoStraight (vs : List (P ℝ)) : Prop :=
  ∀ k < vs.length, leftOf (cornerAt vs k).1 (cornerAt vs k).2.1 (cornerAt vs k).2.2 ≠ 0

theorem angle2_lt_pi {eps : ℝ} (b a c : P ℝ) (h : leftOf a b c ≠ 0) : |b.angle2 eps a c| < Real.pi := by
  unfold P.angle2
  dsimp only
  split
  · simpa using Real.pi_pos
  · change |Complex.arg ⟨_, _⟩| < Real.pi
    rw [lt_iff_le_and_ne]
    refine ⟨Complex.abs_arg_le_pi _, fun e => ?_⟩
    have hne : (Complex.mk ((a.sub b).dot (c.sub b)) ((a.sub b).cross (c.sub b))).im ≠ 0 := by
      intro h0
      apply h
      have : (a.x - b.x) * (c.y - b.y) - (c.x - b.x) * (a.y - b.y) = 0 := by
        simpa [P.cross, P.sub, mul_comm] using h0
      unfold leftOf
      linear_combination -this
    have hs := Complex.norm_mul_sin_arg (Complex.mk ((a.sub b).dot (c.sub b)) ((a.sub b).cross (c.sub b)))
    rcases (abs_eq Real.pi_pos.le).1 e with h1 | h1
    · rw [h1] at hs; simp at hs; exact hne hs.symm
    · rw [h1] at hs; simp at hs; exact hne hs.symm

theorem isDented_iff {eps : ℝ} (s : ℝ) (hs : s ≠ 0) (t : P ℝ × P ℝ × P ℝ) (h : leftOf t.1 t.2.1 t.2.2 ≠ 0) :
    isDented eps Real.pi (decide (0 < s)) t = true ↔ s * leftOf t.1 t.2.1 t.2.2 < 0 := by
  have ha := angle2_lt_pi (eps := eps) t.2.1 t.1 t.2.2 h
  unfold isDented
  dsimp only
  rw [whichSide_real]
  have : (PyFloat.abs (t.2.1.angle2 eps t.1 t.2.2) <. Real.pi) = true := by
    rw [real_lt, real_abs, decide_eq_true_eq]; exact ha
  rw [this]
  generalize leftOf t.1 t.2.1 t.2.2 = v at *
  rcases lt_or_gt_of_ne h with hv | hv
  · rw [if_neg (not_le.2 hv)]
    rcases lt_or_gt_of_ne hs with h | h
    · have : ¬ s * v < 0 := not_lt.2 (mul_pos_of_neg_of_neg h hv).le
      simp [this, not_lt.2 h.le]
    · simp [mul_neg_of_pos_of_neg h hv, h]
  · rw [if_pos hv.le]
    rcases lt_or_gt_of_ne hs with h | h
    · simp [mul_neg_of_neg_of_pos h hv, not_lt.2 h.le]
    · have : ¬ s * v < 0 := not_lt.2 (mul_pos h hv).le
      simp [this, h]

theorem closeDents_mem {eps m : ℝ} (S : List (P ℝ)) (hd : ∀ p ∈ S, ∀ q ∈ S, p.eq eps q = true → p = q) (cw : Bool) :
    ∀ (ts : List (P ℝ × P ℝ × P ℝ)) (new : List (P ℝ)), (∀ p ∈ new, p ∈ S) → (∀ t ∈ ts, t.2.1 ∈ S ∧ t.2.2 ∈ S) →
      ∀ q, q ∈ closeDents eps m cw new ts ↔ q ∈ new ∨ ∃ t ∈ ts, (isDented eps m cw t = true ∧ q = t.2.2) ∨ (isDented eps m cw t = false ∧ q = t.2.1) := by
  intro ts
  induction ts with
  | nil => intro new _ _ q; simp [closeDents]
  | cons t r ih =>
    intro new h1 h2 q
    have h2' : ∀ t ∈ r, t.2.1 ∈ S ∧ t.2.2 ∈ S := fun x hx => h2 x (by simp [hx])
    obtain ⟨t2, t3⟩ := h2 t (by simp)
    have add : ∀ p, p ∈ S → ∀ x ∈ new ++ [p], x ∈ S := by
      intro p hp x hx
      rcases List.mem_append.1 hx with h | h
      · exact h1 x h
      · simp at h; rwa [h]
    unfold closeDents
    by_cases hdt : isDented eps m cw t = true
    · rw [if_pos hdt, ih _ (add _ t3) h2']
      simp only [List.mem_append, List.mem_cons, List.not_mem_nil, or_false, exists_eq_or_imp]
      rw [hdt]
      simp [or_assoc]
    · have hf : isDented eps m cw t = false := by simpa using hdt
      rw [if_neg hdt]
      have step : (q ∈ closeDents eps m cw (new ++ [t.2.1]) r) ↔ q ∈ new ∨ ∃ t' ∈ t :: r, (isDented eps m cw t' = true ∧ q = t'.2.2) ∨ (isDented eps m cw t' = false ∧ q = t'.2.1) := by
        rw [ih _ (add _ t2) h2']
        simp only [List.mem_append, List.mem_cons, List.not_mem_nil, or_false, exists_eq_or_imp]
        rw [hf]
        simp [or_assoc]
      cases hl : new.getLast? with
      | none => exact step
      | some l =>
        dsimp only
        by_cases hne : t.2.1.ne eps l = true
        · rw [if_pos hne]; exact step
        · rw [if_neg hne, ih _ h1 h2']
          have hm : l ∈ new := List.mem_of_getLast? hl
          have he : t.2.1 = l := hd _ t2 _ (h1 l hm) (by simpa [P.ne, P.eq] using hne)
          simp only [List.mem_cons, exists_eq_or_imp, hf, true_and, Bool.false_eq_true, false_and, false_or]
          constructor
          · rintro (h | h)
            · exact Or.inl h
            · exact Or.inr (Or.inr h)
          · rintro (h | h | h)
            · exact Or.inl h
            · left; rw [h, he]; exact hm
            · exact Or.inr h

/-- **C178**, corners that point inwards, for the default angle limit: for a polygon with area, no straight corners and no vertex given twice, these are the corners that turn against the way the polygon goes round, each once;
the new polygon is made of the vertices that do not point inwards, and of those that follow one that does. -/
theorem C178_concave {eps : ℝ} (vs : List (P ℝ)) (hn : 2 ≤ vs.length) (ho : (vs.getD (vs.length - 1) ⟨0, 0⟩).eq eps (vs.getD 0 ⟨0, 0⟩) = false) (ha : signedArea vs ≠ 0)
    (hs : NoStraight vs) (hd : ∀ p ∈ vs, ∀ q ∈ vs, p.eq eps q = true → p = q) :
    ∃ (ks : List Nat) (new : List (P ℝ)), concaveVertices eps Real.pi vs = .ok (ks.map (cornerAt vs), new) ∧ ks.Nodup ∧ (∀ k, k ∈ ks ↔ k < vs.length ∧ PointsIn vs k) ∧
      ∀ q, q ∈ new ↔ ∃ k < vs.length, (PointsIn vs k ∧ q = vs.getD ((k + 1) % vs.length) ⟨0, 0⟩) ∨ (¬ PointsIn vs k ∧ q = vs.getD k ⟨0, 0⟩) := by
  obtain ⟨n, hn⟩ : ∃ n, vs.length = n + 2 := ⟨vs.length - 2, by omega⟩
  rw [show vs.length - 1 = n + 1 from by omega] at ho
  obtain ⟨nd, mem⟩ := all_once n
  have dent : ∀ k < vs.length, (isDented eps Real.pi (decide (0 < signedArea vs)) (cornerAt vs k) = true ↔ PointsIn vs k) := fun k hk => isDented_iff _ ha _ (hs k hk)
  have gm : ∀ k < vs.length, vs.getD k ⟨0, 0⟩ ∈ vs := fun k hk => by rw [List.getD_eq_getElem _ _ hk]; exact List.getElem_mem hk
  refine ⟨((n + 1) :: List.range (n + 1)).filter (fun k => isDented eps Real.pi (decide (0 < signedArea vs)) (cornerAt vs k)),
    closeDents eps Real.pi (decide (0 < signedArea vs)) [] (((n + 1) :: List.range (n + 1)).map (cornerAt vs)), ?_, nd.filter _, ?_, ?_⟩
  · unfold concaveVertices
    rw [firstTwo_open vs n hn ho]
    refine congrArg Except.ok ?_
    dsimp only
    rw [corners_all vs n hn, area_flag, List.filter_map]
    rfl
  · intro k
    rw [List.mem_filter, mem, hn]
    constructor
    · rintro ⟨h1, h2⟩; exact ⟨h1, (dent k (by omega)).1 h2⟩
    · rintro ⟨h1, h2⟩; exact ⟨h1, (dent k (by omega)).2 h2⟩
  · intro q
    rw [closeDents_mem vs hd]
    · simp only [List.not_mem_nil, false_or, List.mem_map, exists_exists_and_eq_and]
      constructor
      · rintro ⟨k, hk, h⟩
        have hk' : k < vs.length := by rw [hn]; exact (mem k).1 hk
        refine ⟨k, hk', ?_⟩
        rcases h with ⟨h1, h2⟩ | ⟨h1, h2⟩
        · exact Or.inl ⟨(dent k hk').1 h1, h2⟩
        · exact Or.inr ⟨(fun hp => by rw [(dent k hk').2 hp] at h1; exact absurd h1 (by simp)), h2⟩
      · rintro ⟨k, hk, h⟩
        refine ⟨k, (mem k).2 (by omega), ?_⟩
        rcases h with ⟨h1, h2⟩ | ⟨h1, h2⟩
        · exact Or.inl ⟨(dent k hk).2 h1, h2⟩
        · refine Or.inr ⟨?_, h2⟩
          rw [Bool.eq_false_iff]
          exact fun hp => h1 ((dent k hk).1 hp)
    · simp
    · intro t ht
      obtain ⟨k, hk, rfl⟩ := List.mem_map.1 ht
      have hk' : k < vs.length := by rw [hn]; exact (mem k).1 hk
      exact ⟨gm k hk', gm _ (Nat.mod_lt _ (by omega))⟩

/-- Non-vacuity: a dart, with one corner that points inwards. -/
example : ∃ (ks : List Nat) (new : List (P ℝ)), concaveVertices (1/10) Real.pi [⟨0, 0⟩, ⟨4, 0⟩, ⟨1, 1⟩, ⟨0, 4⟩] = .ok (ks.map (cornerAt [⟨0, 0⟩, ⟨4, 0⟩, ⟨1, 1⟩, ⟨0, 4⟩]), new) ∧ 2 ∈ ks ∧ 0 ∉ ks := by
  obtain ⟨ks, new, h, -, hk, -⟩ := C178_concave (eps := 1/10) [⟨0, 0⟩, ⟨4, 0⟩, ⟨1, 1⟩, ⟨0, 4⟩] (by simp) (by rw [Bool.eq_false_iff, ne_eq, eq_iff]; norm_num [sqDist])
    (by norm_num [signedArea, cycPairs, pairsFrom])
    (by
      intro k hk
      have : k < 4 := hk
      interval_cases k <;> norm_num [cornerAt, leftOf])
    (by
      intro p hp q hq h
      rw [eq_iff] at h
      simp only [List.mem_cons, List.not_mem_nil, or_false] at hp hq
      rcases hp with rfl | rfl | rfl | rfl <;> rcases hq with rfl | rfl | rfl | rfl <;> first | rfl | (exfalso; norm_num [sqDist] at h))
  refine ⟨ks, new, h, (hk 2).2 ⟨by simp, ?_⟩, fun h0 => ?_⟩
  · norm_num [PointsIn, signedArea, cycPairs, pairsFrom, cornerAt, leftOf]
  · have := ((hk 0).1 h0).2
    norm_num [PointsIn, signedArea, cycPairs, pairsFrom, cornerAt, leftOf] at this

/-! ## Witnesses -/

/-- A polygon with a notch, for the refutations (`polypath.py:344-377`). -/
def notched : List (P ℚ) := [⟨0, 0⟩, ⟨6, 0⟩, ⟨6, 4⟩, ⟨4, 4⟩, ⟨4, 2⟩, ⟨2, 2⟩, ⟨2, 4⟩, ⟨0, 4⟩]

/-- **C178** is false as stated for the polygon that should be free of the corners that point inwards: of two in a row only the first one goes. -/
theorem C178_refuted_notch : (concaveVertices (1/1000000) 3 notched).map (fun r => (r.1.map fun t => t.2.1)) = .ok [⟨4, 2⟩, ⟨2, 2⟩] ∧
    (concaveVertices (1/1000000) 3 notched).map Prod.snd = .ok [⟨0, 4⟩, ⟨0, 0⟩, ⟨6, 0⟩, ⟨6, 4⟩, ⟨4, 4⟩, ⟨2, 2⟩, ⟨2, 4⟩] := by
  decide +kernel

/-- A square that ends with its first vertex. -/
def closedSquare : List (P ℚ) := [⟨0, 0⟩, ⟨2, 0⟩, ⟨2, 2⟩, ⟨0, 2⟩, ⟨0, 0⟩]

/-- **C178** is false as stated for polygons that end with their first vertex, although the function looks for it: the last corner is listed twice. -/
theorem C178_refuted_closed : (convexVertices (1/1000000) closedSquare).map (fun l => l.map fun t => t.2.1) = .ok [⟨0, 2⟩, ⟨0, 0⟩, ⟨2, 0⟩, ⟨2, 2⟩, ⟨0, 2⟩] := by
  decide +kernel

/-- **C178** is false as stated for another rectangle than that of the extension: a ray to the left ends at the left edge of the latter. -/
theorem C178_refuted_rect : cornerRay (1/1000000) ⟨⟨-3, -3⟩, ⟨3, 3⟩⟩ ⟨⟨-9, -9⟩, ⟨9, 9⟩⟩ (⟨1, 1⟩, ⟨0, 0⟩, ⟨1, -1⟩) = .ok (⟨⟨0, 0⟩, ⟨-3, 0⟩⟩ : Line ℚ) := by
  decide +kernel

end Verif.Ext
