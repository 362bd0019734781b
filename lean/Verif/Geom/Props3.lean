import Verif.Geom.Props2

/-!
# Properties C49 (line clipping) and C54 (polyline simplification)
-/

set_option linter.unusedSectionVars false

namespace Verif.Geom
open Verif PyFloat PyTrig

/-- Specification: the point of the segment at parameter `t` (`0` is the start, `1` the end). -/
def segPt (l : Line ℝ) (t : ℝ) : P ℝ := ⟨l.p1.x + t * (l.p2.x - l.p1.x), l.p1.y + t * (l.p2.y - l.p1.y)⟩

/-- Specification: the closed box grown by `d` on every side (shrunk, for negative `d`). -/
def Box.ContainsTol (d : ℝ) (b : Box ℝ) (p : P ℝ) : Prop :=
  b.p1.x - d ≤ p.x ∧ p.x ≤ b.p2.x + d ∧ b.p1.y - d ≤ p.y ∧ p.y ≤ b.p2.y + d

theorem isZero_iff (eps v : ℝ) : isZero eps v = true ↔ |v| < eps := by
  unfold isZero
  simp only [real_lt, real_neg, Bool.and_eq_true, decide_eq_true_eq, abs_lt]

theorem floatEq_iff (eps a b : ℝ) : floatEq eps a b = true ↔ |a - b| < eps := by
  unfold floatEq
  simp only [real_lt, real_abs, real_sub, decide_eq_true_eq]

/-- One clipping step, exactly, for a direction component that is zero or at least `eps`. -/
theorem clipT_exact (eps nQ nP : ℝ) (he : nP = 0 ∨ eps ≤ |nP|) (heps : 0 < eps) (a b : ℝ) (hab : a ≤ b) :
    (∀ u, Box.clipT eps nQ nP (a, b) = some u →
      u.1 ≤ u.2 ∧ a ≤ u.1 ∧ u.2 ≤ b ∧ ∀ t, (a ≤ t ∧ t ≤ b ∧ nQ ≤ t * nP) ↔ (u.1 ≤ t ∧ t ≤ u.2)) ∧
    (Box.clipT eps nQ nP (a, b) = none → ∀ t, a ≤ t → t ≤ b → ¬ nQ ≤ t * nP) := by
  unfold Box.clipT
  have hz : isZero eps nP = true ↔ nP = 0 := by
    rw [isZero_iff]
    constructor
    · intro h; rcases he with h' | h'
      · exact h'
      · linarith
    · rintro rfl; simpa using heps
  by_cases h0 : nP = 0
  · rw [if_pos (hz.2 h0)]
    subst h0
    simp only [real_le, real_zero, decide_eq_true_eq, mul_zero]
    by_cases hq : nQ ≤ 0
    · rw [if_pos hq]
      refine ⟨fun u hu => ?_, fun h => absurd h (by simp)⟩
      rw [Option.some.injEq] at hu
      subst hu
      exact ⟨hab, le_rfl, le_rfl, fun t => by simp [hq]⟩
    · rw [if_neg hq]
      exact ⟨fun u hu => absurd hu (by simp), fun _ t _ _ => hq⟩
  · rw [if_neg (fun h => h0 (hz.1 h))]
    simp only [real_lt, real_zero, real_div, decide_eq_true_eq]
    by_cases hp : 0 < nP
    · rw [if_pos hp]
      have key : ∀ t, nQ ≤ t * nP ↔ nQ / nP ≤ t := fun t => (div_le_iff₀ hp).symm
      simp only [key]
      split
      · rename_i h
        exact ⟨fun u hu => absurd hu (by simp), fun _ t _ h2 h3 => by linarith⟩
      · rename_i h
        push Not at h
        split
        · rename_i h'
          refine ⟨fun u hu => ?_, fun h => absurd h (by simp)⟩
          rw [Option.some.injEq] at hu
          subst hu
          exact ⟨h, h'.le, le_rfl, fun t => ⟨fun ⟨_, h2, h3⟩ => ⟨h3, h2⟩,
            fun ⟨h1, h2⟩ => ⟨le_trans h'.le h1, h2, h1⟩⟩⟩
        · rename_i h'
          push Not at h'
          refine ⟨fun u hu => ?_, fun h => absurd h (by simp)⟩
          rw [Option.some.injEq] at hu
          subst hu
          exact ⟨hab, le_rfl, le_rfl, fun t => ⟨fun ⟨h1, h2, h3⟩ => ⟨h1, h2⟩,
            fun ⟨h1, h2⟩ => ⟨h1, h2, le_trans h' h1⟩⟩⟩
    · rw [if_neg hp]
      have hn : nP < 0 := lt_of_le_of_ne (not_lt.1 hp) h0
      have key : ∀ t, nQ ≤ t * nP ↔ t ≤ nQ / nP := fun t => (le_div_iff_of_neg hn).symm
      simp only [key]
      split
      · rename_i h
        exact ⟨fun u hu => absurd hu (by simp), fun _ t h2 _ h3 => by linarith⟩
      · rename_i h
        push Not at h
        split
        · rename_i h'
          refine ⟨fun u hu => ?_, fun h => absurd h (by simp)⟩
          rw [Option.some.injEq] at hu
          subst hu
          exact ⟨h, le_rfl, h'.le, fun t => ⟨fun ⟨h1, _, h3⟩ => ⟨h1, h3⟩,
            fun ⟨h1, h2⟩ => ⟨h1, le_trans h2 h'.le, h2⟩⟩⟩
        · rename_i h'
          push Not at h'
          refine ⟨fun u hu => ?_, fun h => absurd h (by simp)⟩
          rw [Option.some.injEq] at hu
          subst hu
          exact ⟨hab, le_rfl, le_rfl, fun t => ⟨fun ⟨h1, h2, h3⟩ => ⟨h1, h2⟩,
            fun ⟨h1, h2⟩ => ⟨h1, h2, le_trans h2 h'⟩⟩⟩

/-- One clipping step for any direction component: right up to `eps`. -/
theorem clipT_approx (eps nQ nP : ℝ) (heps : 0 < eps) (a b : ℝ) (hab : a ≤ b) (h0a : 0 ≤ a) (hb1 : b ≤ 1) :
    (∀ u, Box.clipT eps nQ nP (a, b) = some u →
      u.1 ≤ u.2 ∧ a ≤ u.1 ∧ u.2 ≤ b ∧ (∀ t, u.1 ≤ t → t ≤ u.2 → nQ - eps ≤ t * nP) ∧
        (∀ t, a ≤ t → t ≤ b → nQ + eps ≤ t * nP → u.1 ≤ t ∧ t ≤ u.2)) ∧
    (Box.clipT eps nQ nP (a, b) = none → ∀ t, a ≤ t → t ≤ b → ¬ nQ + eps ≤ t * nP) := by
  by_cases hs : eps ≤ |nP|
  · obtain ⟨h1, h2⟩ := clipT_exact eps nQ nP (.inr hs) heps a b hab
    refine ⟨fun u hu => ?_, fun hn t ta tb h => h2 hn t ta tb (by linarith)⟩
    obtain ⟨g1, g2, g3, g4⟩ := h1 u hu
    exact ⟨g1, g2, g3, fun t u1 u2 => by linarith [((g4 t).2 ⟨u1, u2⟩).2.2],
      fun t ta tb h => (g4 t).1 ⟨ta, tb, by linarith⟩⟩
  · push Not at hs
    unfold Box.clipT
    rw [if_pos ((isZero_iff eps nP).2 hs)]
    have ht : ∀ t, 0 ≤ t → t ≤ 1 → |t * nP| < eps := by
      intro t t0 t1
      rw [abs_mul, abs_of_nonneg t0]
      nlinarith [abs_nonneg nP]
    simp only [real_le, real_zero, decide_eq_true_eq]
    by_cases hq : nQ ≤ 0
    · rw [if_pos hq]
      refine ⟨fun u hu => ?_, fun h => absurd h (by simp)⟩
      rw [Option.some.injEq] at hu
      subst hu
      refine ⟨hab, le_rfl, le_rfl, fun t h1 h2 => ?_, fun t h1 h2 _ => ⟨h1, h2⟩⟩
      have := abs_lt.1 (ht t (le_trans h0a h1) (le_trans h2 hb1))
      linarith [this.1]
    · rw [if_neg hq]
      refine ⟨fun u hu => absurd hu (by simp), fun _ t h1 h2 h3 => ?_⟩
      have := abs_lt.1 (ht t (le_trans h0a h1) (le_trans h2 hb1))
      linarith [this.2]

/-- The final step: the returned segment is the part between the two parameters. -/
theorem clipLine_of_range (eps : ℝ) (b : Box ℝ) (l : Line ℝ) (u : ℝ × ℝ) (h0 : 0 ≤ u.1) (h1 : u.2 ≤ 1)
    (hin : b.lineInside l = false) (hr : b.clipRange eps l = some u) :
    b.clipLine eps l = some ⟨segPt l u.1, segPt l u.2⟩ := by
  unfold Box.clipLine
  rw [hin, hr]
  simp only [Bool.false_eq_true, if_false, real_lt, real_one, real_zero, decide_eq_true_eq, real_add, real_mul, real_sub]
  congr 2
  · split
    · rfl
    · have : u.1 = 0 := le_antisymm (by push Not at *; assumption) h0
      rw [this]; apply P.ext_real <;> simp [segPt]
  · split
    · rfl
    · have : u.2 = 1 := le_antisymm h1 (by push Not at *; assumption)
      rw [this]; apply P.ext_real <;> simp [segPt]

theorem lineInside_iff (b : Box ℝ) (l : Line ℝ) : b.lineInside l = true ↔
    (b.p1.x < l.p1.x ∧ l.p1.x < b.p2.x ∧ b.p1.y < l.p1.y ∧ l.p1.y < b.p2.y) ∧
    (b.p1.x < l.p2.x ∧ l.p2.x < b.p2.x ∧ b.p1.y < l.p2.y ∧ l.p2.y < b.p2.y) := by
  unfold Box.lineInside Box.pointInside
  simp only [real_lt, Bool.and_eq_true, decide_eq_true_eq, and_assoc]

/-- **C49** (exact).  For every box and every segment whose extent along each axis is zero or at least `EPSILON`:
`clip_line` returns `None` exactly when no point of the segment is in the box, and otherwise the sub-segment between two
parameters `a ≤ b` (so with the same direction) consisting of exactly the points of the segment that are in the box. -/
theorem C49_clip_exact (eps : ℝ) (heps : 0 < eps) (b : Box ℝ) (l : Line ℝ)
    (hx : l.p2.x - l.p1.x = 0 ∨ eps ≤ |l.p2.x - l.p1.x|) (hy : l.p2.y - l.p1.y = 0 ∨ eps ≤ |l.p2.y - l.p1.y|) :
    (b.clipLine eps l = none ↔ ¬ ∃ t, 0 ≤ t ∧ t ≤ 1 ∧ b.Contains (segPt l t)) ∧
    (∀ r, b.clipLine eps l = some r → ∃ s e, 0 ≤ s ∧ s ≤ e ∧ e ≤ 1 ∧ r = ⟨segPt l s, segPt l e⟩ ∧
      ∀ t, 0 ≤ t → t ≤ 1 → (b.Contains (segPt l t) ↔ s ≤ t ∧ t ≤ e)) := by
  by_cases hin : b.lineInside l = true
  · have hcl : b.clipLine eps l = some l := by unfold Box.clipLine; rw [if_pos hin]
    have hall : ∀ t, 0 ≤ t → t ≤ 1 → b.Contains (segPt l t) := by
      obtain ⟨⟨a1, a2, a3, a4⟩, ⟨b1, b2, b3, b4⟩⟩ := (lineInside_iff b l).1 hin
      intro t t0 t1
      simp only [Box.Contains, segPt]
      refine ⟨?_, ?_, ?_, ?_⟩ <;> nlinarith
    rw [hcl]
    constructor
    · constructor
      · intro h; exact absurd h (by simp)
      · intro h; exact absurd ⟨0, le_rfl, zero_le_one, hall 0 le_rfl zero_le_one⟩ h
    · intro r hr
      rw [Option.some.injEq] at hr
      subst hr
      refine ⟨0, 1, le_rfl, zero_le_one, le_rfl, ?_, fun t t0 t1 => ⟨fun _ => ⟨t0, t1⟩, fun _ => hall t t0 t1⟩⟩
      ext <;> simp [segPt]
  · rw [Bool.not_eq_true] at hin
    have hxn : -(l.p2.x - l.p1.x) = 0 ∨ eps ≤ |-(l.p2.x - l.p1.x)| := by
      rw [abs_neg, neg_eq_zero]; exact hx
    have hyn : -(l.p2.y - l.p1.y) = 0 ∨ eps ≤ |-(l.p2.y - l.p1.y)| := by
      rw [abs_neg, neg_eq_zero]; exact hy
    -- the range computed by the four steps
    have range : (∀ u, b.clipRange eps l = some u → 0 ≤ u.1 ∧ u.1 ≤ u.2 ∧ u.2 ≤ 1 ∧
          ∀ t, 0 ≤ t → t ≤ 1 → (b.Contains (segPt l t) ↔ u.1 ≤ t ∧ t ≤ u.2)) ∧
        (b.clipRange eps l = none → ∀ t, 0 ≤ t → t ≤ 1 → ¬ b.Contains (segPt l t)) := by
      unfold Box.clipRange
      simp only [real_sub, real_neg, real_zero, real_one, bind, Box.Contains, segPt]
      obtain ⟨s1, n1⟩ := clipT_exact eps (b.p1.x - l.p1.x) (l.p2.x - l.p1.x) hx heps 0 1 zero_le_one
      cases h1 : Box.clipT eps (b.p1.x - l.p1.x) (l.p2.x - l.p1.x) (0, 1) with
      | none =>
        refine ⟨fun u hu => absurd hu (by simp), fun _ t t0 t1 hc => n1 h1 t t0 t1 (by linarith [hc.1])⟩
      | some u1 =>
        obtain ⟨o1, l1, r1, e1⟩ := s1 u1 h1
        simp only [Option.bind_some]
        obtain ⟨s2, n2⟩ := clipT_exact eps (l.p1.x - b.p2.x) (-(l.p2.x - l.p1.x)) hxn heps u1.1 u1.2 o1
        cases h2 : Box.clipT eps (l.p1.x - b.p2.x) (-(l.p2.x - l.p1.x)) u1 with
        | none =>
          refine ⟨fun u hu => absurd hu (by simp), fun _ t t0 t1 hc => ?_⟩
          have := (e1 t).1 ⟨t0, t1, by linarith [hc.1]⟩
          exact n2 h2 t this.1 this.2 (by linarith [hc.2.1])
        | some u2 =>
          obtain ⟨o2, l2, r2, e2⟩ := s2 u2 h2
          simp only [Option.bind_some]
          obtain ⟨s3, n3⟩ := clipT_exact eps (b.p1.y - l.p1.y) (l.p2.y - l.p1.y) hy heps u2.1 u2.2 o2
          cases h3 : Box.clipT eps (b.p1.y - l.p1.y) (l.p2.y - l.p1.y) u2 with
          | none =>
            refine ⟨fun u hu => absurd hu (by simp), fun _ t t0 t1 hc => ?_⟩
            have q1 := (e1 t).1 ⟨t0, t1, by linarith [hc.1]⟩
            have q2 := (e2 t).1 ⟨q1.1, q1.2, by linarith [hc.2.1]⟩
            exact n3 h3 t q2.1 q2.2 (by linarith [hc.2.2.1])
          | some u3 =>
            obtain ⟨o3, l3, r3, e3⟩ := s3 u3 h3
            simp only [Option.bind_some]
            obtain ⟨s4, n4⟩ := clipT_exact eps (l.p1.y - b.p2.y) (-(l.p2.y - l.p1.y)) hyn heps u3.1 u3.2 o3
            refine ⟨fun u hu => ?_, fun hn t t0 t1 hc => ?_⟩
            · obtain ⟨o4, l4, r4, e4⟩ := s4 u hu
              refine ⟨by linarith, o4, by linarith, fun t t0 t1 => ⟨fun hc => ?_, fun ht => ?_⟩⟩
              · have q1 := (e1 t).1 ⟨t0, t1, by linarith [hc.1]⟩
                have q2 := (e2 t).1 ⟨q1.1, q1.2, by linarith [hc.2.1]⟩
                have q3 := (e3 t).1 ⟨q2.1, q2.2, by linarith [hc.2.2.1]⟩
                exact (e4 t).1 ⟨q3.1, q3.2, by linarith [hc.2.2.2]⟩
              · have q4 := (e4 t).2 ht
                have q3 := (e3 t).2 ⟨q4.1, q4.2.1⟩
                have q2 := (e2 t).2 ⟨q3.1, q3.2.1⟩
                have q1 := (e1 t).2 ⟨q2.1, q2.2.1⟩
                exact ⟨by linarith [q1.2.2], by linarith [q2.2.2], by linarith [q3.2.2], by linarith [q4.2.2]⟩
            · have q1 := (e1 t).1 ⟨t0, t1, by linarith [hc.1]⟩
              have q2 := (e2 t).1 ⟨q1.1, q1.2, by linarith [hc.2.1]⟩
              have q3 := (e3 t).1 ⟨q2.1, q2.2, by linarith [hc.2.2.1]⟩
              exact n4 hn t q3.1 q3.2 (by linarith [hc.2.2.2])
    cases hr : b.clipRange eps l with
    | none =>
      have hcl : b.clipLine eps l = none := by unfold Box.clipLine; rw [hin, hr]; rfl
      rw [hcl]
      refine ⟨⟨fun _ => ?_, fun _ => rfl⟩, fun r hr' => absurd hr' (by simp)⟩
      rintro ⟨t, t0, t1, hc⟩
      exact range.2 hr t t0 t1 hc
    | some u =>
      obtain ⟨g0, g1, g2, g3⟩ := range.1 u hr
      rw [clipLine_of_range eps b l u g0 g2 hin hr]
      refine ⟨⟨fun h => absurd h (by simp), fun h => absurd ?_ h⟩, fun r hr' => ?_⟩
      · exact ⟨u.1, g0, le_trans g1 g2, (g3 u.1 g0 (le_trans g1 g2)).2 ⟨le_rfl, g1⟩⟩
      · rw [Option.some.injEq] at hr'
        exact ⟨u.1, u.2, g0, g1, g2, hr'.symm, g3⟩

/-- **C49** (any segment).  Without restriction on the segment the answer is right up to `EPSILON`: the result is a
sub-segment in the same direction that stays within `EPSILON` of the box and contains every point of the segment that is
at least `EPSILON` inside it; `None` means no point is that far inside. -/
theorem C49_clip_within_eps (eps : ℝ) (heps : 0 < eps) (b : Box ℝ) (l : Line ℝ) :
    (b.clipLine eps l = none → ∀ t, 0 ≤ t → t ≤ 1 → ¬ b.ContainsTol (-eps) (segPt l t)) ∧
    (∀ r, b.clipLine eps l = some r → ∃ s e, 0 ≤ s ∧ s ≤ e ∧ e ≤ 1 ∧ r = ⟨segPt l s, segPt l e⟩ ∧
      (∀ t, s ≤ t → t ≤ e → b.ContainsTol eps (segPt l t)) ∧
      (∀ t, 0 ≤ t → t ≤ 1 → b.ContainsTol (-eps) (segPt l t) → s ≤ t ∧ t ≤ e)) := by
  by_cases hin : b.lineInside l = true
  · have hcl : b.clipLine eps l = some l := by unfold Box.clipLine; rw [if_pos hin]
    rw [hcl]
    refine ⟨fun h => absurd h (by simp), fun r hr => ?_⟩
    rw [Option.some.injEq] at hr
    subst hr
    refine ⟨0, 1, le_rfl, zero_le_one, le_rfl, ?_, fun t t0 t1 => ?_, fun t t0 t1 _ => ⟨t0, t1⟩⟩
    · ext <;> simp [segPt]
    · obtain ⟨⟨a1, a2, a3, a4⟩, ⟨b1, b2, b3, b4⟩⟩ := (lineInside_iff b l).1 hin
      simp only [Box.ContainsTol, segPt]
      refine ⟨?_, ?_, ?_, ?_⟩ <;> nlinarith
  · rw [Bool.not_eq_true] at hin
    have range : (∀ u, b.clipRange eps l = some u → 0 ≤ u.1 ∧ u.1 ≤ u.2 ∧ u.2 ≤ 1 ∧
          (∀ t, u.1 ≤ t → t ≤ u.2 → b.ContainsTol eps (segPt l t)) ∧
          (∀ t, 0 ≤ t → t ≤ 1 → b.ContainsTol (-eps) (segPt l t) → u.1 ≤ t ∧ t ≤ u.2)) ∧
        (b.clipRange eps l = none → ∀ t, 0 ≤ t → t ≤ 1 → ¬ b.ContainsTol (-eps) (segPt l t)) := by
      unfold Box.clipRange
      simp only [real_sub, real_neg, real_zero, real_one, bind, Box.ContainsTol, segPt]
      obtain ⟨s1, n1⟩ := clipT_approx eps (b.p1.x - l.p1.x) (l.p2.x - l.p1.x) heps 0 1 zero_le_one le_rfl le_rfl
      cases h1 : Box.clipT eps (b.p1.x - l.p1.x) (l.p2.x - l.p1.x) (0, 1) with
      | none =>
        refine ⟨fun u hu => absurd hu (by simp), fun _ t t0 t1 hc => n1 h1 t t0 t1 (by linarith [hc.1])⟩
      | some u1 =>
        obtain ⟨o1, l1, r1, e1, f1⟩ := s1 u1 h1
        simp only [Option.bind_some]
        obtain ⟨s2, n2⟩ := clipT_approx eps (l.p1.x - b.p2.x) (-(l.p2.x - l.p1.x)) heps u1.1 u1.2 o1 l1 r1
        cases h2 : Box.clipT eps (l.p1.x - b.p2.x) (-(l.p2.x - l.p1.x)) u1 with
        | none =>
          refine ⟨fun u hu => absurd hu (by simp), fun _ t t0 t1 hc => ?_⟩
          have := f1 t t0 t1 (by linarith [hc.1])
          exact n2 h2 t this.1 this.2 (by linarith [hc.2.1])
        | some u2 =>
          obtain ⟨o2, l2, r2, e2, f2⟩ := s2 u2 h2
          simp only [Option.bind_some]
          obtain ⟨s3, n3⟩ := clipT_approx eps (b.p1.y - l.p1.y) (l.p2.y - l.p1.y) heps u2.1 u2.2 o2
            (by linarith) (by linarith)
          cases h3 : Box.clipT eps (b.p1.y - l.p1.y) (l.p2.y - l.p1.y) u2 with
          | none =>
            refine ⟨fun u hu => absurd hu (by simp), fun _ t t0 t1 hc => ?_⟩
            have q1 := f1 t t0 t1 (by linarith [hc.1])
            have q2 := f2 t q1.1 q1.2 (by linarith [hc.2.1])
            exact n3 h3 t q2.1 q2.2 (by linarith [hc.2.2.1])
          | some u3 =>
            obtain ⟨o3, l3, r3, e3, f3⟩ := s3 u3 h3
            simp only [Option.bind_some]
            obtain ⟨s4, n4⟩ := clipT_approx eps (l.p1.y - b.p2.y) (-(l.p2.y - l.p1.y)) heps u3.1 u3.2 o3
              (by linarith) (by linarith)
            refine ⟨fun u hu => ?_, fun hn t t0 t1 hc => ?_⟩
            · obtain ⟨o4, l4, r4, e4, f4⟩ := s4 u hu
              refine ⟨by linarith, o4, by linarith, fun t ha hb => ?_, fun t t0 t1 hc => ?_⟩
              · have q4 := e4 t ha hb
                have q3 := e3 t (by linarith) (by linarith)
                have q2 := e2 t (by linarith) (by linarith)
                have q1 := e1 t (by linarith) (by linarith)
                exact ⟨by linarith, by linarith, by linarith, by linarith⟩
              · have q1 := f1 t t0 t1 (by linarith [hc.1])
                have q2 := f2 t q1.1 q1.2 (by linarith [hc.2.1])
                have q3 := f3 t q2.1 q2.2 (by linarith [hc.2.2.1])
                exact f4 t q3.1 q3.2 (by linarith [hc.2.2.2])
            · have q1 := f1 t t0 t1 (by linarith [hc.1])
              have q2 := f2 t q1.1 q1.2 (by linarith [hc.2.1])
              have q3 := f3 t q2.1 q2.2 (by linarith [hc.2.2.1])
              exact n4 hn t q3.1 q3.2 (by linarith [hc.2.2.2])
    cases hr : b.clipRange eps l with
    | none => exact ⟨fun _ => range.2 hr, fun r hr' => by
        rw [show b.clipLine eps l = none by unfold Box.clipLine; rw [hin, hr]; rfl] at hr'
        exact absurd hr' (by simp)⟩
    | some u =>
      obtain ⟨g0, g1, g2, g3, g4⟩ := range.1 u hr
      rw [clipLine_of_range eps b l u g0 g2 hin hr]
      refine ⟨fun h => absurd h (by simp), fun r hr' => ?_⟩
      rw [Option.some.injEq] at hr'
      exact ⟨u.1, u.2, g0, g1, g2, hr'.symm, g3, g4⟩

/-- Non-vacuity: a diagonal through the unit square is cut at both ends, a segment beside it gives `None`. -/
example : (Box.mk' ⟨0, 0⟩ ⟨1, 1⟩ : Box ℚ).clipLine (1/1000000) ⟨⟨-1, -1⟩, ⟨3, 3⟩⟩ = some ⟨⟨0, 0⟩, ⟨1, 1⟩⟩ ∧
    (Box.mk' ⟨0, 0⟩ ⟨1, 1⟩ : Box ℚ).clipLine (1/1000000) ⟨⟨2, 0⟩, ⟨3, 1⟩⟩ = none := by decide +kernel

/-- Without the hypothesis on the extents, exactness fails: this segment is `EPSILON/2` wide, starts in the box
and leaves it, but is returned whole. -/
example : (Box.mk' ⟨0, 0⟩ ⟨1, 1⟩ : Box ℚ).clipLine (1/1000000) ⟨⟨1, 1/4⟩, ⟨1 + 1/2000000, 3/4⟩⟩
    = some ⟨⟨1, 1/4⟩, ⟨1 + 1/2000000, 3/4⟩⟩ := by decide +kernel

/-! ## C54 -/

/-- Specification: `p` is within distance `d` of the segment from `a` to `b`. -/
def NearSegment (d : ℝ) (a b p : P ℝ) : Prop :=
  ∃ t, 0 ≤ t ∧ t ≤ 1 ∧ Real.sqrt (sqDist (segPt ⟨a, b⟩ t) p) ≤ d

/-- Specification: `a`, `b` are consecutive vertices of the polyline. -/
def Consecutive (a b : P ℝ) (ps : List (P ℝ)) : Prop := ∃ pre post, ps = pre ++ a :: b :: post

theorem distance_real (p q : P ℝ) : p.distance q = Real.sqrt (sqDist p q) := by
  unfold P.distance sqDist; simp

/-- The point used by `distance_to_point` is on the segment. -/
theorem projPoint_on_segment (eps : ℝ) (l : Line ℝ) (p : P ℝ) :
    ∃ t, 0 ≤ t ∧ t ≤ 1 ∧ l.normalProjectionPoint eps p true = segPt l t := by
  unfold Line.normalProjectionPoint
  dsimp only
  generalize (l.p2.sub l.p1).normalProjection eps (p.sub l.p1) = u
  simp only [Bool.true_and, real_le, real_zero, real_one, decide_eq_true_eq]
  split
  · exact ⟨0, le_rfl, zero_le_one, by apply P.ext_real <;> simp [segPt]⟩
  · split
    · exact ⟨1, zero_le_one, le_rfl, by apply P.ext_real <;> simp [segPt]⟩
    · rename_i h1 h2
      push Not at h1 h2
      exact ⟨u, h1.le, h2.le, by apply P.ext_real <;> simp [segPt, P.add, P.sub, P.mul] <;> ring⟩

theorem near_of_distance (eps d : ℝ) (a b p : P ℝ)
    (h : (Line.mk a b).distanceToPoint eps p true ≤ d) : NearSegment d a b p := by
  obtain ⟨t, t0, t1, e⟩ := projPoint_on_segment eps ⟨a, b⟩ p
  unfold Line.distanceToPoint at h
  rw [e, distance_real] at h
  exact ⟨t, t0, t1, h⟩

/-- The search returns the maximum and, if it is positive, the index of an inner vertex. -/
theorem rdpFar_spec (eps : ℝ) (c : Line ℝ) (ps : List (P ℝ)) (i : Nat) (m : ℝ × Nat) :
    m.1 ≤ (rdpFar eps c ps i m).1 ∧ (∀ p ∈ ps, c.distanceToPoint eps p true ≤ (rdpFar eps c ps i m).1) ∧
      (rdpFar eps c ps i m = m ∨ (i + 1 ≤ (rdpFar eps c ps i m).2 ∧ (rdpFar eps c ps i m).2 ≤ i + ps.length)) := by
  induction ps generalizing i m with
  | nil => exact ⟨le_rfl, by simp, .inl rfl⟩
  | cons p ps ih =>
    rw [rdpFar]
    simp only [real_lt, decide_eq_true_eq]
    split
    · rename_i h
      obtain ⟨h1, h2, h3⟩ := ih (i + 1) (c.distanceToPoint eps p true, i + 1)
      refine ⟨le_trans h.le h1, ?_, .inr ?_⟩
      · intro q hq
        rcases List.mem_cons.1 hq with rfl | hq
        · exact h1
        · exact h2 q hq
      · rcases h3 with h3 | h3
        · rw [h3]; simp
        · simp only [List.length_cons]; omega
    · rename_i h
      push Not at h
      obtain ⟨h1, h2, h3⟩ := ih (i + 1) m
      refine ⟨h1, ?_, ?_⟩
      · intro q hq
        rcases List.mem_cons.1 hq with rfl | hq
        · exact le_trans h h1
        · exact h2 q hq
      · rcases h3 with h3 | h3
        · exact .inl h3
        · right; simp only [List.length_cons]; omega

theorem Consecutive.append_left {a b : P ℝ} {l : List (P ℝ)} (h : Consecutive a b l) (m : List (P ℝ)) :
    Consecutive a b (l ++ m) := by
  obtain ⟨pre, post, rfl⟩ := h
  exact ⟨pre, post ++ m, by simp⟩

theorem Consecutive.append_right {a b : P ℝ} {l : List (P ℝ)} (h : Consecutive a b l) (m : List (P ℝ)) :
    Consecutive a b (m ++ l) := by
  obtain ⟨pre, post, rfl⟩ := h
  exact ⟨m ++ pre, post, by simp⟩

/-- What a finished call guarantees. -/
structure RdpGood (tol : ℝ) (ps rs : List (P ℝ)) : Prop where
  sub : rs.Sublist ps
  head : rs.head? = ps.head?
  last : rs.getLast? = ps.getLast?
  near : ∀ p ∈ ps, p ∈ rs ∨ ∃ a b, Consecutive a b rs ∧ NearSegment tol a b p

theorem rdp_main (eps tol : ℝ) (htol : 0 ≤ tol) :
    ∀ (n : Nat) (ps : List (P ℝ)), ps.length ≤ n →
      ∃ rs, (∀ fuel, n + 1 ≤ fuel → rdp eps tol fuel ps = some rs) ∧ RdpGood tol ps rs := by
  intro n
  induction n with
  | zero =>
    intro ps h
    refine ⟨ps, ?_, ⟨List.Sublist.refl _, rfl, rfl, fun p hp => .inl hp⟩⟩
    intro fuel hf
    obtain ⟨f, rfl⟩ : ∃ f, fuel = f + 1 := ⟨fuel - 1, by omega⟩
    rw [rdp, if_pos (by omega)]
  | succ n ih =>
    intro ps hlen
    by_cases hs : ps.length < 3
    · refine ⟨ps, ?_, ⟨List.Sublist.refl _, rfl, rfl, fun p hp => .inl hp⟩⟩
      intro fuel hf
      obtain ⟨f, rfl⟩ : ∃ f, fuel = f + 1 := ⟨fuel - 1, by omega⟩
      rw [rdp, if_pos hs]
    · -- split off both ends
      obtain ⟨a, mid, b, rfl⟩ : ∃ a mid b, ps = a :: (mid ++ [b]) := by
        match ps, hs with
        | [], hs => simp at hs
        | a :: rest, hs =>
          have hr : rest ≠ [] := by rintro rfl; simp at hs
          exact ⟨a, rest.dropLast, rest.getLast hr, by rw [List.dropLast_append_getLast]⟩
      have hh : (a :: (mid ++ [b])).head? = some a := rfl
      have hl : (a :: (mid ++ [b])).getLast? = some b := by
        rw [← List.cons_append, List.getLast?_append]; simp
      have hd : ((a :: (mid ++ [b])).drop 1).dropLast = mid := by simp
      obtain ⟨f1, f2, f3⟩ := rdpFar_spec eps ⟨a, b⟩ mid 0 (0, 0)
      by_cases hm : tol < (rdpFar eps ⟨a, b⟩ mid 0 (0, 0)).1
      · by_cases h3 : (a :: (mid ++ [b])).length = 3
        · refine ⟨_, ?_, ⟨List.Sublist.refl _, rfl, rfl, fun p hp => .inl hp⟩⟩
          intro fuel hf
          obtain ⟨f, rfl⟩ : ∃ f, fuel = f + 1 := ⟨fuel - 1, by omega⟩
          rw [rdp, if_neg hs, hh, hl]
          simp only [hd, real_lt, real_zero, decide_eq_true_eq]
          rw [if_pos hm, if_pos h3]
        · -- the split index is that of an inner vertex
          generalize hk : (rdpFar eps ⟨a, b⟩ mid 0 (0, 0)) = m at *
          have hidx : 1 ≤ m.2 ∧ m.2 ≤ mid.length := by
            rcases f3 with f3 | f3
            · rw [f3] at hm; simp at hm; linarith
            · omega
          have hL : (a :: (mid ++ [b])).length = mid.length + 2 := by simp
          obtain ⟨l, hl1, hl2⟩ := ih ((a :: (mid ++ [b])).take (m.2 + 1)) (by
            rw [List.length_take]; omega)
          obtain ⟨r, hr1, hr2⟩ := ih ((a :: (mid ++ [b])).drop m.2) (by
            rw [List.length_drop]; omega)
          refine ⟨l ++ r.drop 1, ?_, ?_⟩
          · intro fuel hf
            obtain ⟨f, rfl⟩ : ∃ f, fuel = f + 1 := ⟨fuel - 1, by omega⟩
            rw [rdp, if_neg hs, hh, hl]
            simp only [hd, real_lt, real_zero, decide_eq_true_eq, hk]
            rw [if_pos hm, if_neg h3, hl1 f (by omega), hr1 f (by omega)]
            rfl
          · generalize hP : a :: (mid ++ [b]) = PS at *
            -- the pivot
            have hkl : m.2 < PS.length := by omega
            have e0 : PS.drop m.2 = PS[m.2] :: PS.drop (m.2 + 1) := List.drop_eq_getElem_cons hkl
            have hrh : r.head? = some PS[m.2] := by rw [hr2.head, e0]; rfl
            obtain ⟨r', rfl⟩ : ∃ r', r = PS[m.2] :: r' := by
              cases r with
              | nil => simp at hrh
              | cons x r' => simp at hrh; exact ⟨r', by rw [hrh]⟩
            have hll : l.getLast? = some PS[m.2] := by
              rw [hl2.last, List.take_add_one, List.getElem?_eq_getElem hkl, List.getLast?_append]
              simp
            have hr'sub : r'.Sublist (PS.drop (m.2 + 1)) := by
              have := hr2.sub
              rw [e0] at this
              exact List.cons_sublist_cons.1 this
            have hlne : l ≠ [] := by rintro rfl; simp at hll
            constructor
            · have := List.Sublist.append hl2.sub hr'sub
              rw [List.take_append_drop] at this
              simpa using this
            · rw [List.head?_append, hl2.head, List.head?_take, if_neg (by omega)]
              have : PS.head? = some a := by rw [← hP]; rfl
              rw [this]; rfl
            · rw [List.drop_one, List.tail_cons]
              by_cases hr' : r' = []
              · subst hr'
                rw [List.append_nil]
                have h2 := hr2.last
                rw [hll]
                rw [List.getLast?_singleton, List.getLast?_drop] at h2
                rw [if_neg (by omega)] at h2
                rw [h2]
              · rw [List.getLast?_append_of_ne_nil _ hr']
                have h2 := hr2.last
                rw [List.getLast?_drop, if_neg (by omega)] at h2
                rw [← h2]
                cases r' with
                | nil => exact absurd rfl hr'
                | cons x r' => rw [List.getLast?_cons_cons]
            · intro p hp
              rw [List.drop_one, List.tail_cons]
              rw [← List.take_append_drop (m.2 + 1) PS] at hp
              rcases List.mem_append.1 hp with hp | hp
              · rcases hl2.near p hp with h | ⟨x, y, hc, hn⟩
                · exact .inl (List.mem_append_left _ h)
                · exact .inr ⟨x, y, hc.append_left _, hn⟩
              · have hp' : p ∈ PS.drop m.2 := by rw [e0]; exact List.mem_cons_of_mem _ hp
                rcases hr2.near p hp' with h | ⟨x, y, hc, hn⟩
                · rcases List.mem_cons.1 h with h | h
                  · left
                    apply List.mem_append_left
                    rw [h]
                    exact List.mem_of_getLast? hll
                  · exact .inl (List.mem_append_right _ h)
                · right
                  refine ⟨x, y, ?_, hn⟩
                  have e1 : l ++ r' = l.dropLast ++ PS[m.2] :: r' := by
                    have : l = l.dropLast ++ [PS[m.2]] := by
                      obtain ⟨ys, e⟩ := List.getLast?_eq_some_iff.1 hll
                      rw [e]; simp
                    conv_lhs => rw [this]
                    simp
                  rw [e1]
                  exact hc.append_right _
      · refine ⟨[a, b], ?_, ?_⟩
        · intro fuel hf
          obtain ⟨f, rfl⟩ : ∃ f, fuel = f + 1 := ⟨fuel - 1, by omega⟩
          rw [rdp, if_neg hs, hh, hl]
          simp only [hd, real_lt, real_zero, decide_eq_true_eq]
          rw [if_neg hm]
        · push Not at hm
          refine ⟨?_, rfl, ?_, ?_⟩
          · apply List.Sublist.cons_cons
            exact List.sublist_append_right mid [b]
          · rw [hl]; rfl
          · intro p hp
            rcases List.mem_cons.1 hp with rfl | hp
            · left; simp
            · rcases List.mem_append.1 hp with hp | hp
              · right
                exact ⟨a, b, ⟨[], [], rfl⟩, near_of_distance eps tol a b p (le_trans (f2 p hp) hm)⟩
              · left; simp at hp; simp [hp]

/-- **C54.** For every polyline and every non-negative tolerance `simplify_polyline_rdp` returns (its recursion is never
deeper than the number of points), keeps both end points, returns a subsequence of the vertices, and every
vertex it drops is within the tolerance of a segment of the result. -/
theorem C54_rdp (eps tol : ℝ) (htol : 0 ≤ tol) (ps : List (P ℝ)) :
    ∃ rs, (∀ depth, ps.length + 1 ≤ depth → rdp eps tol depth ps = some rs) ∧
      rs.Sublist ps ∧ rs.head? = ps.head? ∧ rs.getLast? = ps.getLast? ∧
      (∀ p ∈ ps, p ∈ rs ∨ ∃ a b, Consecutive a b rs ∧ NearSegment tol a b p) := by
  obtain ⟨rs, h1, h2⟩ := rdp_main eps tol htol ps.length ps le_rfl
  exact ⟨rs, h1, h2.sub, h2.head, h2.last, h2.near⟩

/-- The restriction to non-negative tolerances in C54 is needed: a straight polyline of four or more points sends the function into endless
recursion, at every depth. -/
theorem rdp_negative_tolerance_diverges (eps tol : ℝ) (heps : 0 < eps) (htol : tol < 0) (fuel : Nat) :
    rdp eps tol fuel [⟨0, 0⟩, ⟨eps, 0⟩, ⟨2 * eps, 0⟩, ⟨3 * eps, 0⟩] = none := by
  have key : ∀ t : ℝ, 0 < t → t < 3 → (Line.mk ⟨0, 0⟩ ⟨3 * eps, 0⟩ : Line ℝ).distanceToPoint eps ⟨t * eps, 0⟩ true = 0 := by
    intro t t0 t3
    unfold Line.distanceToPoint
    have : (Line.mk ⟨0, 0⟩ ⟨3 * eps, 0⟩ : Line ℝ).normalProjectionPoint eps ⟨t * eps, 0⟩ true = ⟨t * eps, 0⟩ := by
      have hu : P.normalProjection eps (P.sub ⟨3 * eps, 0⟩ ⟨0, 0⟩ : P ℝ) (P.sub ⟨t * eps, 0⟩ ⟨0, 0⟩) = t / 3 := by
        unfold P.normalProjection
        simp only [P.length2, P.sub, P.dot, real_sub, real_add, real_mul, real_lt, real_div, real_zero, sub_zero, mul_zero,
          add_zero, decide_eq_true_eq]
        rw [if_neg (by nlinarith [mul_pos heps heps])]
        field_simp
      unfold Line.normalProjectionPoint
      simp only [hu, Bool.true_and, real_le, real_zero, real_one, decide_eq_true_eq]
      rw [if_neg (by linarith), if_neg (by linarith)]
      apply P.ext_real <;> simp [P.add, P.sub, P.mul] <;> ring
    rw [this, distance_real]
    simp [sqDist]
  induction fuel with
  | zero => rfl
  | succ f ih =>
    have hfar : rdpFar eps (Line.mk ⟨0, 0⟩ ⟨3 * eps, 0⟩ : Line ℝ) [⟨eps, 0⟩, ⟨2 * eps, 0⟩] 0 (0, 0) = (0, 0) := by
      have k1 := key 1 (by norm_num) (by norm_num)
      rw [one_mul] at k1
      simp only [rdpFar, k1, key 2 (by norm_num) (by norm_num), real_lt]
      simp
    rw [rdp]
    simp only [List.length_cons, List.length_nil, List.head?_cons, List.getLast?, List.getLast, List.drop, List.dropLast,
      real_lt, real_zero, decide_eq_true_eq, hfar]
    rw [if_neg (by norm_num), if_pos htol, if_neg (by norm_num)]
    simp only [List.take, bind]
    cases f with
    | zero => rfl
    | succ f =>
      rw [ih]
      cases rdp eps tol (f + 1) [(⟨0, 0⟩ : P ℝ)] <;> rfl

/-- Non-vacuity: a vertex beyond the chord is kept, one on it is dropped (polylines on the x axis). -/
example : rdp (1/1000000 : ℚ) (1/10) 5 [⟨0, 0⟩, ⟨2, 0⟩, ⟨4, 0⟩, ⟨6, 0⟩] = some [⟨0, 0⟩, ⟨6, 0⟩] ∧
    rdp (1/1000000 : ℚ) (1/10) 5 [⟨0, 0⟩, ⟨5, 0⟩, ⟨1, 0⟩, ⟨2, 0⟩] = some [⟨0, 0⟩, ⟨5, 0⟩, ⟨1, 0⟩, ⟨2, 0⟩] := by
  decide +kernel

end Verif.Geom
