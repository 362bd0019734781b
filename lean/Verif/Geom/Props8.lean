import Verif.Geom.Props7

/-!
# C90 – C92: Bezier curves for ellipses, circles and sine waves; intersecting circles
-/

set_option linter.unusedSectionVars false

namespace Verif.Geom
open Verif PyFloat PyTrig

/-! ## C90 -/

/-- Specification: parameters go from `a` to `b` in increasing steps of at most a quarter turn. -/
inductive QuarterSteps : ℝ → List ℝ → ℝ → Prop
  | done (a) : QuarterSteps a [] a
  | step {a b c : ℝ} {ts} : a < b → b ≤ a + Real.pi / 2 → QuarterSteps b ts c → QuarterSteps a (b :: ts) c

/-- Specification: the curve goes from parameter `s` to parameter `t` of the ellipse, leaving and arriving along the ellipse. -/
def Follows (e : Ell ℝ) (s t : ℝ) (b : Bez ℝ) : Prop :=
  b.p1 = e.pointAt s ∧ b.p2 = e.pointAt t ∧
  ∃ k : ℝ, 0 < k ∧ b.c1.x - b.p1.x = k * (e.derivative s).x ∧ b.c1.y - b.p1.y = k * (e.derivative s).y ∧
    b.p2.x - b.c2.x = k * (e.derivative t).x ∧ b.p2.y - b.c2.y = k * (e.derivative t).y

/-- Specification: the curves follow the ellipse through the parameters, one after the other. -/
inductive FollowsAll (e : Ell ℝ) : ℝ → List ℝ → List (Bez ℝ) → Prop
  | nil (a) : FollowsAll e a [] []
  | cons {a b : ℝ} {ts bz bs} : Follows e a b bz → FollowsAll e b ts bs → FollowsAll e a (b :: ts) (bz :: bs)

theorem arc_follows (e : Ell ℝ) (s t : ℝ) (h1 : s < t) (h2 : t ≤ s + Real.pi / 2) : Follows e s t (bezierEllipticalArc e s t) := by
  refine ⟨rfl, rfl, Real.sin (t - s) * (Real.sqrt (4 + 3 * (Real.tan ((t - s) / 2) * Real.tan ((t - s) / 2))) - 1) / 3, ?_, ?_, ?_, ?_, ?_⟩
  · have hsin : 0 < Real.sin (t - s) := Real.sin_pos_of_pos_of_lt_pi (by linarith) (by linarith [Real.pi_pos])
    have : 1 < Real.sqrt (4 + 3 * (Real.tan ((t - s) / 2) * Real.tan ((t - s) / 2))) := by
      rw [Real.lt_sqrt (by norm_num)]
      nlinarith [mul_self_nonneg (Real.tan ((t - s) / 2))]
    have : 0 < Real.sqrt (4 + 3 * (Real.tan ((t - s) / 2) * Real.tan ((t - s) / 2))) - 1 := by linarith
    positivity
  all_goals simp [bezierEllipticalArc, P.add, P.sub, P.mul]; ring

theorem bezierLoop_spec (e : Ell ℝ) : ∀ (n : Nat) (t1 tEnd : ℝ) (rounds : Nat), t1 ≤ tEnd → tEnd - t1 < (n + 1) * (Real.pi / 2) → n < rounds →
    ∃ bs ts, bezierLoop e rounds t1 (t1 + Real.pi / 2) tEnd = some bs ∧ QuarterSteps t1 ts tEnd ∧ FollowsAll e t1 ts bs ∧ ts.length ≤ n + 1 := by
  intro n
  induction n with
  | zero =>
    intro t1 tEnd rounds h1 h2 hr
    obtain ⟨m, rfl⟩ : ∃ m, rounds = m + 1 := ⟨rounds - 1, by omega⟩
    have hlt : ¬ (t1 + Real.pi / 2 ≤ tEnd) := by push_cast at h2; linarith
    unfold bezierLoop
    simp only [real_le, decide_eq_true_eq, hlt, if_false, real_lt, Bool.and_eq_true]
    rcases h1.lt_or_eq with h | h
    · rw [if_pos ⟨h, not_le.1 hlt⟩]
      exact ⟨_, [tEnd], rfl, .step h (not_le.1 hlt).le (.done _), .cons (arc_follows e t1 tEnd h (not_le.1 hlt).le) (.nil _), by simp⟩
    · rw [if_neg (by rw [h]; simp)]
      exact ⟨_, [], rfl, h ▸ .done _, .nil _, by simp⟩
  | succ n ih =>
    intro t1 tEnd rounds h1 h2 hr
    obtain ⟨m, rfl⟩ : ∃ m, rounds = m + 1 := ⟨rounds - 1, by omega⟩
    unfold bezierLoop
    by_cases hle : t1 + Real.pi / 2 ≤ tEnd
    · obtain ⟨bs, ts, g1, g2, g3, g4⟩ := ih (t1 + Real.pi / 2) tEnd m hle (by push_cast at h2; linarith) (by omega)
      simp only [real_le, decide_eq_true_eq, hle, if_true]
      have : (t1 + Real.pi / 2) +. pi /. PyFloat.ofInt 2 = t1 + Real.pi / 2 + Real.pi / 2 := by simp
      rw [this, g1]
      exact ⟨_, (t1 + Real.pi / 2) :: ts, rfl, .step (by linarith [Real.pi_pos]) le_rfl g2,
        .cons (arc_follows e t1 _ (by linarith [Real.pi_pos]) le_rfl) g3, by simpa using g4⟩
    · simp only [real_le, decide_eq_true_eq, hle, if_false, real_lt, Bool.and_eq_true]
      rcases h1.lt_or_eq with h | h
      · rw [if_pos ⟨h, not_le.1 hle⟩]
        exact ⟨_, [tEnd], rfl, .step h (not_le.1 hle).le (.done _), .cons (arc_follows e t1 tEnd h (not_le.1 hle).le) (.nil _), by simp⟩
      · rw [if_neg (by rw [h]; simp)]
        exact ⟨_, [], rfl, h ▸ .done _, .nil _, by simp⟩

theorem FollowsAll.ends {e : Ell ℝ} {a b ts bs} (h : FollowsAll e a ts bs) (hq : QuarterSteps a ts b) :
    bs.IsChain (fun p q => p.p2 = q.p1) ∧ (∀ p ∈ bs.head?, p.p1 = e.pointAt a) ∧ (∀ p ∈ bs.getLast?, p.p2 = e.pointAt b) ∧
    (a ≠ b → bs ≠ []) := by
  induction h generalizing b with
  | nil a => cases hq; simp
  | @cons a c ts bz bs hf hr ih =>
    cases hq with
    | step h1 h2 h3 =>
      obtain ⟨i1, i2, i3, i4⟩ := ih h3
      refine ⟨?_, ?_, ?_, by simp⟩
      · cases bs with
        | nil => simp
        | cons q r =>
          rw [List.isChain_cons_cons]
          exact ⟨by rw [hf.2.1, i2 q rfl], i1⟩
      · intro p hp; simp at hp; subst hp; exact hf.1
      · intro p hp
        cases bs with
        | nil =>
          cases hr
          cases h3
          simp at hp; subst hp; exact hf.2.1
        | cons q r => rw [List.getLast?_cons_cons] at hp; exact i3 p hp

/-- **C90**: for a sweep that is not negative, the loop ends and the curves follow the ellipse from its start parameter to its end parameter in steps of at most a quarter
turn, at most one more of them than there are whole quarter turns: the first starts at the start, each one starts where the one before ends, the last ends at
the end, and each one touches the ellipse at its ends. -/
theorem C90_bezier_ellipse_partial (e : Ell ℝ) (start sweep : ℝ) (hs : 0 ≤ sweep) :
    ∃ n : Nat, ∀ rounds, n ≤ rounds → ∃ bs ts, bezierEllipse rounds e start sweep = some bs ∧
      QuarterSteps start ts (start + sweep) ∧ FollowsAll e start ts bs ∧ (bs.length : ℝ) ≤ sweep / (Real.pi / 2) + 1 ∧
      bs.IsChain (fun p q => p.p2 = q.p1) ∧ (∀ p ∈ bs.head?, p.p1 = e.pointAt start) ∧ (∀ p ∈ bs.getLast?, p.p2 = e.pointAt (start + sweep)) ∧
      (0 < sweep → bs ≠ []) := by
  have hpi : 0 < Real.pi / 2 := by linarith [Real.pi_pos]
  set n := ⌊sweep / (Real.pi / 2)⌋₊ with hn
  refine ⟨n + 1, fun rounds hr => ?_⟩
  have hlt : start + sweep - start < (n + 1) * (Real.pi / 2) := by
    have := Nat.lt_floor_add_one (sweep / (Real.pi / 2))
    rw [div_lt_iff₀ hpi] at this
    rw [hn]; linarith
  obtain ⟨bs, ts, g1, g2, g3, g4⟩ := bezierLoop_spec e n start (start + sweep) rounds (by linarith) hlt (by omega)
  have hlen : bs.length = ts.length := by
    clear g1 g2 g4 hlt
    induction g3 with
    | nil => rfl
    | cons _ _ ih => simp [ih]
  obtain ⟨k1, k2, k3, k4⟩ := g3.ends g2
  refine ⟨bs, ts, ?_, g2, g3, ?_, k1, k2, k3, fun h => k4 (by linarith)⟩
  · unfold bezierEllipse
    rw [← g1]
    simp
  · rw [hlen]
    have h1 : (ts.length : ℝ) ≤ n + 1 := by exact_mod_cast g4
    have h2 : (n : ℝ) ≤ sweep / (Real.pi / 2) := Nat.floor_le (by positivity)
    linarith

/-- Non-vacuity: a whole ellipse. -/
example : ∃ bs, ∃ n, bezierEllipse n (⟨⟨0, 0⟩, 2, 1, 0⟩ : Ell ℝ) 0 (2 * Real.pi) = some bs ∧ bs ≠ [] := by
  obtain ⟨n, h⟩ := C90_bezier_ellipse_partial ⟨⟨0, 0⟩, 2, 1, 0⟩ 0 (2 * Real.pi) (by linarith [Real.pi_pos])
  obtain ⟨bs, ts, h1, -, -, -, -, -, -, h2⟩ := h n le_rfl
  exact ⟨bs, n, h1, h2 (by linarith [Real.pi_pos])⟩

/-- **C90** as stated is false of the code: for every arc with negative sweep (drawn clockwise) there is no curve at all. -/
theorem C90_refuted (e : Ell ℝ) (start sweep : ℝ) (hs : sweep < 0) (rounds : Nat) : bezierEllipse (rounds + 1) e start sweep = some [] := by
  unfold bezierEllipse bezierLoop
  have h1 : ¬ (start + Real.pi / 2 ≤ start + sweep) := by linarith [Real.pi_pos]
  have h2 : ¬ (start < start + sweep) := by linarith
  simp [h1, h2]

/-! ## C91 -/

/-- **C91**: for centres at least the tolerance apart, and radii whose sum differs from the distance by at least the tolerance, exactly the points on both
circles are returned. -/
theorem C91_intersect_circle_partial (eps : ℝ) (heps : 0 < eps) (c1 c2 : P ℝ) (r1 r2 : ℝ) (h1 : 0 ≤ r1) (h2 : 0 ≤ r2)
    (hd : eps ^ 2 ≤ sqDist c1 c2) (ht : eps ≤ |Real.sqrt (sqDist c1 c2) - (r1 + r2)|) :
    ∃ l, intersectCircle eps c1 r1 c2 r2 = .ok l ∧ l.length ≤ 2 ∧ ∀ p, p ∈ l ↔ sqDist p c1 = r1 ^ 2 ∧ sqDist p c2 = r2 ^ 2 := by
  set d := Real.sqrt (sqDist c1 c2) with hdef
  have hdd : d ^ 2 = sqDist c1 c2 := Real.sq_sqrt (sqDist_nonneg _ _)
  have hde : eps ≤ d := by rw [hdef]; exact Real.le_sqrt_of_sq_le hd
  have hd0 : 0 < d := lt_of_lt_of_le heps hde
  have hlen : (⟨c1, c2⟩ : Line ℝ).length = d := by
    rw [hdef, sqDist_comm]
    unfold Line.length P.length sqDist
    simp [P.sub]
  have hz : isZero eps d = false := isZero_false_of (by rwa [abs_of_pos hd0])
  have hf : floatEq eps d (r1 + r2) = false := by
    rw [Bool.eq_false_iff]; intro h; rw [floatEq_iff] at h; linarith
  -- the direction of the line through the centres
  set th := (⟨c1, c2⟩ : Line ℝ).angle with hth
  have hpol : d * Real.cos th = c2.x - c1.x ∧ d * Real.sin th = c2.y - c1.y := by
    have := polar_atan2 ⟨c2.x - c1.x, c2.y - c1.y⟩ d hd0.le (by rw [hdd]; unfold sqDist; ring)
    simpa [hth, Line.angle, P.sub] using this
  obtain ⟨hc, hs⟩ := hpol
  have hsc := Real.sin_sq_add_cos_sq th
  set x := (d * d - r2 * r2 + r1 * r1) / (2 * d) with hx
  have hx2 : 2 * d * x = d ^ 2 - r2 ^ 2 + r1 ^ 2 := by rw [hx]; field_simp
  -- coordinates along and across that line
  have key : ∀ p : P ℝ, ∃ u w : ℝ, p.x = c1.x + (Real.cos th * u - Real.sin th * w) ∧ p.y = c1.y + (Real.sin th * u + Real.cos th * w) := by
    intro p
    refine ⟨Real.cos th * (p.x - c1.x) + Real.sin th * (p.y - c1.y), -Real.sin th * (p.x - c1.x) + Real.cos th * (p.y - c1.y), ?_, ?_⟩
    · linear_combination -(p.x - c1.x) * hsc
    · linear_combination -(p.y - c1.y) * hsc
  have on_iff : ∀ u w : ℝ, ∀ p : P ℝ, p.x = c1.x + (Real.cos th * u - Real.sin th * w) → p.y = c1.y + (Real.sin th * u + Real.cos th * w) →
      ((sqDist p c1 = r1 ^ 2 ∧ sqDist p c2 = r2 ^ 2) ↔ u = x ∧ w ^ 2 = r1 * r1 - x * x) := by
    intro u w p hpx hpy
    have e1 : sqDist p c1 = u ^ 2 + w ^ 2 := by
      unfold sqDist; rw [hpx, hpy]; linear_combination (u ^ 2 + w ^ 2) * hsc
    have e2 : sqDist p c2 = (u - d) ^ 2 + w ^ 2 := by
      have hc2x : c2.x = c1.x + d * Real.cos th := by linarith
      have hc2y : c2.y = c1.y + d * Real.sin th := by linarith
      unfold sqDist; rw [hpx, hpy, hc2x, hc2y]; linear_combination ((u - d) ^ 2 + w ^ 2) * hsc
    rw [e1, e2]
    constructor
    · rintro ⟨g1, g2⟩
      have hu : u = x := by
        have : 2 * d * u = 2 * d * x := by rw [hx2]; linarith
        exact mul_left_cancel₀ (by positivity) this
      exact ⟨hu, by rw [← hu]; linarith⟩
    · rintro ⟨rfl, g2⟩
      exact ⟨by linarith, by rw [g2]; linear_combination -hx2⟩
  have triv : ∀ p : P ℝ, sqDist p c1 = r1 ^ 2 ∧ sqDist p c2 = r2 ^ 2 → x * x ≤ r1 * r1 := by
    intro p hp
    obtain ⟨u, w, g1, g2⟩ := key p
    have := ((on_iff u w p g1 g2).1 hp).2
    nlinarith [sq_nonneg w]
  have far : r1 + r2 < d → r1 * r1 < x * x := by
    intro h
    have : r1 < x := by
      have : 2 * d * r1 < 2 * d * x := by rw [hx2]; nlinarith
      exact lt_of_mul_lt_mul_left this (by positivity)
    nlinarith
  have near : d < r1 - r2 → r1 * r1 < x * x := by
    intro h
    have : r1 < x := by
      have : 2 * d * r1 < 2 * d * x := by rw [hx2]; nlinarith
      exact lt_of_mul_lt_mul_left this (by positivity)
    nlinarith
  unfold intersectCircle
  simp only [hlen, real_lt, real_add, real_sub, decide_eq_true_eq]
  by_cases hfar : r1 + r2 < d
  · rw [if_pos hfar]
    refine ⟨[], rfl, by simp, fun p => ⟨fun h => by simp at h, fun h => ?_⟩⟩
    exact absurd (triv p h) (not_le.2 (far hfar))
  rw [if_neg hfar]
  by_cases hnear : d < r1 - r2
  · rw [if_pos hnear]
    refine ⟨[], rfl, by simp, fun p => ⟨fun h => by simp at h, fun h => ?_⟩⟩
    exact absurd (triv p h) (not_le.2 (near hnear))
  have h2d : (2 : ℝ) * d ≠ 0 := by positivity
  rw [if_neg hnear, hz, hf]
  simp only [Bool.false_eq_true, if_false, pdiv, real_beq, real_mul, real_ofInt, real_zero, real_div, bind, Except.bind, pure, Except.pure, ← hth]
  norm_num [hd0.ne']
  simp only [← hx]
  by_cases hh : r1 * r1 < x * x
  · rw [if_pos hh]
    refine ⟨[], rfl, by simp, fun p => ⟨fun h => by simp at h, fun h => ?_⟩⟩
    exact absurd (triv p h) (not_le.2 hh)
  rw [if_neg hh]
  set h := Real.sqrt (r1 * r1 - x * x) with hhd
  have hhh : h ^ 2 = r1 * r1 - x * x := Real.sq_sqrt (by linarith)
  refine ⟨_, rfl, by simp, fun p => ?_⟩
  simp only [List.mem_cons, List.not_mem_nil, or_false]
  have em : ∀ w : ℝ, p = c1.add (P.rotate ⟨x, w⟩ th) ↔ p.x = c1.x + (Real.cos th * x - Real.sin th * w) ∧ p.y = c1.y + (Real.sin th * x + Real.cos th * w) := by
    intro w
    rw [rotate_real]
    constructor
    · rintro rfl; simp [P.add]
    · rintro ⟨g1, g2⟩; apply P.ext_real <;> simp [P.add, g1, g2]
  rw [em, em]
  constructor
  · rintro (⟨g1, g2⟩ | ⟨g1, g2⟩)
    · exact (on_iff x h p g1 g2).2 ⟨rfl, hhh⟩
    · exact (on_iff x (-h) p g1 g2).2 ⟨rfl, by rw [neg_sq]; exact hhh⟩
  · intro g
    obtain ⟨u, w, g1, g2⟩ := key p
    obtain ⟨rfl, hw⟩ := (on_iff u w p g1 g2).1 g
    rw [← hhh] at hw
    rcases sq_eq_sq_iff_eq_or_eq_neg.1 hw with rfl | rfl
    · exact Or.inl ⟨g1, g2⟩
    · exact Or.inr ⟨g1, g2⟩

/-- Non-vacuity: two circles through the point (1, 1). -/
example : ∃ l, intersectCircle (1/1000000) ⟨0, 1⟩ 1 ⟨1, 0⟩ 1 = .ok l ∧ (⟨1, 1⟩ : P ℝ) ∈ l := by
  have hs : sqDist (⟨0, 1⟩ : P ℝ) ⟨1, 0⟩ = 2 := by norm_num [sqDist]
  have h2 : Real.sqrt 2 < 1.5 := by rw [Real.sqrt_lt' (by norm_num)]; norm_num
  obtain ⟨l, h, -, hm⟩ := C91_intersect_circle_partial (1/1000000) (by norm_num) ⟨0, 1⟩ ⟨1, 0⟩ 1 1 zero_le_one zero_le_one (by rw [hs]; norm_num)
    (by rw [hs, abs_of_neg (by linarith)]; linarith)
  exact ⟨l, h, (hm _).2 (by norm_num [sqDist])⟩

/-- **C91** as stated is false of the code: for circles that touch from outside (with any two different radii that are not too small) the one point returned is on neither. -/
theorem C91_refuted (eps : ℝ) (heps : 0 < eps) (r1 r2 : ℝ) (h1 : eps ≤ r1) (h2 : eps ≤ r2) (hne : r1 ≠ r2) :
    ∃ p : P ℝ, intersectCircle eps ⟨0, 0⟩ r1 ⟨r1 + r2, 0⟩ r2 = .ok [p] ∧
      sqDist (⟨r1, 0⟩ : P ℝ) ⟨0, 0⟩ = r1 ^ 2 ∧ sqDist (⟨r1, 0⟩ : P ℝ) ⟨r1 + r2, 0⟩ = r2 ^ 2 ∧
      sqDist p ⟨0, 0⟩ ≠ r1 ^ 2 ∧ sqDist p ⟨r1 + r2, 0⟩ ≠ r2 ^ 2 := by
  have hlen : (⟨⟨0, 0⟩, ⟨r1 + r2, 0⟩⟩ : Line ℝ).length = r1 + r2 := by
    unfold Line.length P.length
    simp [P.sub, Real.sqrt_sq (by linarith : (0 : ℝ) ≤ r1 + r2)]
  have hz : isZero eps (r1 + r2) = false := isZero_false_of (by rw [abs_of_pos (by linarith)]; linarith)
  have hf : floatEq eps (r1 + r2) (r1 + r2) = true := by rw [floatEq_iff]; simpa using heps
  refine ⟨⟨(r1 + r2) / 2, 0⟩, ?_, by simp [sqDist], by simp [sqDist], ?_, ?_⟩
  · unfold intersectCircle
    have : ¬ (r1 + r2 < r1 - r2) := by linarith
    simp only [hlen, real_lt, real_add, real_sub, decide_eq_true_eq, lt_irrefl, if_false, this, hz, hf, if_true, Bool.false_eq_true]
    congr 2
    apply P.ext_real <;> simp [Line.midpoint, P.add, P.mul] <;> ring
  · intro h; simp only [sqDist] at h; apply hne; nlinarith
  · intro h; simp only [sqDist] at h; apply hne; nlinarith

end Verif.Geom
