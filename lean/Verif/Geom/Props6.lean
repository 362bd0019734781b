import Verif.Geom.Ellipse
import Verif.Geom.Props5
import Mathlib.Analysis.SpecialFunctions.Trigonometric.Deriv
import Mathlib.Analysis.SpecialFunctions.Trigonometric.Arctan

/-!
# C89: ellipses
-/

set_option linter.unusedSectionVars false

namespace Verif.Geom
open Verif PyFloat PyTrig

/-! ## Specification -/

/-- Specification: the coordinate of a point along the first axis of the ellipse. -/
noncomputable def Ell.u (e : Ell ℝ) (p : P ℝ) : ℝ := Real.cos e.phi * (p.x - e.center.x) + Real.sin e.phi * (p.y - e.center.y)

/-- Specification: the coordinate of a point along the second axis of the ellipse. -/
noncomputable def Ell.v (e : Ell ℝ) (p : P ℝ) : ℝ := -Real.sin e.phi * (p.x - e.center.x) + Real.cos e.phi * (p.y - e.center.y)

/-- Specification: the left side of the equation of the ellipse. -/
noncomputable def Ell.level (e : Ell ℝ) (p : P ℝ) : ℝ := (e.u p / e.rx) ^ 2 + (e.v p / e.ry) ^ 2

/-- Specification: the point lies on the ellipse. -/
def Ell.On (e : Ell ℝ) (p : P ℝ) : Prop := e.level p = 1

/-! ## C89 -/

theorem rotate_real (p : P ℝ) (a : ℝ) : p.rotate a = ⟨Real.cos a * p.x - Real.sin a * p.y, Real.sin a * p.x + Real.cos a * p.y⟩ := by
  unfold P.rotate P.transform
  rw [(C42_rotation 0 _ _ p p).2.2.2]
  apply P.ext_real <;> simp [P.origin]

theorem pointAt_u (e : Ell ℝ) (t : ℝ) : e.u (e.pointAt t) = e.rx * Real.cos t := by
  have h := Real.sin_sq_add_cos_sq e.phi
  simp only [Ell.u, Ell.pointAt, P.add, real_add, real_sub, real_mul, real_cos, real_sin]
  linear_combination (e.rx * Real.cos t) * h

theorem pointAt_v (e : Ell ℝ) (t : ℝ) : e.v (e.pointAt t) = e.ry * Real.sin t := by
  have h := Real.sin_sq_add_cos_sq e.phi
  simp only [Ell.v, Ell.pointAt, P.add, real_add, real_sub, real_mul, real_cos, real_sin]
  linear_combination (e.ry * Real.sin t) * h

theorem uv_inj (e : Ell ℝ) (p q : P ℝ) (hu : e.u p = e.u q) (hv : e.v p = e.v q) : p = q := by
  have h := Real.sin_sq_add_cos_sq e.phi
  simp only [Ell.u, Ell.v] at hu hv
  apply P.ext_real
  · linear_combination Real.cos e.phi * hu - Real.sin e.phi * hv - (p.x - q.x) * h
  · linear_combination Real.sin e.phi * hu + Real.cos e.phi * hv - (p.y - q.y) * h

theorem polar_exists {x y : ℝ} (h : x ^ 2 + y ^ 2 = 1) : ∃ t, x = Real.cos t ∧ y = Real.sin t := by
  have := polar_atan2 ⟨x, y⟩ 1 zero_le_one (by simpa using h)
  exact ⟨P.angle ⟨x, y⟩, by linarith [this.1], by linarith [this.2]⟩

/-- **C89**, `point_at`: for every ellipse with positive axes, the points `point_at(t)` are exactly the points of the ellipse, and the derivative
methods are the first and second derivative of `point_at`. -/
theorem C89_point_at (e : Ell ℝ) (hx : 0 < e.rx) (hy : 0 < e.ry) :
    (∀ t, e.On (e.pointAt t)) ∧ (∀ p, e.On p → ∃ t, p = e.pointAt t) ∧
    (∀ t, HasDerivAt (fun s => (e.pointAt s).x) (e.derivative t).x t ∧ HasDerivAt (fun s => (e.pointAt s).y) (e.derivative t).y t) ∧
    (∀ t, HasDerivAt (fun s => (e.derivative s).x) (e.derivative t true).x t ∧
      HasDerivAt (fun s => (e.derivative s).y) (e.derivative t true).y t) := by
  refine ⟨fun t => ?_, fun p hp => ?_, fun t => ?_, fun t => ?_⟩
  · unfold Ell.On Ell.level
    rw [pointAt_u, pointAt_v]
    field_simp
    exact Real.cos_sq_add_sin_sq t
  · obtain ⟨t, h1, h2⟩ := polar_exists hp
    refine ⟨t, uv_inj e _ _ ?_ ?_⟩
    · rw [pointAt_u, ← h1]; field_simp
    · rw [pointAt_v, ← h2]; field_simp
  · simp only [Ell.pointAt, P.add, Ell.derivative, real_add, real_sub, real_mul, real_cos, real_sin, real_neg, Bool.false_eq_true, if_false]
    constructor
    · have h1 := ((Real.hasDerivAt_cos t).const_mul (e.rx * Real.cos e.phi)).sub ((Real.hasDerivAt_sin t).const_mul (e.ry * Real.sin e.phi))
      have := h1.const_add e.center.x
      exact this.congr_deriv (by ring)
    · have h1 := ((Real.hasDerivAt_cos t).const_mul (e.rx * Real.sin e.phi)).add ((Real.hasDerivAt_sin t).const_mul (e.ry * Real.cos e.phi))
      have := h1.const_add e.center.y
      exact this.congr_deriv (by ring)
  · simp only [Ell.derivative, real_add, real_sub, real_mul, real_cos, real_sin, real_neg, Bool.false_eq_true, if_false, if_true]
    constructor
    · have h1 := ((Real.hasDerivAt_sin t).const_mul (e.rx * Real.cos e.phi)).neg.sub ((Real.hasDerivAt_cos t).const_mul (e.ry * Real.sin e.phi))
      exact h1.congr_deriv (by ring)
    · have h1 := ((Real.hasDerivAt_sin t).const_mul (e.rx * Real.sin e.phi)).neg.add ((Real.hasDerivAt_cos t).const_mul (e.ry * Real.cos e.phi))
      exact h1.congr_deriv (by ring)

/-- **C89**, construction: `Ellipse(center, rx, ry, phi)` has its first axis not shorter than the second, and is the ellipse asked for:
the same points satisfy its equation (exactly so unless the axes differ by less than the tolerance but are not equal). -/
theorem C89_construct (eps : ℝ) (c : P ℝ) (rx ry phi : ℝ) (heps : 0 < eps) :
    (Ell.mk' eps c rx (some ry) phi).ry ≤ (Ell.mk' eps c rx (some ry) phi).rx ∧
    (Ell.mk' eps c rx (some ry) phi).rx = max |rx| |ry| ∧ (Ell.mk' eps c rx (some ry) phi).ry = min |rx| |ry| ∧
    (|rx| = |ry| ∨ eps ≤ |(|rx| - |ry|)| → ∀ p, (Ell.mk' eps c rx (some ry) phi).level p = (Ell.mk c |rx| |ry| phi).level p) := by
  have hmax : pmax |rx| |ry| = max |rx| |ry| := by
    unfold pmax; simp only [real_lt, decide_eq_true_eq]
    split
    · rename_i h; rw [max_eq_right h.le]
    · rename_i h; rw [max_eq_left (not_lt.1 h)]
  have hmin : pmin |rx| |ry| = min |rx| |ry| := by
    unfold pmin; simp only [real_lt, decide_eq_true_eq]
    split
    · rename_i h; rw [min_eq_right h.le]
    · rename_i h; rw [min_eq_left (not_lt.1 h)]
  have e1 : Ell.mk' eps c rx (some ry) phi = ⟨c, max |rx| |ry|, min |rx| |ry|,
      if |(|rx| - |ry|)| < eps then 0 else if |rx| < |ry| then phi + Real.pi / 2 else phi⟩ := by
    unfold Ell.mk'
    simp [hmax, hmin, floatEq]
  rw [e1]
  refine ⟨le_trans (min_le_left _ _) (le_max_left _ _), rfl, rfl, fun h p => ?_⟩
  have hs := Real.sin_sq_add_cos_sq phi
  unfold Ell.level Ell.u Ell.v
  rcases h with h | h
  · rw [if_pos (by rw [h]; simpa using heps), h, max_self, min_self]
    simp only [Real.cos_zero, Real.sin_zero]
    rw [div_pow, div_pow, div_pow, div_pow, ← add_div, ← add_div]
    congr 1
    linear_combination -((p.x - c.x) ^ 2 + (p.y - c.y) ^ 2) * hs
  · rw [if_neg (not_lt.2 h)]
    by_cases hlt : |rx| < |ry|
    · rw [if_pos hlt, max_eq_right hlt.le, min_eq_left hlt.le]
      simp only [Real.cos_add_pi_div_two, Real.sin_add_pi_div_two]
      ring
    · rw [if_neg hlt, max_eq_left (not_lt.1 hlt), min_eq_right (not_lt.1 hlt)]

/-- **C89**, `point_inside` (for a rotation that is zero or at least the tolerance; a smaller one is ignored): the answer is right for every point. -/
theorem C89_point_inside_partial (eps : ℝ) (heps : 0 < eps) (e : Ell ℝ) (hx : 0 < e.rx) (hy : 0 < e.ry)
    (hc : |e.rx - e.ry| < eps → e.phi = 0) (hphi : e.phi = 0 ∨ eps ≤ |e.phi|) (p : P ℝ) :
    ∃ b, e.pointInside eps p = .ok b ∧ (b = true ↔ e.level p < 1) := by
  have hv : (if e.isCircle eps || isZero eps e.phi then p.sub e.center else (p.sub e.center).rotate (PyFloat.neg e.phi)) = ⟨e.u p, e.v p⟩ := by
    by_cases h0 : e.phi = 0
    · have : isZero eps e.phi = true := by rw [isZero_iff, h0]; simpa using heps
      rw [this, Bool.or_true, if_pos rfl]
      apply P.ext_real <;> simp [Ell.u, Ell.v, h0, P.sub]
    · have h1 : e.isCircle eps = false := by
        rw [Bool.eq_false_iff]; intro h
        unfold Ell.isCircle at h
        rw [floatEq_iff] at h
        exact h0 (hc h)
      have h2 : isZero eps e.phi = false := by
        rw [Bool.eq_false_iff]; intro h
        rw [isZero_iff] at h
        rcases hphi with h3 | h3
        · exact h0 h3
        · linarith
      rw [h1, h2]
      simp only [Bool.or_self, Bool.false_eq_true, if_false]
      rw [rotate_real]
      apply P.ext_real <;> simp [Ell.u, Ell.v, P.sub]
  unfold Ell.pointInside
  rw [hv]
  simp only [pdiv, real_beq, real_zero, hx.ne', hy.ne', decide_false, Bool.false_eq_true, if_false, bind, Except.bind, pure, Except.pure]
  refine ⟨_, rfl, ?_⟩
  simp only [real_lt, real_sub, real_add, real_mul, real_div, real_one, decide_eq_true_eq]
  unfold Ell.level
  rw [← pow_two, ← pow_two, sub_neg]

/-- The part of **C89** that fails: a rotation smaller than the tolerance is ignored, however long the ellipse: for every tolerance there is an ellipse and a point
clearly outside of it that is reported to be inside. -/
theorem C89_refuted (eps : ℝ) (heps : 0 < eps) (h1 : eps ≤ 1) :
    ∃ (e : Ell ℝ) (p : P ℝ), 0 < e.rx ∧ 0 < e.ry ∧ e.pointInside eps p = .ok true ∧ 4 ≤ e.level p := by
  have hs : 0 < Real.sin (eps / 2) := Real.sin_pos_of_pos_of_lt_pi (by linarith) (by linarith [Real.two_le_pi])
  refine ⟨⟨⟨0, 0⟩, 1, 9 / 20 * Real.sin (eps / 2), eps / 2⟩, ⟨9 / 10, 0⟩, one_pos, by positivity, ?_, ?_⟩
  · have hz : isZero eps (eps / 2) = true := by rw [isZero_iff, abs_of_pos (by linarith)]; linarith
    have hy : (9 / 20 * Real.sin (eps / 2)) ≠ 0 := by positivity
    unfold Ell.pointInside
    dsimp only
    rw [hz, Bool.or_true, if_pos rfl]
    simp only [pdiv, real_beq, real_zero, hy, decide_false, Bool.false_eq_true, if_false, bind, Except.bind, pure, Except.pure, P.sub, real_sub, sub_zero]
    norm_num
  · unfold Ell.level Ell.u Ell.v
    norm_num
    have : (-(Real.sin (eps / 2) * (9 / 10)) / (9 / 20 * Real.sin (eps / 2))) ^ 2 = 4 := by
      have : -(Real.sin (eps / 2) * (9 / 10)) / (9 / 20 * Real.sin (eps / 2)) = -2 := by field_simp; norm_num
      rw [this]; norm_num
    have hc : 0 ≤ (Real.cos (eps / 2) * (9 / 10)) ^ 2 := by positivity
    linarith

/-- **C89**, `focus_points`: for every ellipse whose first axis is not shorter than the second, the focus points exist and the distances of every point of the
ellipse to them add up to twice the first axis. -/
theorem C89_focus (e : Ell ℝ) (hy : 0 < e.ry) (hxy : e.ry ≤ e.rx) :
    ∃ f1 f2, e.focusPoints = .ok (f1, f2) ∧ ∀ p, e.On p → Real.sqrt (sqDist p f1) + Real.sqrt (sqDist p f2) = 2 * e.rx := by
  have hx : 0 < e.rx := lt_of_lt_of_le hy hxy
  have hq : 0 ≤ e.rx * e.rx - e.ry * e.ry := by nlinarith
  set d := Real.sqrt (e.rx * e.rx - e.ry * e.ry) with hd
  have hdd : d ^ 2 = e.rx * e.rx - e.ry * e.ry := Real.sq_sqrt hq
  have hd0 : 0 ≤ d := Real.sqrt_nonneg _
  have hdx : d ≤ e.rx := by nlinarith
  have hf : e.focus = .ok d := by
    unfold Ell.focus
    simp only [real_lt, real_sub, real_mul, real_zero, real_sqrt, decide_eq_true_eq]
    rw [if_neg (not_lt.2 hq)]
  refine ⟨_, _, by unfold Ell.focusPoints; rw [hf]; rfl, ?_⟩
  intro p hp
  obtain ⟨t, rfl⟩ := (C89_point_at e hx hy).2.1 p hp
  have hs := Real.sin_sq_add_cos_sq e.phi
  have ht := Real.sin_sq_add_cos_sq t
  have hc1 := Real.cos_le_one t
  have hc2 := Real.neg_one_le_cos t
  have key : ∀ s : ℝ, s ^ 2 = 1 → sqDist (e.pointAt t) ⟨e.center.x + s * (d * Real.cos e.phi), e.center.y + s * (d * Real.sin e.phi)⟩ =
      (e.rx - s * d * Real.cos t) ^ 2 := by
    intro s hs2
    simp only [sqDist, Ell.pointAt, P.add, real_add, real_sub, real_mul, real_cos, real_sin]
    linear_combination ((e.rx * Real.cos t - s * d) ^ 2 + (e.ry * Real.sin t) ^ 2) * hs + (e.rx ^ 2 - s ^ 2 * d ^ 2) * ht +
      Real.sin t ^ 2 * hdd + Real.sin t ^ 2 * d ^ 2 * hs2
  have k1 := key 1 (by norm_num)
  have k2 := key (-1) (by norm_num)
  have g1 : sqDist (e.pointAt t) (e.center.add ⟨d *. cos e.phi, d *. sin e.phi⟩) = (e.rx - d * Real.cos t) ^ 2 := by
    simp only [one_mul] at k1
    rw [← k1]
    simp only [P.add, real_add, real_mul, real_cos, real_sin]
  have g2 : sqDist (e.pointAt t) (e.center.sub ⟨d *. cos e.phi, d *. sin e.phi⟩) = (e.rx + d * Real.cos t) ^ 2 := by
    have : (e.rx + d * Real.cos t) ^ 2 = (e.rx - (-1) * d * Real.cos t) ^ 2 := by ring
    rw [this, ← k2]
    simp only [P.sub, real_sub, real_mul, real_cos, real_sin]
    congr 2 <;> ring
  rw [g1, g2, Real.sqrt_sq (by nlinarith), Real.sqrt_sq (by nlinarith)]
  ring

/-- Non-vacuity: an ellipse given with swapped axes. -/
example : Ell.mk' (1/1000000) ⟨1, 2⟩ 1 (some (-2)) 0 = (⟨⟨1, 2⟩, 2, 1, 0 + Real.pi / 2⟩ : Ell ℝ) := by
  unfold Ell.mk' pmax pmin floatEq
  norm_num

end Verif.Geom
