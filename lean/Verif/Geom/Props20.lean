import Verif.Geom.Props19
import Mathlib.Analysis.SpecialFunctions.Sqrt

/-!
# C166: eccentricity and curvature of an ellipse
-/

set_option linter.unusedSectionVars false
set_option linter.unusedVariables false

namespace Verif.Geom
open Verif PyFloat PyTrig

/-! ## Specification -/

/-- Specification: the speed of the point `point_at(t)`. -/
noncomputable def Ell.speedAt (e : Ell ℝ) (t : ℝ) : ℝ := √((deriv (fun s => (e.pointAt s).x) t) ^ 2 + (deriv (fun s => (e.pointAt s).y) t) ^ 2)

/-- Specification: the unit tangent at `point_at(t)`. -/
noncomputable def Ell.tangentAt (e : Ell ℝ) (t : ℝ) : P ℝ :=
  ⟨deriv (fun s => (e.pointAt s).x) t / e.speedAt t, deriv (fun s => (e.pointAt s).y) t / e.speedAt t⟩

/-- Specification: `k` is the rate at which the ellipse turns to the left per unit of length at `point_at(t)`. -/
def Ell.TurnsBy (e : Ell ℝ) (t k : ℝ) : Prop :=
  HasDerivAt (fun s => (e.tangentAt s).x) (k * e.speedAt t * -(e.tangentAt t).y) t ∧
  HasDerivAt (fun s => (e.tangentAt s).y) (k * e.speedAt t * (e.tangentAt t).x) t

/-! ## Eccentricity -/

theorem sqDist_axis (e : Ell ℝ) (p : P ℝ) (c : ℝ) :
    sqDist p ⟨e.center.x + c * Real.cos e.phi, e.center.y + c * Real.sin e.phi⟩ = (e.u p - c) ^ 2 + e.v p ^ 2 := by
  have h := Real.sin_sq_add_cos_sq e.phi
  unfold sqDist Ell.u Ell.v
  dsimp only
  linear_combination (c ^ 2 - ((p.x - e.center.x) ^ 2 + (p.y - e.center.y) ^ 2)) * h

/-- **C166**, eccentricity: for every ellipse with positive axes, the first not shorter, `eccentricity()` is a number `x` from 0 up to 1, 0 exactly for a
circle, and it relates the ellipse to its `focus_points()`: the distances of a point of the ellipse to the two of them are `rx + x u` and `rx - x u`, where
`u` is the coordinate of the point along the first axis. -/
theorem C166_eccentricity (e : Ell ℝ) (hy : 0 < e.ry) (hxy : e.ry ≤ e.rx) :
    ∃ x f1 f2, e.eccentricity = .ok x ∧ e.focusPoints = .ok (f1, f2) ∧ 0 ≤ x ∧ x < 1 ∧ (x = 0 ↔ e.rx = e.ry) ∧ x ^ 2 = 1 - (e.ry / e.rx) ^ 2 ∧
      ∀ p, e.On p → √(sqDist p f1) = e.rx + x * e.u p ∧ √(sqDist p f2) = e.rx - x * e.u p := by
  have hx : 0 < e.rx := lt_of_lt_of_le hy hxy
  have hn : 0 ≤ e.rx * e.rx - e.ry * e.ry := by nlinarith
  have hf : e.focus = .ok (√(e.rx * e.rx - e.ry * e.ry)) := by
    unfold Ell.focus
    simp only [real_mul, real_sub, real_lt, real_zero, real_sqrt]
    rw [if_neg (by simpa using hn)]
  have hc := Real.sq_sqrt hn
  have hc0 := Real.sqrt_nonneg (e.rx * e.rx - e.ry * e.ry)
  generalize √(e.rx * e.rx - e.ry * e.ry) = c at *
  have hlt : c < e.rx := by nlinarith
  refine ⟨c / e.rx, ⟨e.center.x + (-c) * Real.cos e.phi, e.center.y + (-c) * Real.sin e.phi⟩, ⟨e.center.x + c * Real.cos e.phi, e.center.y + c * Real.sin e.phi⟩, ?_, ?_, by positivity, (div_lt_one hx).mpr hlt, ?_, ?_, ?_⟩
  · unfold Ell.eccentricity
    rw [hf]
    exact insc_pdiv hx.ne'
  · unfold Ell.focusPoints
    rw [hf]
    simp only [bind, Except.bind, pure, Except.pure, P.sub, P.add, real_mul, real_cos, real_sin, real_sub, real_add]
    congr 2
    apply P.ext_real <;> dsimp only <;> ring
  · rw [div_eq_zero_iff]
    constructor
    · rintro (h | h)
      · rw [h] at hc
        nlinarith
      · exact absurd h hx.ne'
    · intro h
      left
      rw [h] at hc
      have : c ^ 2 = 0 := by linarith
      exact pow_eq_zero_iff two_ne_zero |>.mp this
  · field_simp
    linarith
  · intro p hp
    unfold Ell.On Ell.level at hp
    have hu : (e.u p) ^ 2 ≤ e.rx ^ 2 := by
      have : (e.u p / e.rx) ^ 2 ≤ 1 := by nlinarith [sq_nonneg (e.v p / e.ry)]
      rw [div_pow, div_le_one (by positivity)] at this
      exact this
    obtain ⟨b1, b2⟩ := abs_le_of_sq_le_sq' hu hx.le
    have hv : e.v p ^ 2 = e.ry ^ 2 * (1 - (e.u p / e.rx) ^ 2) := by
      have : (e.v p / e.ry) ^ 2 = 1 - (e.u p / e.rx) ^ 2 := by linarith
      rw [← this, div_pow]
      field_simp
    have hb : |c / e.rx * e.u p| ≤ e.rx := by
      rw [abs_mul, abs_of_nonneg (by positivity)]
      have h1 : |e.u p| ≤ e.rx := abs_le.mpr ⟨b1, b2⟩
      have h2 : c / e.rx ≤ 1 := ((div_lt_one hx).mpr hlt).le
      have h3 : 0 ≤ c / e.rx := by positivity
      nlinarith [abs_nonneg (e.u p)]
    obtain ⟨b3, b4⟩ := abs_le.mp hb
    have hq : ∀ d, d ^ 2 = c ^ 2 → (e.u p - d) ^ 2 + e.v p ^ 2 = (e.rx - d / e.rx * e.u p) ^ 2 := by
      intro d hd
      have hd' : d ^ 2 = e.rx * e.rx - e.ry * e.ry := by rw [hd, hc]
      rw [hv]
      field_simp
      linear_combination (e.rx ^ 2 - e.u p ^ 2) * hd'
    constructor
    · rw [sqDist_axis, hq _ (by ring), Real.sqrt_sq]
      · ring
      · rw [neg_div]; linarith
    · rw [sqDist_axis, hq _ rfl, Real.sqrt_sq]
      linarith

/-- An ellipse with axes 5 and 3 meets the hypotheses; its eccentricity is 4/5. -/
example : ∃ x f1 f2, (⟨⟨1, 2⟩, 5, 3, 7⟩ : Ell ℝ).eccentricity = .ok x ∧ (⟨⟨1, 2⟩, 5, 3, 7⟩ : Ell ℝ).focusPoints = .ok (f1, f2) ∧ x = 4 / 5 := by
  obtain ⟨x, f1, f2, h1, h2, h3, -, -, h4, -⟩ := C166_eccentricity ⟨⟨1, 2⟩, 5, 3, 7⟩ (by norm_num) (by norm_num)
  refine ⟨x, f1, f2, h1, h2, ?_⟩
  norm_num at h4
  nlinarith

/-! ## Curvature -/

/-- How the direction of a moving vector turns. -/
theorem unit_turn {f g : ℝ → ℝ} {f' g' t : ℝ} (hf : HasDerivAt f f' t) (hg : HasDerivAt g g' t) (hpos : 0 < f t ^ 2 + g t ^ 2) :
    HasDerivAt (fun s => f s / √(f s ^ 2 + g s ^ 2)) ((f t * g' - g t * f') / (f t ^ 2 + g t ^ 2) * -(g t / √(f t ^ 2 + g t ^ 2))) t ∧
    HasDerivAt (fun s => g s / √(f s ^ 2 + g s ^ 2)) ((f t * g' - g t * f') / (f t ^ 2 + g t ^ 2) * (f t / √(f t ^ 2 + g t ^ 2))) t := by
  have hnn := Real.sq_sqrt hpos.le
  have hn0 : √(f t ^ 2 + g t ^ 2) ≠ 0 := (Real.sqrt_pos.mpr hpos).ne'
  have hN : HasDerivAt (fun s => √(f s ^ 2 + g s ^ 2)) ((f t * f' + g t * g') / √(f t ^ 2 + g t ^ 2)) t := by
    have h1 := ((hf.pow 2).add (hg.pow 2)).sqrt hpos.ne'
    refine HasDerivAt.congr_deriv h1 ?_
    show (_ + _) / (2 * √(f t ^ 2 + g t ^ 2)) = _
    field_simp
    norm_num
    ring
  constructor
  · refine HasDerivAt.congr_deriv (hf.div hN hn0) ?_
    generalize √(f t ^ 2 + g t ^ 2) = n at *
    rw [← hnn]
    field_simp
    linear_combination f' * hnn
  · refine HasDerivAt.congr_deriv (hg.div hN hn0) ?_
    generalize √(f t ^ 2 + g t ^ 2) = n at *
    rw [← hnn]
    field_simp
    linear_combination g' * hnn

/-- **C166**, curvature: for an ellipse with positive axes, centred at the origin and not rotated, `curvature(p)` at a point `p = point_at(t)` of the ellipse
is the rate at which the ellipse turns to the left there. -/
theorem C166_curvature_partial (e : Ell ℝ) (hx : 0 < e.rx) (hy : 0 < e.ry) (hc : e.center = ⟨0, 0⟩) (hphi : e.phi = 0) (t : ℝ) :
    ∃ k, e.curvature (e.pointAt t) = .ok k ∧ 0 < k ∧ e.TurnsBy t k := by
  obtain ⟨-, -, d1, d2⟩ := C89_point_at e hx hy
  have hpx : (e.pointAt t).x = e.rx * Real.cos t := by simp [Ell.pointAt, P.add, hc, hphi]
  have hpy : (e.pointAt t).y = e.ry * Real.sin t := by simp [Ell.pointAt, P.add, hc, hphi]
  have hdx : ∀ s, deriv (fun s => (e.pointAt s).x) s = (e.derivative s).x := fun s => (d1 s).1.deriv
  have hdy : ∀ s, deriv (fun s => (e.pointAt s).y) s = (e.derivative s).y := fun s => (d1 s).2.deriv
  have hsp : ∀ s, e.speedAt s = √((e.derivative s).x ^ 2 + (e.derivative s).y ^ 2) := by intro s; unfold Ell.speedAt; rw [hdx, hdy]
  have v1 : (e.derivative t).x = -(e.rx * Real.sin t) := by simp [Ell.derivative, hphi]
  have v2 : (e.derivative t).y = e.ry * Real.cos t := by simp [Ell.derivative, hphi]
  have v3 : (e.derivative t true).x = -(e.rx * Real.cos t) := by simp [Ell.derivative, hphi]
  have v4 : (e.derivative t true).y = -(e.ry * Real.sin t) := by simp [Ell.derivative, hphi]
  have hcs := Real.sin_sq_add_cos_sq t
  have hpos : 0 < (e.derivative t).x ^ 2 + (e.derivative t).y ^ 2 := by
    rw [v1, v2]
    rcases lt_or_eq_of_le (sq_nonneg (Real.sin t)) with h | h
    · have : 0 < e.rx ^ 2 * Real.sin t ^ 2 := by positivity
      nlinarith [sq_nonneg (e.ry * Real.cos t)]
    · have : Real.cos t ^ 2 = 1 := by linarith
      have : 0 < e.ry ^ 2 * Real.cos t ^ 2 := by rw [this]; positivity
      nlinarith [sq_nonneg (e.rx * Real.sin t)]
  have hw : (e.derivative t).x ^ 2 + (e.derivative t).y ^ 2 = e.rx ^ 2 * Real.sin t ^ 2 + e.ry ^ 2 * Real.cos t ^ 2 := by rw [v1, v2]; ring
  obtain ⟨u1, u2⟩ := unit_turn (d2 t).1 (d2 t).2 hpos
  have hcr : (e.derivative t).x * (e.derivative t true).y - (e.derivative t).y * (e.derivative t true).x = e.rx * e.ry := by
    rw [v1, v2, v3, v4]
    linear_combination (e.rx * e.ry) * hcs
  set w := (e.derivative t).x ^ 2 + (e.derivative t).y ^ 2 with hwdef
  have hsw : 0 < √w := Real.sqrt_pos.mpr hpos
  have hk : e.curvature (e.pointAt t) = .ok (e.rx * e.ry / (w * √w)) := by
    unfold Ell.curvature
    simp only [real_mul, real_add, real_one, hpx, hpy]
    rw [insc_pdiv (by positivity), insc_pdiv (by positivity), insc_pdiv (by positivity)]
    simp only [bind, Except.bind, pure, Except.pure]
    have hq : e.rx * Real.cos t * (e.rx * Real.cos t) / (e.rx * e.rx * (e.rx * e.rx)) + e.ry * Real.sin t * (e.ry * Real.sin t) / (e.ry * e.ry * (e.ry * e.ry)) =
        w / (e.rx * e.ry) ^ 2 := by
      rw [hw]
      field_simp
      ring
    rw [hq]
    unfold powNeg15
    simp only [real_lt, real_zero, real_one, real_mul, real_div, real_sqrt]
    rw [if_pos (by simp only [decide_eq_true_eq]; positivity)]
    simp only []
    rw [Real.sqrt_div hpos.le, Real.sqrt_sq (by positivity)]
    congr 1
    field_simp
  refine ⟨_, hk, by positivity, ?_⟩
  have f1 : (fun s => (e.tangentAt s).x) = fun s => (e.derivative s).x / √((e.derivative s).x ^ 2 + (e.derivative s).y ^ 2) := by
    funext s; unfold Ell.tangentAt; rw [hdx, hsp]
  have f2 : (fun s => (e.tangentAt s).y) = fun s => (e.derivative s).y / √((e.derivative s).x ^ 2 + (e.derivative s).y ^ 2) := by
    funext s; unfold Ell.tangentAt; rw [hdy, hsp]
  have t1 : (e.tangentAt t).x = (e.derivative t).x / √w := congrFun f1 t
  have t2 : (e.tangentAt t).y = (e.derivative t).y / √w := congrFun f2 t
  unfold Ell.TurnsBy
  rw [f1, f2, t1, t2, hsp, ← hwdef]
  constructor
  · refine u1.congr_deriv ?_
    rw [hcr]
    field_simp
  · refine u2.congr_deriv ?_
    rw [hcr]
    field_simp

/-- The unit circle meets the hypotheses. -/
example : ∃ k, (⟨⟨0, 0⟩, 2, 1, 0⟩ : Ell ℝ).curvature ((⟨⟨0, 0⟩, 2, 1, 0⟩ : Ell ℝ).pointAt 0) = .ok k ∧ 0 < k := by
  obtain ⟨k, h1, h2, -⟩ := C166_curvature_partial ⟨⟨0, 0⟩, 2, 1, 0⟩ (by norm_num) (by norm_num) rfl rfl 0
  exact ⟨k, h1, h2⟩

/-- **C166** refuted, curvature elsewhere: the centre and the rotation are ignored. A circle of radius 1 around (1, 0) passes through the origin, and there
`curvature` raises `ValueError`. -/
theorem C166_curvature_refuted : ¬ ∀ (e : Ell ℝ), 0 < e.rx → 0 < e.ry → ∀ t, ∃ k, e.curvature (e.pointAt t) = .ok k := by
  intro hall
  obtain ⟨k, hk⟩ := hall ⟨⟨1, 0⟩, 1, 1, 0⟩ (by norm_num) (by norm_num) Real.pi
  have hp : (⟨⟨1, 0⟩, 1, 1, 0⟩ : Ell ℝ).pointAt Real.pi = ⟨0, 0⟩ := by
    apply P.ext_real <;> simp [Ell.pointAt, P.add]
  rw [hp] at hk
  unfold Ell.curvature at hk
  simp only [real_mul, real_one, real_add] at hk
  rw [insc_pdiv (by norm_num), insc_pdiv (by norm_num)] at hk
  simp [bind, Except.bind, powNeg15] at hk

end Verif.Geom
