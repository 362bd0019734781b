import Verif.Geom.Props13
import Mathlib.Analysis.Calculus.LocalExtr.Rolle
import Mathlib.Analysis.SpecialFunctions.Sqrt

/-!
# C116, C117: derivatives, curvature and extrema of Bezier curves
-/

set_option linter.unusedSectionVars false

namespace Verif.Geom
open Verif PyFloat PyTrig

/-! ## C116: derivatives and curvature -/

theorem derivative1_vel (b : Bez ℝ) (t : ℝ) : (b.derivative1 t).x = (vel b t).re ∧ (b.derivative1 t).y = (vel b t).im := by
  constructor
  · simp only [Bez.derivative1, P.add, P.mul, P.sub, vel, toC, Complex.add_re, Complex.smul_re, Complex.sub_re, smul_eq_mul, real_add, real_mul, real_sub, real_ofInt]
    push_cast; ring
  · simp only [Bez.derivative1, P.add, P.mul, P.sub, vel, toC, Complex.add_im, Complex.smul_im, Complex.sub_im, smul_eq_mul, real_add, real_mul, real_sub, real_ofInt]
    push_cast; ring

theorem quad_deriv (a0 a1 a2 t : ℝ) : HasDerivAt (fun s : ℝ => a2 * (3 * (s * s - 2 * s + 1)) + a1 * (6 * (s - s * s)) + a0 * (3 * (s * s)))
    (a2 * (6 * t - 6) + a1 * (6 - 12 * t) + a0 * (6 * t)) t := by
  have h0 : HasDerivAt (fun s : ℝ => s) 1 t := hasDerivAt_id t
  have hq : HasDerivAt (fun s : ℝ => s * s) (1 * t + t * 1) t := h0.mul h0
  have e := ((((hq.sub (h0.const_mul 2)).add_const 1).const_mul 3).const_mul a2).add (((h0.sub hq).const_mul 6).const_mul a1) |>.add ((hq.const_mul 3).const_mul a0)
  refine HasDerivAt.congr_deriv e ?_
  ring

theorem second_deriv (b : Bez ℝ) (t : ℝ) :
    HasDerivAt (fun s => (b.derivative1 s).x) (b.derivative2 t).x t ∧ HasDerivAt (fun s => (b.derivative1 s).y) (b.derivative2 t).y t := by
  constructor
  · have := quad_deriv (b.p2.x - b.c2.x) (b.c2.x - b.c1.x) (b.c1.x - b.p1.x) t
    have e : (fun s => (b.derivative1 s).x) = fun s : ℝ => (b.c1.x - b.p1.x) * (3 * (s * s - 2 * s + 1)) + (b.c2.x - b.c1.x) * (6 * (s - s * s)) +
        (b.p2.x - b.c2.x) * (3 * (s * s)) := by
      funext s
      simp [Bez.derivative1, P.add, P.mul, P.sub]
    rw [e]
    refine HasDerivAt.congr_deriv this ?_
    simp [Bez.derivative2, P.add, P.mul]
    ring
  · have := quad_deriv (b.p2.y - b.c2.y) (b.c2.y - b.c1.y) (b.c1.y - b.p1.y) t
    have e : (fun s => (b.derivative1 s).y) = fun s : ℝ => (b.c1.y - b.p1.y) * (3 * (s * s - 2 * s + 1)) + (b.c2.y - b.c1.y) * (6 * (s - s * s)) +
        (b.p2.y - b.c2.y) * (3 * (s * s)) := by
      funext s
      simp [Bez.derivative1, P.add, P.mul, P.sub]
    rw [e]
    refine HasDerivAt.congr_deriv this ?_
    simp [Bez.derivative2, P.add, P.mul]
    ring

/-- **C116**, derivatives: for every curve and parameter the three functions return the first, second and third derivative of the curve. -/
theorem C116_derivatives (b : Bez ℝ) (t : ℝ) :
    (HasDerivAt (fun s => (b.curve s).x) (b.derivative1 t).x t ∧ HasDerivAt (fun s => (b.curve s).y) (b.derivative1 t).y t) ∧
    (HasDerivAt (fun s => (b.derivative1 s).x) (b.derivative2 t).x t ∧ HasDerivAt (fun s => (b.derivative1 s).y) (b.derivative2 t).y t) ∧
    (HasDerivAt (fun s => (b.derivative2 s).x) b.derivative3.x t ∧ HasDerivAt (fun s => (b.derivative2 s).y) b.derivative3.y t) := by
  have key : ∀ a0 a1 a2 a3 : ℝ, HasDerivAt (fun s : ℝ => (a0 * (1 - s) + a1 * (3 * s - 2) + a2 * (1 - 3 * s) + a3 * s) * 6) (-6 * a0 + 18 * a1 - 18 * a2 + 6 * a3) t := by
    intro a0 a1 a2 a3
    have h0 : HasDerivAt (fun s : ℝ => s) 1 t := hasDerivAt_id t
    have e := (((((h0.const_sub 1).const_mul a0).add (((h0.const_mul 3).sub_const 2).const_mul a1)).add (((h0.const_mul 3).const_sub 1).const_mul a2)).add
      (h0.const_mul a3)).mul_const 6
    refine HasDerivAt.congr_deriv e ?_
    ring
  refine ⟨⟨?_, ?_⟩, second_deriv b t, ?_, ?_⟩
  · rw [(derivative1_vel b t).1]; exact (curve_deriv b t).1
  · rw [(derivative1_vel b t).2]; exact (curve_deriv b t).2
  · have e : (fun s => (b.derivative2 s).x) = fun s : ℝ => (b.p1.x * (1 - s) + b.c1.x * (3 * s - 2) + b.c2.x * (1 - 3 * s) + b.p2.x * s) * 6 := by
      funext s
      simp [Bez.derivative2, P.add, P.mul]
    rw [e]
    refine HasDerivAt.congr_deriv (key _ _ _ _) ?_
    simp [Bez.derivative3, P.add, P.mul, P.sub]; ring
  · have e : (fun s => (b.derivative2 s).y) = fun s : ℝ => (b.p1.y * (1 - s) + b.c1.y * (3 * s - 2) + b.c2.y * (1 - 3 * s) + b.p2.y * s) * 6 := by
      funext s
      simp [Bez.derivative2, P.add, P.mul]
    rw [e]
    refine HasDerivAt.congr_deriv (key _ _ _ _) ?_
    simp [Bez.derivative3, P.add, P.mul, P.sub]; ring

/-- Specification: the speed of the point of the curve. -/
noncomputable def speed (b : Bez ℝ) (t : ℝ) : ℝ := √((deriv (fun s => (b.curve s).x) t) ^ 2 + (deriv (fun s => (b.curve s).y) t) ^ 2)

/-- Specification: the unit tangent of the curve. -/
noncomputable def unitTangent (b : Bez ℝ) (t : ℝ) : P ℝ :=
  ⟨deriv (fun s => (b.curve s).x) t / speed b t, deriv (fun s => (b.curve s).y) t / speed b t⟩

/-- **C116**, curvature: wherever the curve has a tangent, the curvature `k` is the rate at which the tangent turns to the left per unit of length: the unit
tangent changes by `k · speed` times its left normal.  Where the point stands still, `ZeroDivisionError` is raised. -/
theorem C116_curvature (b : Bez ℝ) (t : ℝ) :
    (speed b t ≠ 0 → ∃ k, b.curvatureAt t = .ok k ∧ HasDerivAt (fun s => (unitTangent b s).x) (k * speed b t * -(unitTangent b t).y) t ∧
      HasDerivAt (fun s => (unitTangent b s).y) (k * speed b t * (unitTangent b t).x) t) ∧
    (speed b t = 0 → b.curvatureAt t = .error .zeroDivision) := by
  have hx : ∀ s, deriv (fun s => (b.curve s).x) s = (b.derivative1 s).x := fun s => ((C116_derivatives b s).1.1).deriv
  have hy : ∀ s, deriv (fun s => (b.curve s).y) s = (b.derivative1 s).y := fun s => ((C116_derivatives b s).1.2).deriv
  have hsp : ∀ s, speed b s = √((b.derivative1 s).x ^ 2 + (b.derivative1 s).y ^ 2) := by intro s; unfold speed; rw [hx, hy]
  obtain ⟨-, ⟨d2x, d2y⟩, -⟩ := C116_derivatives b t
  have hcurv : b.curvatureAt t = if (b.derivative1 t).x ^ 2 + (b.derivative1 t).y ^ 2 = 0 then .error .zeroDivision else
      .ok (((b.derivative1 t).x * (b.derivative2 t).y - (b.derivative1 t).y * (b.derivative2 t).x) /
        (((b.derivative1 t).x ^ 2 + (b.derivative1 t).y ^ 2) * √((b.derivative1 t).x ^ 2 + (b.derivative1 t).y ^ 2))) := by
    have hnn : 0 ≤ (b.derivative1 t).x ^ 2 + (b.derivative1 t).y ^ 2 := by positivity
    unfold Bez.curvatureAt pdiv
    simp only [real_beq, real_mul, real_add, real_sub, real_div, real_sqrt, real_zero, decide_eq_true_eq, ← sq]
    by_cases h0 : (b.derivative1 t).x ^ 2 + (b.derivative1 t).y ^ 2 = 0
    · rw [if_pos (by rw [h0, zero_mul]), if_pos h0]
    · rw [if_neg, if_neg h0]
      exact mul_ne_zero h0 (Real.sqrt_ne_zero'.2 (lt_of_le_of_ne hnn (Ne.symm h0)))
  constructor
  · intro hne
    set u := (b.derivative1 t).x with hu
    set w := (b.derivative1 t).y with hw
    set u' := (b.derivative2 t).x with hu'
    set w' := (b.derivative2 t).y with hw'
    have hn : speed b t = √(u ^ 2 + w ^ 2) := hsp t
    have hpos : 0 < u ^ 2 + w ^ 2 := by
      rw [hn] at hne
      exact Real.sqrt_ne_zero'.1 hne
    rw [hcurv, if_neg hpos.ne']
    refine ⟨_, rfl, ?_⟩
    set n := √(u ^ 2 + w ^ 2) with hndef
    have hnn : n ^ 2 = u ^ 2 + w ^ 2 := Real.sq_sqrt hpos.le
    have hn0 : n ≠ 0 := by rw [← hn]; exact hne
    have hfun1 : (fun s => (unitTangent b s).x) = fun s => (b.derivative1 s).x / √((b.derivative1 s).x ^ 2 + (b.derivative1 s).y ^ 2) := by
      funext s; unfold unitTangent; rw [hx, hsp]
    have hfun2 : (fun s => (unitTangent b s).y) = fun s => (b.derivative1 s).y / √((b.derivative1 s).x ^ 2 + (b.derivative1 s).y ^ 2) := by
      funext s; unfold unitTangent; rw [hy, hsp]
    have hT1 : (unitTangent b t).x = u / n := congrFun hfun1 t
    have hT2 : (unitTangent b t).y = w / n := congrFun hfun2 t
    have hN : HasDerivAt (fun s => √((b.derivative1 s).x ^ 2 + (b.derivative1 s).y ^ 2)) ((u * u' + w * w') / n) t := by
      have h1 := ((d2x.pow 2).add (d2y.pow 2)).sqrt hpos.ne'
      refine HasDerivAt.congr_deriv h1 ?_
      show (_ + _) / (2 * n) = _
      field_simp
      norm_num
      ring
    have h3 : n ^ 3 ≠ 0 := pow_ne_zero _ hn0
    rw [hfun1, hfun2, hT1, hT2, hn]
    constructor
    · refine HasDerivAt.congr_deriv (d2x.div hN hn0) ?_
      show (u' * n - u * ((u * u' + w * w') / n)) / n ^ 2 = _
      rw [← hnn]
      field_simp
      rw [hnn]; ring
    · refine HasDerivAt.congr_deriv (d2y.div hN hn0) ?_
      show (w' * n - w * ((u * u' + w * w') / n)) / n ^ 2 = _
      rw [← hnn]
      field_simp
      rw [hnn]; ring
  · intro h0
    rw [hcurv, if_pos]
    rw [hsp] at h0
    exact (Real.sqrt_eq_zero (by positivity)).1 h0

/-- Non-vacuity: a curve turning left has positive curvature at its start. -/
example : (⟨⟨0, 0⟩, ⟨1, 0⟩, ⟨1, 1⟩, ⟨0, 1⟩⟩ : Bez ℝ).curvatureAt 0 = .ok (2 / 3) := by
  have h : √(9 : ℝ) = 3 := by rw [show (9 : ℝ) = 3 ^ 2 by norm_num]; exact Real.sqrt_sq (by norm_num)
  unfold Bez.curvatureAt pdiv
  norm_num [Bez.derivative1, Bez.derivative2, P.add, P.mul, P.sub, h]

/-! ## C117: extrema -/

theorem coeffs_vel (b : Bez ℝ) (t : ℝ) :
    (b.derivative1 t).x = b.quadCoeffs.1.x * t ^ 2 + b.quadCoeffs.2.1.x * t + b.quadCoeffs.2.2.x ∧
    (b.derivative1 t).y = b.quadCoeffs.1.y * t ^ 2 + b.quadCoeffs.2.1.y * t + b.quadCoeffs.2.2.y := by
  constructor <;> simp [Bez.derivative1, Bez.quadCoeffs, P.add, P.mul, P.sub, P.neg] <;> ring

theorem coordRoots_spec (a b c : ℝ) (ha : a ≠ 0) : ∃ l, Bez.coordRoots a b c = .ok l ∧ ∀ t, t ∈ l ↔ a * t ^ 2 + b * t + c = 0 := by
  unfold Bez.coordRoots
  have h2a : (2 : ℝ) * a ≠ 0 := mul_ne_zero two_ne_zero ha
  simp only [real_le, real_sub, real_mul, real_ofInt, real_zero, decide_eq_true_eq]
  push_cast
  by_cases hd : 0 ≤ b * b - 4 * a * c
  · rw [if_pos hd]
    simp only [pdiv, real_beq, real_mul, real_ofInt, real_zero, decide_eq_true_eq]
    push_cast
    rw [if_neg h2a, if_neg h2a]
    refine ⟨_, rfl, fun t => ?_⟩
    have hs : √(b * b - 4 * a * c) * √(b * b - 4 * a * c) = b * b - 4 * a * c := Real.mul_self_sqrt hd
    have := quadratic_eq_zero_iff (a := a) (b := b) (c := c) ha (s := √(b * b - 4 * a * c)) (by rw [hs]; unfold discrim; ring) t
    rw [show a * t ^ 2 = a * (t * t) by ring, this]
    simp
  · rw [if_neg hd]
    refine ⟨[], rfl, fun t => ?_⟩
    simp only [List.not_mem_nil, false_iff]
    intro h
    apply hd
    have : b * b - 4 * a * c = (2 * a * t + b) ^ 2 := by linear_combination (-4 * a) * h
    rw [this]
    positivity

/-- Specification: the leading coefficients of the derivative, in X and Y. -/
def lead (b : Bez ℝ) : P ℝ := ⟨b.p2.x - 3 * b.c2.x + 3 * b.c1.x - b.p1.x, b.p2.y - 3 * b.c2.y + 3 * b.c1.y - b.p1.y⟩

theorem lead_eq (b : Bez ℝ) : b.quadCoeffs.1.x = 3 * (lead b).x ∧ b.quadCoeffs.1.y = 3 * (lead b).y := by
  constructor <;> simp [Bez.quadCoeffs, lead, P.add, P.mul, P.sub, P.neg] <;> ring

/-- **C117**, extrema: if the curve is properly cubic in X and in Y, exactly the parameters inside the curve at which its tangent is vertical or horizontal (or the point
stands still) are returned.  Missing: curves that are not (`C117_refuted`). -/
theorem C117_extrema_partial (b : Bez ℝ) (hx : (lead b).x ≠ 0) (hy : (lead b).y ≠ 0) :
    ∃ ts, b.findExtrema = .ok ts ∧ ∀ t, t ∈ ts ↔ 0 < t ∧ t < 1 ∧ (deriv (fun s => (b.curve s).x) t = 0 ∨ deriv (fun s => (b.curve s).y) t = 0) := by
  obtain ⟨l1, h1, m1⟩ := coordRoots_spec b.quadCoeffs.1.x b.quadCoeffs.2.1.x b.quadCoeffs.2.2.x (by rw [(lead_eq b).1]; exact mul_ne_zero three_ne_zero hx)
  obtain ⟨l2, h2, m2⟩ := coordRoots_spec b.quadCoeffs.1.y b.quadCoeffs.2.1.y b.quadCoeffs.2.2.y (by rw [(lead_eq b).2]; exact mul_ne_zero three_ne_zero hy)
  refine ⟨(l1 ++ l2).filter fun t => (zero <. t) && (t <. one), ?_, fun t => ?_⟩
  · unfold Bez.findExtrema
    simp only [h1, h2, bind, Except.bind]
    rfl
  · rw [((C116_derivatives b t).1.1).deriv, ((C116_derivatives b t).1.2).deriv, (coeffs_vel b t).1, (coeffs_vel b t).2, List.mem_filter, List.mem_append, m1, m2]
    simp only [real_lt, real_zero, real_one, Bool.and_eq_true, decide_eq_true_eq]
    tauto

/-- A coordinate of the curve is between its values at the ends and where its derivative vanishes. -/
theorem coord_between (f : ℝ → ℝ) (hf : Continuous f) (t : ℝ) (ht : 0 ≤ t ∧ t ≤ 1) :
    ∃ s, (s = 0 ∨ s = 1 ∨ (0 < s ∧ s < 1 ∧ deriv f s = 0)) ∧ f t ≤ f s := by
  obtain ⟨s, hs, hmax⟩ := isCompact_Icc.exists_isMaxOn ⟨(0 : ℝ), Set.left_mem_Icc.2 zero_le_one⟩ hf.continuousOn
  refine ⟨s, ?_, hmax ⟨ht.1, ht.2⟩⟩
  rcases eq_or_lt_of_le hs.1 with h0 | h0
  · exact .inl h0.symm
  · rcases eq_or_lt_of_le hs.2 with h1 | h1
    · exact .inr (.inl h1)
    · refine .inr (.inr ⟨h0, h1, ?_⟩)
      exact IsLocalMax.deriv_eq_zero (hmax.isLocalMax (Icc_mem_nhds h0 h1))

theorem curve_continuous (b : Bez ℝ) : Continuous (fun s => (b.curve s).x) ∧ Continuous (fun s => (b.curve s).y) :=
  ⟨continuous_iff_continuousAt.2 fun t => (curve_deriv b t).1.continuousAt, continuous_iff_continuousAt.2 fun t => (curve_deriv b t).2.continuousAt⟩

/-- **C117**, bounds: the whole curve is in the box around its ends and the returned extrema: no point of it is further left, right, up or down than all of these. -/
theorem C117_bounds_partial (b : Bez ℝ) (ts : List ℝ) (h : b.findExtrema = .ok ts) (hx : (lead b).x ≠ 0) (hy : (lead b).y ≠ 0) (t : ℝ) (ht : 0 ≤ t ∧ t ≤ 1) :
    (∃ s ∈ 0 :: 1 :: ts, (b.curve s).x ≤ (b.curve t).x) ∧ (∃ s ∈ 0 :: 1 :: ts, (b.curve t).x ≤ (b.curve s).x) ∧
    (∃ s ∈ 0 :: 1 :: ts, (b.curve s).y ≤ (b.curve t).y) ∧ (∃ s ∈ 0 :: 1 :: ts, (b.curve t).y ≤ (b.curve s).y) := by
  obtain ⟨ts', h', hmem⟩ := C117_extrema_partial b hx hy
  rw [h', Except.ok.injEq] at h
  subst h
  obtain ⟨cx, cy⟩ := curve_continuous b
  have key : ∀ f : ℝ → ℝ, Continuous f → (∀ s, 0 < s → s < 1 → deriv f s = 0 → s ∈ ts') → ∃ s ∈ 0 :: 1 :: ts', f t ≤ f s := by
    intro f hf hz
    obtain ⟨s, hs, hle⟩ := coord_between f hf t ht
    refine ⟨s, ?_, hle⟩
    rcases hs with rfl | rfl | ⟨h0, h1, h2⟩
    · simp
    · simp
    · simp [hz s h0 h1 h2]
  refine ⟨?_, ?_, ?_, ?_⟩
  · obtain ⟨s, hs, hle⟩ := key (fun s => -(b.curve s).x) cx.neg fun s h0 h1 h2 => (hmem s).2 ⟨h0, h1, .inl (by rw [deriv.fun_neg] at h2; linarith)⟩
    exact ⟨s, hs, by linarith⟩
  · exact key _ cx fun s h0 h1 h2 => (hmem s).2 ⟨h0, h1, .inl h2⟩
  · obtain ⟨s, hs, hle⟩ := key (fun s => -(b.curve s).y) cy.neg fun s h0 h1 h2 => (hmem s).2 ⟨h0, h1, .inr (by rw [deriv.fun_neg] at h2; linarith)⟩
    exact ⟨s, hs, by linarith⟩
  · exact key _ cy fun s h0 h1 h2 => (hmem s).2 ⟨h0, h1, .inr h2⟩

/-- Non-vacuity: a curve that is properly cubic both ways, with an extremum in Y inside. -/
example : (lead ⟨⟨0, 0⟩, ⟨1, 3⟩, ⟨2, 1⟩, ⟨4, 0⟩⟩).x ≠ 0 ∧ (lead ⟨⟨0, 0⟩, ⟨1, 3⟩, ⟨2, 1⟩, ⟨4, 0⟩⟩).y ≠ 0 ∧
    ∃ t : ℝ, 0 < t ∧ t < 1 ∧ deriv (fun s => (Bez.curve ⟨⟨0, 0⟩, ⟨1, 3⟩, ⟨2, 1⟩, ⟨4, 0⟩⟩ s).y) t = 0 := by
  refine ⟨by norm_num [lead], by norm_num [lead], ?_⟩
  obtain ⟨t, ht, h⟩ := exists_deriv_eq_zero (f := fun s => (Bez.curve ⟨⟨0, 0⟩, ⟨1, 3⟩, ⟨2, 1⟩, ⟨4, 0⟩⟩ s).y) zero_lt_one
    (curve_continuous _).2.continuousOn (by norm_num [Bez.curve, bernstein3])
  exact ⟨t, ht.1, ht.2, h⟩

/-- The part of **C117** that fails: a curve that is not properly cubic in X or in Y raises `ZeroDivisionError`: every curve made from a quadratic one, every straight
horizontal or vertical one, every curve symmetric in this respect. -/
theorem C117_refuted (b : Bez ℝ) (q1 q2 q3 : P ℝ) :
    ((lead b).x = 0 ∨ (lead b).y = 0 → b.findExtrema = .error .zeroDivision) ∧
    (Bez.fromQuadratic q1 q2 q3).findExtrema = .error .zeroDivision ∧
    (b.p1.y = b.c1.y → b.c1.y = b.c2.y → b.c2.y = b.p2.y → b.findExtrema = .error .zeroDivision) := by
  have key : ∀ b : Bez ℝ, ((lead b).x = 0 ∨ (lead b).y = 0 → b.findExtrema = .error .zeroDivision) := by
    intro b h
    have hz : ∀ p q : ℝ, Bez.coordRoots 0 p q = .error .zeroDivision := by
      intro p q
      unfold Bez.coordRoots
      simp only [real_le, real_sub, real_mul, real_ofInt, real_zero, decide_eq_true_eq, mul_zero, zero_mul, sub_zero]
      rw [if_pos (mul_self_nonneg p)]
      simp [pdiv, bind, Except.bind]
    unfold Bez.findExtrema
    rcases h with h | h
    · have : b.quadCoeffs.1.x = 0 := by rw [(lead_eq b).1, h, mul_zero]
      simp only [this, hz, bind, Except.bind]
    · by_cases hx : (lead b).x = 0
      · have : b.quadCoeffs.1.x = 0 := by rw [(lead_eq b).1, hx, mul_zero]
        simp only [this, hz, bind, Except.bind]
      · obtain ⟨l1, h1, m1⟩ := coordRoots_spec b.quadCoeffs.1.x b.quadCoeffs.2.1.x b.quadCoeffs.2.2.x (by rw [(lead_eq b).1]; exact mul_ne_zero three_ne_zero hx)
        have : b.quadCoeffs.1.y = 0 := by rw [(lead_eq b).2, h, mul_zero]
        simp only [h1, this, hz, bind, Except.bind]
  refine ⟨key b, key _ (.inl ?_), fun h1 h2 h3 => key b (.inr ?_)⟩
  · simp [lead, Bez.fromQuadratic, P.add, P.sub, P.mul]; ring
  · simp only [lead]; rw [← h3, ← h2, ← h1]; ring

end Verif.Geom
