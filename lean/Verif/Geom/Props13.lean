import Verif.Geom.Curve
import Verif.Geom.Props5
import Verif.Geom.Props9
import Mathlib.Analysis.SpecialFunctions.Integrals.Basic
import Mathlib.Analysis.Complex.Norm

/-!
# C115: the length of a Bezier curve
-/

set_option linter.unusedSectionVars false

namespace Verif.Geom
open Verif PyFloat PyTrig

/-! ## Specification -/

/-- Specification: the arc length of a curve: the integral of the speed of its point. -/
noncomputable def arcLength (b : Bez ℝ) : ℝ :=
  ∫ t in (0 : ℝ)..1, √((deriv (fun s => (b.curve s).x) t) ^ 2 + (deriv (fun s => (b.curve s).y) t) ^ 2)

/-- Specification: how much longer than the chord the control polygon of a curve is. -/
noncomputable def slack (b : Bez ℝ) : ℝ :=
  (√(sqDist b.p1 b.c1) + √(sqDist b.c1 b.c2) + √(sqDist b.c2 b.p2)) - √(sqDist b.p1 b.p2)

/-- Specification: `b1` and `b2` are the two halves of the curve. -/
def Halves (b b1 b2 : Bez ℝ) : Prop :=
  (∀ t, b1.curve t = b.curve (t / 2)) ∧ ∀ t, b2.curve t = b.curve ((1 + t) / 2)

/-- Specification: the pieces into which a curve is divided: as it is if its control polygon is hardly longer than its chord, otherwise halved. -/
inductive Pieces (tol : ℝ) : Bez ℝ → List (Bez ℝ) → Prop
  | whole (b : Bez ℝ) : slack b ≤ tol → Pieces tol b [b]
  | halved (b b1 b2 : Bez ℝ) (l1 l2 : List (Bez ℝ)) : tol < slack b → Halves b b1 b2 → Pieces tol b1 l1 → Pieces tol b2 l2 → Pieces tol b (l1 ++ l2)

/-! ## Lemmas -/

/-- A point as a complex number. -/
def toC (p : P ℝ) : ℂ := ⟨p.x, p.y⟩

theorem distance_norm (p q : P ℝ) : p.distance q = ‖toC p - toC q‖ := by
  rw [Complex.norm_def, Complex.normSq_apply]
  simp only [P.distance, real_hypot, real_sub, toC, Complex.sub_re, Complex.sub_im]
  congr 1
  ring

theorem sqDist_norm (p q : P ℝ) : √(sqDist p q) = ‖toC q - toC p‖ := by
  rw [Complex.norm_def, Complex.normSq_apply]
  simp only [sqDist, toC, Complex.sub_re, Complex.sub_im]
  congr 1
  ring

/-- The velocity of the point of the curve. -/
noncomputable def vel (b : Bez ℝ) (t : ℝ) : ℂ :=
  (3 * (1 - t) ^ 2) • (toC b.c1 - toC b.p1) + (6 * t * (1 - t)) • (toC b.c2 - toC b.c1) + (3 * t ^ 2) • (toC b.p2 - toC b.c2)

theorem bern_deriv (a0 a1 a2 a3 t : ℝ) : HasDerivAt (fun s : ℝ => (1 - s) ^ 3 * a0 + 3 * s * (1 - s) ^ 2 * a1 + 3 * s ^ 2 * (1 - s) * a2 + s ^ 3 * a3)
    (3 * (1 - t) ^ 2 * (a1 - a0) + 6 * t * (1 - t) * (a2 - a1) + 3 * t ^ 2 * (a3 - a2)) t := by
  have h1 : HasDerivAt (fun s : ℝ => 1 - s) (-1) t := (hasDerivAt_id t).const_sub 1
  have h0 : HasDerivAt (fun s : ℝ => s) 1 t := hasDerivAt_id t
  have e := ((((h1.pow 3).mul_const a0).add ((((h0.const_mul 3).mul (h1.pow 2))).mul_const a1)).add
    ((((h0.pow 2).const_mul 3).mul h1).mul_const a2)).add ((h0.pow 3).mul_const a3)
  refine HasDerivAt.congr_deriv e ?_
  norm_num
  ring

theorem curve_form (b : Bez ℝ) (t : ℝ) :
    (b.curve t).x = (1 - t) ^ 3 * b.p1.x + 3 * t * (1 - t) ^ 2 * b.c1.x + 3 * t ^ 2 * (1 - t) * b.c2.x + t ^ 3 * b.p2.x ∧
    (b.curve t).y = (1 - t) ^ 3 * b.p1.y + 3 * t * (1 - t) ^ 2 * b.c1.y + 3 * t ^ 2 * (1 - t) * b.c2.y + t ^ 3 * b.p2.y := by
  constructor <;> simp only [Bez.curve, bernstein3] <;> ring

theorem curve_deriv (b : Bez ℝ) (t : ℝ) :
    HasDerivAt (fun s => (b.curve s).x) (vel b t).re t ∧ HasDerivAt (fun s => (b.curve s).y) (vel b t).im t := by
  constructor
  · rw [show (fun s => (b.curve s).x) = _ from funext fun s => (curve_form b s).1]
    convert bern_deriv b.p1.x b.c1.x b.c2.x b.p2.x t using 1
    simp only [vel, toC, Complex.add_re, Complex.smul_re, Complex.sub_re, smul_eq_mul]
  · rw [show (fun s => (b.curve s).y) = _ from funext fun s => (curve_form b s).2]
    convert bern_deriv b.p1.y b.c1.y b.c2.y b.p2.y t using 1
    simp only [vel, toC, Complex.add_im, Complex.smul_im, Complex.sub_im, smul_eq_mul]

theorem arcLength_eq (b : Bez ℝ) : arcLength b = ∫ t in (0 : ℝ)..1, ‖vel b t‖ := by
  unfold arcLength
  congr 1
  funext t
  rw [(curve_deriv b t).1.deriv, (curve_deriv b t).2.deriv, Complex.norm_def, Complex.normSq_apply, sq, sq]

theorem vel_cont (b : Bez ℝ) : Continuous (vel b) := by
  unfold vel
  fun_prop

theorem coeff_integrals : (∫ t in (0 : ℝ)..1, 3 * (1 - t) ^ 2) = 1 ∧ (∫ t in (0 : ℝ)..1, 6 * t * (1 - t)) = 1 ∧ (∫ t in (0 : ℝ)..1, 3 * t ^ 2) = 1 := by
  have key : ∀ (F f : ℝ → ℝ), (∀ t, HasDerivAt F (f t) t) → Continuous f → (∫ t in (0 : ℝ)..1, f t) = F 1 - F 0 := by
    intro F f hF hf
    exact intervalIntegral.integral_eq_sub_of_hasDerivAt (fun t _ => hF t) (hf.intervalIntegrable _ _)
  refine ⟨?_, ?_, ?_⟩
  · rw [key (fun t => -(1 - t) ^ 3) _ _ (by fun_prop)]
    · norm_num
    · intro t
      have h1 : HasDerivAt (fun s : ℝ => 1 - s) (-1) t := (hasDerivAt_id t).const_sub 1
      refine HasDerivAt.congr_deriv (h1.pow 3).neg ?_
      norm_num
  · rw [key (fun t => 3 * t ^ 2 - 2 * t ^ 3) _ _ (by fun_prop)]
    · norm_num
    · intro t
      have h0 : HasDerivAt (fun s : ℝ => s) 1 t := hasDerivAt_id t
      refine HasDerivAt.congr_deriv (((h0.pow 2).const_mul 3).sub ((h0.pow 3).const_mul 2)) ?_
      norm_num
      ring
  · rw [key (fun t => t ^ 3) _ _ (by fun_prop)]
    · norm_num
    · intro t
      have h0 : HasDerivAt (fun s : ℝ => s) 1 t := hasDerivAt_id t
      refine HasDerivAt.congr_deriv (h0.pow 3) ?_
      norm_num

theorem chord_le (b : Bez ℝ) : ‖toC b.p2 - toC b.p1‖ ≤ arcLength b := by
  rw [arcLength_eq]
  have h : (∫ t in (0 : ℝ)..1, vel b t) = toC b.p2 - toC b.p1 := by
    unfold vel
    obtain ⟨i1, i2, i3⟩ := coeff_integrals
    rw [intervalIntegral.integral_add, intervalIntegral.integral_add, intervalIntegral.integral_smul_const, intervalIntegral.integral_smul_const,
      intervalIntegral.integral_smul_const, i1, i2, i3]
    · simp only [one_smul]; ring
    all_goals exact Continuous.intervalIntegrable (by fun_prop) _ _
  rw [← h]
  exact intervalIntegral.norm_integral_le_integral_norm zero_le_one

theorem le_polygon (b : Bez ℝ) : arcLength b ≤ ‖toC b.c1 - toC b.p1‖ + ‖toC b.c2 - toC b.c1‖ + ‖toC b.p2 - toC b.c2‖ := by
  rw [arcLength_eq]
  obtain ⟨i1, i2, i3⟩ := coeff_integrals
  have h : (∫ t in (0 : ℝ)..1, (3 * (1 - t) ^ 2 * ‖toC b.c1 - toC b.p1‖ + 6 * t * (1 - t) * ‖toC b.c2 - toC b.c1‖ + 3 * t ^ 2 * ‖toC b.p2 - toC b.c2‖)) =
      ‖toC b.c1 - toC b.p1‖ + ‖toC b.c2 - toC b.c1‖ + ‖toC b.p2 - toC b.c2‖ := by
    rw [intervalIntegral.integral_add, intervalIntegral.integral_add, intervalIntegral.integral_mul_const, intervalIntegral.integral_mul_const,
      intervalIntegral.integral_mul_const, i1, i2, i3]
    · ring
    all_goals exact Continuous.intervalIntegrable (by fun_prop) _ _
  rw [← h]
  apply intervalIntegral.integral_mono_on zero_le_one ((vel_cont b).norm.intervalIntegrable _ _) (Continuous.intervalIntegrable (by fun_prop) _ _)
  intro t ht
  unfold vel
  refine (norm_add₃_le).trans ?_
  rw [norm_smul, norm_smul, norm_smul, Real.norm_of_nonneg (by positivity), Real.norm_of_nonneg (mul_nonneg (by linarith [ht.1]) (by linarith [ht.2])),
    Real.norm_of_nonneg (by positivity)]

/-- The two halves of the code. -/
noncomputable def half1 (b : Bez ℝ) : Bez ℝ := ⟨b.p1, (b.controlpointsAt (1 / 2)).1, (b.controlpointsAt (1 / 2)).2.1, (b.controlpointsAt (1 / 2)).2.2.1⟩
/-- The second half. -/
noncomputable def half2 (b : Bez ℝ) : Bez ℝ := ⟨(b.controlpointsAt (1 / 2)).2.2.1, (b.controlpointsAt (1 / 2)).2.2.2.1, (b.controlpointsAt (1 / 2)).2.2.2.2, b.p2⟩

theorem half_curves (b : Bez ℝ) : Halves b (half1 b) (half2 b) := by
  constructor
  · intro t
    apply P.ext_real <;> simp [half1, Bez.controlpointsAt, Bez.curve, bernstein3, P.add, P.mul] <;> ring
  · intro t
    apply P.ext_real <;> simp [half2, Bez.controlpointsAt, Bez.curve, bernstein3, P.add, P.mul] <;> ring

theorem halves_length {b b1 b2 : Bez ℝ} (h : Halves b b1 b2) : arcLength b = arcLength b1 + arcLength b2 := by
  have v1 : ∀ t, vel b1 t = (1 / 2 : ℝ) • vel b (t / 2) := by
    intro t
    have e1 := (curve_deriv b (t / 2)).1.comp t ((hasDerivAt_id t).div_const 2)
    have e2 := (curve_deriv b (t / 2)).2.comp t ((hasDerivAt_id t).div_const 2)
    have f1 := (curve_deriv b1 t).1
    have f2 := (curve_deriv b1 t).2
    simp only [h.1] at f1 f2
    have g1 := f1.unique e1
    have g2 := f2.unique e2
    apply Complex.ext
    · rw [g1]; simp; ring
    · rw [g2]; simp; ring
  have v2 : ∀ t, vel b2 t = (1 / 2 : ℝ) • vel b (t / 2 + 1 / 2) := by
    intro t
    have hd : HasDerivAt (fun s : ℝ => (1 + s) / 2) (1 / 2) t := ((hasDerivAt_id t).const_add 1).div_const 2
    have e1 := (curve_deriv b ((1 + t) / 2)).1.comp t hd
    have e2 := (curve_deriv b ((1 + t) / 2)).2.comp t hd
    have f1 := (curve_deriv b2 t).1
    have f2 := (curve_deriv b2 t).2
    simp only [h.2] at f1 f2
    have g1 := f1.unique e1
    have g2 := f2.unique e2
    have ht : (1 + t) / 2 = t / 2 + 1 / 2 := by ring
    rw [ht] at g1 g2
    apply Complex.ext
    · rw [g1]; simp; ring
    · rw [g2]; simp; ring
  have l1 : arcLength b1 = ∫ t in (0 : ℝ)..(1 / 2), ‖vel b t‖ := by
    rw [arcLength_eq]
    have : (fun t => ‖vel b1 t‖) = fun t => (1 / 2 : ℝ) * ‖vel b (t / 2)‖ := by
      funext t
      rw [v1, norm_smul, Real.norm_of_nonneg (by norm_num)]
    rw [this, intervalIntegral.integral_const_mul, intervalIntegral.integral_comp_div (fun t => ‖vel b t‖) (by norm_num : (2 : ℝ) ≠ 0)]
    simp
  have l2 : arcLength b2 = ∫ t in (1 / 2 : ℝ)..1, ‖vel b t‖ := by
    rw [arcLength_eq]
    have : (fun t => ‖vel b2 t‖) = fun t => (1 / 2 : ℝ) * ‖vel b (t / 2 + 1 / 2)‖ := by
      funext t
      rw [v2, norm_smul, Real.norm_of_nonneg (by norm_num)]
    rw [this, intervalIntegral.integral_const_mul, intervalIntegral.integral_comp_div_add (fun t => ‖vel b t‖) (by norm_num : (2 : ℝ) ≠ 0)]
    norm_num
    ring
  rw [l1, l2, arcLength_eq, intervalIntegral.integral_add_adjacent_intervals]
  all_goals exact (vel_cont b).norm.intervalIntegrable _ _


theorem half_legs (b : Bez ℝ) :
    (toC (half1 b).c1 - toC (half1 b).p1 = (1 / 2 : ℝ) • (toC b.c1 - toC b.p1)) ∧
    (toC (half1 b).c2 - toC (half1 b).c1 = (1 / 4 : ℝ) • ((toC b.c1 - toC b.p1) + (toC b.c2 - toC b.c1))) ∧
    (toC (half1 b).p2 - toC (half1 b).c2 = (1 / 8 : ℝ) • ((toC b.c1 - toC b.p1) + (2 : ℝ) • (toC b.c2 - toC b.c1) + (toC b.p2 - toC b.c2))) ∧
    (toC (half2 b).c1 - toC (half2 b).p1 = (1 / 8 : ℝ) • ((toC b.c1 - toC b.p1) + (2 : ℝ) • (toC b.c2 - toC b.c1) + (toC b.p2 - toC b.c2))) ∧
    (toC (half2 b).c2 - toC (half2 b).c1 = (1 / 4 : ℝ) • ((toC b.c2 - toC b.c1) + (toC b.p2 - toC b.c2))) ∧
    (toC (half2 b).p2 - toC (half2 b).c2 = (1 / 2 : ℝ) • (toC b.p2 - toC b.c2)) := by
  refine ⟨?_, ?_, ?_, ?_, ?_, ?_⟩ <;> apply Complex.ext <;>
    simp only [half1, half2, toC, Bez.controlpointsAt, P.add, P.mul, Complex.add_re, Complex.smul_re, Complex.sub_re, Complex.add_im, Complex.smul_im, Complex.sub_im,
      smul_eq_mul, real_add, real_mul, real_sub, real_ofInt] <;> norm_num <;> ring

theorem norm_half (z : ℂ) (k : ℝ) (hk : 0 ≤ k) : ‖k • z‖ = k * ‖z‖ := by rw [norm_smul, Real.norm_of_nonneg hk]

theorem half_slack (b : Bez ℝ) : slack (half1 b) + slack (half2 b) ≤ slack b := by
  obtain ⟨h1, h2, h3, h4, h5, h6⟩ := half_legs b
  unfold slack
  simp only [sqDist_norm]
  rw [h1, h2, h3, h4, h5, h6]
  simp only [norm_half _ _ (by norm_num : (0 : ℝ) ≤ 1 / 2), norm_half _ _ (by norm_num : (0 : ℝ) ≤ 1 / 4), norm_half _ _ (by norm_num : (0 : ℝ) ≤ 1 / 8)]
  have a1 := norm_add_le (toC b.c1 - toC b.p1) (toC b.c2 - toC b.c1)
  have a2 := norm_add_le (toC b.c2 - toC b.c1) (toC b.p2 - toC b.c2)
  have a3 : ‖(toC b.c1 - toC b.p1) + (2 : ℝ) • (toC b.c2 - toC b.c1) + (toC b.p2 - toC b.c2)‖ ≤
      ‖toC b.c1 - toC b.p1‖ + 2 * ‖toC b.c2 - toC b.c1‖ + ‖toC b.p2 - toC b.c2‖ := by
    refine (norm_add₃_le).trans ?_
    rw [norm_half _ _ (by norm_num : (0 : ℝ) ≤ 2)]
  have a4 : ‖toC b.p2 - toC b.p1‖ ≤ ‖toC (half1 b).p2 - toC (half1 b).p1‖ + ‖toC (half2 b).p2 - toC (half2 b).p1‖ := by
    have e : toC b.p2 - toC b.p1 = (toC (half1 b).p2 - toC (half1 b).p1) + (toC (half2 b).p2 - toC (half2 b).p1) := by
      have e1 : (half1 b).p1 = b.p1 := rfl
      have e2 : (half2 b).p2 = b.p2 := rfl
      have e3 : (half1 b).p2 = (half2 b).p1 := rfl
      rw [e1, e2, e3]; ring
    rw [e]
    exact norm_add_le _ _
  linarith

/-- No leg of the control polygon is longer than `m`. -/
def Legs (m : ℝ) (b : Bez ℝ) : Prop := ‖toC b.c1 - toC b.p1‖ ≤ m ∧ ‖toC b.c2 - toC b.c1‖ ≤ m ∧ ‖toC b.p2 - toC b.c2‖ ≤ m

theorem legs_half {m : ℝ} {b : Bez ℝ} (h : Legs m b) : Legs (m / 2) (half1 b) ∧ Legs (m / 2) (half2 b) := by
  obtain ⟨h1, h2, h3, h4, h5, h6⟩ := half_legs b
  obtain ⟨m1, m2, m3⟩ := h
  have a1 := norm_add_le (toC b.c1 - toC b.p1) (toC b.c2 - toC b.c1)
  have a2 := norm_add_le (toC b.c2 - toC b.c1) (toC b.p2 - toC b.c2)
  have a3 : ‖(toC b.c1 - toC b.p1) + (2 : ℝ) • (toC b.c2 - toC b.c1) + (toC b.p2 - toC b.c2)‖ ≤
      ‖toC b.c1 - toC b.p1‖ + 2 * ‖toC b.c2 - toC b.c1‖ + ‖toC b.p2 - toC b.c2‖ := by
    refine (norm_add₃_le).trans ?_
    rw [norm_half _ _ (by norm_num : (0 : ℝ) ≤ 2)]
  unfold Legs
  rw [h1, h2, h3, h4, h5, h6]
  simp only [norm_half _ _ (by norm_num : (0 : ℝ) ≤ 1 / 2), norm_half _ _ (by norm_num : (0 : ℝ) ≤ 1 / 4), norm_half _ _ (by norm_num : (0 : ℝ) ≤ 1 / 8)]
  refine ⟨⟨?_, ?_, ?_⟩, ⟨?_, ?_, ?_⟩⟩ <;> linarith

theorem subdivide_half (b : Bez ℝ) : b.subdivide (lit 5 1) = (half1 b, some (half2 b)) := by
  have h : (lit 5 1 : ℝ) = 1 / 2 := by rw [lit_real]; norm_num
  unfold Bez.subdivide
  rw [h]
  simp only [real_le, real_zero, real_one]
  rw [if_neg (by norm_num)]
  rfl

theorem polyLen_eq (b : Bez ℝ) : b.polyLen = ‖toC b.c1 - toC b.p1‖ + ‖toC b.c2 - toC b.c1‖ + ‖toC b.p2 - toC b.c2‖ := by
  simp only [Bez.polyLen, real_add, distance_norm]
  rw [norm_sub_rev (toC b.p1) (toC b.c1), norm_sub_rev (toC b.c1) (toC b.c2), norm_sub_rev (toC b.c2) (toC b.p2)]

theorem slack_eq (b : Bez ℝ) : slack b = b.polyLen - b.p1.distance b.p2 := by
  rw [polyLen_eq, distance_norm, norm_sub_rev (toC b.p1)]
  unfold slack
  simp only [sqDist_norm]

theorem lengthRec_step (tol : ℝ) (n : Nat) (b : Bez ℝ) : Bez.lengthRec tol (n + 1) b =
    if tol < slack b then (do
      let len1 ← Bez.lengthRec tol n (half1 b)
      let len2 ← Bez.lengthRec tol n (half2 b)
      pure (len1 + len2))
    else .ok ((b.p1.distance b.p2 + b.polyLen) / 2) := by
  have h : (lit 5 1 : ℝ) = 1 / 2 := by rw [lit_real]; norm_num
  rw [Bez.lengthRec, subdivide_half, slack_eq]
  simp only [real_lt, real_sub, decide_eq_true_eq, real_add, real_mul, h]
  congr 2
  ring

theorem slack_nonneg (b : Bez ℝ) : 0 ≤ slack b := by
  rw [slack_eq, polyLen_eq, distance_norm, norm_sub_rev (toC b.p1)]
  have := chord_le b
  have := le_polygon b
  linarith

/-- **C115**, termination: for every curve and every positive tolerance the computation ends, as soon as the recursion limit allows for the depth `n` with
`3·m ≤ tolerance·2^n`, where no leg of the control polygon is longer than `m`. -/
theorem C115_terminates (tol : ℝ) (b : Bez ℝ) (m : ℝ) (hm : ‖toC b.c1 - toC b.p1‖ ≤ m ∧ ‖toC b.c2 - toC b.c1‖ ≤ m ∧ ‖toC b.p2 - toC b.c2‖ ≤ m)
    (n : Nat) (hn : 3 * m ≤ tol * 2 ^ n) (limit : Nat) (hl : n < limit) : ∃ r, Bez.lengthRec tol limit b = .ok r := by
  induction n generalizing b m limit with
  | zero =>
    obtain ⟨k, rfl⟩ : ∃ k, limit = k + 1 := ⟨limit - 1, by omega⟩
    rw [lengthRec_step, if_neg]
    · exact ⟨_, rfl⟩
    · rw [not_lt, slack_eq, polyLen_eq]
      have : 0 ≤ b.p1.distance b.p2 := by rw [distance_norm]; exact norm_nonneg _
      rw [pow_zero, mul_one] at hn
      linarith [hm.1, hm.2.1, hm.2.2]
  | succ n ih =>
    obtain ⟨k, rfl⟩ : ∃ k, limit = k + 1 := ⟨limit - 1, by omega⟩
    rw [lengthRec_step]
    split
    · obtain ⟨l1, l2⟩ := legs_half (m := m) (b := b) hm
      have hn' : 3 * (m / 2) ≤ tol * 2 ^ n := by rw [pow_succ] at hn; linarith
      obtain ⟨r1, hr1⟩ := ih (half1 b) (m / 2) l1 hn' k (by omega)
      obtain ⟨r2, hr2⟩ := ih (half2 b) (m / 2) l2 hn' k (by omega)
      exact ⟨r1 + r2, by rw [hr1, hr2]; rfl⟩
    · exact ⟨_, rfl⟩

/-- **C115**, accuracy: the result of every completed computation differs from the arc length by at most half the tolerance for each of the pieces into which the
curve is divided, and by at most half of what the control polygon is longer than the chord.  Missing: a bound by the tolerance itself, which the documentation promises
(the errors of the pieces add up). -/
theorem C115_length_partial (tol : ℝ) (limit : Nat) (b : Bez ℝ) (r : ℝ) (h : Bez.lengthRec tol limit b = .ok r) :
    ∃ l, Pieces tol b l ∧ |r - arcLength b| ≤ l.length * (tol / 2) ∧ |r - arcLength b| ≤ slack b / 2 ∧
      √(sqDist b.p1 b.p2) ≤ r ∧ r ≤ √(sqDist b.p1 b.c1) + √(sqDist b.c1 b.c2) + √(sqDist b.c2 b.p2) := by
  induction limit generalizing b r with
  | zero => cases h
  | succ k ih =>
    have hs := slack_eq b
    have hc := chord_le b
    have hp := le_polygon b
    have hsd : slack b = (√(sqDist b.p1 b.c1) + √(sqDist b.c1 b.c2) + √(sqDist b.c2 b.p2)) - √(sqDist b.p1 b.p2) := rfl
    rw [lengthRec_step] at h
    split at h
    · rename_i hlt
      cases h1 : Bez.lengthRec tol k (half1 b) with
      | error e => rw [h1] at h; cases h
      | ok r1 =>
        cases h2 : Bez.lengthRec tol k (half2 b) with
        | error e => rw [h1, h2] at h; cases h
        | ok r2 =>
          rw [h1, h2] at h
          injection h with h
          subst h
          obtain ⟨l1, p1, e1, f1, -, -⟩ := ih _ _ h1
          obtain ⟨l2, p2, e2, f2, -, -⟩ := ih _ _ h2
          have hL := halves_length (half_curves b)
          have hsl := half_slack b
          have hab : |r1 + r2 - arcLength b| ≤ |r1 - arcLength (half1 b)| + |r2 - arcLength (half2 b)| := by
            rw [hL, show r1 + r2 - (arcLength (half1 b) + arcLength (half2 b)) = (r1 - arcLength (half1 b)) + (r2 - arcLength (half2 b)) by ring]
            exact abs_add_le _ _
          have hss : |r1 + r2 - arcLength b| ≤ slack b / 2 := by linarith
          refine ⟨l1 ++ l2, .halved b _ _ l1 l2 hlt (half_curves b) p1 p2, ?_, hss, ?_⟩
          · rw [List.length_append, Nat.cast_add, add_mul]
            linarith
          · -- bounds from the pieces
            obtain ⟨_, _, _, _, a1, a2⟩ := ih _ _ h1
            obtain ⟨_, _, _, _, b1, b2⟩ := ih _ _ h2
            have t4 : √(sqDist b.p1 b.p2) ≤ √(sqDist (half1 b).p1 (half1 b).p2) + √(sqDist (half2 b).p1 (half2 b).p2) := by
              simp only [sqDist_norm]
              have e : toC b.p2 - toC b.p1 = (toC (half1 b).p2 - toC (half1 b).p1) + (toC (half2 b).p2 - toC (half2 b).p1) := by
                have e1 : (half1 b).p1 = b.p1 := rfl
                have e2 : (half2 b).p2 = b.p2 := rfl
                have e3 : (half1 b).p2 = (half2 b).p1 := rfl
                rw [e1, e2, e3]; ring
              rw [e]
              exact norm_add_le _ _
            have t5 : √(sqDist (half1 b).p1 (half1 b).c1) + √(sqDist (half1 b).c1 (half1 b).c2) + √(sqDist (half1 b).c2 (half1 b).p2) +
                (√(sqDist (half2 b).p1 (half2 b).c1) + √(sqDist (half2 b).c1 (half2 b).c2) + √(sqDist (half2 b).c2 (half2 b).p2)) ≤
                √(sqDist b.p1 b.c1) + √(sqDist b.c1 b.c2) + √(sqDist b.c2 b.p2) := by
              obtain ⟨h1, h2, h3, h4, h5, h6⟩ := half_legs b
              simp only [sqDist_norm]
              rw [h1, h2, h3, h4, h5, h6]
              simp only [norm_half _ _ (by norm_num : (0 : ℝ) ≤ 1 / 2), norm_half _ _ (by norm_num : (0 : ℝ) ≤ 1 / 4), norm_half _ _ (by norm_num : (0 : ℝ) ≤ 1 / 8)]
              have a1 := norm_add_le (toC b.c1 - toC b.p1) (toC b.c2 - toC b.c1)
              have a2 := norm_add_le (toC b.c2 - toC b.c1) (toC b.p2 - toC b.c2)
              have a3 : ‖(toC b.c1 - toC b.p1) + (2 : ℝ) • (toC b.c2 - toC b.c1) + (toC b.p2 - toC b.c2)‖ ≤
                  ‖toC b.c1 - toC b.p1‖ + 2 * ‖toC b.c2 - toC b.c1‖ + ‖toC b.p2 - toC b.c2‖ := by
                refine (norm_add₃_le).trans ?_
                rw [norm_half _ _ (by norm_num : (0 : ℝ) ≤ 2)]
              linarith
            exact ⟨by linarith, by linarith⟩
    · rename_i hlt
      rw [not_lt] at hlt
      injection h with h
      subst h
      have hpl := polyLen_eq b
      have hd := distance_norm b.p1 b.p2
      rw [norm_sub_rev] at hd
      have habs : |(b.p1.distance b.p2 + b.polyLen) / 2 - arcLength b| ≤ slack b / 2 := by
        rw [abs_le]
        constructor <;> linarith
      have hn0 := slack_nonneg b
      have e1 : √(sqDist b.p1 b.p2) = b.p1.distance b.p2 := by rw [sqDist_norm, hd]
      have e2 : √(sqDist b.p1 b.c1) + √(sqDist b.c1 b.c2) + √(sqDist b.c2 b.p2) = b.polyLen := by simp only [sqDist_norm]; rw [hpl]
      refine ⟨[b], .whole b hlt, ?_, habs, ?_, ?_⟩
      · simp only [List.length_singleton, Nat.cast_one, one_mul]; linarith
      · rw [e1]; linarith
      · rw [e2]; linarith

/-- The part of **C115** that fails: the computed length is kept and returned from then on, whatever tolerance is asked for later.  A curve asked first for a coarse
length is given that length also for a fine tolerance, here wrong by more than 0.3 at a tolerance of 0.01. -/
theorem C115_refuted_cache :
    (∀ {K : Type} [PyTrig K] (limit limit' : Nat) (tol tol' : K) (o : Bez.Obj K) (r : K) (o' : Bez.Obj K), o.length limit tol = .ok (r, o') →
      o'.length limit' tol' = .ok (r, o')) ∧
    ∃ (b : Bez ℝ) (r : ℝ) (o : Bez.Obj ℝ), Bez.Obj.length 1000 10 ⟨b, none⟩ = .ok (r, o) ∧ o.length 1000 0.01 = .ok (r, o) ∧
      ∃ r', Bez.lengthRec 0.01 1000 b = .ok r' ∧ 0.3 < |r - r'| ∧ |r' - arcLength b| ≤ 0.1 := by
  have h0 : ∀ {K : Type} [PyTrig K] (limit limit' : Nat) (tol tol' : K) (o : Bez.Obj K) (r : K) (o' : Bez.Obj K), o.length limit tol = .ok (r, o') →
      o'.length limit' tol' = .ok (r, o') := by
    intro K _ limit limit' tol tol' o r o' h
    unfold Bez.Obj.length at h
    cases hc : o.cache with
    | some l =>
      rw [hc] at h
      injection h with h
      injection h with h1 h2
      subst h1 h2
      unfold Bez.Obj.length
      rw [hc]
    | none =>
      rw [hc] at h
      cases hl : Bez.lengthRec tol limit o.curve with
      | error e => rw [hl] at h; cases h
      | ok l =>
        rw [hl] at h
        injection h with h
        injection h with h1 h2
        subst h1 h2
        rfl
  refine ⟨h0, ⟨⟨0, 0⟩, ⟨1, 0⟩, ⟨1, 0⟩, ⟨0, 0⟩⟩, 1, ⟨⟨⟨0, 0⟩, ⟨1, 0⟩, ⟨1, 0⟩, ⟨0, 0⟩⟩, some 1⟩, ?_, rfl, ?_⟩
  · have hs : slack (⟨⟨0, 0⟩, ⟨1, 0⟩, ⟨1, 0⟩, ⟨0, 0⟩⟩ : Bez ℝ) = 2 := by norm_num [slack, sqDist]
    unfold Bez.Obj.length
    dsimp only
    rw [lengthRec_step, hs, if_neg (by norm_num)]
    norm_num [Bez.polyLen, P.distance, bind, Except.bind, pure, Except.pure]
  · have hs : slack (⟨⟨0, 0⟩, ⟨1, 0⟩, ⟨1, 0⟩, ⟨0, 0⟩⟩ : Bez ℝ) = 2 := by norm_num [slack, sqDist]
    have e1 : half1 (⟨⟨0, 0⟩, ⟨1, 0⟩, ⟨1, 0⟩, ⟨0, 0⟩⟩ : Bez ℝ) = ⟨⟨0, 0⟩, ⟨1 / 2, 0⟩, ⟨3 / 4, 0⟩, ⟨3 / 4, 0⟩⟩ := by
      norm_num [half1, Bez.controlpointsAt, P.add, P.mul]
    have e2 : half2 (⟨⟨0, 0⟩, ⟨1, 0⟩, ⟨1, 0⟩, ⟨0, 0⟩⟩ : Bez ℝ) = ⟨⟨3 / 4, 0⟩, ⟨3 / 4, 0⟩, ⟨1 / 2, 0⟩, ⟨0, 0⟩⟩ := by
      norm_num [half2, Bez.controlpointsAt, P.add, P.mul]
    have q1 : √(1 / 4 : ℝ) = 1 / 2 := by rw [show (1 / 4 : ℝ) = (1 / 2) ^ 2 by norm_num]; exact Real.sqrt_sq (by norm_num)
    have q2 : √(1 / 16 : ℝ) = 1 / 4 := by rw [show (1 / 16 : ℝ) = (1 / 4) ^ 2 by norm_num]; exact Real.sqrt_sq (by norm_num)
    have q3 : √(9 / 16 : ℝ) = 3 / 4 := by rw [show (9 / 16 : ℝ) = (3 / 4) ^ 2 by norm_num]; exact Real.sqrt_sq (by norm_num)
    have s1 : slack (⟨⟨0, 0⟩, ⟨1 / 2, 0⟩, ⟨3 / 4, 0⟩, ⟨3 / 4, 0⟩⟩ : Bez ℝ) = 0 := by
      unfold slack
      rw [show sqDist (⟨0, 0⟩ : P ℝ) ⟨1 / 2, 0⟩ = 1 / 4 by norm_num [sqDist], show sqDist (⟨1 / 2, 0⟩ : P ℝ) ⟨3 / 4, 0⟩ = 1 / 16 by norm_num [sqDist],
        show sqDist (⟨3 / 4, 0⟩ : P ℝ) ⟨3 / 4, 0⟩ = 0 by norm_num [sqDist], show sqDist (⟨0, 0⟩ : P ℝ) ⟨3 / 4, 0⟩ = 9 / 16 by norm_num [sqDist], q1, q2, q3, Real.sqrt_zero]
      norm_num
    have s2 : slack (⟨⟨3 / 4, 0⟩, ⟨3 / 4, 0⟩, ⟨1 / 2, 0⟩, ⟨0, 0⟩⟩ : Bez ℝ) = 0 := by
      unfold slack
      rw [show sqDist (⟨1 / 2, 0⟩ : P ℝ) ⟨0, 0⟩ = 1 / 4 by norm_num [sqDist], show sqDist (⟨3 / 4, 0⟩ : P ℝ) ⟨1 / 2, 0⟩ = 1 / 16 by norm_num [sqDist],
        show sqDist (⟨3 / 4, 0⟩ : P ℝ) ⟨3 / 4, 0⟩ = 0 by norm_num [sqDist], show sqDist (⟨3 / 4, 0⟩ : P ℝ) ⟨0, 0⟩ = 9 / 16 by norm_num [sqDist], q1, q2, q3, Real.sqrt_zero]
      norm_num
    have c1 : (⟨0, 0⟩ : P ℝ).distance ⟨3 / 4, 0⟩ = 3 / 4 := by
      rw [distance_norm, norm_sub_rev, ← sqDist_norm, show sqDist (⟨0, 0⟩ : P ℝ) ⟨3 / 4, 0⟩ = 9 / 16 by norm_num [sqDist], q3]
    have c2 : (⟨3 / 4, 0⟩ : P ℝ).distance ⟨0, 0⟩ = 3 / 4 := by
      rw [distance_norm, norm_sub_rev, ← sqDist_norm, show sqDist (⟨3 / 4, 0⟩ : P ℝ) ⟨0, 0⟩ = 9 / 16 by norm_num [sqDist], q3]
    have d1 : (⟨⟨0, 0⟩, ⟨1 / 2, 0⟩, ⟨3 / 4, 0⟩, ⟨3 / 4, 0⟩⟩ : Bez ℝ).polyLen = 3 / 4 := by
      have := slack_eq (⟨⟨0, 0⟩, ⟨1 / 2, 0⟩, ⟨3 / 4, 0⟩, ⟨3 / 4, 0⟩⟩ : Bez ℝ)
      rw [s1, c1] at this
      linarith
    have d2 : (⟨⟨3 / 4, 0⟩, ⟨3 / 4, 0⟩, ⟨1 / 2, 0⟩, ⟨0, 0⟩⟩ : Bez ℝ).polyLen = 3 / 4 := by
      have := slack_eq (⟨⟨3 / 4, 0⟩, ⟨3 / 4, 0⟩, ⟨1 / 2, 0⟩, ⟨0, 0⟩⟩ : Bez ℝ)
      rw [s2, c2] at this
      linarith
    have t1 : Bez.lengthRec 0.01 999 (⟨⟨0, 0⟩, ⟨1 / 2, 0⟩, ⟨3 / 4, 0⟩, ⟨3 / 4, 0⟩⟩ : Bez ℝ) = .ok (3 / 4) := by
      rw [lengthRec_step, s1, if_neg (by norm_num), d1, c1]
      norm_num
    have t2 : Bez.lengthRec 0.01 999 (⟨⟨3 / 4, 0⟩, ⟨3 / 4, 0⟩, ⟨1 / 2, 0⟩, ⟨0, 0⟩⟩ : Bez ℝ) = .ok (3 / 4) := by
      rw [lengthRec_step, s2, if_neg (by norm_num), d2, c2]
      norm_num
    have r' : Bez.lengthRec 0.01 1000 (⟨⟨0, 0⟩, ⟨1, 0⟩, ⟨1, 0⟩, ⟨0, 0⟩⟩ : Bez ℝ) = .ok (3 / 2) := by
      rw [lengthRec_step, hs, if_pos (by norm_num), e1, e2, t1, t2]
      norm_num [bind, Except.bind, pure, Except.pure]
    obtain ⟨l, hl, h1, -⟩ := C115_length_partial 0.01 1000 _ _ r'
    refine ⟨3 / 2, r', by norm_num, ?_⟩
    have hlen := halves_length (half_curves (⟨⟨0, 0⟩, ⟨1, 0⟩, ⟨1, 0⟩, ⟨0, 0⟩⟩ : Bez ℝ))
    rw [e1, e2] at hlen
    have g1 := chord_le (⟨⟨0, 0⟩, ⟨1 / 2, 0⟩, ⟨3 / 4, 0⟩, ⟨3 / 4, 0⟩⟩ : Bez ℝ)
    have g2 := le_polygon (⟨⟨0, 0⟩, ⟨1 / 2, 0⟩, ⟨3 / 4, 0⟩, ⟨3 / 4, 0⟩⟩ : Bez ℝ)
    have g3 := chord_le (⟨⟨3 / 4, 0⟩, ⟨3 / 4, 0⟩, ⟨1 / 2, 0⟩, ⟨0, 0⟩⟩ : Bez ℝ)
    have g4 := le_polygon (⟨⟨3 / 4, 0⟩, ⟨3 / 4, 0⟩, ⟨1 / 2, 0⟩, ⟨0, 0⟩⟩ : Bez ℝ)
    rw [norm_sub_rev, ← distance_norm, c1] at g1
    rw [norm_sub_rev, ← distance_norm, c2] at g3
    rw [← polyLen_eq, d1] at g2
    rw [← polyLen_eq, d2] at g4
    rw [hlen, abs_le]
    constructor <;> linarith

/-- Non-vacuity: a curve whose length is computed; here the pieces are straight and the result is exact. -/
example : ∃ r, Bez.lengthRec 0.01 1000 (⟨⟨0, 0⟩, ⟨1, 0⟩, ⟨1, 0⟩, ⟨0, 0⟩⟩ : Bez ℝ) = .ok r :=
  C115_terminates 0.01 _ 1 (by simp only [← sqDist_norm, sqDist]; norm_num) 9 (by norm_num) 1000 (by norm_num)

end Verif.Geom
