import Verif.Geom.Inscribed
import Verif.Geom.Props6
import Verif.Geom.Props7

/-!
# C165: the ellipse inscribed in a parallelogram
-/

set_option linter.unusedSectionVars false
set_option linter.unusedVariables false

namespace Verif.Geom
open Verif PyFloat PyTrig

/-! ## Specification -/

/-- Specification: the four points are the corners of a parallelogram, in order. -/
def Par4 (v0 v1 v2 v3 : P ℝ) : Prop := v2.x = v1.x + v3.x - v0.x ∧ v2.y = v1.y + v3.y - v0.y

/-- Specification: the area spanned by the sides from `v0` to `v1` and to `v3`, counterclockwise positive. -/
def parArea (v0 v1 v3 : P ℝ) : ℝ := (v1.x - v0.x) * (v3.y - v0.y) - (v3.x - v0.x) * (v1.y - v0.y)

/-- Specification: the point that is `s` of the way along the first side and `t` of the way along the last. -/
def parPt (v0 v1 v3 : P ℝ) (s t : ℝ) : P ℝ := ⟨v0.x + s * (v1.x - v0.x) + t * (v3.x - v0.x), v0.y + s * (v1.y - v0.y) + t * (v3.y - v0.y)⟩

/-- Specification: the point is in the parallelogram or on its outline. -/
def InPar (v0 v1 v3 p : P ℝ) : Prop := ∃ s t, 0 ≤ s ∧ s ≤ 1 ∧ 0 ≤ t ∧ t ≤ 1 ∧ p = parPt v0 v1 v3 s t

/-- Specification: the ellipse touches the side: it has a point between its ends, and no point of the line of the side is inside it. -/
def TouchesSide (e : Ell ℝ) (a b : P ℝ) : Prop :=
  (∀ t, 1 ≤ e.level (segPt ⟨a, b⟩ t)) ∧ ∃ t, 0 < t ∧ t < 1 ∧ e.On (segPt ⟨a, b⟩ t)

/-- Specification: the ellipse is inscribed: it touches each of the four sides and no point of it is outside the parallelogram. -/
def InscribedIn (e : Ell ℝ) (v0 v1 v2 v3 : P ℝ) : Prop :=
  TouchesSide e v0 v1 ∧ TouchesSide e v1 v2 ∧ TouchesSide e v2 v3 ∧ TouchesSide e v3 v0 ∧ ∀ p, e.level p ≤ 1 → InPar v0 v1 v3 p

/-- Specification: the middle of two points. -/
noncomputable def middle (p q : P ℝ) : P ℝ := ⟨(p.x + q.x) / 2, (p.y + q.y) / 2⟩

/-! ## The semi-axes -/

theorem insc_pdiv {a b : ℝ} (h : b ≠ 0) : pdiv a b = .ok (a / b) := by
  unfold pdiv
  rw [if_neg (by simpa using h)]
  rfl

theorem insc_psqrt {a : ℝ} (h : 0 ≤ a) : psqrt a = .ok (Real.sqrt a) := by
  unfold psqrt
  rw [if_neg (by simpa using h)]
  rfl

/-- The share of the height at which the ellipse touches. -/
noncomputable def heightShare (ecc k d h : ℝ) : ℝ :=
  if 1 ≤ ecc ∨ ecc < 0 then 1 / 2 else ((d + h) ^ 2 + k ^ 2) / (2 * (k ^ 2 + d ^ 2 + h ^ 2)) * (1 - ecc)

theorem heightShare_bounds {ecc k d h : ℝ} (hk : 0 < k) (hd : 0 ≤ d) (hh : 0 < h) : 0 < heightShare ecc k d h ∧ heightShare ecc k d h < 1 := by
  unfold heightShare
  split
  · norm_num
  · rename_i hne
    push Not at hne
    have hden : 0 < 2 * (k ^ 2 + d ^ 2 + h ^ 2) := by positivity
    have h1 : 0 < ((d + h) ^ 2 + k ^ 2) / (2 * (k ^ 2 + d ^ 2 + h ^ 2)) := by positivity
    have h2 : ((d + h) ^ 2 + k ^ 2) / (2 * (k ^ 2 + d ^ 2 + h ^ 2)) < 1 := by
      rw [div_lt_one hden]
      nlinarith [sq_nonneg (d - h), sq_nonneg k, hk]
    refine ⟨by apply mul_pos h1; linarith [hne.1], ?_⟩
    nlinarith [hne.1, hne.2]

theorem inscribedV_real {ecc k d h : ℝ} (hk : 0 < k) (hd : 0 ≤ d) (hh : 0 < h) : inscribedV ecc k d h = .ok (k * heightShare ecc k d h) := by
  have hden : 0 < k ^ 2 + d ^ 2 + h ^ 2 := by positivity
  unfold inscribedV heightShare
  simp only [real_one, real_zero, real_le, real_lt, decide_eq_true_eq]
  split
  · simp only [real_div, real_ofInt]
    norm_num
    ring_nf
  · simp only [real_div, real_ofInt, real_mul, real_add, real_sub]
    rw [insc_pdiv (by nlinarith)]
    simp only [bind, Except.bind, pure, Except.pure]
    congr 1
    rw [← pow_two, ← pow_two, ← pow_two, ← pow_two]
    push_cast
    field_simp

/-- The sum of the eigenvalues of the equation's quadratic part. -/
noncomputable def trace4 (k d h y : ℝ) : ℝ := k ^ 3 + (k * (d + h) ^ 2 - 4 * d * h * (k * y))
/-- The root of the discriminant. -/
noncomputable def root4 (k d h y : ℝ) : ℝ := Real.sqrt ((k * (d + h) ^ 2 - 4 * d * h * (k * y) - k ^ 3) ^ 2 + 4 * (k ^ 2 * (d + h - 2 * h * y)) ^ 2)

theorem root4_sq (k d h y : ℝ) : root4 k d h y ^ 2 = trace4 k d h y ^ 2 - 16 * k ^ 4 * h ^ 2 * (y * (1 - y)) := by
  unfold root4 trace4
  rw [Real.sq_sqrt (by positivity)]
  ring

theorem trace4_pos {k d h y : ℝ} (hk : 0 < k) (hd : 0 ≤ d) (hh : 0 < h) (h0 : 0 < y) (h1 : y < 1) : 0 < trace4 k d h y := by
  unfold trace4
  have : 0 ≤ (d + h) ^ 2 - 4 * d * h * y := by nlinarith [sq_nonneg (d - h), mul_nonneg hd hh.le]
  have h3 : 0 < k ^ 3 := by positivity
  nlinarith [mul_nonneg hk.le this]

theorem root4_lt {k d h y : ℝ} (hk : 0 < k) (hd : 0 ≤ d) (hh : 0 < h) (h0 : 0 < y) (h1 : y < 1) : root4 k d h y < trace4 k d h y := by
  have h2 := trace4_pos hk hd hh h0 h1
  have h3 := root4_sq k d h y
  have h4 : 0 < 16 * k ^ 4 * h ^ 2 * (y * (1 - y)) := by
    have : 0 < 1 - y := by linarith
    positivity
  nlinarith [Real.sqrt_nonneg ((k * (d + h) ^ 2 - 4 * d * h * (k * y) - k ^ 3) ^ 2 + 4 * (k ^ 2 * (d + h - 2 * h * y)) ^ 2)]

theorem root4_nonneg (k d h y : ℝ) : 0 ≤ root4 k d h y := Real.sqrt_nonneg _

theorem inscribedAxes_real {k d h y : ℝ} (hk : 0 < k) (hd : 0 ≤ d) (hh : 0 < h) (h0 : 0 < y) (h1 : y < 1) :
    inscribedAxes k d h (k * y) = .ok (Real.sqrt (2 * k ^ 3 * h ^ 2 * (y * (1 - y)) / (trace4 k d h y - root4 k d h y)),
      Real.sqrt (2 * k ^ 3 * h ^ 2 * (y * (1 - y)) / (trace4 k d h y + root4 k d h y))) := by
  have hlt := root4_lt hk hd hh h0 h1
  have hr := root4_nonneg k d h y
  have htr := trace4_pos hk hd hh h0 h1
  have h1y : 0 < 1 - y := by linarith
  unfold inscribedAxes
  simp only [real_mul, real_sub, real_add, real_neg, real_ofInt]
  push_cast
  have e3 : (k * ((d + h) * (d + h)) - 4 * d * h * (k * y) - k * k * k) * (k * ((d + h) * (d + h)) - 4 * d * h * (k * y) - k * k * k) +
      4 * (-k * (k * d - 2 * h * (k * y) + k * h)) * (-k * (k * d - 2 * h * (k * y) + k * h)) =
      (k * (d + h) ^ 2 - 4 * d * h * (k * y) - k ^ 3) ^ 2 + 4 * (k ^ 2 * (d + h - 2 * h * y)) ^ 2 := by ring
  rw [e3, insc_psqrt (by positivity)]
  change (do
    let t3 ← Except.ok (root4 k d h y)
    _) = _
  simp only [bind, Except.bind, pure, Except.pure]
  have e2 : 2 * (k * k * k * (k * ((d + h) * (d + h)) - 4 * d * h * (k * y)) - -k * (k * d - 2 * h * (k * y) + k * h) * (-k * (k * d - 2 * h * (k * y) + k * h))) =
      8 * k ^ 4 * h ^ 2 * (y * (1 - y)) := by ring
  have e0 : k * k * k + (k * ((d + h) * (d + h)) - 4 * d * h * (k * y)) = trace4 k d h y := by unfold trace4; ring
  have e1 : k * k * k * (2 * k * h * (k * y) * (d - h)) * (2 * k * h * (k * y) * (d - h)) +
                (k * ((d + h) * (d + h)) - 4 * d * h * (k * y)) * (-2 * k * k * h * (k * y)) * (-2 * k * k * h * (k * y)) +
              4 * (k * h * h * (k * y) * (k * y)) * (-k * (k * d - 2 * h * (k * y) + k * h)) * (-k * (k * d - 2 * h * (k * y) + k * h)) -
            2 * (-k * (k * d - 2 * h * (k * y) + k * h)) * (-2 * k * k * h * (k * y)) * (2 * k * h * (k * y) * (d - h)) -
          4 * (k * k * k) * (k * ((d + h) * (d + h)) - 4 * d * h * (k * y)) * (k * h * h * (k * y) * (k * y)) =
      16 * k ^ 7 * h ^ 4 * (y * (1 - y)) ^ 2 := by ring
  rw [e0, e1, e2]
  have hp : 0 < trace4 k d h y - root4 k d h y := by linarith
  have hq : 0 < trace4 k d h y + root4 k d h y := by linarith
  rw [insc_pdiv (by positivity)]
  simp only []
  have ea : 16 * k ^ 7 * h ^ 4 * (y * (1 - y)) ^ 2 / (8 * k ^ 4 * h ^ 2 * (y * (1 - y)) * (trace4 k d h y - root4 k d h y)) =
      2 * k ^ 3 * h ^ 2 * (y * (1 - y)) / (trace4 k d h y - root4 k d h y) := by
    field_simp
    ring
  have eb : 16 * k ^ 7 * h ^ 4 * (y * (1 - y)) ^ 2 / (8 * k ^ 4 * h ^ 2 * (y * (1 - y)) * (trace4 k d h y + root4 k d h y)) =
      2 * k ^ 3 * h ^ 2 * (y * (1 - y)) / (trace4 k d h y + root4 k d h y) := by
    field_simp
    ring
  rw [ea, insc_psqrt (by positivity)]
  simp only []
  rw [insc_pdiv (by positivity)]
  simp only []
  rw [eb, insc_psqrt (by positivity)]

/-- The semi-axes of the inscribed ellipse, whatever the parallelogram: they are positive, the first is the longer, and their product. -/
theorem axes_spec {k d h y : ℝ} (hk : 0 < k) (hd : 0 ≤ d) (hh : 0 < h) (h0 : 0 < y) (h1 : y < 1) :
    ∃ a b, inscribedAxes k d h (k * y) = .ok (a, b) ∧ 0 < b ∧ b ≤ a ∧ a * b = k * h * Real.sqrt (y * (1 - y)) / 2 ∧
      (k ^ 2 + d ^ 2 = h ^ 2 → y ≤ (d + h) / (2 * h) → a ^ 2 = h * (h + d) / 2 * (1 - y) ∧ b ^ 2 = h * (h - d) / 2 * y) := by
  have hlt := root4_lt hk hd hh h0 h1
  have hr := root4_nonneg k d h y
  have htr := trace4_pos hk hd hh h0 h1
  have h1y : 0 < 1 - y := by linarith
  have hp : 0 < trace4 k d h y - root4 k d h y := by linarith
  have hq : 0 < trace4 k d h y + root4 k d h y := by linarith
  refine ⟨_, _, inscribedAxes_real hk hd hh h0 h1, by apply Real.sqrt_pos.mpr; positivity, ?_, ?_, ?_⟩
  · apply Real.sqrt_le_sqrt
    apply div_le_div_of_nonneg_left <;> first | positivity | linarith
  · rw [← Real.sqrt_mul (by positivity)]
    have e : 2 * k ^ 3 * h ^ 2 * (y * (1 - y)) / (trace4 k d h y - root4 k d h y) * (2 * k ^ 3 * h ^ 2 * (y * (1 - y)) / (trace4 k d h y + root4 k d h y)) =
        (k * h / 2) ^ 2 * (y * (1 - y)) := by
      rw [div_mul_div_comm, show (trace4 k d h y - root4 k d h y) * (trace4 k d h y + root4 k d h y) = 16 * k ^ 4 * h ^ 2 * (y * (1 - y)) by
        linear_combination -(root4_sq k d h y)]
      field_simp
      ring
    rw [e, Real.sqrt_mul (by positivity), Real.sqrt_sq (by positivity)]
    ring
  · intro hrh hy
    have hm : 0 ≤ d + h - 2 * h * y := by
      rw [le_div_iff₀ (by positivity)] at hy
      linarith
    have hroot : root4 k d h y = 2 * h * k * (d + h - 2 * h * y) := by
      unfold root4
      rw [show (k * (d + h) ^ 2 - 4 * d * h * (k * y) - k ^ 3) ^ 2 + 4 * (k ^ 2 * (d + h - 2 * h * y)) ^ 2 = (2 * h * k * (d + h - 2 * h * y)) ^ 2 by
        have : k ^ 3 = k * (h ^ 2 - d ^ 2) := by linear_combination k * hrh
        rw [this]
        have h4 : k ^ 4 = k ^ 2 * (h ^ 2 - d ^ 2) := by linear_combination k ^ 2 * hrh
        linear_combination 4 * (d + h - 2 * h * y) ^ 2 * h4]
      exact Real.sqrt_sq (by positivity)
    have hhd : 0 < h - d := by nlinarith
    have hhd' : 0 < h + d := by linarith
    have hk2 : k ^ 2 = (h - d) * (h + d) := by linear_combination hrh
    have hk3 : k ^ 3 = k * ((h - d) * (h + d)) := by linear_combination k * hk2
    have t1 : trace4 k d h y - root4 k d h y = 4 * k * h * (h - d) * y := by
      rw [hroot]; unfold trace4; linear_combination hk3
    have t2 : trace4 k d h y + root4 k d h y = 4 * k * h * (h + d) * (1 - y) := by
      rw [hroot]; unfold trace4; linear_combination hk3
    rw [Real.sq_sqrt (by positivity), Real.sq_sqrt (by positivity), t1, t2]
    constructor
    · rw [hk3]; field_simp; norm_num
    · rw [hk3]; field_simp; norm_num

/-! ## The frame -/

theorem cos_cornerTheta {eps : ℝ} {v0 v1 v3 : P ℝ} (h : eps ^ 2 ≤ sqDist v1 v3) :
    Real.sqrt (sqDist v0 v1) * Real.sqrt (sqDist v0 v3) * Real.cos (cornerTheta eps v0 v1 v3) =
      (v1.x - v0.x) * (v3.x - v0.x) + (v1.y - v0.y) * (v3.y - v0.y) ∧
    Real.sqrt (sqDist v0 v1) * Real.sqrt (sqDist v0 v3) * Real.sin (cornerTheta eps v0 v1 v3) = |parArea v0 v1 v3| ∧
    0 ≤ cornerTheta eps v0 v1 v3 ∧ cornerTheta eps v0 v1 v3 ≤ Real.pi := by
  have ha : v0.angle2 eps v1 v3 = P.angle ⟨(v1.x - v0.x) * (v3.x - v0.x) + (v1.y - v0.y) * (v3.y - v0.y), parArea v0 v1 v3⟩ := by
    rw [angle2_real _ _ _ _ h]
    rfl
  have hr : 0 ≤ Real.sqrt (sqDist v0 v1) * Real.sqrt (sqDist v0 v3) := by positivity
  have hpol := polar_atan2 ⟨(v1.x - v0.x) * (v3.x - v0.x) + (v1.y - v0.y) * (v3.y - v0.y), parArea v0 v1 v3⟩ _ hr (by
    rw [mul_pow, Real.sq_sqrt (sqDist_nonneg _ _), Real.sq_sqrt (sqDist_nonneg _ _)]
    unfold sqDist parArea
    ring)
  have hle : |v0.angle2 eps v1 v3| ≤ Real.pi := by
    rw [ha]
    exact Complex.abs_arg_le_pi _
  unfold cornerTheta
  simp only [real_abs]
  refine ⟨?_, ?_, abs_nonneg _, hle⟩
  · rw [Real.cos_abs, ha]
    exact hpol.1
  · rw [show Real.sin |v0.angle2 eps v1 v3| = |Real.sin (v0.angle2 eps v1 v3)| by
      rcases abs_cases (v0.angle2 eps v1 v3) with ⟨h1, h2⟩ | ⟨h1, h2⟩
      · rw [h1, abs_of_nonneg]
        exact Real.sin_nonneg_of_nonneg_of_le_pi h2 (h1 ▸ hle)
      · rw [h1, Real.sin_neg, abs_of_nonpos]
        exact Real.sin_nonpos_of_nonpos_of_neg_pi_le h2.le (by linarith)]
    rw [← abs_of_nonneg hr, ← abs_mul, ha, hpol.2]

/-- Specification: the scalar product of the sides from `v0` to `v1` and to `v3`. -/
def parDot (v0 v1 v3 : P ℝ) : ℝ := (v1.x - v0.x) * (v3.x - v0.x) + (v1.y - v0.y) * (v3.y - v0.y)

/-- The direction of the first axis. -/
noncomputable def majorAngle (v0 v1 v2 v3 : P ℝ) : ℝ :=
  if parDot v0 v1 v3 < 0 then P.angle (v2.sub v0) + Real.pi / 2 else P.angle (v2.sub v0)

/-- What is made: the height `k`, the overlap `d` and the side `h` of the parallelogram seen from an acute corner. -/
theorem inscribed_frame {eps ecc : ℝ} {v0 v1 v2 v3 : P ℝ} (hp : Par4 v0 v1 v2 v3) (ha : parArea v0 v1 v3 ≠ 0) (h : eps ^ 2 ≤ sqDist v1 v3) :
    ∃ k d h : ℝ, 0 < k ∧ 0 ≤ d ∧ 0 < h ∧ k * h = |parArea v0 v1 v3| ∧ d * h = |parDot v0 v1 v3| ∧
      h ^ 2 = (if parDot v0 v1 v3 < 0 then sqDist v0 v1 else sqDist v0 v3) ∧
      ellipseInParallelogram eps v0 v1 v2 v3 ecc = (inscribedV ecc k d h).bind fun v => (inscribedAxes k d h v).bind fun ab =>
        .ok (Ell.mk' eps (middle v0 v2) ab.1 (some ab.2) (majorAngle v0 v1 v2 v3)) := by
  obtain ⟨hc, hs, ht0, htp⟩ := cos_cornerTheta (v0 := v0) h
  have hmid : (Line.midpoint ⟨v0, v2⟩ : P ℝ) = middle v0 v2 := by
    unfold Line.midpoint middle
    apply P.ext_real <;> simp [P.add, P.mul] <;> ring
  have hn1 : 0 < sqDist v0 v1 := by
    rcases (sqDist_nonneg v0 v1).lt_or_eq with h1 | h1
    · exact h1
    · exfalso; apply ha
      unfold sqDist at h1
      unfold parArea
      have e1 : v0.x - v1.x = 0 := by nlinarith [sq_nonneg (v0.x - v1.x), sq_nonneg (v0.y - v1.y)]
      have e2 : v0.y - v1.y = 0 := by nlinarith [sq_nonneg (v0.x - v1.x), sq_nonneg (v0.y - v1.y)]
      linear_combination (-(v3.y - v0.y)) * e1 + (v3.x - v0.x) * e2
  have hn3 : 0 < sqDist v0 v3 := by
    rcases (sqDist_nonneg v0 v3).lt_or_eq with h1 | h1
    · exact h1
    · exfalso; apply ha
      unfold sqDist at h1
      unfold parArea
      have e1 : v0.x - v3.x = 0 := by nlinarith [sq_nonneg (v0.x - v3.x), sq_nonneg (v0.y - v3.y)]
      have e2 : v0.y - v3.y = 0 := by nlinarith [sq_nonneg (v0.x - v3.x), sq_nonneg (v0.y - v3.y)]
      linear_combination (-(v1.x - v0.x)) * e2 + (v1.y - v0.y) * e1
  have hs1 := Real.sqrt_pos.mpr hn1
  have hs3 := Real.sqrt_pos.mpr hn3
  have d12 : sqDist v1 v2 = sqDist v0 v3 := by unfold sqDist; rw [hp.1, hp.2]; ring
  have d23 : sqDist v2 v3 = sqDist v0 v1 := by unfold sqDist; rw [hp.1, hp.2]; ring
  have hcneg : parDot v0 v1 v3 < 0 ↔ Real.pi / 2 < cornerTheta eps v0 v1 v3 := by
    unfold parDot
    rw [← hc]
    constructor
    · intro hlt
      by_contra hcon
      push Not at hcon
      have := Real.cos_nonneg_of_neg_pi_div_two_le_of_le (by linarith [Real.pi_pos]) hcon
      nlinarith [mul_nonneg (mul_pos hs1 hs3).le this]
    · intro hlt
      have := Real.cos_neg_of_pi_div_two_lt_of_lt hlt (by linarith [Real.pi_pos])
      exact mul_neg_of_pos_of_neg (mul_pos hs1 hs3) this
  have hapos : 0 < |parArea v0 v1 v3| := abs_pos.mpr ha
  have hsin : 0 < Real.sin (cornerTheta eps v0 v1 v3) := by
    rw [← hs] at hapos
    exact (pos_iff_pos_of_mul_pos hapos).mp (mul_pos hs1 hs3)
  unfold ellipseInParallelogram
  simp only [real_pi, real_div, real_ofInt, real_lt, decide_eq_true_eq, hmid]
  push_cast
  by_cases hneg : parDot v0 v1 v3 < 0
  · rw [if_pos (hcneg.mp hneg), if_pos hneg]
    have hcn : Real.cos (cornerTheta eps v0 v1 v3) < 0 := Real.cos_neg_of_pi_div_two_lt_of_lt (hcneg.mp hneg) (by linarith [Real.pi_pos])
    refine ⟨Real.sin (cornerTheta eps v0 v1 v3) * Real.sqrt (sqDist v0 v3), -Real.cos (cornerTheta eps v0 v1 v3) * Real.sqrt (sqDist v0 v3),
      Real.sqrt (sqDist v0 v1), mul_pos hsin hs3, mul_nonneg (by linarith) hs3.le, hs1, by rw [← hs]; ring, ?_, Real.sq_sqrt hn1.le, ?_⟩
    · rw [abs_of_neg hneg]
      unfold parDot
      linear_combination -hc
    · unfold inscribedFrom majorAngle
      rw [if_pos hneg]
      simp only [real_sin, real_cos, real_mul, real_sub, Real.sin_pi_sub, Real.cos_pi_sub, distance_real, d12, d23, real_add, Line.angle]
      rfl
  · rw [if_neg (fun hcon => hneg (hcneg.mpr hcon)), if_neg hneg]
    have hcn : 0 ≤ Real.cos (cornerTheta eps v0 v1 v3) := by
      apply Real.cos_nonneg_of_neg_pi_div_two_le_of_le (by linarith [Real.pi_pos])
      by_contra hcon
      push Not at hcon
      exact hneg (hcneg.mpr hcon)
    refine ⟨Real.sin (cornerTheta eps v0 v1 v3) * Real.sqrt (sqDist v0 v1), Real.cos (cornerTheta eps v0 v1 v3) * Real.sqrt (sqDist v0 v1),
      Real.sqrt (sqDist v0 v3), mul_pos hsin hs1, mul_nonneg hcn hs1.le, hs3, by rw [← hs]; ring, ?_, Real.sq_sqrt hn3.le, ?_⟩
    · rw [abs_of_nonneg (not_lt.mp hneg)]
      unfold parDot
      linear_combination hc
    · unfold inscribedFrom majorAngle
      rw [if_neg hneg]
      simp only [real_sin, real_cos, real_mul, distance_real, d12, Line.angle]
      rfl

/-- What is made, in terms of the share `y` of the height at which the ellipse touches. -/
theorem inscribed_spec {eps ecc : ℝ} {v0 v1 v2 v3 : P ℝ} (hp : Par4 v0 v1 v2 v3) (ha : parArea v0 v1 v3 ≠ 0) (he : eps ^ 2 ≤ sqDist v1 v3) :
    ∃ (k d h y : ℝ) (e : Ell ℝ), 0 < k ∧ 0 ≤ d ∧ 0 < h ∧ k * h = |parArea v0 v1 v3| ∧ d * h = |parDot v0 v1 v3| ∧
      h ^ 2 = (if parDot v0 v1 v3 < 0 then sqDist v0 v1 else sqDist v0 v3) ∧ y = heightShare ecc k d h ∧ 0 < y ∧ y < 1 ∧
      ellipseInParallelogram eps v0 v1 v2 v3 ecc = .ok e ∧ e.center = middle v0 v2 ∧ 0 < e.ry ∧ e.ry ≤ e.rx ∧
      e.rx * e.ry = |parArea v0 v1 v3| * Real.sqrt (y * (1 - y)) / 2 ∧
      (k ^ 2 + d ^ 2 = h ^ 2 → y ≤ (d + h) / (2 * h) → e.rx ^ 2 = h * (h + d) / 2 * (1 - y) ∧ e.ry ^ 2 = h * (h - d) / 2 * y) ∧
      e.phi = (if |e.rx - e.ry| < eps then 0 else majorAngle v0 v1 v2 v3) := by
  obtain ⟨k, d, h, hk, hd, hh, h1, h2, h3, h4⟩ := inscribed_frame (ecc := ecc) hp ha he
  obtain ⟨hy0, hy1⟩ := heightShare_bounds (ecc := ecc) hk hd hh
  obtain ⟨a, b, g1, g2, g3, g4, g5⟩ := axes_spec hk hd hh hy0 hy1
  refine ⟨k, d, h, heightShare ecc k d h, Ell.mk' eps (middle v0 v2) a (some b) (majorAngle v0 v1 v2 v3), hk, hd, hh, h1, h2, h3, rfl, hy0, hy1, ?_, rfl, ?_⟩
  · rw [h4, inscribedV_real hk hd hh]
    simp only [Except.bind, g1]
  · have ha0 : 0 < a := lt_of_lt_of_le g2 g3
    have e1 : (Ell.mk' eps (middle v0 v2) a (some b) (majorAngle v0 v1 v2 v3)).rx = a := by
      simp [Ell.mk', pmax_real, abs_of_pos ha0, abs_of_pos g2, g3]
    have e2 : (Ell.mk' eps (middle v0 v2) a (some b) (majorAngle v0 v1 v2 v3)).ry = b := by
      simp [Ell.mk', pmin_real, abs_of_pos ha0, abs_of_pos g2, g3]
    rw [e1, e2]
    refine ⟨g2, g3, by rw [g4, h1], g5, ?_⟩
    simp only [Ell.mk', floatEq_iff, real_abs, abs_of_pos ha0, abs_of_pos g2, real_zero, real_lt, decide_eq_true_eq]
    rw [if_neg (not_lt.mpr g3)]

/-! ## Rhombi -/

theorem share_rhombus {ecc k d h : ℝ} (hk : 0 < k) (hd : 0 ≤ d) (hh : 0 < h) (hr : k ^ 2 + d ^ 2 = h ^ 2) :
    heightShare ecc k d h ≤ (d + h) / (2 * h) ∧ (ecc = 0 → heightShare ecc k d h = (d + h) / (2 * h)) ∧
    (1 ≤ ecc ∨ ecc < 0 → heightShare ecc k d h = 1 / 2) := by
  have e1 : ((d + h) ^ 2 + k ^ 2) / (2 * (k ^ 2 + d ^ 2 + h ^ 2)) = (d + h) / (2 * h) := by
    rw [hr, show (d + h) ^ 2 + k ^ 2 = 2 * h * (d + h) by linear_combination hr]
    field_simp
    ring
  have hpos : 0 < (d + h) / (2 * h) := by positivity
  unfold heightShare
  refine ⟨?_, ?_, fun hc => if_pos hc⟩
  · split
    · rw [le_div_iff₀ (by positivity)]; linarith
    · rename_i hn
      push Not at hn
      rw [e1]
      nlinarith [hn.2]
  · rintro rfl
    rw [if_neg (by norm_num), e1]
    ring

/-- For a circle the direction of the first axis does not matter. -/
theorem level_circle (e : Ell ℝ) (h : e.rx = e.ry) (a : ℝ) (p : P ℝ) : e.level p = ({ e with phi := a } : Ell ℝ).level p := by
  unfold Ell.level Ell.u Ell.v
  dsimp only
  rw [h]
  have h1 := Real.sin_sq_add_cos_sq e.phi
  have h2 := Real.sin_sq_add_cos_sq a
  rw [div_pow, div_pow, div_pow, div_pow, ← add_div, ← add_div]
  congr 1
  linear_combination ((p.x - e.center.x) ^ 2 + (p.y - e.center.y) ^ 2) * (h1 - h2)

/-- The coordinates of a point of a rhombus along its diagonals. -/
theorem rhombus_coords {v0 v1 v2 v3 : P ℝ} (hp : Par4 v0 v1 v2 v3) (ha : parArea v0 v1 v3 ≠ 0) (hs : sqDist v0 v1 = sqDist v0 v3) (c rx ry : ℝ) (s t : ℝ) :
    let e : Ell ℝ := ⟨middle v0 v2, rx, ry, P.angle (v2.sub v0)⟩
    0 < sqDist v0 v1 + parDot v0 v1 v3 ∧ 0 < sqDist v0 v1 - parDot v0 v1 v3 ∧
    e.u (parPt v0 v1 v3 s t) ^ 2 = (sqDist v0 v1 + parDot v0 v1 v3) / 2 * (s + t - 1) ^ 2 ∧
    e.v (parPt v0 v1 v3 s t) ^ 2 = (sqDist v0 v1 - parDot v0 v1 v3) / 2 * (s - t) ^ 2 := by
  intro e
  have hx : (v2.sub v0).x = (v1.x - v0.x) + (v3.x - v0.x) := by simp [P.sub, hp.1]; ring
  have hy : (v2.sub v0).y = (v1.y - v0.y) + (v3.y - v0.y) := by simp [P.sub, hp.2]; ring
  have hS : sqDist v0 v1 * sqDist v0 v3 = parArea v0 v1 v3 ^ 2 + parDot v0 v1 v3 ^ 2 := by
    unfold sqDist parArea parDot; ring
  rw [← hs] at hS
  have hX : 0 < parArea v0 v1 v3 ^ 2 := by positivity
  have hSn := sqDist_nonneg v0 v1
  have h1 : 0 < sqDist v0 v1 + parDot v0 v1 v3 := by nlinarith [abs_lt_of_sq_lt_sq' (show parDot v0 v1 v3 ^ 2 < sqDist v0 v1 ^ 2 by nlinarith) hSn]
  have h2 : 0 < sqDist v0 v1 - parDot v0 v1 v3 := by nlinarith [abs_lt_of_sq_lt_sq' (show parDot v0 v1 v3 ^ 2 < sqDist v0 v1 ^ 2 by nlinarith) hSn]
  have hn2 : (v2.sub v0).x ^ 2 + (v2.sub v0).y ^ 2 = 2 * (sqDist v0 v1 + parDot v0 v1 v3) := by
    rw [hx, hy]
    have hs' := hs
    unfold sqDist at hs'
    unfold sqDist parDot
    linear_combination -hs'
  obtain ⟨hc, hsn⟩ := polar_atan2 (v2.sub v0) (Real.sqrt (2 * (sqDist v0 v1 + parDot v0 v1 v3))) (Real.sqrt_nonneg _) (by
    rw [hn2, Real.sq_sqrt (by linarith)])
  have hn := Real.sq_sqrt (show (0:ℝ) ≤ 2 * (sqDist v0 v1 + parDot v0 v1 v3) by linarith)
  have hnpos : 0 < Real.sqrt (2 * (sqDist v0 v1 + parDot v0 v1 v3)) := Real.sqrt_pos.mpr (by linarith)
  generalize Real.sqrt (2 * (sqDist v0 v1 + parDot v0 v1 v3)) = n at *
  have hu : n * e.u (parPt v0 v1 v3 s t) = (sqDist v0 v1 + parDot v0 v1 v3) * (s + t - 1) := by
    have : n * e.u (parPt v0 v1 v3 s t) = (v2.sub v0).x * ((parPt v0 v1 v3 s t).x - (middle v0 v2).x) + (v2.sub v0).y * ((parPt v0 v1 v3 s t).y - (middle v0 v2).y) := by
      unfold Ell.u
      rw [← hc, ← hsn]
      ring
    rw [this, hx, hy]
    have hs' := hs
    unfold sqDist at hs'
    unfold sqDist parDot parPt middle
    dsimp only
    rw [hp.1, hp.2]
    linear_combination (-(t - 1 / 2)) * hs'
  have hv : n * e.v (parPt v0 v1 v3 s t) = parArea v0 v1 v3 * (t - s) := by
    have : n * e.v (parPt v0 v1 v3 s t) = -(v2.sub v0).y * ((parPt v0 v1 v3 s t).x - (middle v0 v2).x) + (v2.sub v0).x * ((parPt v0 v1 v3 s t).y - (middle v0 v2).y) := by
      unfold Ell.v
      rw [← hc, ← hsn]
      ring
    rw [this, hx, hy]
    unfold parArea parPt middle
    dsimp only
    rw [hp.1, hp.2]
    ring
  refine ⟨h1, h2, ?_, ?_⟩
  · have := congrArg (· ^ 2) hu
    simp only [mul_pow] at this
    rw [hn] at this
    have h3 : 2 * (sqDist v0 v1 + parDot v0 v1 v3) * (e.u (parPt v0 v1 v3 s t) ^ 2 - (sqDist v0 v1 + parDot v0 v1 v3) / 2 * (s + t - 1) ^ 2) = 0 := by
      linear_combination this
    rcases mul_eq_zero.mp h3 with h4 | h4 <;> linarith
  · have := congrArg (· ^ 2) hv
    simp only [mul_pow] at this
    rw [hn] at this
    have h3 : 2 * (sqDist v0 v1 + parDot v0 v1 v3) * (e.v (parPt v0 v1 v3 s t) ^ 2 - (sqDist v0 v1 - parDot v0 v1 v3) / 2 * (s - t) ^ 2) = 0 := by
      linear_combination this + (-(s - t) ^ 2) * hS
    rcases mul_eq_zero.mp h3 with h4 | h4 <;> linarith

/-- The equation of the ellipse made for a rhombus, in coordinates along its sides. -/
theorem rhombus_level {eps ecc : ℝ} {v0 v1 v2 v3 : P ℝ} (hp : Par4 v0 v1 v2 v3) (ha : parArea v0 v1 v3 ≠ 0) (hs : sqDist v0 v1 = sqDist v0 v3)
    (he : eps ^ 2 ≤ sqDist v1 v3) :
    ∃ (e : Ell ℝ) (a b : ℝ), ellipseInParallelogram eps v0 v1 v2 v3 ecc = .ok e ∧ e.center = middle v0 v2 ∧ 0 < e.ry ∧ e.ry ≤ e.rx ∧
      0 < a ∧ 0 < b ∧ a + b = 1 ∧ (1 ≤ ecc ∨ ecc < 0 → a = 1 / 2) ∧ (ecc = 0 → e.rx = e.ry) ∧
      (eps ≤ e.rx - e.ry ∨ e.rx = e.ry → ∀ s t, e.level (parPt v0 v1 v3 s t) = (s + t - 1) ^ 2 / a + (s - t) ^ 2 / b) := by
  obtain ⟨k, d, h, y, e, hk, hd, hh, h1, h2, h3, hy, hy0, hy1, g1, g2, g3, g4, -, g6, g7⟩ := inscribed_spec (ecc := ecc) hp ha he
  have hh2 : h ^ 2 = sqDist v0 v1 := by rw [h3, ← hs, ite_self]
  have hrh : k ^ 2 + d ^ 2 = h ^ 2 := by
    have hS : sqDist v0 v1 * sqDist v0 v3 = parArea v0 v1 v3 ^ 2 + parDot v0 v1 v3 ^ 2 := by
      unfold sqDist parArea parDot; ring
    rw [← hs, ← hh2, ← sq_abs (parArea v0 v1 v3), ← sq_abs (parDot v0 v1 v3), ← h1, ← h2] at hS
    have : h ^ 2 * (k ^ 2 + d ^ 2 - h ^ 2) = 0 := by linear_combination -hS
    rcases mul_eq_zero.mp this with h5 | h5
    · exact absurd h5 (by positivity)
    · linarith
  obtain ⟨s1, s2, s3⟩ := share_rhombus (ecc := ecc) hk hd hh hrh
  rw [← hy] at s1 s2 s3
  obtain ⟨gx, gy⟩ := g6 hrh s1
  have hcirc : ecc = 0 → e.rx = e.ry := by
    intro hz
    have hyy := s2 hz
    have : e.rx ^ 2 = e.ry ^ 2 := by
      rw [gx, gy, hyy]
      field_simp
      ring
    exact (pow_left_inj₀ (le_trans g3.le g4) g3.le two_ne_zero).mp this
  have hlev : eps ≤ e.rx - e.ry ∨ e.rx = e.ry → ∀ p, e.level p = ({ e with phi := majorAngle v0 v1 v2 v3 } : Ell ℝ).level p := by
    rintro (hc | hc) p
    · have : e.phi = majorAngle v0 v1 v2 v3 := by
        rw [g7, if_neg]
        rw [abs_of_nonneg (by linarith)]
        linarith
      rw [← this]
    · exact level_circle e hc _ p
  by_cases hneg : parDot v0 v1 v3 < 0
  · refine ⟨e, y, 1 - y, g1, g2, g3, g4, hy0, by linarith, by ring, s3, hcirc, ?_⟩
    intro hc s t
    rw [hlev hc]
    obtain ⟨c1, c2, c3, c4⟩ := rhombus_coords hp ha hs 0 e.rx e.ry s t
    rw [abs_of_neg hneg] at h2
    have hx2 : e.rx ^ 2 = (sqDist v0 v1 - parDot v0 v1 v3) / 2 * (1 - y) := by rw [gx]; linear_combination (1 - y) / 2 * (h2 + hh2)
    have hy2 : e.ry ^ 2 = (sqDist v0 v1 + parDot v0 v1 v3) / 2 * y := by rw [gy]; linear_combination y / 2 * (hh2 - h2)
    have hu : ({ e with phi := majorAngle v0 v1 v2 v3 } : Ell ℝ).u (parPt v0 v1 v3 s t) = (⟨middle v0 v2, e.rx, e.ry, P.angle (v2.sub v0)⟩ : Ell ℝ).v (parPt v0 v1 v3 s t) := by
      unfold Ell.u Ell.v majorAngle
      rw [if_pos hneg, Real.cos_add_pi_div_two, Real.sin_add_pi_div_two, g2]
    have hv : ({ e with phi := majorAngle v0 v1 v2 v3 } : Ell ℝ).v (parPt v0 v1 v3 s t) = -(⟨middle v0 v2, e.rx, e.ry, P.angle (v2.sub v0)⟩ : Ell ℝ).u (parPt v0 v1 v3 s t) := by
      unfold Ell.u Ell.v majorAngle
      rw [if_pos hneg, Real.cos_add_pi_div_two, Real.sin_add_pi_div_two, g2]
      dsimp only
      ring
    unfold Ell.level
    rw [div_pow, div_pow, hu, hv, neg_sq, c3, c4, hx2, hy2]
    have : 0 < 1 - y := by linarith
    field_simp
    ring
  · refine ⟨e, 1 - y, y, g1, g2, g3, g4, by linarith, hy0, by ring, fun hc => by rw [s3 hc]; norm_num, hcirc, ?_⟩
    intro hc s t
    rw [hlev hc]
    obtain ⟨c1, c2, c3, c4⟩ := rhombus_coords hp ha hs 0 e.rx e.ry s t
    rw [abs_of_nonneg (not_lt.mp hneg)] at h2
    have hx2 : e.rx ^ 2 = (sqDist v0 v1 + parDot v0 v1 v3) / 2 * (1 - y) := by rw [gx]; linear_combination (1 - y) / 2 * (h2 + hh2)
    have hy2 : e.ry ^ 2 = (sqDist v0 v1 - parDot v0 v1 v3) / 2 * y := by rw [gy]; linear_combination y / 2 * (hh2 - h2)
    have hu : ({ e with phi := majorAngle v0 v1 v2 v3 } : Ell ℝ).u (parPt v0 v1 v3 s t) = (⟨middle v0 v2, e.rx, e.ry, P.angle (v2.sub v0)⟩ : Ell ℝ).u (parPt v0 v1 v3 s t) := by
      unfold Ell.u majorAngle
      rw [if_neg hneg, g2]
    have hv : ({ e with phi := majorAngle v0 v1 v2 v3 } : Ell ℝ).v (parPt v0 v1 v3 s t) = (⟨middle v0 v2, e.rx, e.ry, P.angle (v2.sub v0)⟩ : Ell ℝ).v (parPt v0 v1 v3 s t) := by
      unfold Ell.v majorAngle
      rw [if_neg hneg, g2]
    unfold Ell.level
    rw [div_pow, div_pow, hu, hv, c3, c4, hx2, hy2]
    have : 0 < 1 - y := by linarith
    field_simp

theorem touch_ge {a b x : ℝ} (ha : 0 < a) (hb : 0 < b) (hab : a + b = 1) : 1 ≤ (x - 1) ^ 2 / a + x ^ 2 / b := by
  rw [div_add_div _ _ ha.ne' hb.ne', le_div_iff₀ (by positivity)]
  have : b = 1 - a := by linarith
  subst this
  nlinarith [sq_nonneg (x - (1 - a))]

theorem touch_eq {a b : ℝ} (ha : 0 < a) (hb : 0 < b) (hab : a + b = 1) : (b - 1) ^ 2 / a + b ^ 2 / b = 1 := by
  have : b = 1 - a := by linarith
  subst this
  field_simp
  ring

theorem in_diamond {a b x y : ℝ} (ha : 0 < a) (hb : 0 < b) (hab : a + b = 1) (h : x ^ 2 / a + y ^ 2 / b ≤ 1) : |x| + |y| ≤ 1 := by
  rw [div_add_div _ _ ha.ne' hb.ne', div_le_one (by positivity)] at h
  have : b = 1 - a := by linarith
  subst this
  have h1 := sq_abs x
  have h2 := sq_abs y
  rw [← h1, ← h2] at h
  have h3 := abs_nonneg x
  have h4 := abs_nonneg y
  generalize |x| = X at *
  generalize |y| = Y at *
  by_contra hc
  push Not at hc
  have : a * (1 - a) * (X + Y) ^ 2 ≤ X ^ 2 * (1 - a) + a * Y ^ 2 := by nlinarith [sq_nonneg (X * (1 - a) - a * Y)]
  have h5 : 1 < (X + Y) ^ 2 := by nlinarith
  nlinarith [mul_pos ha hb]

/-- An ellipse with such an equation is inscribed. -/
theorem inscribed_of_level {e : Ell ℝ} {v0 v1 v2 v3 : P ℝ} {a b : ℝ} (hp : Par4 v0 v1 v2 v3) (ha : parArea v0 v1 v3 ≠ 0) (ha0 : 0 < a) (hb0 : 0 < b) (hab : a + b = 1)
    (hl : ∀ s t, e.level (parPt v0 v1 v3 s t) = (s + t - 1) ^ 2 / a + (s - t) ^ 2 / b) : InscribedIn e v0 v1 v2 v3 ∧
      (a = 1 / 2 → e.On (middle v0 v1) ∧ e.On (middle v1 v2) ∧ e.On (middle v2 v3) ∧ e.On (middle v3 v0)) := by
  have hba : b + a = 1 := by linarith
  have s01 : ∀ t, segPt ⟨v0, v1⟩ t = parPt v0 v1 v3 t 0 := by
    intro t; unfold segPt parPt; apply P.ext_real <;> dsimp only <;> ring
  have s12 : ∀ t, segPt ⟨v1, v2⟩ t = parPt v0 v1 v3 1 t := by
    intro t; unfold segPt parPt; apply P.ext_real <;> dsimp only <;> simp only [hp.1, hp.2] <;> ring
  have s23 : ∀ t, segPt ⟨v2, v3⟩ t = parPt v0 v1 v3 (1 - t) 1 := by
    intro t; unfold segPt parPt; apply P.ext_real <;> dsimp only <;> simp only [hp.1, hp.2] <;> ring
  have s30 : ∀ t, segPt ⟨v3, v0⟩ t = parPt v0 v1 v3 0 (1 - t) := by
    intro t; unfold segPt parPt; apply P.ext_real <;> dsimp only <;> ring
  have l01 : ∀ t, e.level (segPt ⟨v0, v1⟩ t) = (t - 1) ^ 2 / a + t ^ 2 / b := by intro t; rw [s01, hl]; congr 2 <;> ring
  have l12 : ∀ t, e.level (segPt ⟨v1, v2⟩ t) = (t - 1) ^ 2 / b + t ^ 2 / a := by intro t; rw [s12, hl, add_comm]; congr 2 <;> ring
  have l23 : ∀ t, e.level (segPt ⟨v2, v3⟩ t) = (t - 1) ^ 2 / a + t ^ 2 / b := by intro t; rw [s23, hl]; congr 2 <;> ring
  have l30 : ∀ t, e.level (segPt ⟨v3, v0⟩ t) = (t - 1) ^ 2 / b + t ^ 2 / a := by intro t; rw [s30, hl, add_comm]; congr 2 <;> ring
  refine ⟨⟨⟨fun t => ?_, b, hb0, by linarith, ?_⟩, ⟨fun t => ?_, a, ha0, by linarith, ?_⟩, ⟨fun t => ?_, b, hb0, by linarith, ?_⟩, ⟨fun t => ?_, a, ha0, by linarith, ?_⟩, ?_⟩, ?_⟩
  · rw [l01]; exact touch_ge ha0 hb0 hab
  · unfold Ell.On; rw [l01]; exact touch_eq ha0 hb0 hab
  · rw [l12]; exact touch_ge hb0 ha0 hba
  · unfold Ell.On; rw [l12]; exact touch_eq hb0 ha0 hba
  · rw [l23]; exact touch_ge ha0 hb0 hab
  · unfold Ell.On; rw [l23]; exact touch_eq ha0 hb0 hab
  · rw [l30]; exact touch_ge hb0 ha0 hba
  · unfold Ell.On; rw [l30]; exact touch_eq hb0 ha0 hba
  · intro p hlev
    obtain ⟨s, t, rfl⟩ : ∃ s t, p = parPt v0 v1 v3 s t := by
      refine ⟨((p.x - v0.x) * (v3.y - v0.y) - (v3.x - v0.x) * (p.y - v0.y)) / parArea v0 v1 v3,
        ((v1.x - v0.x) * (p.y - v0.y) - (p.x - v0.x) * (v1.y - v0.y)) / parArea v0 v1 v3, ?_⟩
      apply P.ext_real
      · unfold parPt; dsimp only
        field_simp
        unfold parArea; ring
      · unfold parPt; dsimp only
        field_simp
        unfold parArea; ring
    rw [hl] at hlev
    have hd := in_diamond ha0 hb0 hab hlev
    have b1 := le_abs_self (s + t - 1)
    have b2 := neg_abs_le (s + t - 1)
    have b3 := le_abs_self (s - t)
    have b4 := neg_abs_le (s - t)
    exact ⟨s, t, by linarith, by linarith, by linarith, by linarith, rfl⟩
  · intro ha2
    have hb2 : b = 1 / 2 := by linarith
    have m : ∀ p q : P ℝ, middle p q = segPt ⟨p, q⟩ (1 / 2) := by
      intro p q; unfold middle segPt; apply P.ext_real <;> dsimp only <;> ring
    unfold Ell.On
    rw [m, m, m, m, l01, l12, l23, l30, ha2, hb2]
    norm_num

/-- **C165**, rhombi: for every rhombus that is not flat, and every eccentricity asked for, an ellipse is returned, its centre is the middle of the rhombus,
and unless its two axes are mistaken for equal it is inscribed: it touches each side between its ends and stays inside. Without an eccentricity (or with one
outside the range) it touches each side in the middle, and for eccentricity 0 it is a circle. -/
theorem C165_rhombus_partial (eps ecc : ℝ) (v0 v1 v2 v3 : P ℝ) (hp : Par4 v0 v1 v2 v3) (ha : parArea v0 v1 v3 ≠ 0) (hs : sqDist v0 v1 = sqDist v0 v3)
    (he : eps ^ 2 ≤ sqDist v1 v3) :
    ∃ e, ellipseInParallelogram eps v0 v1 v2 v3 ecc = .ok e ∧ e.center = middle v0 v2 ∧ 0 < e.ry ∧ e.ry ≤ e.rx ∧ (ecc = 0 → e.rx = e.ry) ∧
      (eps ≤ e.rx - e.ry ∨ e.rx = e.ry → InscribedIn e v0 v1 v2 v3 ∧
        (1 ≤ ecc ∨ ecc < 0 → e.On (middle v0 v1) ∧ e.On (middle v1 v2) ∧ e.On (middle v2 v3) ∧ e.On (middle v3 v0))) := by
  obtain ⟨e, a, b, h1, h2, h3, h4, ha0, hb0, hab, hdef, hcirc, hl⟩ := rhombus_level (ecc := ecc) hp ha hs he
  refine ⟨e, h1, h2, h3, h4, hcirc, fun hc => ?_⟩
  obtain ⟨g1, g2⟩ := inscribed_of_level hp ha ha0 hb0 hab (hl hc)
  exact ⟨g1, fun hd => g2 (hdef hd)⟩

/-! ## Areas -/

theorem share_area {y : ℝ} (h0 : 0 < y) (h1 : y < 1) : Real.sqrt (y * (1 - y)) ≤ 1 / 2 := by
  rw [show (1 / 2 : ℝ) = Real.sqrt ((1 / 2) ^ 2) by rw [Real.sqrt_sq (by norm_num)]]
  apply Real.sqrt_le_sqrt
  nlinarith [sq_nonneg (y - 1 / 2)]

/-- **C165**, area: for every parallelogram that is not flat an ellipse is returned; its area is at most π/4 of the area of the parallelogram, and exactly
that without an eccentricity (or with one outside the range). -/
theorem C165_area (eps ecc : ℝ) (v0 v1 v2 v3 : P ℝ) (hp : Par4 v0 v1 v2 v3) (ha : parArea v0 v1 v3 ≠ 0) (he : eps ^ 2 ≤ sqDist v1 v3) :
    ∃ e, ellipseInParallelogram eps v0 v1 v2 v3 ecc = .ok e ∧ 0 < e.ry ∧ e.area ≤ Real.pi / 4 * |parArea v0 v1 v3| ∧
      (1 ≤ ecc ∨ ecc < 0 → e.area = Real.pi / 4 * |parArea v0 v1 v3|) := by
  obtain ⟨k, d, h, y, e, hk, hd, hh, h1, h2, h3, hy, hy0, hy1, g1, g2, g3, g4, g5, -, -⟩ := inscribed_spec (ecc := ecc) hp ha he
  have har : e.area = Real.pi * (e.rx * e.ry) := by simp [Ell.area]; ring
  have hpi := Real.pi_pos
  have hab := abs_nonneg (parArea v0 v1 v3)
  refine ⟨e, g1, g3, ?_, ?_⟩
  · rw [har, g5]
    have := share_area hy0 hy1
    nlinarith [mul_nonneg hpi.le hab, mul_le_mul_of_nonneg_left this (mul_nonneg hpi.le hab)]
  · intro hc
    have hyh : y = 1 / 2 := by rw [hy]; exact if_pos hc
    rw [har, g5, hyh, show (1 / 2 * (1 - 1 / 2) : ℝ) = (1 / 2) ^ 2 by norm_num, Real.sqrt_sq (by norm_num)]
    ring

theorem harmonic_bound {s0 a b : ℝ} (h : ∀ t, 0 ≤ s0 + a * Real.cos t + b * Real.sin t ∧ s0 + a * Real.cos t + b * Real.sin t ≤ 1) : a ^ 2 + b ^ 2 ≤ 1 / 4 := by
  have hn : 0 ≤ a ^ 2 + b ^ 2 := by positivity
  obtain ⟨hc, hs⟩ := polar_atan2 ⟨a, b⟩ (Real.sqrt (a ^ 2 + b ^ 2)) (Real.sqrt_nonneg _) (by rw [Real.sq_sqrt hn])
  have hr := Real.sq_sqrt hn
  have hr0 := Real.sqrt_nonneg (a ^ 2 + b ^ 2)
  generalize Real.sqrt (a ^ 2 + b ^ 2) = r at *
  dsimp only at hc hs
  have h1 := (h (P.angle ⟨a, b⟩)).2
  have h2 := (h (P.angle ⟨a, b⟩ + Real.pi)).1
  rw [Real.cos_add_pi, Real.sin_add_pi] at h2
  have hcs := Real.sin_sq_add_cos_sq (P.angle ⟨a, b⟩)
  generalize Real.cos (P.angle ⟨a, b⟩) = c at *
  generalize Real.sin (P.angle ⟨a, b⟩) = s at *
  have e : a * c + b * s = r := by rw [← hc, ← hs]; linear_combination r * hcs
  rw [← hr]
  have : 2 * r ≤ 1 := by linarith
  nlinarith

/-- **C165**, the largest: no ellipse that stays inside the parallelogram has a larger area than the one returned without an eccentricity. -/
theorem C165_largest (eps ecc : ℝ) (v0 v1 v2 v3 : P ℝ) (hp : Par4 v0 v1 v2 v3) (ha : parArea v0 v1 v3 ≠ 0) (he : eps ^ 2 ≤ sqDist v1 v3)
    (hecc : 1 ≤ ecc ∨ ecc < 0) :
    ∃ e, ellipseInParallelogram eps v0 v1 v2 v3 ecc = .ok e ∧
      ∀ f : Ell ℝ, 0 < f.rx → 0 < f.ry → (∀ p, f.level p ≤ 1 → InPar v0 v1 v3 p) → f.area ≤ e.area := by
  obtain ⟨e, h1, h2, -, h4⟩ := C165_area eps ecc v0 v1 v2 v3 hp ha he
  refine ⟨e, h1, fun f hx hy hin => ?_⟩
  rw [h4 hecc]
  have hon : ∀ t, f.level (f.pointAt t) ≤ 1 := by
    intro t
    unfold Ell.level
    rw [pointAt_u, pointAt_v]
    rw [mul_div_cancel_left₀ _ hx.ne', mul_div_cancel_left₀ _ hy.ne']
    exact (Real.cos_sq_add_sin_sq t).le
  have hsx : ∀ t, (f.pointAt t).x = f.center.x + (f.rx * Real.cos f.phi) * Real.cos t + (-(f.ry * Real.sin f.phi)) * Real.sin t := by
    intro t; simp [Ell.pointAt, P.add]; ring
  have hsy : ∀ t, (f.pointAt t).y = f.center.y + (f.rx * Real.sin f.phi) * Real.cos t + (f.ry * Real.cos f.phi) * Real.sin t := by
    intro t; simp [Ell.pointAt, P.add]; ring
  have hS : ∀ t, ∃ s u, 0 ≤ s ∧ s ≤ 1 ∧ 0 ≤ u ∧ u ≤ 1 ∧
      ((f.pointAt t).x - v0.x) * (v3.y - v0.y) - (v3.x - v0.x) * ((f.pointAt t).y - v0.y) = s * parArea v0 v1 v3 ∧
      (v1.x - v0.x) * ((f.pointAt t).y - v0.y) - ((f.pointAt t).x - v0.x) * (v1.y - v0.y) = u * parArea v0 v1 v3 := by
    intro t
    obtain ⟨s, u, b1, b2, b3, b4, b5⟩ := hin _ (hon t)
    refine ⟨s, u, b1, b2, b3, b4, ?_, ?_⟩
    · rw [b5]; unfold parPt parArea; dsimp only; ring
    · rw [b5]; unfold parPt parArea; dsimp only; ring
  have g1 := harmonic_bound (s0 := ((f.center.x - v0.x) * (v3.y - v0.y) - (v3.x - v0.x) * (f.center.y - v0.y)) / parArea v0 v1 v3)
    (a := (f.rx * Real.cos f.phi * (v3.y - v0.y) - (v3.x - v0.x) * (f.rx * Real.sin f.phi)) / parArea v0 v1 v3)
    (b := (-(f.ry * Real.sin f.phi) * (v3.y - v0.y) - (v3.x - v0.x) * (f.ry * Real.cos f.phi)) / parArea v0 v1 v3) (by
      intro t
      obtain ⟨s, u, b1, b2, -, -, b5, -⟩ := hS t
      rw [hsx, hsy] at b5
      have : s = ((f.center.x - v0.x) * (v3.y - v0.y) - (v3.x - v0.x) * (f.center.y - v0.y)) / parArea v0 v1 v3 +
          (f.rx * Real.cos f.phi * (v3.y - v0.y) - (v3.x - v0.x) * (f.rx * Real.sin f.phi)) / parArea v0 v1 v3 * Real.cos t +
          (-(f.ry * Real.sin f.phi) * (v3.y - v0.y) - (v3.x - v0.x) * (f.ry * Real.cos f.phi)) / parArea v0 v1 v3 * Real.sin t := by
        field_simp
        linear_combination -b5
      rw [← this]
      exact ⟨b1, b2⟩)
  have g2 := harmonic_bound (s0 := ((v1.x - v0.x) * (f.center.y - v0.y) - (f.center.x - v0.x) * (v1.y - v0.y)) / parArea v0 v1 v3)
    (a := ((v1.x - v0.x) * (f.rx * Real.sin f.phi) - f.rx * Real.cos f.phi * (v1.y - v0.y)) / parArea v0 v1 v3)
    (b := ((v1.x - v0.x) * (f.ry * Real.cos f.phi) - -(f.ry * Real.sin f.phi) * (v1.y - v0.y)) / parArea v0 v1 v3) (by
      intro t
      obtain ⟨s, u, -, -, b3, b4, -, b5⟩ := hS t
      rw [hsx, hsy] at b5
      have : u = ((v1.x - v0.x) * (f.center.y - v0.y) - (f.center.x - v0.x) * (v1.y - v0.y)) / parArea v0 v1 v3 +
          ((v1.x - v0.x) * (f.rx * Real.sin f.phi) - f.rx * Real.cos f.phi * (v1.y - v0.y)) / parArea v0 v1 v3 * Real.cos t +
          ((v1.x - v0.x) * (f.ry * Real.cos f.phi) - -(f.ry * Real.sin f.phi) * (v1.y - v0.y)) / parArea v0 v1 v3 * Real.sin t := by
        field_simp
        linear_combination -b5
      rw [← this]
      exact ⟨b3, b4⟩)
  have hdet : ∀ a b c d : ℝ, a ^ 2 + b ^ 2 ≤ 1 / 4 → c ^ 2 + d ^ 2 ≤ 1 / 4 → (a * d - b * c) ≤ 1 / 4 ∧ -(a * d - b * c) ≤ 1 / 4 := by
    intro a b c d h5 h6
    constructor <;> nlinarith [sq_nonneg (a - d), sq_nonneg (b + c), sq_nonneg (a + d), sq_nonneg (b - c)]
  have hcs := Real.sin_sq_add_cos_sq f.phi
  obtain ⟨d1, d2⟩ := hdet _ _ _ _ g1 g2
  have hD : (f.rx * Real.cos f.phi * (v3.y - v0.y) - (v3.x - v0.x) * (f.rx * Real.sin f.phi)) / parArea v0 v1 v3 *
        (((v1.x - v0.x) * (f.ry * Real.cos f.phi) - -(f.ry * Real.sin f.phi) * (v1.y - v0.y)) / parArea v0 v1 v3) -
      (-(f.ry * Real.sin f.phi) * (v3.y - v0.y) - (v3.x - v0.x) * (f.ry * Real.cos f.phi)) / parArea v0 v1 v3 *
        (((v1.x - v0.x) * (f.rx * Real.sin f.phi) - f.rx * Real.cos f.phi * (v1.y - v0.y)) / parArea v0 v1 v3) = f.rx * f.ry / parArea v0 v1 v3 := by
    field_simp
    unfold parArea
    linear_combination ((v1.x - v0.x) * (v3.y - v0.y) - (v3.x - v0.x) * (v1.y - v0.y)) * hcs
  rw [hD] at d1 d2
  have har : f.area = Real.pi * (f.rx * f.ry) := by simp [Ell.area]; ring
  rw [har]
  have hxy : f.rx * f.ry ≤ |parArea v0 v1 v3| / 4 := by
    rcases lt_or_gt_of_ne ha with hn | hn
    · rw [abs_of_neg hn]
      rw [← neg_div, div_le_iff_of_neg hn] at d2
      linarith
    · rw [abs_of_pos hn]
      rw [div_le_iff₀ hn] at d1
      linarith
  nlinarith [Real.pi_pos, mul_le_mul_of_nonneg_left hxy Real.pi_pos.le]

/-! ## Where it fails -/

/-- The ellipse returned for a rectangle of 8 by 6. -/
theorem rectangle_ellipse : ellipseInParallelogram (1 / 10 ^ 6 : ℝ) ⟨0, 0⟩ ⟨8, 0⟩ ⟨8, 6⟩ ⟨0, 6⟩ 1 = .ok ⟨⟨4, 3⟩, 4, 3, P.angle ⟨8, 6⟩⟩ := by
  obtain ⟨k, d, h, hk, hd, hh, h1, h2, h3, h4⟩ := inscribed_frame (eps := 1 / 10 ^ 6) (ecc := 1) (v0 := ⟨0, 0⟩) (v1 := ⟨8, 0⟩) (v2 := ⟨8, 6⟩) (v3 := ⟨0, 6⟩)
    (by unfold Par4; norm_num) (by unfold parArea; norm_num) (by unfold sqDist; norm_num)
  have hh6 : h = 6 := by
    norm_num [parDot, sqDist] at h3
    nlinarith
  subst hh6
  have hk8 : k = 8 := by
    norm_num [parArea] at h1
    linarith
  subst hk8
  have hd0 : d = 0 := by
    norm_num [parDot] at h2
    linarith
  subst hd0
  rw [h4, inscribedV_real hk hd hh]
  simp only [Except.bind]
  have hy : heightShare 1 8 0 6 = 1 / 2 := if_pos (Or.inl le_rfl)
  have hr : root4 8 0 6 (1 / 2) = 224 := by
    unfold root4
    rw [show ((8 * (0 + 6) ^ 2 - 4 * 0 * 6 * (8 * (1 / 2)) - 8 ^ 3) ^ 2 + 4 * (8 ^ 2 * (0 + 6 - 2 * 6 * (1 / 2))) ^ 2 : ℝ) = 224 ^ 2 by norm_num]
    exact Real.sqrt_sq (by norm_num)
  have ht : trace4 8 0 6 (1 / 2) = 800 := by unfold trace4; norm_num
  rw [hy, inscribedAxes_real hk hd hh (by norm_num) (by norm_num), hr, ht]
  have ea : Real.sqrt (2 * 8 ^ 3 * 6 ^ 2 * (1 / 2 * (1 - 1 / 2)) / (800 - 224)) = 4 := by
    rw [show (2 * 8 ^ 3 * 6 ^ 2 * (1 / 2 * (1 - 1 / 2)) / (800 - 224) : ℝ) = 4 ^ 2 by norm_num]
    exact Real.sqrt_sq (by norm_num)
  have eb : Real.sqrt (2 * 8 ^ 3 * 6 ^ 2 * (1 / 2 * (1 - 1 / 2)) / (800 + 224)) = 3 := by
    rw [show (2 * 8 ^ 3 * 6 ^ 2 * (1 / 2 * (1 - 1 / 2)) / (800 + 224) : ℝ) = 3 ^ 2 by norm_num]
    exact Real.sqrt_sq (by norm_num)
  rw [ea, eb]
  simp only []
  congr 1
  have hphi : majorAngle (⟨0, 0⟩ : P ℝ) ⟨8, 0⟩ ⟨8, 6⟩ ⟨0, 6⟩ = P.angle ⟨8, 6⟩ := by
    unfold majorAngle
    rw [if_neg (by norm_num [parDot])]
    congr 1
    apply P.ext_real <;> simp [P.sub]
  rw [hphi]
  unfold Ell.mk' middle
  have h5 : floatEq (1 / 10 ^ 6) (4:ℝ) 3 = false := by
    rw [← Bool.not_eq_true, floatEq_iff]
    norm_num
  have a4 : |(4:ℝ)| = 4 := by norm_num
  have a3 : |(3:ℝ)| = 3 := by norm_num
  simp only [pmax_real, pmin_real, real_abs, real_lt, a4, a3, h5, Bool.false_eq_true, if_false]
  norm_num

/-- **C165** refuted for parallelograms that are not rhombi: the semi-axes are right but they are laid along a diagonal. In a rectangle of 8 by 6 the ellipse
sticks out of the rectangle. -/
theorem C165_parallelogram_refuted : ¬ ∀ (eps : ℝ) (v0 v1 v2 v3 : P ℝ), Par4 v0 v1 v2 v3 → parArea v0 v1 v3 ≠ 0 → 0 < eps → eps ^ 2 ≤ sqDist v1 v3 →
    ∀ e, ellipseInParallelogram eps v0 v1 v2 v3 1 = .ok e → eps ≤ e.rx - e.ry → ∀ p, e.level p ≤ 1 → InPar v0 v1 v3 p := by
  intro hall
  have h := hall (1 / 10 ^ 6) ⟨0, 0⟩ ⟨8, 0⟩ ⟨8, 6⟩ ⟨0, 6⟩ (by unfold Par4; norm_num) (by unfold parArea; norm_num) (by norm_num)
    (by unfold sqDist; norm_num) _ rectangle_ellipse (by norm_num) ⟨4 + 12 / 25, 3 + 84 / 25⟩ (by
      obtain ⟨hc, hs⟩ := polar_atan2 (⟨8, 6⟩ : P ℝ) 10 (by norm_num) (by norm_num)
      dsimp only at hc hs
      have hc' : Real.cos (P.angle (⟨8, 6⟩ : P ℝ)) = 4 / 5 := by linarith
      have hs' : Real.sin (P.angle (⟨8, 6⟩ : P ℝ)) = 3 / 5 := by linarith
      unfold Ell.level Ell.u Ell.v
      dsimp only
      rw [hc', hs']
      norm_num)
  obtain ⟨s, t, h1, h2, h3, h4, h5⟩ := h
  have := congrArg P.y h5
  simp only [parPt] at this
  norm_num at this
  linarith

theorem square_ellipse : ∃ e : Ell ℝ, ellipseInParallelogram (1 / 10 ^ 6 : ℝ) ⟨0, 0⟩ ⟨1, 0⟩ ⟨1, 1⟩ ⟨0, 1⟩ (1 / 2) = .ok e ∧ e.rx ^ 2 = 3 / 8 ∧ e.ry ^ 2 = 1 / 8 ∧ 0 < e.rx := by
  obtain ⟨k, d, h, y, e, hk, hd, hh, h1, h2, h3, hy, hy0, hy1, g1, g2, g3, g4, -, g6, -⟩ := inscribed_spec (eps := 1 / 10 ^ 6) (ecc := 1 / 2)
    (v0 := ⟨0, 0⟩) (v1 := ⟨1, 0⟩) (v2 := ⟨1, 1⟩) (v3 := ⟨0, 1⟩) (by unfold Par4; norm_num) (by unfold parArea; norm_num) (by unfold sqDist; norm_num)
  have hh1 : h = 1 := by
    norm_num [parDot, sqDist] at h3
    rcases h3 with h3 | h3 <;> linarith
  subst hh1
  have hk1 : k = 1 := by
    norm_num [parArea] at h1
    linarith
  subst hk1
  have hd0 : d = 0 := by
    norm_num [parDot] at h2
    linarith
  subst hd0
  have hyq : y = 1 / 4 := by rw [hy]; unfold heightShare; norm_num
  subst hyq
  obtain ⟨g7, g8⟩ := g6 (by norm_num) (by norm_num)
  exact ⟨e, g1, by rw [g7]; norm_num, by rw [g8]; norm_num, lt_of_lt_of_le g3 g4⟩

/-- **C165** refuted, eccentricity: asked for eccentricity 1/2 in a unit square, the function returns an ellipse whose own `eccentricity()` is not 1/2. -/
theorem C165_eccentricity_refuted : ¬ ∀ (eps ecc : ℝ) (v0 v1 v2 v3 : P ℝ), Par4 v0 v1 v2 v3 → parArea v0 v1 v3 ≠ 0 → sqDist v0 v1 = sqDist v0 v3 → 0 < eps →
    eps ^ 2 ≤ sqDist v1 v3 → 0 ≤ ecc → ecc < 1 → ∀ e, ellipseInParallelogram eps v0 v1 v2 v3 ecc = .ok e → e.eccentricity = .ok ecc := by
  intro hall
  obtain ⟨e, h1, h2, h3, h4⟩ := square_ellipse
  have h := hall (1 / 10 ^ 6) (1 / 2) ⟨0, 0⟩ ⟨1, 0⟩ ⟨1, 1⟩ ⟨0, 1⟩ (by unfold Par4; norm_num) (by unfold parArea; norm_num) (by unfold sqDist; norm_num) (by norm_num)
    (by unfold sqDist; norm_num) (by norm_num) (by norm_num) e h1
  unfold Ell.eccentricity Ell.focus at h
  simp only [real_mul, real_sub, real_lt, real_zero, ← pow_two, h2, h3, real_sqrt] at h
  rw [if_neg (by norm_num)] at h
  simp only [bind, Except.bind] at h
  rw [insc_pdiv h4.ne'] at h
  have h5 := Except.ok.inj h
  rw [show (3 / 8 - 1 / 8 : ℝ) = (1 / 2) ^ 2 by norm_num, Real.sqrt_sq (by norm_num), div_eq_iff h4.ne'] at h5
  have : e.rx = 1 := by linarith
  rw [this] at h2
  norm_num at h2

/-- A rhombus with sides of length 5 meets the hypotheses; its ellipse is not a circle and touches the sides in the middle. -/
example : ∃ e, ellipseInParallelogram (1 / 10 ^ 6 : ℝ) ⟨0, 0⟩ ⟨5, 0⟩ ⟨8, 4⟩ ⟨3, 4⟩ 1 = .ok e ∧ InscribedIn e ⟨0, 0⟩ ⟨5, 0⟩ ⟨8, 4⟩ ⟨3, 4⟩ ∧ e.On ⟨5 / 2, 0⟩ := by
  obtain ⟨k, d, h, y, e, hk, hd, hh, h1, h2, h3, hy, hy0, hy1, g1, g2, g3, g4, g5, g6, -⟩ := inscribed_spec (eps := 1 / 10 ^ 6) (ecc := 1)
    (v0 := ⟨0, 0⟩) (v1 := ⟨5, 0⟩) (v2 := ⟨8, 4⟩) (v3 := ⟨3, 4⟩) (by unfold Par4; norm_num) (by unfold parArea; norm_num) (by unfold sqDist; norm_num)
  have hh5 : h = 5 := by
    norm_num [parDot, sqDist] at h3
    nlinarith
  subst hh5
  have hk1 : k = 4 := by
    norm_num [parArea] at h1
    linarith
  subst hk1
  have hd0 : d = 3 := by
    norm_num [parDot] at h2
    linarith
  subst hd0
  have hyq : y = 1 / 2 := by rw [hy]; exact if_pos (Or.inl le_rfl)
  subst hyq
  obtain ⟨g7, g8⟩ := g6 (by norm_num) (by norm_num)
  obtain ⟨e', k1, k2, k3, k4, -, k5⟩ := C165_rhombus_partial (1 / 10 ^ 6) 1 ⟨0, 0⟩ ⟨5, 0⟩ ⟨8, 4⟩ ⟨3, 4⟩ (by unfold Par4; norm_num) (by unfold parArea; norm_num)
    (by unfold sqDist; norm_num) (by unfold sqDist; norm_num)
  rw [g1] at k1
  obtain rfl := Except.ok.inj k1
  have hge : (3 : ℝ) ≤ e.rx := by nlinarith
  have hle : e.ry ≤ 2 := by nlinarith
  obtain ⟨k6, k7⟩ := k5 (Or.inl (by norm_num; linarith))
  refine ⟨e, g1, k6, ?_⟩
  have := (k7 (Or.inl le_rfl)).1
  simpa [middle] using this

end Verif.Geom
