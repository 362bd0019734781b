import Verif.Geom.Frame
import Verif.Geom.Props14

/-!
# C196: tangents and normals of Bezier curves
-/

set_option linter.unusedSectionVars false

namespace Verif.Geom
open Verif PyFloat PyTrig Filter Topology

/-! ## Lemmas -/

theorem unit_big {eps : ℝ} {p : P ℝ} (h : eps ^ 2 < p.x ^ 2 + p.y ^ 2) : p.unit eps = ⟨p.x / √(p.x ^ 2 + p.y ^ 2), p.y / √(p.x ^ 2 + p.y ^ 2)⟩ := by
  have hl : p.length2 = p.x ^ 2 + p.y ^ 2 := by simp [P.length2]; ring
  unfold P.unit
  rw [hl, if_pos (by rw [real_lt, decide_eq_true_eq, real_mul]; nlinarith)]
  simp

theorem unit_small {eps : ℝ} {p : P ℝ} (h : p.x ^ 2 + p.y ^ 2 ≤ eps ^ 2) : p.unit eps = ⟨0, 0⟩ := by
  have hl : p.length2 = p.x ^ 2 + p.y ^ 2 := by simp [P.length2]; ring
  unfold P.unit
  rw [hl, if_neg (by rw [real_lt, decide_eq_true_eq, real_mul]; nlinarith)]
  simp

theorem unitTangent_eq (b : Bez ℝ) (t : ℝ) : speed b t = √((b.derivative1 t).x ^ 2 + (b.derivative1 t).y ^ 2) ∧
    unitTangent b t = ⟨(b.derivative1 t).x / √((b.derivative1 t).x ^ 2 + (b.derivative1 t).y ^ 2), (b.derivative1 t).y / √((b.derivative1 t).x ^ 2 + (b.derivative1 t).y ^ 2)⟩ := by
  have hx := (C116_derivatives b t).1.1.deriv
  have hy := (C116_derivatives b t).1.2.deriv
  unfold unitTangent speed
  rw [hx, hy]
  exact ⟨rfl, rfl⟩

theorem derivative1_real (b : Bez ℝ) (t : ℝ) : b.derivative1 t =
    ⟨3 * ((1 - t) ^ 2 * (b.c1.x - b.p1.x) + 2 * t * (1 - t) * (b.c2.x - b.c1.x) + t ^ 2 * (b.p2.x - b.c2.x)),
     3 * ((1 - t) ^ 2 * (b.c1.y - b.p1.y) + 2 * t * (1 - t) * (b.c2.y - b.c1.y) + t ^ 2 * (b.p2.y - b.c2.y))⟩ := by
  apply P.ext_real
  · simp [Bez.derivative1, P.add, P.mul, P.sub]; ring
  · simp [Bez.derivative1, P.add, P.mul, P.sub]; ring

/-- A positive factor does not change a direction. -/
theorem dir_scale {k x y : ℝ} (hk : 0 < k) : k * x / √((k * x) ^ 2 + (k * y) ^ 2) = x / √(x ^ 2 + y ^ 2) ∧ k * y / √((k * x) ^ 2 + (k * y) ^ 2) = y / √(x ^ 2 + y ^ 2) := by
  have h : √((k * x) ^ 2 + (k * y) ^ 2) = k * √(x ^ 2 + y ^ 2) := by
    rw [show (k * x) ^ 2 + (k * y) ^ 2 = k ^ 2 * (x ^ 2 + y ^ 2) by ring, Real.sqrt_mul (by positivity), Real.sqrt_sq hk.le]
  rw [h]
  exact ⟨mul_div_mul_left _ _ hk.ne', mul_div_mul_left _ _ hk.ne'⟩

/-- The direction of a vector that varies continuously and does not vanish is continuous. -/
theorem dir_continuous {f g : ℝ → ℝ} (hf : Continuous f) (hg : Continuous g) {a : ℝ} (h : 0 < f a ^ 2 + g a ^ 2) :
    ContinuousAt (fun s => f s / √(f s ^ 2 + g s ^ 2)) a ∧ ContinuousAt (fun s => g s / √(f s ^ 2 + g s ^ 2)) a := by
  have hd : ContinuousAt (fun s => √(f s ^ 2 + g s ^ 2)) a := ((hf.pow 2).add (hg.pow 2)).sqrt.continuousAt
  have hne : √(f a ^ 2 + g a ^ 2) ≠ 0 := (Real.sqrt_pos.2 h).ne'
  exact ⟨hf.continuousAt.div hd hne, hg.continuousAt.div hd hne⟩

/-! ## Properties -/

/-- **C196**, inside the curve: the tangent at `t` is the unit vector in the direction in which the point of the curve moves, if it moves at all (with a speed above the tolerance). Missing: parameters within the tolerance of the ends but not at them, where the code returns the tangent of the end. -/
theorem C196_tangent_partial (eps : ℝ) (heps : 0 < eps) (b : Bez ℝ) (t : ℝ) (h0 : eps ≤ |t|) (h1 : eps ≤ |t - 1|) (hs : eps < speed b t) : b.tangent eps t = unitTangent b t := by
  obtain ⟨h2, h3⟩ := unitTangent_eq b t
  rw [h2] at hs
  rw [h3]
  unfold Bez.tangent
  rw [if_neg (by rw [isZero_iff]; exact not_lt.2 h0), if_neg (by rw [floatEq_iff, real_one]; exact not_lt.2 h1)]
  refine unit_big ?_
  have := Real.lt_sqrt heps.le |>.1 hs
  exact this

/-- **C196**, the ends: with handles away from the ends, the tangents at the ends are those of the curve. -/
theorem C196_ends (eps : ℝ) (heps : 0 < eps) (he : eps ≤ 1) (b : Bez ℝ) :
    (eps ^ 2 < sqDist b.c1 b.p1 → b.tangent eps 0 = unitTangent b 0) ∧ (eps ^ 2 < sqDist b.c2 b.p2 → b.tangent eps 1 = unitTangent b 1) := by
  constructor
  · intro h
    have hd : b.derivative1 0 = ⟨3 * (b.c1.x - b.p1.x), 3 * (b.c1.y - b.p1.y)⟩ := by
      rw [derivative1_real]; apply P.ext_real <;> simp
    have hc : b.c1.eq eps b.p1 = false := (eq_false_iff _ _ _).2 h.le
    rw [(unitTangent_eq b 0).2, hd]
    unfold Bez.tangent
    rw [if_pos (by rw [isZero_iff, abs_zero]; exact heps), hc, if_neg (by simp)]
    have h' : eps ^ 2 < (b.c1.sub b.p1).x ^ 2 + (b.c1.sub b.p1).y ^ 2 := by simpa [sqDist, P.sub] using h
    rw [unit_big h']
    obtain ⟨e1, e2⟩ := dir_scale (k := 3) (x := b.c1.x - b.p1.x) (y := b.c1.y - b.p1.y) (by norm_num)
    apply P.ext_real
    · exact e1.symm
    · exact e2.symm
  · intro h
    have hd : b.derivative1 1 = ⟨3 * (b.p2.x - b.c2.x), 3 * (b.p2.y - b.c2.y)⟩ := by
      rw [derivative1_real]; apply P.ext_real <;> simp
    have hc : b.c2.eq eps b.p2 = false := (eq_false_iff _ _ _).2 h.le
    rw [(unitTangent_eq b 1).2, hd]
    unfold Bez.tangent
    rw [if_neg (by rw [isZero_iff, abs_one]; exact not_lt.2 he), if_pos (by rw [floatEq_iff, real_one, sub_self, abs_zero]; exact heps), hc, if_neg (by simp)]
    have hv : (b.c2.sub b.p2).neg = ⟨b.p2.x - b.c2.x, b.p2.y - b.c2.y⟩ := by apply P.ext_real <;> simp [P.sub, P.neg]
    have h' : eps ^ 2 < (b.p2.x - b.c2.x) ^ 2 + (b.p2.y - b.c2.y) ^ 2 := by
      have : sqDist b.c2 b.p2 = (b.p2.x - b.c2.x) ^ 2 + (b.p2.y - b.c2.y) ^ 2 := by simp [sqDist]; ring
      rw [← this]; exact h
    rw [hv, unit_big (p := ⟨b.p2.x - b.c2.x, b.p2.y - b.c2.y⟩) h']
    obtain ⟨e1, e2⟩ := dir_scale (k := 3) (x := b.p2.x - b.c2.x) (y := b.p2.y - b.c2.y) (by norm_num)
    apply P.ext_real
    · exact e1.symm
    · exact e2.symm

/-- **C196**, ends with a handle on the end point: the tangents there are the directions in which the curve leaves its start and arrives at its end, as the limits of its tangents. -/
theorem C196_limits (eps : ℝ) (heps : 0 < eps) (he : eps ≤ 1) (b : Bez ℝ) :
    (b.c1 = b.p1 → eps ^ 2 < sqDist b.c2 b.p1 →
      Tendsto (fun s => (unitTangent b s).x) (𝓝[>] 0) (𝓝 (b.tangent eps 0).x) ∧ Tendsto (fun s => (unitTangent b s).y) (𝓝[>] 0) (𝓝 (b.tangent eps 0).y)) ∧
    (b.c2 = b.p2 → eps ^ 2 < sqDist b.c1 b.p2 →
      Tendsto (fun s => (unitTangent b s).x) (𝓝[<] 1) (𝓝 (b.tangent eps 1).x) ∧ Tendsto (fun s => (unitTangent b s).y) (𝓝[<] 1) (𝓝 (b.tangent eps 1).y)) := by
  have hpos : 0 < eps ^ 2 := by positivity
  constructor
  · intro hc h
    have ht : b.tangent eps 0 = ⟨(b.c2.x - b.p1.x) / √((b.c2.x - b.p1.x) ^ 2 + (b.c2.y - b.p1.y) ^ 2), (b.c2.y - b.p1.y) / √((b.c2.x - b.p1.x) ^ 2 + (b.c2.y - b.p1.y) ^ 2)⟩ := by
      unfold Bez.tangent
      rw [if_pos (by rw [isZero_iff, abs_zero]; exact heps), hc, if_pos (by rw [eq_iff]; simp [sqDist]; positivity)]
      have h' : eps ^ 2 < (b.c2.sub b.p1).x ^ 2 + (b.c2.sub b.p1).y ^ 2 := by simpa [sqDist, P.sub] using h
      rw [unit_big h']
      rfl
    have h' : eps ^ 2 < (b.c2.x - b.p1.x) ^ 2 + (b.c2.y - b.p1.y) ^ 2 := by simpa [sqDist] using h
    have key : ∀ s : ℝ, 0 < s → unitTangent b s =
        let f := 2 * (1 - s) * (b.c2.x - b.p1.x) + s * (b.p2.x - b.c2.x)
        let g := 2 * (1 - s) * (b.c2.y - b.p1.y) + s * (b.p2.y - b.c2.y)
        ⟨f / √(f ^ 2 + g ^ 2), g / √(f ^ 2 + g ^ 2)⟩ := by
      intro s hs
      have hd : b.derivative1 s = ⟨3 * s * (2 * (1 - s) * (b.c2.x - b.p1.x) + s * (b.p2.x - b.c2.x)), 3 * s * (2 * (1 - s) * (b.c2.y - b.p1.y) + s * (b.p2.y - b.c2.y))⟩ := by
        rw [derivative1_real, hc]; apply P.ext_real <;> simp <;> ring
      rw [(unitTangent_eq b s).2, hd]
      obtain ⟨e1, e2⟩ := dir_scale (k := 3 * s) (x := 2 * (1 - s) * (b.c2.x - b.p1.x) + s * (b.p2.x - b.c2.x)) (y := 2 * (1 - s) * (b.c2.y - b.p1.y) + s * (b.p2.y - b.c2.y)) (by positivity)
      apply P.ext_real
      · exact e1
      · exact e2
    obtain ⟨c1, c2⟩ := dir_continuous (f := fun s => 2 * (1 - s) * (b.c2.x - b.p1.x) + s * (b.p2.x - b.c2.x)) (g := fun s => 2 * (1 - s) * (b.c2.y - b.p1.y) + s * (b.p2.y - b.c2.y))
      (by fun_prop) (by fun_prop) (a := 0) (by nlinarith)
    obtain ⟨e1, e2⟩ := dir_scale (k := 2) (x := b.c2.x - b.p1.x) (y := b.c2.y - b.p1.y) (by norm_num)
    have t1 := c1.tendsto.mono_left (nhdsWithin_le_nhds (s := Set.Ioi (0 : ℝ)))
    have t2 := c2.tendsto.mono_left (nhdsWithin_le_nhds (s := Set.Ioi (0 : ℝ)))
    simp only [sub_zero, mul_one, zero_mul, add_zero, e1, e2] at t1 t2
    rw [ht]
    constructor
    · refine t1.congr' ?_
      filter_upwards [self_mem_nhdsWithin] with s hs
      rw [key s hs]
    · refine t2.congr' ?_
      filter_upwards [self_mem_nhdsWithin] with s hs
      rw [key s hs]
  · intro hc h
    have ht : b.tangent eps 1 = ⟨(b.p2.x - b.c1.x) / √((b.p2.x - b.c1.x) ^ 2 + (b.p2.y - b.c1.y) ^ 2), (b.p2.y - b.c1.y) / √((b.p2.x - b.c1.x) ^ 2 + (b.p2.y - b.c1.y) ^ 2)⟩ := by
      unfold Bez.tangent
      rw [if_neg (by rw [isZero_iff, abs_one]; exact not_lt.2 he), if_pos (by rw [floatEq_iff, real_one, sub_self, abs_zero]; exact heps), hc,
        if_pos (by rw [eq_iff]; simp [sqDist]; positivity)]
      have hv : (b.c1.sub b.p2).neg = ⟨b.p2.x - b.c1.x, b.p2.y - b.c1.y⟩ := by apply P.ext_real <;> simp [P.sub, P.neg]
      have h' : eps ^ 2 < (b.p2.x - b.c1.x) ^ 2 + (b.p2.y - b.c1.y) ^ 2 := by
        have : sqDist b.c1 b.p2 = (b.p2.x - b.c1.x) ^ 2 + (b.p2.y - b.c1.y) ^ 2 := by simp [sqDist]; ring
        rw [← this]; exact h
      rw [hv, unit_big (p := ⟨b.p2.x - b.c1.x, b.p2.y - b.c1.y⟩) h']
    have h' : eps ^ 2 < (b.p2.x - b.c1.x) ^ 2 + (b.p2.y - b.c1.y) ^ 2 := by
      have : sqDist b.c1 b.p2 = (b.p2.x - b.c1.x) ^ 2 + (b.p2.y - b.c1.y) ^ 2 := by simp [sqDist]; ring
      rw [← this]; exact h
    have key : ∀ s : ℝ, s < 1 → unitTangent b s =
        let f := (1 - s) * (b.c1.x - b.p1.x) + 2 * s * (b.p2.x - b.c1.x)
        let g := (1 - s) * (b.c1.y - b.p1.y) + 2 * s * (b.p2.y - b.c1.y)
        ⟨f / √(f ^ 2 + g ^ 2), g / √(f ^ 2 + g ^ 2)⟩ := by
      intro s hs
      have hd : b.derivative1 s = ⟨3 * (1 - s) * ((1 - s) * (b.c1.x - b.p1.x) + 2 * s * (b.p2.x - b.c1.x)), 3 * (1 - s) * ((1 - s) * (b.c1.y - b.p1.y) + 2 * s * (b.p2.y - b.c1.y))⟩ := by
        rw [derivative1_real, hc]; apply P.ext_real <;> simp <;> ring
      rw [(unitTangent_eq b s).2, hd]
      obtain ⟨e1, e2⟩ := dir_scale (k := 3 * (1 - s)) (x := (1 - s) * (b.c1.x - b.p1.x) + 2 * s * (b.p2.x - b.c1.x)) (y := (1 - s) * (b.c1.y - b.p1.y) + 2 * s * (b.p2.y - b.c1.y)) (by linarith)
      apply P.ext_real
      · exact e1
      · exact e2
    obtain ⟨c1, c2⟩ := dir_continuous (f := fun s => (1 - s) * (b.c1.x - b.p1.x) + 2 * s * (b.p2.x - b.c1.x)) (g := fun s => (1 - s) * (b.c1.y - b.p1.y) + 2 * s * (b.p2.y - b.c1.y))
      (by fun_prop) (by fun_prop) (a := 1) (by nlinarith)
    obtain ⟨e1, e2⟩ := dir_scale (k := 2) (x := b.p2.x - b.c1.x) (y := b.p2.y - b.c1.y) (by norm_num)
    have t1 := c1.tendsto.mono_left (nhdsWithin_le_nhds (s := Set.Iio (1 : ℝ)))
    have t2 := c2.tendsto.mono_left (nhdsWithin_le_nhds (s := Set.Iio (1 : ℝ)))
    simp only [sub_self, mul_one, zero_mul, zero_add, e1, e2] at t1 t2
    rw [ht]
    constructor
    · refine t1.congr' ?_
      filter_upwards [self_mem_nhdsWithin] with s hs
      rw [key s hs]
    · refine t2.congr' ?_
      filter_upwards [self_mem_nhdsWithin] with s hs
      rw [key s hs]

/-- **C196**, normals: the normal is the tangent turned a quarter turn to the left: at right angles to it, on its left, and as long (so a unit vector where the tangent is one). -/
theorem C196_normal (eps : ℝ) (b : Bez ℝ) (t : ℝ) :
    (b.tangent eps t).x * (b.normal eps t).x + (b.tangent eps t).y * (b.normal eps t).y = 0 ∧
    (b.tangent eps t).x * (b.normal eps t).y - (b.tangent eps t).y * (b.normal eps t).x = (b.tangent eps t).x ^ 2 + (b.tangent eps t).y ^ 2 ∧
    (b.normal eps t).x ^ 2 + (b.normal eps t).y ^ 2 = (b.tangent eps t).x ^ 2 + (b.tangent eps t).y ^ 2 := by
  simp only [Bez.normal, P.normal, if_true, real_neg]
  refine ⟨by ring, by ring, by ring⟩

/-- **C196**, angles: with handles away from the ends, `start_tangent_angle` and `end_tangent_angle` are the angles, above `-π` and at most `π`, of the tangents of the curve at its ends. -/
theorem C196_angles (eps : ℝ) (heps : 0 < eps) (he : eps ≤ 1) (b : Bez ℝ) :
    (eps ^ 2 < sqDist b.c1 b.p1 → -Real.pi < b.startTangent eps ∧ b.startTangent eps ≤ Real.pi ∧ unitTangent b 0 = ⟨Real.cos (b.startTangent eps), Real.sin (b.startTangent eps)⟩) ∧
    (eps ^ 2 < sqDist b.c2 b.p2 → -Real.pi < b.endTangent eps ∧ b.endTangent eps ≤ Real.pi ∧ unitTangent b 1 = ⟨Real.cos (b.endTangent eps), Real.sin (b.endTangent eps)⟩) := by
  have key : ∀ x y : ℝ, 0 < x ^ 2 + y ^ 2 → ∀ p : P ℝ, p = ⟨x / √(x ^ 2 + y ^ 2), y / √(x ^ 2 + y ^ 2)⟩ →
      (-Real.pi < p.angle ∧ p.angle ≤ Real.pi ∧ p = ⟨Real.cos p.angle, Real.sin p.angle⟩) := by
    intro x y h p hp
    have hr : √(x ^ 2 + y ^ 2) ^ 2 = x ^ 2 + y ^ 2 := Real.sq_sqrt h.le
    have hr0 : √(x ^ 2 + y ^ 2) ≠ 0 := (Real.sqrt_pos.2 h).ne'
    have hang : p.angle = Complex.arg ⟨p.x, p.y⟩ := by simp [P.angle, real_atan2]
    have hone : p.x ^ 2 + p.y ^ 2 = 1 := by
      rw [hp]
      show (x / √(x ^ 2 + y ^ 2)) ^ 2 + (y / √(x ^ 2 + y ^ 2)) ^ 2 = 1
      rw [div_pow, div_pow, ← add_div, hr, div_self h.ne']
    have hnorm : ‖(⟨p.x, p.y⟩ : ℂ)‖ = 1 := by
      rw [Complex.norm_def, Complex.normSq_mk, show p.x * p.x + p.y * p.y = p.x ^ 2 + p.y ^ 2 by ring, hone, Real.sqrt_one]
    have hne : (⟨p.x, p.y⟩ : ℂ) ≠ 0 := by
      intro h0; rw [h0, norm_zero] at hnorm; norm_num at hnorm
    rw [hang]
    refine ⟨Complex.neg_pi_lt_arg _, Complex.arg_le_pi _, ?_⟩
    rw [Complex.cos_arg hne, Complex.sin_arg, hnorm, div_one, div_one]
  have hpos : 0 < eps ^ 2 := by positivity
  constructor
  · intro h
    rw [← (C196_ends eps heps he b).1 h]
    have hc : b.c1.eq eps b.p1 = false := (eq_false_iff _ _ _).2 h.le
    have h' : eps ^ 2 < (b.c1.sub b.p1).x ^ 2 + (b.c1.sub b.p1).y ^ 2 := by simpa [sqDist, P.sub] using h
    have ht : b.tangent eps 0 = (b.c1.sub b.p1).unit eps := by
      unfold Bez.tangent
      rw [if_pos (by rw [isZero_iff, abs_zero]; exact heps), hc, if_neg (by simp)]
    have := key _ _ (hpos.trans h') _ rfl
    rw [← unit_big h', ← ht] at this
    unfold Bez.startTangent; rw [real_zero]; exact this
  · intro h
    rw [← (C196_ends eps heps he b).2 h]
    have hc : b.c2.eq eps b.p2 = false := (eq_false_iff _ _ _).2 h.le
    have h' : eps ^ 2 < (b.c2.sub b.p2).neg.x ^ 2 + (b.c2.sub b.p2).neg.y ^ 2 := by
      have : (b.c2.sub b.p2).neg.x ^ 2 + (b.c2.sub b.p2).neg.y ^ 2 = sqDist b.c2 b.p2 := by simp [P.sub, P.neg, sqDist]; ring
      rw [this]; exact h
    have ht : b.tangent eps 1 = (b.c2.sub b.p2).neg.unit eps := by
      unfold Bez.tangent
      rw [if_neg (by rw [isZero_iff, abs_one]; exact not_lt.2 he), if_pos (by rw [floatEq_iff, real_one, sub_self, abs_zero]; exact heps), hc, if_neg (by simp)]
    have := key _ _ (hpos.trans h') _ rfl
    rw [← unit_big h', ← ht] at this
    unfold Bez.endTangent; rw [real_one]; exact this

/-- **C196** fails for a curve with both handles on its start point, which is straight and moves towards its end from the start on: its tangent at the start is the zero vector, and
`start_tangent_angle` is 0 in whatever direction it goes. -/
theorem C196_refuted (eps : ℝ) (heps : 0 < eps) (p q : P ℝ) (h : p ≠ q) :
    (Bez.mk p p p q).tangent eps 0 = ⟨0, 0⟩ ∧ (Bez.mk p p p q).startTangent eps = 0 ∧
    ∀ s, 0 < s → unitTangent (Bez.mk p p p q) s = ⟨(q.x - p.x) / segLen ⟨p, q⟩, (q.y - p.y) / segLen ⟨p, q⟩⟩ := by
  have ht : (Bez.mk p p p q).tangent eps 0 = ⟨0, 0⟩ := by
    unfold Bez.tangent
    rw [if_pos (by rw [isZero_iff, abs_zero]; exact heps)]
    dsimp only
    rw [if_pos (by rw [eq_iff]; simp [sqDist]; positivity)]
    exact unit_small (by simpa [P.sub] using sq_nonneg eps)
  refine ⟨ht, ?_, ?_⟩
  · have h0 : (Bez.mk p p p q).startTangent eps = P.angle ((Bez.mk p p p q).tangent eps 0) := by
      unfold Bez.startTangent; rw [real_zero]
    rw [h0, ht]
    simp [P.angle, real_atan2]
    exact Complex.arg_zero
  · intro s hs
    have hd : (Bez.mk p p p q).derivative1 s = ⟨3 * s ^ 2 * (q.x - p.x), 3 * s ^ 2 * (q.y - p.y)⟩ := by
      rw [derivative1_real]; apply P.ext_real <;> simp <;> ring
    rw [(unitTangent_eq _ s).2, hd]
    obtain ⟨e1, e2⟩ := dir_scale (k := 3 * s ^ 2) (x := q.x - p.x) (y := q.y - p.y) (by positivity)
    have hl : segLen ⟨p, q⟩ = √((q.x - p.x) ^ 2 + (q.y - p.y) ^ 2) := by
      unfold segLen sqDist; congr 1; ring
    rw [hl]
    apply P.ext_real
    · exact e1
    · exact e2

/-- **C196** fails where the curve is slower than the tolerance: there the tangent is the zero vector. -/
theorem C196_refuted_slow (eps : ℝ) (heps : 0 < eps) (b : Bez ℝ) (t : ℝ) (h0 : eps ≤ |t|) (h1 : eps ≤ |t - 1|) (hs : speed b t ≤ eps) : b.tangent eps t = ⟨0, 0⟩ := by
  rw [(unitTangent_eq b t).1] at hs
  unfold Bez.tangent
  rw [if_neg (by rw [isZero_iff]; exact not_lt.2 h0), if_neg (by rw [floatEq_iff, real_one]; exact not_lt.2 h1)]
  refine unit_small ?_
  exact (Real.sqrt_le_left heps.le).1 hs

/-! ## Examples -/

/-- Non-vacuity: an arch, with handles away from its ends. -/
example : let b : Bez ℝ := ⟨⟨0, 0⟩, ⟨0, 1⟩, ⟨1, 1⟩, ⟨1, 0⟩⟩
    b.tangent (1 / 1000) 0 = ⟨0, 1⟩ ∧ b.normal (1 / 1000) 0 = ⟨-1, 0⟩ ∧ unitTangent b 0 = ⟨0, 1⟩ := by
  intro b
  have h : b.tangent (1 / 1000) 0 = ⟨0, 1⟩ := by
    have hc : b.c1.eq (1 / 1000) b.p1 = false := by rw [eq_false_iff]; norm_num [b, sqDist]
    unfold Bez.tangent
    rw [if_pos (by rw [isZero_iff, abs_zero]; norm_num), hc, if_neg (by simp), unit_big (by norm_num [b, P.sub])]
    norm_num [b, P.sub]
  refine ⟨h, ?_, ?_⟩
  · unfold Bez.normal P.normal; rw [h]; simp
  · rw [← (C196_ends (1 / 1000) (by norm_num) (by norm_num) b).1 (by norm_num [b, sqDist])]; exact h

/-- Non-vacuity of `C196_limits` and of the two refutations: a curve with its first handle on its start, one that moves straight up, and one that turns back in a cusp. -/
example : (1 / 1000 : ℝ) ^ 2 < sqDist (⟨1, 1⟩ : P ℝ) ⟨0, 0⟩ ∧ (⟨0, 0⟩ : P ℝ) ≠ ⟨0, 1⟩ ∧ speed ⟨⟨0, 0⟩, ⟨1, 1⟩, ⟨0, 1⟩, ⟨1, 0⟩⟩ (1 / 2) = 0 := by
  refine ⟨by norm_num [sqDist], by simp, ?_⟩
  rw [(unitTangent_eq _ _).1, derivative1_real]
  norm_num

end Verif.Geom
