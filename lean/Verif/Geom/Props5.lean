import Verif.Geom.Props4

/-!
# Properties C59–C64 and C80 (arcs and Bezier curves)
-/

set_option linter.unusedSectionVars false

namespace Verif.Geom
open Verif PyFloat PyTrig

/-- Specification: `p` turned about `c` by the angle `a` (counter-clockwise positive). -/
noncomputable def rotAbout (c : P ℝ) (a : ℝ) (p : P ℝ) : P ℝ :=
  ⟨c.x + Real.cos a * (p.x - c.x) - Real.sin a * (p.y - c.y), c.y + Real.sin a * (p.x - c.x) + Real.cos a * (p.y - c.y)⟩

/-! ## C59 -/

theorem eq_false_iff (eps : ℝ) (p q : P ℝ) : p.eq eps q = false ↔ eps ^ 2 ≤ sqDist p q := by
  rw [← Bool.not_eq_true, eq_iff, not_lt]

theorem sqDist_nonneg (p q : P ℝ) : 0 ≤ sqDist p q := by unfold sqDist; positivity

theorem sqDist_comm (p q : P ℝ) : sqDist p q = sqDist q p := by unfold sqDist; ring

/-- The value of `calc_center` on points at least `eps` apart. -/
theorem calcCenter_real (eps : ℝ) (heps : 0 < eps) (p1 p2 : P ℝ) (r a : ℝ) (h : eps ^ 2 ≤ sqDist p1 p2) :
    Arc.calcCenter eps p1 p2 r a =
      if r ^ 2 - sqDist p1 p2 / 4 < 0 then .error .valueError
      else .ok ⟨(p1.x + p2.x) / 2 - (if 0 < a then 1 else -1) * Real.sqrt (r ^ 2 - sqDist p1 p2 / 4) *
          ((p2.y - p1.y) / segLen ⟨p1, p2⟩),
        (p1.y + p2.y) / 2 + (if 0 < a then 1 else -1) * Real.sqrt (r ^ 2 - sqDist p1 p2 / 4) *
          ((p2.x - p1.x) / segLen ⟨p1, p2⟩)⟩ := by
  have hpos : 0 < sqDist p1 p2 := lt_of_lt_of_le (by positivity) h
  have hL : segLen ⟨p1, p2⟩ ≠ 0 := by
    unfold segLen; exact ne_of_gt (Real.sqrt_pos.2 hpos)
  have hLL : segLen ⟨p1, p2⟩ * segLen ⟨p1, p2⟩ = sqDist p1 p2 := Real.mul_self_sqrt hpos.le
  unfold Arc.calcCenter
  rw [(eq_false_iff eps p1 p2).2 h]
  dsimp only
  rw [length_real]
  simp only [Bool.false_eq_true, if_false, real_mul, real_sub, real_div, real_ofInt, real_lt, real_zero, decide_eq_true_eq, hLL]
  rw [← pow_two]
  by_cases hq : r ^ 2 - sqDist p1 p2 / 4 < 0
  · rw [if_pos (by simpa using hq), if_pos hq]
  · rw [if_neg (by simpa using hq), if_neg hq]
    simp only [pdiv, real_beq, real_zero, hL, decide_false, Bool.false_eq_true, if_false, bind, Except.bind, pure,
      Except.pure]
    congr 1
    apply P.ext_real
    · simp [Line.midpoint, P.add, P.mul]
      ring
    · simp [Line.midpoint, P.add, P.mul]
      ring

/-- **C59.** For end points at least `EPSILON` apart and a radius of at least half the chord, `calc_center` returns a
point at distance `radius` from both ends, on the left of the chord for a positive angle and on the right otherwise
(strictly, unless the chord is a diameter).  With a smaller radius it raises the `ValueError` of `sqrt`. -/
theorem C59_calc_center (eps : ℝ) (heps : 0 < eps) (p1 p2 : P ℝ) (r a : ℝ) (h : eps ^ 2 ≤ sqDist p1 p2) :
    (segLen ⟨p1, p2⟩ / 2 ≤ |r| → ∃ c, Arc.calcCenter eps p1 p2 r a = .ok c ∧ sqDist c p1 = r ^ 2 ∧ sqDist c p2 = r ^ 2 ∧
      (0 < a → 0 ≤ side ⟨p1, p2⟩ c) ∧ (a ≤ 0 → side ⟨p1, p2⟩ c ≤ 0) ∧
      (segLen ⟨p1, p2⟩ / 2 < |r| → side ⟨p1, p2⟩ c ≠ 0)) ∧
    (|r| < segLen ⟨p1, p2⟩ / 2 → Arc.calcCenter eps p1 p2 r a = .error .valueError) := by
  have hpos : 0 < sqDist p1 p2 := lt_of_lt_of_le (by positivity) h
  have hLpos : 0 < segLen ⟨p1, p2⟩ := Real.sqrt_pos.2 hpos
  have hL2 : segLen ⟨p1, p2⟩ ^ 2 = sqDist p1 p2 := Real.sq_sqrt hpos.le
  have hrr : |r| ^ 2 = r ^ 2 := sq_abs r
  have hr0 := abs_nonneg r
  rw [calcCenter_real eps heps p1 p2 r a h]
  generalize hL : segLen ⟨p1, p2⟩ = L at *
  constructor
  · intro hr
    have hq : 0 ≤ r ^ 2 - sqDist p1 p2 / 4 := by nlinarith
    rw [if_neg (not_lt.2 hq)]
    refine ⟨_, rfl, ?_⟩
    have hs := Real.sq_sqrt hq
    have hs0 := Real.sqrt_nonneg (r ^ 2 - sqDist p1 p2 / 4)
    generalize hS : Real.sqrt (r ^ 2 - sqDist p1 p2 / 4) = S at *
    have hd : sqDist p1 p2 = (p2.x - p1.x) ^ 2 + (p2.y - p1.y) ^ 2 := by unfold sqDist; ring
    have hu : ((p2.y - p1.y) / L) ^ 2 + ((p2.x - p1.x) / L) ^ 2 = 1 := by
      field_simp; rw [hL2, hd]; ring
    have hside : ∀ g : ℝ, side ⟨p1, p2⟩ ⟨(p1.x + p2.x) / 2 - g * S * ((p2.y - p1.y) / L),
        (p1.y + p2.y) / 2 + g * S * ((p2.x - p1.x) / L)⟩ = g * S * L := by
      intro g
      simp only [side, leftArea2]
      have : (p2.x - p1.x) * ((p1.y + p2.y) / 2 + g * S * ((p2.x - p1.x) / L) - p1.y) -
          ((p1.x + p2.x) / 2 - g * S * ((p2.y - p1.y) / L) - p1.x) * (p2.y - p1.y)
          = g * S * ((p2.x - p1.x) ^ 2 + (p2.y - p1.y) ^ 2) / L := by ring
      rw [this, ← hd, ← hL2]; field_simp
    have hg : (if 0 < a then (1 : ℝ) else -1) ^ 2 = 1 := by split <;> norm_num
    refine ⟨?_, ?_, ?_, ?_, ?_⟩
    · generalize (if 0 < a then (1 : ℝ) else -1) = g at *
      have e : sqDist ⟨(p1.x + p2.x) / 2 - g * S * ((p2.y - p1.y) / L), (p1.y + p2.y) / 2 + g * S * ((p2.x - p1.x) / L)⟩ p1
          = ((p2.x - p1.x) ^ 2 + (p2.y - p1.y) ^ 2) / 4 +
            g ^ 2 * S ^ 2 * (((p2.y - p1.y) / L) ^ 2 + ((p2.x - p1.x) / L) ^ 2) := by simp only [sqDist]; ring
      rw [e, hu, hg, hs, ← hd]; ring
    · generalize (if 0 < a then (1 : ℝ) else -1) = g at *
      have e : sqDist ⟨(p1.x + p2.x) / 2 - g * S * ((p2.y - p1.y) / L), (p1.y + p2.y) / 2 + g * S * ((p2.x - p1.x) / L)⟩ p2
          = ((p2.x - p1.x) ^ 2 + (p2.y - p1.y) ^ 2) / 4 +
            g ^ 2 * S ^ 2 * (((p2.y - p1.y) / L) ^ 2 + ((p2.x - p1.x) / L) ^ 2) := by simp only [sqDist]; ring
      rw [e, hu, hg, hs, ← hd]; ring
    · intro ha
      rw [if_pos ha, hside]
      nlinarith [mul_nonneg hs0 hLpos.le]
    · intro ha
      rw [if_neg (not_lt.2 ha), hside]
      nlinarith [mul_nonneg hs0 hLpos.le]
    · intro hlt
      rw [hside]
      have hSpos : 0 < S := by
        have : 0 < r ^ 2 - sqDist p1 p2 / 4 := by nlinarith
        rw [← hS]; exact Real.sqrt_pos.2 this
      have : (if 0 < a then (1 : ℝ) else -1) ≠ 0 := by split <;> norm_num
      positivity
  · intro hr
    have hq : r ^ 2 - sqDist p1 p2 / 4 < 0 := by nlinarith
    rw [if_pos hq]

/-- Non-vacuity: a quarter circle of radius 1 around the origin has its computed centre there. -/
example : sqDist (⟨0, 0⟩ : P ℝ) ⟨2, 0⟩ = 4 ∧ segLen ⟨⟨0, 0⟩, ⟨2, 0⟩⟩ / 2 ≤ |(1 : ℝ)| := by
  constructor
  · norm_num [sqDist]
  · have : segLen ⟨⟨0, 0⟩, ⟨2, 0⟩⟩ = 2 := by
      unfold segLen sqDist
      rw [show ((0 : ℝ) - 2) ^ 2 + (0 - 0) ^ 2 = 2 ^ 2 by norm_num, Real.sqrt_sq (by norm_num)]
    rw [this]; norm_num

/-! ## C80: the computed centre is the centre of the sweep -/

/-- **C80**, the part that holds.  If the chord matches the radius and sweep (`chord = 2 r |sin(angle/2)|`) and the
sweep is at most half a turn, then turning the start point about the computed centre by the sweep angle gives the end
point.  Missing: sweeps of more than half a turn, refuted below. -/
theorem C80_center_sweep_partial (eps : ℝ) (heps : 0 < eps) (p1 p2 : P ℝ) (r a : ℝ) (hr : 0 < r)
    (h : eps ^ 2 ≤ sqDist p1 p2) (hc : segLen ⟨p1, p2⟩ = 2 * r * |Real.sin (a / 2)|) (ha : |a| ≤ Real.pi) :
    ∃ c, Arc.calcCenter eps p1 p2 r a = .ok c ∧ rotAbout c a p1 = p2 := by
  have hpos : 0 < sqDist p1 p2 := lt_of_lt_of_le (by positivity) h
  have hLpos : 0 < segLen ⟨p1, p2⟩ := Real.sqrt_pos.2 hpos
  have hL2 : segLen ⟨p1, p2⟩ ^ 2 = sqDist p1 p2 := Real.sq_sqrt hpos.le
  have hd : sqDist p1 p2 = (p2.x - p1.x) ^ 2 + (p2.y - p1.y) ^ 2 := by unfold sqDist; ring
  rw [calcCenter_real eps heps p1 p2 r a h]
  obtain ⟨ha1, ha2⟩ := abs_le.1 ha
  have hC : 0 ≤ Real.cos (a / 2) := Real.cos_nonneg_of_mem_Icc ⟨by linarith, by linarith⟩
  have hsc := Real.sin_sq_add_cos_sq (a / 2)
  have hq : r ^ 2 - sqDist p1 p2 / 4 = (r * Real.cos (a / 2)) ^ 2 := by
    rw [← hL2, hc]
    have : (2 * r * |Real.sin (a / 2)|) ^ 2 = 4 * r ^ 2 * Real.sin (a / 2) ^ 2 := by
      rw [mul_pow, sq_abs]; ring
    rw [this]
    have : Real.sin (a / 2) ^ 2 = 1 - Real.cos (a / 2) ^ 2 := by linarith
    rw [this]; ring
  have hS : Real.sqrt (r ^ 2 - sqDist p1 p2 / 4) = r * Real.cos (a / 2) := by
    rw [hq, Real.sqrt_sq (mul_nonneg hr.le hC)]
  rw [if_neg (by rw [hq]; exact not_lt.2 (sq_nonneg _)), hS]
  refine ⟨_, rfl, ?_⟩
  have hs0 : Real.sin (a / 2) ≠ 0 := by
    intro h0; rw [h0] at hc; simp at hc; linarith
  have hg : (if 0 < a then (1 : ℝ) else -1) * Real.sin (a / 2) = |Real.sin (a / 2)| := by
    split
    · rename_i h0
      rw [one_mul, abs_of_nonneg (Real.sin_nonneg_of_mem_Icc ⟨by linarith, by linarith⟩)]
    · rename_i h0
      push Not at h0
      have := Real.sin_nonneg_of_mem_Icc (x := -(a / 2)) ⟨by linarith, by linarith⟩
      rw [Real.sin_neg] at this
      rw [abs_of_nonpos (by linarith)]; ring
  have hg2 : (if 0 < a then (1 : ℝ) else -1) ^ 2 = 1 := by split <;> norm_num
  generalize (if 0 < a then (1 : ℝ) else -1) = g at *
  have hcosa : Real.cos a = 1 - 2 * Real.sin (a / 2) ^ 2 := by
    have := Real.cos_sq (a / 2)
    have e : 2 * (a / 2) = a := by ring
    rw [e] at this
    linarith
  have hsina : Real.sin a = 2 * Real.sin (a / 2) * Real.cos (a / 2) := by
    rw [← Real.sin_two_mul]; congr 1; ring
  have hLs : segLen ⟨p1, p2⟩ = 2 * r * (g * Real.sin (a / 2)) := by rw [hg]; exact hc
  rw [hLs]
  unfold rotAbout
  rw [hcosa, hsina]
  generalize Real.sin (a / 2) = s at *
  generalize Real.cos (a / 2) = k at *
  have hg0 : g ≠ 0 := by intro h0; rw [h0] at hg2; norm_num at hg2
  apply P.ext_real
  · simp only
    field_simp
    have hk : k ^ 2 = 1 - s ^ 2 := by linarith
    ring_nf
    simp only [show k ^ 2 = 1 - s ^ 2 from hk]
    ring
  · simp only
    field_simp
    have hk : k ^ 2 = 1 - s ^ 2 := by linarith
    ring_nf
    simp only [show k ^ 2 = 1 - s ^ 2 from hk]
    ring

/-- **C80** is false for sweeps of more than half a turn: for the three-quarter circle of radius 1 about the origin from
`(1, 0)` to `(0, -1)` the computed centre is `(1, -1)`, and turning the start point about it by `3π/2` gives `(2, -1)`. -/
theorem C80_refuted : ∃ (p1 p2 : P ℝ) (r a : ℝ), 0 < r ∧ |a| < 2 * Real.pi ∧
    segLen ⟨p1, p2⟩ = 2 * r * |Real.sin (a / 2)| ∧ rotAbout ⟨0, 0⟩ a p1 = p2 ∧
    ∃ c, Arc.calcCenter (1/1000000) p1 p2 r a = .ok c ∧ rotAbout c a p1 ≠ p2 := by
  have hp := Real.pi_pos
  have hcos : Real.cos (3 * Real.pi / 2) = 0 := by
    rw [show 3 * Real.pi / 2 = Real.pi / 2 + Real.pi by ring, Real.cos_add_pi]; simp
  have hsin : Real.sin (3 * Real.pi / 2) = -1 := by
    rw [show 3 * Real.pi / 2 = Real.pi / 2 + Real.pi by ring, Real.sin_add_pi]; simp
  have hD : sqDist (⟨1, 0⟩ : P ℝ) ⟨0, -1⟩ = 2 := by norm_num [sqDist]
  have hs2 : Real.sqrt 2 * Real.sqrt 2 = 2 := Real.mul_self_sqrt (by norm_num)
  have hs2p : 0 < Real.sqrt 2 := Real.sqrt_pos.2 (by norm_num)
  refine ⟨⟨1, 0⟩, ⟨0, -1⟩, 1, 3 * Real.pi / 2, one_pos, ?_, ?_, ?_, ?_⟩
  · rw [abs_of_pos (by linarith)]; linarith
  · unfold segLen
    rw [hD, show 3 * Real.pi / 2 / 2 = Real.pi - Real.pi / 4 by ring, Real.sin_pi_sub, Real.sin_pi_div_four,
      abs_of_pos (by positivity)]
    ring
  · unfold rotAbout; rw [hcos, hsin]; apply P.ext_real <;> norm_num
  · rw [calcCenter_real _ (by norm_num) _ _ _ _ (by rw [hD]; norm_num), hD]
    rw [if_neg (by norm_num)]
    refine ⟨_, rfl, ?_⟩
    rw [if_pos (by linarith)]
    have hq : Real.sqrt (1 ^ 2 - 2 / 4) / segLen ⟨⟨1, 0⟩, ⟨0, -1⟩⟩ = 1 / 2 := by
      unfold segLen
      rw [hD, ← Real.sqrt_div (by norm_num), show ((1 : ℝ) ^ 2 - 2 / 4) / 2 = (1 / 2) ^ 2 by norm_num,
        Real.sqrt_sq (by norm_num)]
    intro hc
    have hx := congrArg P.x hc
    unfold rotAbout at hx
    rw [hcos, hsin] at hx
    simp only at hx
    have e : (1 : ℝ) * Real.sqrt (1 ^ 2 - 2 / 4) * ((-1 - 0) / segLen ⟨⟨1, 0⟩, ⟨0, -1⟩⟩) = -(1 / 2) := by
      rw [← hq]; ring
    have e2 : (1 : ℝ) * Real.sqrt (1 ^ 2 - 2 / 4) * ((0 - 1) / segLen ⟨⟨1, 0⟩, ⟨0, -1⟩⟩) = -(1 / 2) := by
      rw [← hq]; ring
    rw [e, e2] at hx
    norm_num at hx

/-! ## C62: points on an arc -/

/-- Specification: an arc whose end points lie on its circle. -/
def Arc.OnCircle (a : Arc ℝ) : Prop := 0 ≤ a.radius ∧ sqDist a.p1 a.center = a.radius ^ 2 ∧ sqDist a.p2 a.center = a.radius ^ 2

/-- Polar coordinates: a vector of length `r` at its own `atan2` angle. -/
theorem polar_atan2 (v : P ℝ) (r : ℝ) (hr : 0 ≤ r) (h : v.x ^ 2 + v.y ^ 2 = r ^ 2) :
    r * Real.cos v.angle = v.x ∧ r * Real.sin v.angle = v.y := by
  have hn : ‖(⟨v.x, v.y⟩ : ℂ)‖ = r := by
    rw [Complex.norm_def, Complex.normSq_mk, ← pow_two, ← pow_two, h, Real.sqrt_sq hr]
  have h1 := Complex.norm_mul_cos_arg (⟨v.x, v.y⟩ : ℂ)
  have h2 := Complex.norm_mul_sin_arg (⟨v.x, v.y⟩ : ℂ)
  rw [hn] at h1 h2
  exact ⟨h1, h2⟩

/-- `point_at_angle` strictly inside the sweep is the start point turned about the centre. -/
theorem pointAtAngle_real (a : Arc ℝ) (h : a.OnCircle) (t : ℝ) (h0 : 0 < t) (h1 : t < |a.angle|) :
    a.pointAtAngle t = rotAbout a.center (if a.angle < 0 then -t else t) a.p1 := by
  obtain ⟨hr, hp1, -⟩ := h
  have hv : (a.p1.sub a.center).x ^ 2 + (a.p1.sub a.center).y ^ 2 = a.radius ^ 2 := by
    rw [← hp1]; simp [P.sub, sqDist]
  obtain ⟨e1, e2⟩ := polar_atan2 _ _ hr hv
  have ex : (a.p1.sub a.center).x = a.p1.x - a.center.x := rfl
  have ey : (a.p1.sub a.center).y = a.p1.y - a.center.y := rfl
  rw [ex] at e1
  rw [ey] at e2
  unfold Arc.pointAtAngle
  simp only [real_le, real_lt, real_zero, real_abs, decide_eq_true_eq]
  rw [if_neg (not_le.2 h0), if_neg (not_le.2 h1)]
  generalize (a.p1.sub a.center).angle = θ at *
  by_cases hn : a.angle < 0
  · simp only [hn, if_true]
    apply P.ext_real
    · simp only [real_add, real_sub, real_mul, real_cos, rotAbout, Real.cos_sub, Real.cos_neg, Real.sin_neg]
      linear_combination Real.cos t * e1 + Real.sin t * e2
    · simp only [real_add, real_sub, real_mul, real_sin, rotAbout, Real.sin_sub, Real.cos_neg, Real.sin_neg]
      linear_combination Real.cos t * e2 - Real.sin t * e1
  · simp only [hn, if_false]
    apply P.ext_real
    · simp only [real_add, real_mul, real_cos, rotAbout, Real.cos_add]
      linear_combination Real.cos t * e1 - Real.sin t * e2
    · simp only [real_add, real_mul, real_sin, rotAbout, Real.sin_add]
      linear_combination Real.cos t * e2 + Real.sin t * e1

theorem sqDist_rotAbout (c p : P ℝ) (t : ℝ) : sqDist (rotAbout c t p) c = sqDist p c := by
  have := Real.sin_sq_add_cos_sq t
  unfold sqDist rotAbout
  simp only
  linear_combination ((p.x - c.x) ^ 2 + (p.y - c.y) ^ 2) * this

/-- **C62.** For every arc whose ends are on its circle and every `mu`, `point_at(mu)` is on the circle; `mu ≤ 0` gives
the start and `mu ≥ 1` the end point; in between it is the start point turned about the centre by `mu` times the (signed)
sweep.  Reversing an arc twice gives it back. -/
theorem C62_points_on_arc (a : Arc ℝ) (h : a.OnCircle) (mu : ℝ) :
    sqDist (a.pointAt mu) a.center = a.radius ^ 2 ∧ (mu ≤ 0 → a.pointAt mu = a.p1) ∧
      (a.angle ≠ 0 → 1 ≤ mu → a.pointAt mu = a.p2) ∧
      (a.angle ≠ 0 → 0 ≤ mu → mu < 1 → a.pointAt mu = rotAbout a.center (mu * a.angle) a.p1) ∧
      a.reversed.reversed = a := by
  have hab := abs_nonneg a.angle
  have low : mu ≤ 0 → a.pointAt mu = a.p1 := by
    intro hm
    unfold Arc.pointAt Arc.pointAtAngle
    simp only [real_le, real_zero, real_abs, real_mul, decide_eq_true_eq]
    rw [if_pos (mul_nonpos_of_nonneg_of_nonpos hab hm)]
  have high : a.angle ≠ 0 → 1 ≤ mu → a.pointAt mu = a.p2 := by
    intro ha hm
    have hp : 0 < |a.angle| := abs_pos.2 ha
    unfold Arc.pointAt Arc.pointAtAngle
    simp only [real_le, real_zero, real_abs, real_mul, decide_eq_true_eq]
    rw [if_neg (not_le.2 (by positivity)), if_pos (by nlinarith)]
  have mid : a.angle ≠ 0 → 0 < mu → mu < 1 → a.pointAt mu = rotAbout a.center (mu * a.angle) a.p1 := by
    intro ha h0 h1
    have hp : 0 < |a.angle| := abs_pos.2 ha
    unfold Arc.pointAt
    simp only [real_mul, real_abs]
    rw [pointAtAngle_real a h _ (by positivity) (by nlinarith)]
    congr 1
    split
    · rename_i hn; rw [abs_of_neg hn]; ring
    · rename_i hn; rw [abs_of_nonneg (not_lt.1 hn)]; ring
  refine ⟨?_, low, high, ?_, ?_⟩
  · by_cases hm : mu ≤ 0
    · rw [low hm]; exact h.2.1
    · push Not at hm
      by_cases ha : a.angle = 0
      · have : a.pointAt mu = a.p1 := by
          unfold Arc.pointAt Arc.pointAtAngle
          simp [ha]
        rw [this]; exact h.2.1
      · by_cases hm1 : 1 ≤ mu
        · rw [high ha hm1]; exact h.2.2
        · push Not at hm1
          rw [mid ha hm hm1, sqDist_rotAbout]; exact h.2.1
  · intro ha h0 h1
    rcases lt_or_eq_of_le h0 with h0 | h0
    · exact mid ha h0 h1
    · rw [low (le_of_eq h0.symm), ← h0]
      apply P.ext_real <;> simp [rotAbout]
  · unfold Arc.reversed
    simp

/-- Non-vacuity: a quarter circle about the origin, with its real sweep. -/
example : (Arc.mk ⟨1, 0⟩ ⟨0, 1⟩ 1 (Real.pi / 2) ⟨0, 0⟩ : Arc ℝ).OnCircle := by
  refine ⟨zero_le_one, ?_, ?_⟩ <;> norm_num [sqDist]

/-! ## C60: arc subdivision -/

/-- **C60** is false: a clockwise arc is never divided, whatever `mu` is. -/
theorem C60_refuted (eps : ℝ) (heps : 0 < eps) (a : Arc ℝ) (ha : a.angle < 0) (mu : ℝ) : a.subdivide eps mu = [a] := by
  unfold Arc.subdivide Arc.subdivideAtAngle
  simp only [real_lt, real_le, real_one, real_mul, real_abs, Bool.or_eq_true, decide_eq_true_eq]
  split
  · rfl
  · rename_i h
    push Not at h
    rw [if_pos]
    right
    have : 0 ≤ |a.angle| * mu := mul_nonneg (abs_nonneg _) (le_trans heps.le h.1)
    linarith

/-- Non-vacuity: clockwise arcs exist. -/
example : (Arc.mk ⟨1, 0⟩ ⟨0, -1⟩ 1 (-Real.pi / 2) ⟨0, 0⟩ : Arc ℝ).angle < 0 := by
  have := Real.pi_pos
  simp only; linarith

/-- **C60**, the part that holds: for counter-clockwise arcs and `EPSILON ≤ mu < 1` (with a first part of at least
`EPSILON`), the result is two arcs with the same centre, radius and direction that join at the start point turned by
`mu` times the sweep, keep the outer end points, and whose sweeps are `mu` and `1 - mu` of the original.
Missing: clockwise arcs (refuted above). -/
theorem C60_subdivide_partial (eps : ℝ) (heps : 0 < eps) (a : Arc ℝ) (h : a.OnCircle) (ha : 0 < a.angle) (mu : ℝ)
    (h0 : eps ≤ mu) (h1 : mu < 1) (h2 : eps ≤ a.angle * mu) :
    ∃ b c, a.subdivide eps mu = [b, c] ∧ b.center = a.center ∧ c.center = a.center ∧ b.radius = a.radius ∧
      c.radius = a.radius ∧ b.p1 = a.p1 ∧ c.p2 = a.p2 ∧ b.p2 = c.p1 ∧ b.p2 = rotAbout a.center (mu * a.angle) a.p1 ∧
      b.angle = mu * a.angle ∧ c.angle = (1 - mu) * a.angle ∧ 0 < b.angle ∧ 0 < c.angle ∧
      b.angle + c.angle = a.angle ∧ b.OnCircle ∧ c.OnCircle := by
  have hmu : 0 < mu := lt_of_lt_of_le heps h0
  have habs : |a.angle| = a.angle := abs_of_pos ha
  have hlt : a.angle * mu < a.angle := by nlinarith
  have hp : a.pointAtAngle (a.angle * mu) = rotAbout a.center (mu * a.angle) a.p1 := by
    rw [pointAtAngle_real a h _ (by positivity) (by rw [habs]; exact hlt), if_neg (not_lt.2 ha.le), mul_comm]
  have key : a.subdivide eps mu = [⟨a.p1, rotAbout a.center (mu * a.angle) a.p1, a.radius, mu * a.angle, a.center⟩,
      ⟨rotAbout a.center (mu * a.angle) a.p1, a.p2, a.radius, (1 - mu) * a.angle, a.center⟩] := by
    unfold Arc.subdivide Arc.subdivideAtAngle
    simp only [real_lt, real_le, real_one, real_zero, real_mul, real_sub, real_abs, Bool.or_eq_true, decide_eq_true_eq, habs,
      hp]
    rw [if_neg (by push Not; exact ⟨h0, h1⟩), if_neg (by push Not; exact ⟨h2, hlt⟩)]
    simp only [not_lt.2 ha.le, if_false]
    congr 1
    · congr 1; ring
    · congr 2; ring
  have hon : sqDist (rotAbout a.center (mu * a.angle) a.p1) a.center = a.radius ^ 2 := by
    rw [sqDist_rotAbout]; exact h.2.1
  refine ⟨_, _, key, rfl, rfl, rfl, rfl, rfl, rfl, rfl, rfl, rfl, rfl, by positivity, ?_, ?_, ?_, ?_⟩
  · exact mul_pos (by linarith) ha
  · simp only; ring
  · exact ⟨h.1, h.2.1, hon⟩
  · exact ⟨h.1, hon, h.2.2⟩

/-! ## C61: arc transform -/

theorem transform_real (eps : ℝ) (a : Arc ℝ) (m : Mat ℝ) (hm : |m.a| = |m.e|) (hne : sqDist a.p1 a.p2 ≠ 0) :
    a.transform eps m = Arc.mk' eps (m.apply a.p1) (m.apply a.p2)
      (a.radius * (sqDist (m.apply a.p1) (m.apply a.p2) / sqDist a.p1 a.p2))
      (if m.a * m.e < 0 then -a.angle else a.angle) none := by
  unfold Arc.transform
  have e : ∀ p q : P ℝ, p.distance2 q = sqDist p q := by
    intro p q; unfold P.distance2 sqDist; simp only [real_add, real_mul, real_sub]; ring
  simp only [P.transform, e, real_beq, real_abs, hm, decide_true, Bool.not_true, Bool.false_eq_true, if_false, pdiv,
    real_zero, hne, decide_false, bind, Except.bind, real_mul, real_lt, decide_eq_true_eq, real_neg, real_div]

/-- **C61** is false: scaling an arc uniformly by `s` multiplies the radius by `s²` (when the call succeeds at all). -/
theorem C61_refuted (eps : ℝ) (a r : Arc ℝ) (s : ℝ) (hne : sqDist a.p1 a.p2 ≠ 0)
    (h : a.transform eps (Mat.scale s s none) = .ok r) : r.radius = a.radius * s ^ 2 := by
  rw [transform_real eps a _ rfl hne] at h
  have e : sqDist ((Mat.scale s s none : Mat ℝ).apply a.p1) ((Mat.scale s s none : Mat ℝ).apply a.p2)
      = s ^ 2 * sqDist a.p1 a.p2 := by
    rw [(C43_scale s s a.p1 a.p1).2.2, (C43_scale s s a.p1 a.p2).2.2]; unfold sqDist; ring
  rw [e] at h
  unfold Arc.mk' at h
  simp only [bind, Except.bind, pure, Except.pure] at h
  split at h
  · exact absurd h (by simp)
  · rw [Except.ok.injEq] at h
    rw [← h]
    simp only
    field_simp

/-- **C61**: the refutation is not vacuous: the unit half circle scaled by `2` gets radius `4` (and one scaled by `1/2`
raises a domain error). -/
theorem C61_refuted_witness :
    (∃ r, (Arc.mk ⟨1, 0⟩ ⟨-1, 0⟩ 1 Real.pi ⟨0, 0⟩ : Arc ℝ).transform (1/1000000) (Mat.scale 2 2 none) = .ok r ∧
      r.radius = 4) ∧
    (Arc.mk ⟨1, 0⟩ ⟨-1, 0⟩ 1 Real.pi ⟨0, 0⟩ : Arc ℝ).transform (1/1000000) (Mat.scale (1/2) (1/2) none)
      = .error .valueError := by
  have hD : sqDist (⟨1, 0⟩ : P ℝ) ⟨-1, 0⟩ = 4 := by norm_num [sqDist]
  constructor
  · rw [transform_real _ _ _ rfl (by rw [hD]; norm_num)]
    rw [(C43_scale 2 2 ⟨1, 0⟩ ⟨1, 0⟩).2.2, (C43_scale 2 2 ⟨1, 0⟩ ⟨-1, 0⟩).2.2]
    unfold Arc.mk'
    have h1 : sqDist (⟨2 * 1, 2 * 0⟩ : P ℝ) ⟨2 * (-1), 2 * 0⟩ = 16 := by norm_num [sqDist]
    rw [calcCenter_real _ (by norm_num) _ _ _ _ (by rw [h1]; norm_num), h1, hD]
    rw [if_neg (c := ((1 : ℝ) * (16 / 4)) ^ 2 - 16 / 4 < 0) (by norm_num)]
    refine ⟨_, rfl, ?_⟩
    norm_num
  · rw [transform_real _ _ _ rfl (by rw [hD]; norm_num)]
    rw [(C43_scale (1/2) (1/2) ⟨1, 0⟩ ⟨1, 0⟩).2.2, (C43_scale (1/2) (1/2) ⟨1, 0⟩ ⟨-1, 0⟩).2.2]
    unfold Arc.mk'
    have h1 : sqDist (⟨1/2 * 1, 1/2 * 0⟩ : P ℝ) ⟨1/2 * (-1), 1/2 * 0⟩ = 1 := by norm_num [sqDist]
    rw [calcCenter_real _ (by norm_num) _ _ _ _ (by rw [h1]; norm_num), h1, hD]
    rw [if_pos (c := ((1 : ℝ) * (1 / 4)) ^ 2 - 1 / 4 < 0) (by norm_num)]
    rfl

/-- **C61**, the part that holds: under a transform with equal diagonal magnitudes that preserves the distance between
the end points (translations, rotations, axis mirrorings), the arc keeps its radius, its end points are the transformed
ones, and the centre is at distance `radius` from both.  Missing: every other scale factor. -/
theorem C61_transform_partial (eps : ℝ) (heps : 0 < eps) (a : Arc ℝ) (m : Mat ℝ) (hm : |m.a| = |m.e|)
    (hd : eps ^ 2 ≤ sqDist a.p1 a.p2) (hr : segLen ⟨a.p1, a.p2⟩ / 2 ≤ |a.radius|)
    (hiso : sqDist (m.apply a.p1) (m.apply a.p2) = sqDist a.p1 a.p2) :
    ∃ r, a.transform eps m = .ok r ∧ r.radius = a.radius ∧ r.p1 = m.apply a.p1 ∧ r.p2 = m.apply a.p2 ∧
      sqDist r.center r.p1 = a.radius ^ 2 ∧ sqDist r.center r.p2 = a.radius ^ 2 ∧ |r.angle| = |a.angle| := by
  have hpos : 0 < sqDist a.p1 a.p2 := lt_of_lt_of_le (by positivity) hd
  rw [transform_real eps a m hm (ne_of_gt hpos), hiso, div_self (ne_of_gt hpos), mul_one]
  have hs : segLen ⟨m.apply a.p1, m.apply a.p2⟩ / 2 ≤ |a.radius| := by
    unfold segLen at hr ⊢; simp only at hr ⊢; rw [hiso]; exact hr
  obtain ⟨c, hc, h1, h2, -⟩ := (C59_calc_center eps heps (m.apply a.p1) (m.apply a.p2) a.radius
    (if m.a * m.e < 0 then -a.angle else a.angle) (by rw [hiso]; exact hd)).1 hs
  refine ⟨⟨m.apply a.p1, m.apply a.p2, a.radius, if m.a * m.e < 0 then -a.angle else a.angle, c⟩, ?_, rfl, rfl, rfl, h1, h2,
    ?_⟩
  · unfold Arc.mk'
    simp only [hc, bind, Except.bind, pure, Except.pure]
  · simp only; split
    · rw [abs_neg]
    · rfl

/-- Non-vacuity: every rotation meets the hypotheses on the matrix. -/
example (t : ℝ) (o p q : P ℝ) : |(Mat.rotate t o : Mat ℝ).a| = |(Mat.rotate t o : Mat ℝ).e| ∧
    sqDist ((Mat.rotate t o).apply p) ((Mat.rotate t o).apply q) = sqDist p q :=
  ⟨by simp [Mat.rotate, Mat.compose, Mat.translate], (C42_rotation 0 t o p q).2.1⟩

/-! ## C63, C64: Bezier curves -/

/-- Specification: the cubic Bernstein polynomial. -/
def bernstein3 (p0 p1 p2 p3 : P ℝ) (t : ℝ) : P ℝ :=
  ⟨(1 - t) ^ 3 * p0.x + 3 * (1 - t) ^ 2 * t * p1.x + 3 * (1 - t) * t ^ 2 * p2.x + t ^ 3 * p3.x,
   (1 - t) ^ 3 * p0.y + 3 * (1 - t) ^ 2 * t * p1.y + 3 * (1 - t) * t ^ 2 * p2.y + t ^ 3 * p3.y⟩

/-- Specification: the quadratic Bernstein polynomial. -/
def bernstein2 (p0 p1 p2 : P ℝ) (t : ℝ) : P ℝ :=
  ⟨(1 - t) ^ 2 * p0.x + 2 * (1 - t) * t * p1.x + t ^ 2 * p2.x, (1 - t) ^ 2 * p0.y + 2 * (1 - t) * t * p1.y + t ^ 2 * p2.y⟩

/-- The curve of a `CubicBezier`. -/
def Bez.curve (b : Bez ℝ) (t : ℝ) : P ℝ := bernstein3 b.p1 b.c1 b.c2 b.p2 t

/-- **C63** (evaluation).  `point_at(t)` is the Bernstein polynomial of the control points, except that parameters within
`EPSILON` of `0` or `1` give exactly the end points. -/
theorem C63_point_at (eps : ℝ) (b : Bez ℝ) (t : ℝ) :
    (|t| < eps → b.pointAt eps t = b.p1) ∧ (eps ≤ |t| → |t - 1| < eps → b.pointAt eps t = b.p2) ∧
      (eps ≤ |t| → eps ≤ |t - 1| → b.pointAt eps t = b.curve t) ∧ b.curve 0 = b.p1 ∧ b.curve 1 = b.p2 := by
  have hz := isZero_iff eps t
  have h1 := floatEq_iff eps t 1
  refine ⟨fun h => ?_, fun h h' => ?_, fun h h' => ?_, ?_, ?_⟩
  · unfold Bez.pointAt; rw [if_pos (hz.2 h)]
  · unfold Bez.pointAt
    rw [if_neg (fun hh => absurd (hz.1 hh) (not_lt.2 h)), if_pos (by rw [real_one]; exact h1.2 h')]
  · unfold Bez.pointAt
    rw [if_neg (fun hh => absurd (hz.1 hh) (not_lt.2 h)), if_neg (by rw [real_one]; exact fun hh => absurd (h1.1 hh) (not_lt.2 h'))]
    apply P.ext_real <;> simp [P.add, P.mul, Bez.curve, bernstein3] <;> ring
  · apply P.ext_real <;> simp [Bez.curve, bernstein3]
  · apply P.ext_real <;> simp [Bez.curve, bernstein3]

/-- **C63** (subdivision).  For `0 < t < 1` the two parts trace exactly the original curve on `[0, t]` and `[t, 1]`: the first
part at parameter `s` is the original at `s t`, the second the original at `t + s (1 - t)`; they join at the split point.
For `t` outside `(0, 1)` the whole curve is returned with `None`. -/
theorem C63_subdivide (b : Bez ℝ) (t : ℝ) :
    (0 < t → t < 1 → ∃ l r, b.subdivide t = (l, some r) ∧ (∀ s, l.curve s = b.curve (s * t)) ∧
      (∀ s, r.curve s = b.curve (t + s * (1 - t))) ∧ l.p1 = b.p1 ∧ r.p2 = b.p2 ∧ l.p2 = r.p1 ∧ l.p2 = b.curve t) ∧
    (t ≤ 0 ∨ 1 ≤ t → b.subdivide t = (b, none)) := by
  constructor
  · intro h0 h1
    have hs : b.subdivide t = (⟨b.p1, (b.controlpointsAt t).1, (b.controlpointsAt t).2.1, (b.controlpointsAt t).2.2.1⟩,
        some ⟨(b.controlpointsAt t).2.2.1, (b.controlpointsAt t).2.2.2.1, (b.controlpointsAt t).2.2.2.2, b.p2⟩) := by
      unfold Bez.subdivide
      rw [if_neg]
      simp only [real_le, real_zero, real_one, Bool.or_eq_true, decide_eq_true_eq]
      push Not; exact ⟨h0, h1⟩
    refine ⟨_, _, hs, ?_, ?_, rfl, rfl, rfl, ?_⟩
    · intro s
      apply P.ext_real <;> simp [Bez.controlpointsAt, Bez.curve, bernstein3, P.add, P.mul] <;> ring
    · intro s
      apply P.ext_real <;> simp [Bez.controlpointsAt, Bez.curve, bernstein3, P.add, P.mul] <;> ring
    · apply P.ext_real <;> simp [Bez.controlpointsAt, Bez.curve, bernstein3, P.add, P.mul] <;> ring
  · intro h
    unfold Bez.subdivide
    rw [if_pos]
    simp only [real_le, real_zero, real_one, Bool.or_eq_true, decide_eq_true_eq]
    exact h

/-- **C64.** The cubic made from a quadratic is the same curve, parameter by parameter. -/
theorem C64_from_quadratic (q1 q2 q3 : P ℝ) (t : ℝ) :
    (Bez.fromQuadratic q1 q2 q3).curve t = bernstein2 q1 q2 q3 t := by
  apply P.ext_real <;> simp [Bez.fromQuadratic, Bez.curve, bernstein3, bernstein2, P.add, P.mul, P.sub] <;> ring

/-- Non-vacuity: a genuine curve, split at the middle. -/
example : (Bez.mk ⟨0, 0⟩ ⟨0, 4⟩ ⟨4, 4⟩ ⟨4, 0⟩ : Bez ℚ).subdivide (1/2) =
    (⟨⟨0, 0⟩, ⟨0, 2⟩, ⟨1, 3⟩, ⟨2, 3⟩⟩, some ⟨⟨2, 3⟩, ⟨3, 3⟩, ⟨4, 2⟩, ⟨4, 0⟩⟩) := by decide +kernel

end Verif.Geom
