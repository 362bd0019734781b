import Verif.Geom.Props8

/-!
# C92: Bezier curves for circles, circular arcs and sine waves
-/

set_option linter.unusedSectionVars false

namespace Verif.Geom
open Verif PyFloat PyTrig

theorem lit_real (n : Int) (k : Nat) : (lit n k : ℝ) = n / 10 ^ k := by
  simp [lit]

/-- **C92**, `bezier_circle`: the four curves go once around the circle: they meet at the points of the circle in direction of the axes, and
every point of each of them is, in square, within 0.055 percent of the distance `radius` from the centre. -/
theorem C92_bezier_circle (c : P ℝ) (r : ℝ) :
    ∃ b1 b2 b3 b4, bezierCircle c r = [b1, b2, b3, b4] ∧
      b1.p1 = ⟨c.x + r, c.y⟩ ∧ b1.p2 = ⟨c.x, c.y + r⟩ ∧ b2.p1 = b1.p2 ∧ b2.p2 = ⟨c.x - r, c.y⟩ ∧ b3.p1 = b2.p2 ∧ b3.p2 = ⟨c.x, c.y - r⟩ ∧
      b4.p1 = b3.p2 ∧ b4.p2 = b1.p1 ∧
      ∀ b ∈ bezierCircle c r, ∀ t, 0 ≤ t → t ≤ 1 → |sqDist (b.curve t) c - r ^ 2| ≤ 55 / 100000 * r ^ 2 := by
  have core : ∀ t : ℝ, 0 ≤ t → t ≤ 1 → ∀ k : ℝ, k = 5522847498308 / 10 ^ 13 →
      |((1 - t) ^ 3 + 3 * (1 - t) ^ 2 * t + 3 * (1 - t) * t ^ 2 * k) ^ 2 + (3 * (1 - t) ^ 2 * t * k + 3 * (1 - t) * t ^ 2 + t ^ 3) ^ 2 - 1| ≤ 55 / 100000 := by
    intro t h0 h1 k hk
    have hid : ((1 - t) ^ 3 + 3 * (1 - t) ^ 2 * t + 3 * (1 - t) * t ^ 2 * k) ^ 2 + (3 * (1 - t) ^ 2 * t * k + 3 * (1 - t) * t ^ 2 + t ^ 3) ^ 2 - 1 =
        (t * (1 - t)) ^ 2 * ((9 * k ^ 2 + 6 * k - 6) - 2 * (2 - 3 * k) ^ 2 * (t * (1 - t))) := by ring
    rw [hid]
    set s := t * (1 - t) with hs
    have hs0 : 0 ≤ s := mul_nonneg h0 (by linarith)
    have hs1 : s ≤ 1 / 4 := by nlinarith [sq_nonneg (t - 1 / 2)]
    rw [hk, abs_le]
    constructor
    · have : (-1 / 1000 : ℝ) ≤ ((9 * ((5522847498308 : ℝ) / 10 ^ 13) ^ 2 + 6 * (5522847498308 / 10 ^ 13) - 6) - 2 * (2 - 3 * (5522847498308 / 10 ^ 13)) ^ 2 * s) := by
        norm_num; linarith
      nlinarith [mul_self_nonneg s, mul_le_mul_of_nonneg_left this (sq_nonneg s), mul_le_mul hs1 hs1 hs0 (by norm_num)]
    · norm_num
      nlinarith [mul_nonneg hs0 (sq_nonneg (s - 1 / 6)), sq_nonneg (s - 1 / 6)]
  refine ⟨_, _, _, _, rfl, ?_, ?_, rfl, ?_, rfl, ?_, rfl, rfl, ?_⟩
  · apply P.ext_real <;> simp [P.add] <;> ring
  · apply P.ext_real <;> simp [P.add] <;> ring
  · apply P.ext_real <;> simp [P.add] <;> ring
  · apply P.ext_real <;> simp [P.add] <;> ring
  · intro b hb t h0 h1
    have hc := core t h0 h1 _ rfl
    have hlit : (lit 5522847498308 13 : ℝ) = 5522847498308 / 10 ^ 13 := by rw [lit_real]; norm_num
    set k : ℝ := 5522847498308 / 10 ^ 13 with hk
    have hgo : ∀ q : ℝ, q = (((1 - t) ^ 3 + 3 * (1 - t) ^ 2 * t + 3 * (1 - t) * t ^ 2 * k) ^ 2 +
        (3 * (1 - t) ^ 2 * t * k + 3 * (1 - t) * t ^ 2 + t ^ 3) ^ 2 - 1) * r ^ 2 → |q| ≤ 55 / 100000 * r ^ 2 := by
      intro q hq
      rw [hq, abs_mul, abs_of_nonneg (sq_nonneg r)]
      exact mul_le_mul_of_nonneg_right hc (sq_nonneg r)
    unfold bezierCircle at hb
    simp only [hlit, real_mul, List.mem_cons, List.not_mem_nil, or_false] at hb
    rcases hb with rfl | rfl | rfl | rfl <;> apply hgo <;>
      simp only [sqDist, Bez.curve, bernstein3, P.add, real_add, real_neg, real_zero] <;> ring

/-- Non-vacuity: the first curve of the unit circle ends at the top. -/
example : ∃ b ∈ bezierCircle (⟨0, 0⟩ : P ℝ) 1, b.p2 = ⟨0, 1⟩ := by
  obtain ⟨b1, b2, b3, b4, h, -, h2, -⟩ := C92_bezier_circle ⟨0, 0⟩ 1
  exact ⟨b1, by rw [h]; simp, by rw [h2]; apply P.ext_real <;> simp⟩

/-- The curve for a circular arc, exactly. -/
theorem circularArc_sqDist (a : Arc ℝ) (r : ℝ) (hr : sqDist a.p1 a.center = r ^ 2) (hrot : rotAbout a.center a.angle a.p1 = a.p2) (hcos : Real.cos (a.angle / 4) ≠ 0)
    (t : ℝ) : sqDist ((bezierCircularArc a).curve t) a.center =
      r ^ 2 * (1 + (1 - 4 * (t * (1 - t))) * (t * (1 - t)) ^ 2 * (4 * Real.tan (a.angle / 4) ^ 3 / (1 + Real.tan (a.angle / 4) ^ 2)) ^ 2) := by
  set T := Real.tan (a.angle / 4) with hT
  have h1 : 1 + T ^ 2 ≠ 0 := by positivity
  -- cosine and sine of the angle through the tangent of its quarter
  set C := Real.cos (a.angle / 4) with hC
  set S := Real.sin (a.angle / 4) with hS
  have hcs : S ^ 2 + C ^ 2 = 1 := Real.sin_sq_add_cos_sq _
  have hST : S = T * C := by rw [hT, Real.tan_eq_sin_div_cos, ← hS, ← hC]; field_simp
  have hC2 : C ^ 2 * (1 + T ^ 2) = 1 := by rw [hST] at hcs; linarith
  have hcos2 : Real.cos (a.angle / 2) = C ^ 2 - S ^ 2 := by
    rw [show a.angle / 2 = 2 * (a.angle / 4) by ring, Real.cos_two_mul, ← hC]; linarith
  have hsin2 : Real.sin (a.angle / 2) = 2 * S * C := by
    rw [show a.angle / 2 = 2 * (a.angle / 4) by ring, Real.sin_two_mul]
  have hcosa : Real.cos a.angle = 1 - 2 * (2 * S * C) ^ 2 := by
    rw [show a.angle = 2 * (a.angle / 2) by ring, Real.cos_two_mul, ← hsin2]; nlinarith [Real.sin_sq_add_cos_sq (a.angle / 2)]
  have hsina : Real.sin a.angle = 2 * (2 * S * C) * (C ^ 2 - S ^ 2) := by
    rw [show a.angle = 2 * (a.angle / 2) by ring, Real.sin_two_mul, ← hsin2, ← hcos2]
  have hc2 : C ^ 2 = 1 / (1 + T ^ 2) := by field_simp; linarith
  have hSC : S * C = T / (1 + T ^ 2) := by rw [hST, mul_assoc, ← pow_two, hc2]; ring
  have hs2 : S ^ 2 = T ^ 2 / (1 + T ^ 2) := by rw [hST, mul_pow, hc2]; ring
  have hca : Real.cos a.angle = 1 - 8 * T ^ 2 / (1 + T ^ 2) ^ 2 := by
    rw [hcosa, show 2 * S * C = 2 * (S * C) by ring, hSC]; field_simp; ring
  have hsa : Real.sin a.angle = 4 * T * (1 - T ^ 2) / (1 + T ^ 2) ^ 2 := by
    rw [hsina, show 2 * S * C = 2 * (S * C) by ring, hSC, hc2, hs2]; field_simp; ring
  set x := a.p1.x - a.center.x with hx
  set y := a.p1.y - a.center.y with hy
  have hxy : x ^ 2 + y ^ 2 = r ^ 2 := by rw [← hr, hx, hy]; rfl
  have hp2x : a.p2.x - a.center.x = Real.cos a.angle * x - Real.sin a.angle * y := by rw [← hrot]; simp only [rotAbout]; ring
  have hp2y : a.p2.y - a.center.y = Real.sin a.angle * x + Real.cos a.angle * y := by rw [← hrot]; simp only [rotAbout]; ring
  have e1 : ((bezierCircularArc a).curve t).x - a.center.x =
      ((1 - t) ^ 3 + 3 * (1 - t) ^ 2 * t) * x - 3 * (1 - t) ^ 2 * t * (4 * T / 3) * y + (3 * (1 - t) * t ^ 2 + t ^ 3) * (a.p2.x - a.center.x) +
        3 * (1 - t) * t ^ 2 * (4 * T / 3) * (a.p2.y - a.center.y) := by
    simp only [bezierCircularArc, Bez.curve, bernstein3, P.add, P.sub, P.mul, real_add, real_sub, real_mul, real_div, real_neg, real_ofInt, real_tan, ← hT, hx, hy]
    push_cast; ring
  have e2 : ((bezierCircularArc a).curve t).y - a.center.y =
      ((1 - t) ^ 3 + 3 * (1 - t) ^ 2 * t) * y + 3 * (1 - t) ^ 2 * t * (4 * T / 3) * x + (3 * (1 - t) * t ^ 2 + t ^ 3) * (a.p2.y - a.center.y) -
        3 * (1 - t) * t ^ 2 * (4 * T / 3) * (a.p2.x - a.center.x) := by
    simp only [bezierCircularArc, Bez.curve, bernstein3, P.add, P.sub, P.mul, real_add, real_sub, real_mul, real_div, real_neg, real_ofInt, real_tan, ← hT, hx, hy]
    push_cast; ring
  unfold sqDist
  rw [e1, e2, hp2x, hp2y, hca, hsa, ← hxy]
  field_simp
  ring

/-- **C92**, `bezier_circular_arc`: for an arc (whose angle takes the start to the end) of at most a quarter turn, the curve has the same ends, leaves and
arrives along the circle, passes through the middle of the arc, and all its points are on or just outside the circle, in square by at most 0.055 percent. -/
theorem C92_bezier_circular_arc (a : Arc ℝ) (r : ℝ) (hr : sqDist a.p1 a.center = r ^ 2) (hrot : rotAbout a.center a.angle a.p1 = a.p2) (hq : |a.angle| ≤ Real.pi / 2) :
    (bezierCircularArc a).p1 = a.p1 ∧ (bezierCircularArc a).p2 = a.p2 ∧
    (bezierCircularArc a).curve (1 / 2) = rotAbout a.center (a.angle / 2) a.p1 ∧
    (∀ t, 0 ≤ t → t ≤ 1 → r ^ 2 ≤ sqDist ((bezierCircularArc a).curve t) a.center ∧
      sqDist ((bezierCircularArc a).curve t) a.center ≤ (1 + 55 / 100000) * r ^ 2) ∧
    (∃ k : ℝ, (0 ≤ k ↔ 0 ≤ a.angle) ∧
      (bezierCircularArc a).c1 = ⟨a.p1.x - k * (a.p1.y - a.center.y), a.p1.y + k * (a.p1.x - a.center.x)⟩ ∧
      (bezierCircularArc a).c2 = ⟨a.p2.x + k * (a.p2.y - a.center.y), a.p2.y - k * (a.p2.x - a.center.x)⟩) := by
  have hpi := Real.pi_pos
  obtain ⟨hq1, hq2⟩ := abs_le.1 hq
  have hcos : 0 < Real.cos (a.angle / 4) := Real.cos_pos_of_mem_Ioo ⟨by linarith, by linarith⟩
  have key := circularArc_sqDist a r hr hrot hcos.ne'
  set T := Real.tan (a.angle / 4) with hT
  have hT1 : T ^ 2 ≤ 172 / 1000 := by
    have h8 : Real.tan (Real.pi / 8) = Real.sqrt 2 - 1 := by
      have h4 : Real.tan (2 * (Real.pi / 8)) = 1 := by rw [show 2 * (Real.pi / 8) = Real.pi / 4 by ring, Real.tan_pi_div_four]
      rw [Real.tan_two_mul] at h4
      set u := Real.tan (Real.pi / 8) with hu
      have hu0 : 0 < u := Real.tan_pos_of_pos_of_lt_pi_div_two (by linarith) (by linarith)
      have hden : 1 - u ^ 2 ≠ 0 := by intro h; rw [h, div_zero] at h4; norm_num at h4
      rw [div_eq_one_iff_eq hden] at h4
      have : (u + 1) ^ 2 = 2 := by nlinarith
      have : u + 1 = Real.sqrt 2 := by rw [← this, Real.sqrt_sq (by linarith)]
      linarith
    have hle : |T| ≤ Real.sqrt 2 - 1 := by
      rw [← h8, abs_le]
      constructor
      · rw [hT, ← Real.tan_neg]
        exact Real.strictMonoOn_tan.monotoneOn ⟨by linarith, by linarith⟩ ⟨by linarith, by linarith⟩ (by linarith)
      · exact Real.strictMonoOn_tan.monotoneOn ⟨by linarith, by linarith⟩ ⟨by linarith, by linarith⟩ (by linarith)
    have h2 : Real.sqrt 2 ≤ 1.4143 := by rw [Real.sqrt_le_left (by norm_num)]; norm_num
    rw [← sq_abs]
    have h0 := abs_nonneg T
    nlinarith
  refine ⟨rfl, rfl, ?_, ?_, 4 * T / 3, ?_, ?_, ?_⟩
  · -- the middle
    set C := Real.cos (a.angle / 4) with hC
    set S := Real.sin (a.angle / 4) with hS
    have hcs : S ^ 2 + C ^ 2 = 1 := Real.sin_sq_add_cos_sq _
    have hTC : T * C = S := by rw [hT, Real.tan_eq_sin_div_cos, ← hS, ← hC]; field_simp
    have hcos2 : Real.cos (a.angle / 2) = C ^ 2 - S ^ 2 := by
      rw [show a.angle / 2 = 2 * (a.angle / 4) by ring, Real.cos_two_mul, ← hC]; linarith
    have hsin2 : Real.sin (a.angle / 2) = 2 * S * C := by
      rw [show a.angle / 2 = 2 * (a.angle / 4) by ring, Real.sin_two_mul]
    have hcosa : Real.cos a.angle = 1 - 2 * (2 * S * C) ^ 2 := by
      rw [show a.angle = 2 * (a.angle / 2) by ring, Real.cos_two_mul, ← hsin2]; nlinarith [Real.sin_sq_add_cos_sq (a.angle / 2)]
    have hsina : Real.sin a.angle = 2 * (2 * S * C) * (C ^ 2 - S ^ 2) := by
      rw [show a.angle = 2 * (a.angle / 2) by ring, Real.sin_two_mul, ← hsin2, ← hcos2]
    have hS2 : S ^ 2 = T ^ 2 * C ^ 2 := by rw [← hTC]; ring
    have hC2 : C ^ 2 * (1 + T ^ 2) = 1 := by linarith
    have h1 : (1 + T ^ 2) ≠ 0 := by positivity
    have hc2 : C ^ 2 = 1 / (1 + T ^ 2) := by field_simp; linarith
    have hSC : S * C = T / (1 + T ^ 2) := by rw [← hTC, mul_assoc, ← pow_two, hc2]; ring
    have hs2 : S ^ 2 = T ^ 2 / (1 + T ^ 2) := by rw [hS2, hc2]; ring
    have hca : Real.cos a.angle = 1 - 8 * T ^ 2 / (1 + T ^ 2) ^ 2 := by
      rw [hcosa, show 2 * S * C = 2 * (S * C) by ring, hSC]; field_simp; ring
    have hsa : Real.sin a.angle = 4 * T * (1 - T ^ 2) / (1 + T ^ 2) ^ 2 := by
      rw [hsina, show 2 * S * C = 2 * (S * C) by ring, hSC, hc2, hs2]; field_simp; ring
    have hc' : Real.cos (a.angle / 2) = (1 - T ^ 2) / (1 + T ^ 2) := by rw [hcos2, hc2, hs2]; ring
    have hs' : Real.sin (a.angle / 2) = 2 * T / (1 + T ^ 2) := by rw [hsin2, show 2 * S * C = 2 * (S * C) by ring, hSC]; ring
    have hp2 := hrot.symm
    unfold rotAbout at hp2 ⊢
    apply P.ext_real
    · simp only [bezierCircularArc, Bez.curve, bernstein3, P.add, P.sub, P.mul, real_add, real_sub, real_mul, real_div, real_neg, real_ofInt, real_tan, ← hT, hp2, hca, hsa,
        hc', hs']
      push_cast
      field_simp
      ring
    · simp only [bezierCircularArc, Bez.curve, bernstein3, P.add, P.sub, P.mul, real_add, real_sub, real_mul, real_div, real_neg, real_ofInt, real_tan, ← hT, hp2, hca, hsa,
        hc', hs']
      push_cast
      field_simp
      ring
  · intro t h0 h1
    rw [key t]
    set s := t * (1 - t) with hs
    have hs0 : 0 ≤ s := mul_nonneg h0 (by linarith)
    have hs1 : s ≤ 1 / 4 := by nlinarith [sq_nonneg (t - 1 / 2)]
    have hf0 : 0 ≤ (1 - 4 * s) * s ^ 2 := mul_nonneg (by linarith) (sq_nonneg s)
    have hf1 : (1 - 4 * s) * s ^ 2 ≤ 1 / 108 := by nlinarith [mul_nonneg hs0 (sq_nonneg (s - 1 / 6)), sq_nonneg (s - 1 / 6)]
    have hg0 : 0 ≤ (4 * T ^ 3 / (1 + T ^ 2)) ^ 2 := sq_nonneg _
    have hg1 : (4 * T ^ 3 / (1 + T ^ 2)) ^ 2 ≤ 594 / 10000 := by
      rw [div_pow, div_le_iff₀ (by positivity)]
      have hw : (4 * T ^ 3) ^ 2 = 16 * (T ^ 2) ^ 3 := by ring
      rw [hw]
      set w := T ^ 2 with hw'
      have hw0 : 0 ≤ w := sq_nonneg T
      nlinarith [mul_nonneg hw0 (sub_nonneg.2 hT1), mul_nonneg (mul_nonneg hw0 hw0) (sub_nonneg.2 hT1)]
    have hprod : (1 - 4 * s) * s ^ 2 * (4 * T ^ 3 / (1 + T ^ 2)) ^ 2 ≤ 1 / 108 * (594 / 10000) := mul_le_mul hf1 hg1 hg0 (by norm_num)
    have hprod0 : 0 ≤ (1 - 4 * s) * s ^ 2 * (4 * T ^ 3 / (1 + T ^ 2)) ^ 2 := mul_nonneg hf0 hg0
    constructor
    · nlinarith [sq_nonneg r, mul_nonneg (sq_nonneg r) hprod0]
    · rw [mul_comm]
      apply mul_le_mul_of_nonneg_right _ (sq_nonneg r)
      norm_num at hprod ⊢
      linarith
  · constructor
    · intro h
      by_contra hn
      have : T < 0 := Real.tan_neg_of_neg_of_pi_div_two_lt (by linarith [not_le.1 hn]) (by linarith)
      linarith
    · intro h
      have := Real.tan_nonneg_of_nonneg_of_le_pi_div_two (x := a.angle / 4) (by linarith) (by linarith)
      rw [← hT] at this
      linarith
  · apply P.ext_real <;> simp [bezierCircularArc, P.add, P.sub, P.mul, ← hT] <;> ring
  · apply P.ext_real <;> simp [bezierCircularArc, P.add, P.sub, P.mul, ← hT] <;> ring

/-- Non-vacuity: a quarter of the unit circle. -/
example : rotAbout (⟨0, 0⟩ : P ℝ) (Real.pi / 2) ⟨1, 0⟩ = ⟨0, 1⟩ ∧ sqDist (⟨1, 0⟩ : P ℝ) ⟨0, 0⟩ = 1 ^ 2 ∧ |Real.pi / 2| ≤ Real.pi / 2 := by
  refine ⟨by apply P.ext_real <;> simp [rotAbout], by norm_num [sqDist], by rw [abs_of_pos (by linarith [Real.pi_pos])]⟩

/-! ## Sine waves -/

/-- Specification: the two curves meet smoothly, with control points symmetric to the common point. -/
def MeetSmoothly (p q : Bez ℝ) : Prop :=
  p.p2 = q.p1 ∧ p.p2.x - p.c2.x = q.c1.x - q.p1.x ∧ p.p2.y - p.c2.y = q.c1.y - q.p1.y

/-- One cycle of the sine wave, moved. -/
noncomputable def oneCycle (amp wl : ℝ) (o : P ℝ) (i : Nat) : List (Bez ℝ) :=
  (sineQuarters amp wl).map fun q => q.transform (Mat.translate (wl *. ofInt i +. o.x) o.y)

theorem oneCycle_spec (amp wl : ℝ) (o : P ℝ) (i : Nat) :
    ∃ q0 q1 q2 q3, oneCycle amp wl o i = [q0, q1, q2, q3] ∧ MeetSmoothly q0 q1 ∧ MeetSmoothly q1 q2 ∧ MeetSmoothly q2 q3 ∧
      q0.p1 = ⟨o.x + i * wl, o.y⟩ ∧ q0.p2 = ⟨o.x + i * wl + wl / 4, o.y + amp⟩ ∧ q1.p2 = ⟨o.x + i * wl + wl / 2, o.y⟩ ∧
      q2.p2 = ⟨o.x + i * wl + 3 * wl / 4, o.y - amp⟩ ∧ q3.p2 = ⟨o.x + (i + 1) * wl, o.y⟩ ∧
      q3.p2.x - q3.c2.x = wl / (2 * Real.pi) * (512286623256592433 / 10 ^ 18) ∧ q3.p2.y - q3.c2.y = amp * (512286623256592433 / 10 ^ 18) ∧
      q0.c1.x - q0.p1.x = wl / (2 * Real.pi) * (512286623256592433 / 10 ^ 18) ∧ q0.c1.y - q0.p1.y = amp * (512286623256592433 / 10 ^ 18) ∧
      (∀ q ∈ [q0, q1, q2, q3], |q.p1.y - o.y| ≤ |amp| ∧ |q.c1.y - o.y| ≤ |amp| ∧ |q.c2.y - o.y| ≤ |amp| ∧ |q.p2.y - o.y| ≤ |amp|) := by
  have hpi := Real.pi_pos.ne'
  have hl1 : (lit 512286623256592433 18 : ℝ) = 512286623256592433 / 10 ^ 18 := by rw [lit_real]; norm_num
  have hl2 : (lit 1002313685767898599 18 : ℝ) = 1002313685767898599 / 10 ^ 18 := by rw [lit_real]; norm_num
  unfold oneCycle sineQuarters
  simp only [hl1, hl2, List.map_cons, List.map_nil]
  refine ⟨_, _, _, _, rfl, ?_⟩
  have hle : ∀ k : ℝ, |k| ≤ 1 → |amp * k| ≤ |amp| := fun k hk => by rw [abs_mul]; exact mul_le_of_le_one_right (abs_nonneg _) hk
  simp only [Bez.transform, P.transform, Mat.apply, Mat.translate, Mat.scale, MeetSmoothly, real_add, real_sub, real_mul, real_div, real_neg, real_ofInt, real_zero, real_one,
    real_pi]
  refine ⟨⟨?_, ?_, ?_⟩, ⟨?_, ?_, ?_⟩, ⟨?_, ?_, ?_⟩, ?_, ?_, ?_, ?_, ?_, ?_, ?_, ?_, ?_, ?_⟩
  case refine_19 =>
    simp only [List.mem_cons, List.not_mem_nil, or_false]
    have h0 := hle 0 (by simp)
    have h1 := hle 1 (by simp)
    have h2 := hle (512286623256592433 / 10 ^ 18) (by rw [abs_of_pos] <;> norm_num)
    have h1' := hle (-1) (by simp)
    have h2' := hle (-(512286623256592433 / 10 ^ 18)) (by rw [abs_neg, abs_of_pos] <;> norm_num)
    have go : ∀ v k : ℝ, v = amp * k → |amp * k| ≤ |amp| → |v| ≤ |amp| := fun v k h h' => h ▸ h'
    rintro q (rfl | rfl | rfl | rfl)
    · exact ⟨go _ 0 (by ring) h0, go _ _ (by ring) h2, go _ 1 (by ring) h1, go _ 1 (by ring) h1⟩
    · exact ⟨go _ 1 (by ring) h1, go _ 1 (by ring) h1, go _ _ (by ring) h2, go _ 0 (by ring) h0⟩
    · exact ⟨go _ 0 (by ring) h0, go _ _ (by ring) h2', go _ (-1) (by ring) h1', go _ (-1) (by ring) h1'⟩
    · exact ⟨go _ (-1) (by ring) h1', go _ (-1) (by ring) h1', go _ _ (by ring) h2', go _ 0 (by ring) h0⟩
  all_goals first
    | trivial
    | rfl
    | (push_cast; field_simp; done)
    | (push_cast; field_simp; ring1)
    | (apply P.ext_real <;> push_cast <;> simp <;> (try field_simp) <;> ring1)

/-- **C92**, `bezier_sine_wave`: four curves per cycle that meet smoothly, starting at the origin and ending `cycles` wavelengths to the right of it at the same height;
in each cycle the curves end at the crest, the axis, the trough and the axis; no point is further from the axis than the amplitude. -/
theorem C92_sine_wave (amp wl : ℝ) (o : P ℝ) (n : Nat) :
    (sineWave amp wl n o).length = 4 * n ∧ (sineWave amp wl n o).IsChain MeetSmoothly ∧
    (∀ b ∈ (sineWave amp wl n o).head?, b.p1 = o) ∧ (∀ b ∈ (sineWave amp wl n o).getLast?, b.p2 = ⟨o.x + n * wl, o.y⟩) ∧
    (∀ i < n, ∃ q0 q1 q2 q3, ((sineWave amp wl n o).drop (4 * i)).take 4 = [q0, q1, q2, q3] ∧ q0.p1 = ⟨o.x + i * wl, o.y⟩ ∧
      q0.p2 = ⟨o.x + i * wl + wl / 4, o.y + amp⟩ ∧ q1.p2 = ⟨o.x + i * wl + wl / 2, o.y⟩ ∧
      q2.p2 = ⟨o.x + i * wl + 3 * wl / 4, o.y - amp⟩ ∧ q3.p2 = ⟨o.x + (i + 1) * wl, o.y⟩) ∧
    (∀ b ∈ sineWave amp wl n o, ∀ t, 0 ≤ t → t ≤ 1 → |(b.curve t).y - o.y| ≤ |amp|) := by
  have hsw : ∀ n, sineWave amp wl (n + 1) o = sineWave amp wl n o ++ oneCycle amp wl o n := by
    intro n
    unfold sineWave
    rw [List.range_succ, List.flatMap_append]
    simp [oneCycle]
  have hlen : ∀ n, (sineWave amp wl n o).length = 4 * n := by
    intro n
    induction n with
    | zero => rfl
    | succ n ih =>
      obtain ⟨q0, q1, q2, q3, h, -⟩ := oneCycle_spec amp wl o n
      rw [hsw, List.length_append, ih, h]; simp; ring
  refine ⟨hlen n, ?_⟩
  have hlast : ∀ n, sineWave amp wl n o = [] ∨ ∃ l b, sineWave amp wl n o = l ++ [b] ∧ b.p2 = ⟨o.x + n * wl, o.y⟩ ∧
      b.p2.x - b.c2.x = wl / (2 * Real.pi) * (512286623256592433 / 10 ^ 18) ∧ b.p2.y - b.c2.y = amp * (512286623256592433 / 10 ^ 18) := by
    intro n
    cases n with
    | zero => exact Or.inl rfl
    | succ n =>
      obtain ⟨q0, q1, q2, q3, h, -, -, -, -, -, -, -, h3, h4, h5, -⟩ := oneCycle_spec amp wl o n
      exact Or.inr ⟨sineWave amp wl n o ++ [q0, q1, q2], q3, by rw [hsw, h]; simp, by rw [h3]; push_cast; rfl, h4, h5⟩
  refine ⟨?_, ?_, ?_, ?_, ?_⟩
  · induction n with
    | zero => exact List.isChain_nil
    | succ n ih =>
      obtain ⟨q0, q1, q2, q3, h, m1, m2, m3, s0, -, -, -, -, -, -, c1, c2, -⟩ := oneCycle_spec amp wl o n
      rw [hsw, List.isChain_append]
      refine ⟨ih, by rw [h]; simp [m1, m2, m3], ?_⟩
      intro x hx y hy
      rw [h] at hy
      simp at hy; subst hy
      rcases hlast n with h0 | ⟨l, b, hb, e1, e2, e3⟩
      · rw [h0] at hx; simp at hx
      · rw [hb] at hx; simp at hx; subst hx
        exact ⟨by rw [e1, s0], by rw [e2, c1], by rw [e3, c2]⟩
  · cases n with
    | zero => simp [sineWave]
    | succ n =>
      induction n with
      | zero =>
        obtain ⟨q0, q1, q2, q3, h, -, -, -, s0, -⟩ := oneCycle_spec amp wl o 0
        rw [hsw 0, h]
        intro b hb
        simp [sineWave] at hb; subst hb
        rw [s0]; apply P.ext_real <;> simp
      | succ n ih =>
        rw [hsw]
        intro b hb
        apply ih b
        rw [List.head?_append] at hb
        have : (sineWave amp wl (n + 1) o).head? ≠ none := by
          rw [Ne, List.head?_eq_none_iff]
          intro h
          have := hlen (n + 1)
          rw [h] at this; simp at this
        cases hh : (sineWave amp wl (n + 1) o).head? with
        | none => exact absurd hh this
        | some x => rw [hh] at hb; simpa using hb
  · intro b hb
    rcases hlast n with h0 | ⟨l, b', hb', e1, -⟩
    · rw [h0] at hb; simp at hb
    · rw [hb'] at hb; simp at hb; subst hb; exact e1
  · intro i hi
    obtain ⟨q0, q1, q2, q3, h, -, -, -, s0, s1, s2, s3, s4, -⟩ := oneCycle_spec amp wl o i
    refine ⟨q0, q1, q2, q3, ?_, s0, s1, s2, s3, s4⟩
    obtain ⟨k, rfl⟩ : ∃ k, n = i + 1 + k := ⟨n - (i + 1), by omega⟩
    have : ∃ rest, sineWave amp wl (i + 1 + k) o = sineWave amp wl i o ++ [q0, q1, q2, q3] ++ rest := by
      clear hi
      induction k with
      | zero => exact ⟨[], by rw [Nat.add_zero, hsw, h]; simp⟩
      | succ k ih =>
        obtain ⟨rest, hr⟩ := ih
        exact ⟨rest ++ oneCycle amp wl o (i + 1 + k), by rw [← Nat.add_assoc, hsw, hr]; simp⟩
    obtain ⟨rest, hr⟩ := this
    rw [hr, List.append_assoc, List.drop_append_of_le_length (by rw [hlen]), ← hlen i, List.drop_length]
    simp
  · intro b hb t h0 h1
    have : ∃ i, b ∈ oneCycle amp wl o i := by
      unfold sineWave at hb
      rw [List.mem_flatMap] at hb
      obtain ⟨i, -, hi⟩ := hb
      exact ⟨i, hi⟩
    obtain ⟨i, hi⟩ := this
    obtain ⟨q0, q1, q2, q3, h, hrest⟩ := oneCycle_spec amp wl o i
    rw [h] at hi
    obtain ⟨g1, g2, g3, g4⟩ := hrest.2.2.2.2.2.2.2.2.2.2.2.2 b hi
    set A := |amp|
    have hy : (b.curve t).y - o.y = (1 - t) ^ 3 * (b.p1.y - o.y) + 3 * (1 - t) ^ 2 * t * (b.c1.y - o.y) + 3 * (1 - t) * t ^ 2 * (b.c2.y - o.y) + t ^ 3 * (b.p2.y - o.y) := by
      simp only [Bez.curve, bernstein3]; ring
    have hu : 0 ≤ 1 - t := by linarith
    have k0 : 0 ≤ (1 - t) ^ 3 := by positivity
    have k1 : 0 ≤ 3 * (1 - t) ^ 2 * t := by positivity
    have k2 : 0 ≤ 3 * (1 - t) * t ^ 2 := by positivity
    have k3 : 0 ≤ t ^ 3 := by positivity
    have hsum : A = (1 - t) ^ 3 * A + 3 * (1 - t) ^ 2 * t * A + 3 * (1 - t) * t ^ 2 * A + t ^ 3 * A := by ring
    rw [abs_le] at g1 g2 g3 g4 ⊢
    rw [hy]
    constructor
    · have := mul_le_mul_of_nonneg_left g1.1 k0
      have := mul_le_mul_of_nonneg_left g2.1 k1
      have := mul_le_mul_of_nonneg_left g3.1 k2
      have := mul_le_mul_of_nonneg_left g4.1 k3
      linarith
    · have := mul_le_mul_of_nonneg_left g1.2 k0
      have := mul_le_mul_of_nonneg_left g2.2 k1
      have := mul_le_mul_of_nonneg_left g3.2 k2
      have := mul_le_mul_of_nonneg_left g4.2 k3
      linarith

/-- Non-vacuity: three cycles. -/
example : (sineWave (2 : ℝ) 5 3 ⟨1, 1⟩).length = 12 := by rw [(C92_sine_wave 2 5 ⟨1, 1⟩ 3).1]

end Verif.Geom
