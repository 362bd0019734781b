import Verif.Svg.Output
import Verif.Cam.Props11

/-!
# C130: the arcs and ellipses that are written are the ones that were meant
-/

set_option linter.unusedSectionVars false

namespace Verif.Svg
open Verif PyFloat PyTrig Geom

/-! ## Circular arcs -/

/-- Specification: an arc object is consistent: the start point is at the distance of the radius from the centre, and turning it by the
angle gives the end point. -/
def Arc.Sound (a : Arc ℝ) : Prop := sqDist a.center a.p1 = a.radius ^ 2 ∧ rotAbout a.center a.angle a.p1 = a.p2

theorem sweepFlag_real (x : ℝ) : sweepFlag x = if x < 0 then 0 else 1 := by
  unfold sweepFlag
  by_cases h : x < 0 <;> simp [h, real_lt]

/-- **C130** (arcs), the part that holds: the command that `create_polypath` writes for an arc of at most half a turn (equal radii, large
arc flag 0, the sweep flag of the model) means, among all arcs between these end points, exactly that arc.  Missing: arcs of more
than half a turn and whole circles. -/
theorem C130_arc_partial (a : Arc ℝ) (h : Arc.Sound a) (hr : a.radius ≠ 0) (h0 : a.angle ≠ 0) (h1 : |a.angle| ≤ Real.pi) (c : P ℝ) (δ : ℝ) :
    Cam.SvgArc a.radius (sweepFlag a.angle == 1) a.p1 a.p2 c δ ↔ c = a.center ∧ δ = a.angle := by
  have hs : Cam.SvgArc a.radius (sweepFlag a.angle == 1) a.p1 a.p2 a.center a.angle := by
    refine ⟨h.1, h.2, ?_⟩
    rw [abs_le] at h1
    rw [sweepFlag_real]
    by_cases hlt : a.angle < 0
    · simpa [hlt] using h1.1
    · simp only [hlt, if_false, beq_self_eq_true, if_true]
      exact ⟨lt_of_le_of_ne (not_lt.1 hlt) (Ne.symm h0), h1.2⟩
  constructor
  · exact Cam.svgArc_unique hr hs
  · rintro ⟨rfl, rfl⟩; exact hs

/-- Non-vacuity: a quarter turn of the unit circle. -/
example : Arc.Sound (⟨⟨1, 0⟩, ⟨0, 1⟩, 1, Real.pi / 2, ⟨0, 0⟩⟩ : Arc ℝ) := by
  constructor
  · simp [sqDist]
  · simp [rotAbout]

/-- **C130** is false of longer arcs: what is written for an arc of more than half a turn never means an arc around its centre. -/
theorem C130_refuted_long (a : Arc ℝ) (h : Arc.Sound a) (hr : a.radius ≠ 0) (h1 : Real.pi < |a.angle|) (h2 : |a.angle| < 2 * Real.pi) (δ : ℝ) :
    ¬ Cam.SvgArc a.radius (sweepFlag a.angle == 1) a.p1 a.p2 a.center δ := by
  rintro ⟨g1, g2, g3⟩
  have hpi := Real.pi_pos
  -- the two turns differ by a whole number of turns
  have hrot : Real.cos δ = Real.cos a.angle ∧ Real.sin δ = Real.sin a.angle := by
    have e := g2.trans h.2.symm
    unfold rotAbout at e
    injection e with ex ey
    have hd : (a.p1.x - a.center.x) ^ 2 + (a.p1.y - a.center.y) ^ 2 ≠ 0 := by
      have := h.1
      unfold sqDist at this
      have h2 : a.radius ^ 2 ≠ 0 := pow_ne_zero 2 hr
      intro h0
      apply h2
      rw [← this]
      linear_combination h0
    constructor
    · have : ((a.p1.x - a.center.x) ^ 2 + (a.p1.y - a.center.y) ^ 2) * (Real.cos δ - Real.cos a.angle) = 0 := by
        linear_combination (a.p1.x - a.center.x) * ex + (a.p1.y - a.center.y) * ey
      have := (mul_eq_zero.1 this).resolve_left hd
      linarith
    · have : ((a.p1.x - a.center.x) ^ 2 + (a.p1.y - a.center.y) ^ 2) * (Real.sin δ - Real.sin a.angle) = 0 := by
        linear_combination (a.p1.x - a.center.x) * ey - (a.p1.y - a.center.y) * ex
      have := (mul_eq_zero.1 this).resolve_left hd
      linarith
  have hcos : Real.cos (δ - a.angle) = 1 := by
    rw [Real.cos_sub, hrot.1, hrot.2]
    have := Real.sin_sq_add_cos_sq a.angle
    nlinarith
  rw [sweepFlag_real] at g3
  have : δ - a.angle = 0 := by
    by_cases hlt : a.angle < 0
    · rw [abs_of_neg hlt] at h1 h2
      simp only [hlt, if_true] at g3
      have g3 : -Real.pi ≤ δ ∧ δ < 0 := by simpa using g3
      exact (Real.cos_eq_one_iff_of_lt_of_lt (by linarith) (by linarith)).1 hcos
    · rw [abs_of_nonneg (not_lt.1 hlt)] at h1 h2
      simp only [hlt, if_false] at g3
      have g3 : 0 < δ ∧ δ ≤ Real.pi := by simpa using g3
      exact (Real.cos_eq_one_iff_of_lt_of_lt (by linarith) (by linarith)).1 hcos
  have hδ : δ = a.angle := by linarith
  subst hδ
  by_cases hlt : a.angle < 0
  · rw [abs_of_neg hlt] at h1
    simp only [hlt, if_true] at g3
    have g3 : -Real.pi ≤ a.angle := by simpa [hlt] using g3
    linarith
  · rw [abs_of_nonneg (not_lt.1 hlt)] at h1
    simp only [hlt, if_false] at g3
    have g3 : 0 < a.angle ∧ a.angle ≤ Real.pi := by simpa using g3
    linarith

/-- Non-vacuity: three quarters of the unit circle. -/
example : Arc.Sound (⟨⟨1, 0⟩, ⟨0, -1⟩, 1, 3 * Real.pi / 2, ⟨0, 0⟩⟩ : Arc ℝ) ∧ Real.pi < |3 * Real.pi / 2| ∧ |3 * Real.pi / 2| < 2 * Real.pi := by
  have hpi := Real.pi_pos
  have e : 3 * Real.pi / 2 = Real.pi / 2 + Real.pi := by ring
  refine ⟨⟨by simp [sqDist], ?_⟩, ?_, ?_⟩
  · simp [rotAbout, e, Real.cos_add_pi, Real.sin_add_pi]
  · rw [abs_of_pos (by linarith)]; linarith
  · rw [abs_of_pos (by linarith)]; linarith

/-- **C130** is false of whole circles: a command whose end point is its start point means no arc at all. -/
theorem C130_refuted_circle (r : ℝ) (hr : r ≠ 0) (sweep : Bool) (p c : P ℝ) (δ : ℝ) : ¬ Cam.SvgArc r sweep p p c δ := by
  rintro ⟨g1, g2, g3⟩
  have hpi := Real.pi_pos
  have e := Cam.chord_cos c p δ
  rw [g2, g1] at e
  have h0 : sqDist p p = 0 := by unfold sqDist; ring
  rw [h0] at e
  have hr2 : r ^ 2 ≠ 0 := pow_ne_zero 2 hr
  have hc : Real.cos δ = 1 := by
    have : r ^ 2 * (1 - Real.cos δ) = 0 := by linarith
    have := (mul_eq_zero.1 this).resolve_left hr2
    linarith
  cases sweep
  · have g3 : -Real.pi ≤ δ ∧ δ < 0 := by simpa using g3
    exact g3.2.ne ((Real.cos_eq_one_iff_of_lt_of_lt (by linarith) (by linarith)).1 hc)
  · have g3 : 0 < δ ∧ δ ≤ Real.pi := by simpa using g3
    exact g3.1.ne' ((Real.cos_eq_one_iff_of_lt_of_lt (by linarith) (by linarith)).1 hc)

/-! ## Ellipses -/

/-- Specification: the point of the ellipse at the parameter `s` (SVG 1.1, F.6.3). -/
noncomputable def ellPoint (c : P ℝ) (rx ry phi s : ℝ) : P ℝ :=
  ⟨c.x + rx * Real.cos s * Real.cos phi - ry * Real.sin s * Real.sin phi, c.y + rx * Real.cos s * Real.sin phi + ry * Real.sin s * Real.cos phi⟩

/-- Specification: the SVG arc from `p` to `q` with large arc flag 0 and sweep flag 1 on the ellipse around `c`: from the parameter `s`
onwards by `δ`, at most half a turn. -/
def SvgEllArc (rx ry phi : ℝ) (p q c : P ℝ) (s δ : ℝ) : Prop :=
  ellPoint c rx ry phi s = p ∧ ellPoint c rx ry phi (s + δ) = q ∧ 0 < δ ∧ δ ≤ Real.pi

theorem half_arc {rx ry phi : ℝ} (hx : rx ≠ 0) (hy : ry ≠ 0) {p q c c0 : P ℝ} {s s0 δ : ℝ} (hp : p = ellPoint c0 rx ry phi s0)
    (hq : q = ellPoint c0 rx ry phi (s0 + Real.pi)) :
    SvgEllArc rx ry phi p q c s δ ↔ c = c0 ∧ δ = Real.pi ∧ ∃ k : ℤ, s = s0 + k * (2 * Real.pi) := by
  have hpi := Real.pi_pos
  have trig := Real.sin_sq_add_cos_sq phi
  constructor
  · rintro ⟨g1, g2, g3, g4⟩
    rw [hp] at g1
    rw [hq] at g2
    unfold ellPoint at g1 g2
    injection g1 with x1 y1
    injection g2 with x2 y2
    rw [Real.cos_add_pi, Real.sin_add_pi] at x2 y2
    have ax : rx * (Real.cos (s + δ) - Real.cos s + 2 * Real.cos s0) = 0 := by
      linear_combination Real.cos phi * (x2 - x1) + Real.sin phi * (y2 - y1) - rx * (Real.cos (s + δ) - Real.cos s + 2 * Real.cos s0) * trig
    have ay : ry * (Real.sin (s + δ) - Real.sin s + 2 * Real.sin s0) = 0 := by
      linear_combination -Real.sin phi * (x2 - x1) + Real.cos phi * (y2 - y1) - ry * (Real.sin (s + δ) - Real.sin s + 2 * Real.sin s0) * trig
    have bx := (mul_eq_zero.1 ax).resolve_left hx
    have by' := (mul_eq_zero.1 ay).resolve_left hy
    have t0 := Real.sin_sq_add_cos_sq s0
    have t1 := Real.sin_sq_add_cos_sq s
    have t2 := Real.sin_sq_add_cos_sq (s + δ)
    have hcd : Real.cos δ = -1 := by
      have : Real.cos δ = Real.cos (s + δ) * Real.cos s + Real.sin (s + δ) * Real.sin s := by
        rw [← Real.cos_sub]; congr 1; ring
      rw [this]
      have e1 : Real.cos (s + δ) - Real.cos s = -2 * Real.cos s0 := by linarith
      have e2 : Real.sin (s + δ) - Real.sin s = -2 * Real.sin s0 := by linarith
      have : (Real.cos (s + δ) - Real.cos s) ^ 2 + (Real.sin (s + δ) - Real.sin s) ^ 2 = 4 := by
        rw [e1, e2]; linear_combination 4 * t0
      linear_combination -(1/2) * this + (1/2) * t1 + (1/2) * t2
    have hδ : δ = Real.pi := Real.injOn_cos ⟨g3.le, g4⟩ ⟨hpi.le, le_refl _⟩ (by rw [hcd, Real.cos_pi])
    subst hδ
    rw [Real.cos_add_pi] at bx
    rw [Real.sin_add_pi] at by'
    have hc : Real.cos (s - s0) = 1 := by
      rw [Real.cos_sub]
      have e1 : Real.cos s = Real.cos s0 := by linarith
      have e2 : Real.sin s = Real.sin s0 := by linarith
      rw [e1, e2]; linear_combination t0
    obtain ⟨k, hk⟩ := (Real.cos_eq_one_iff _).1 hc
    refine ⟨?_, rfl, k, by linarith⟩
    have e1 : Real.cos s = Real.cos s0 := by linarith
    have e2 : Real.sin s = Real.sin s0 := by linarith
    rw [e1, e2] at x1 y1
    apply P.ext_real <;> linarith
  · rintro ⟨rfl, rfl, k, rfl⟩
    refine ⟨?_, ?_, hpi, le_refl _⟩
    · rw [hp]
      unfold ellPoint
      rw [Real.cos_add_int_mul_two_pi, Real.sin_add_int_mul_two_pi]
    · rw [hq]
      unfold ellPoint
      rw [show s0 + k * (2 * Real.pi) + Real.pi = s0 + Real.pi + k * (2 * Real.pi) by ring, Real.cos_add_int_mul_two_pi, Real.sin_add_int_mul_two_pi]

/-- **C130** (ellipses): for every centre, non-zero radii and angle, the rotation that `create_ellipse` writes is the angle up to whole
turns, and its two arcs are exactly the two halves of the ellipse around the centre: the first one starts at the parameter 0, the second one at
half a turn, and each turns by half a turn. -/
theorem C130_ellipse (center : P ℝ) (rx ry angle : ℝ) (hx : rx ≠ 0) (hy : ry ≠ 0) :
    (0 ≤ ellipseAngle angle ∧ ellipseAngle angle < 2 * Real.pi ∧ ∃ k : ℤ, ellipseAngle angle = angle + k * (2 * Real.pi)) ∧
    (∀ c s δ, SvgEllArc rx ry angle (ellipseEnd center rx (ellipseAngle angle)) (ellipseEnd center rx (ellipseAngle angle +. pi)) c s δ ↔
      c = center ∧ δ = Real.pi ∧ ∃ k : ℤ, s = k * (2 * Real.pi)) ∧
    (∀ c s δ, SvgEllArc rx ry angle (ellipseEnd center rx (ellipseAngle angle +. pi)) (ellipseEnd center rx (ellipseAngle angle)) c s δ ↔
      c = center ∧ δ = Real.pi ∧ ∃ k : ℤ, s = Real.pi + k * (2 * Real.pi)) := by
  have hpi := Real.pi_pos
  have hang : ellipseAngle angle = angle - 2 * Real.pi * ⌊angle / (2 * Real.pi)⌋ := by
    unfold ellipseAngle
    simp [real_floor]
  have hint : ellipseAngle angle = angle + ((-⌊angle / (2 * Real.pi)⌋ : ℤ) : ℝ) * (2 * Real.pi) := by
    rw [hang]; push_cast; ring
  have hcos : Real.cos (ellipseAngle angle) = Real.cos angle := by rw [hint, Real.cos_add_int_mul_two_pi]
  have hsin : Real.sin (ellipseAngle angle) = Real.sin angle := by rw [hint, Real.sin_add_int_mul_two_pi]
  have e1 : ellipseEnd center rx (ellipseAngle angle) = ellPoint center rx ry angle 0 := by
    unfold ellipseEnd ellPoint
    simp only [real_add, real_mul, real_cos, real_sin, hcos, hsin, Real.cos_zero, Real.sin_zero]
    congr 1 <;> ring
  have e2 : ellipseEnd center rx (ellipseAngle angle +. pi) = ellPoint center rx ry angle (0 + Real.pi) := by
    unfold ellipseEnd ellPoint
    simp only [real_add, real_mul, real_cos, real_sin, real_pi, zero_add, Real.cos_pi, Real.sin_pi, Real.cos_add_pi, Real.sin_add_pi, hcos, hsin]
    congr 1 <;> ring
  have e1' : ellipseEnd center rx (ellipseAngle angle) = ellPoint center rx ry angle (Real.pi + Real.pi) := by
    rw [e1]
    unfold ellPoint
    rw [Real.cos_add_pi, Real.sin_add_pi, Real.cos_pi, Real.sin_pi, Real.cos_zero, Real.sin_zero]
    congr 1 <;> ring
  have e2' : ellipseEnd center rx (ellipseAngle angle +. pi) = ellPoint center rx ry angle Real.pi := by rw [e2, zero_add]
  refine ⟨⟨?_, ?_, _, hint⟩, fun c s δ => ?_, fun c s δ => ?_⟩
  · rw [hang]
    have := Int.floor_le (angle / (2 * Real.pi))
    rw [le_div_iff₀ (by linarith)] at this
    linarith
  · rw [hang]
    have := Int.lt_floor_add_one (angle / (2 * Real.pi))
    rw [div_lt_iff₀ (by linarith)] at this
    linarith
  · rw [half_arc hx hy e1 e2]
    simp
  · exact half_arc hx hy e2' e1'

/-- Non-vacuity: the first half of an ellipse with radii 3 and 2. -/
example : SvgEllArc 3 2 0 (ellipseEnd ⟨1, 1⟩ 3 (ellipseAngle 0)) (ellipseEnd ⟨1, 1⟩ 3 (ellipseAngle 0 +. pi)) ⟨1, 1⟩ 0 Real.pi :=
  ((C130_ellipse ⟨1, 1⟩ 3 2 0 (by norm_num) (by norm_num)).2.1 _ _ _).2 ⟨rfl, rfl, 0, by simp⟩

/-- **C130** (the text of ellipses): the text written for an ellipse is that of two arcs with the given radii and with a rotation in degrees which is the given angle, up to
whole turns; by the rules of SVG the arcs are the two halves of the ellipse. -/
theorem C130_ellipse_text (n : Nat) (center : P ℝ) (rx ry angle : ℝ) (hx : rx ≠ 0) (hy : ry ≠ 0) :
    ∃ (p q : P ℝ) (deg : ℝ), ellipseText n center rx ry angle = twoArcs n p q rx ry deg ∧
      (∃ k : ℤ, deg * Real.pi / 180 = angle + k * (2 * Real.pi)) ∧
      (∀ c s δ, SvgEllArc rx ry (deg * Real.pi / 180) p q c s δ ↔ c = center ∧ δ = Real.pi ∧ ∃ k : ℤ, s = k * (2 * Real.pi)) ∧
      (∀ c s δ, SvgEllArc rx ry (deg * Real.pi / 180) q p c s δ ↔ c = center ∧ δ = Real.pi ∧ ∃ k : ℤ, s = Real.pi + k * (2 * Real.pi)) := by
  obtain ⟨⟨h0, h1, k, hk⟩, h2, h3⟩ := C130_ellipse center rx ry angle hx hy
  have hd : (degrees (ellipseAngle angle) : ℝ) * Real.pi / 180 = angle + k * (2 * Real.pi) := by
    rw [← hk]
    have hpi := Real.pi_ne_zero
    show ellipseAngle angle * 180 / Real.pi * Real.pi / 180 = ellipseAngle angle
    field_simp
  have he : ∀ p q c s δ, SvgEllArc rx ry (angle + k * (2 * Real.pi)) p q c s δ ↔ SvgEllArc rx ry angle p q c s δ := by
    intro p q c s δ
    unfold SvgEllArc ellPoint
    simp only [Real.cos_add_int_mul_two_pi, Real.sin_add_int_mul_two_pi]
  refine ⟨_, _, _, rfl, ⟨k, hd⟩, fun c s δ => ?_, fun c s δ => ?_⟩
  · rw [hd, he]; exact h2 c s δ
  · rw [hd, he]; exact h3 c s δ

/-- Non-vacuity: radii 3 and 2. -/
example : ∃ (p q : P ℝ) (deg : ℝ), ellipseText 6 (⟨1, 1⟩ : P ℝ) 3 2 1 = twoArcs 6 p q 3 2 deg :=
  let ⟨p, q, d, h, _⟩ := C130_ellipse_text 6 ⟨1, 1⟩ 3 2 1 (by norm_num) (by norm_num)
  ⟨p, q, d, h⟩

end Verif.Svg
