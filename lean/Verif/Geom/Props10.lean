import Verif.Geom.Props7

/-!
# C60 (`subdivide_at_point`), C93, C94: offset arcs, arcs from a tangent
-/

set_option linter.unusedSectionVars false

namespace Verif.Geom
open Verif PyFloat PyTrig

/-! ## Specification -/

/-- Specification: turning the start point about the centre by the angle of the arc gives the end point. -/
def Arc.Sweeps (a : Arc ℝ) : Prop := a.OnCircle ∧ rotAbout a.center a.angle a.p1 = a.p2

/-- Specification: at the point `q` of the arc, the arc goes in the direction `d`: `d` is a positive multiple of the vector from the centre to the point, turned by a quarter turn in the
direction of the arc. -/
def Arc.GoesAt (a : Arc ℝ) (q d : P ℝ) : Prop :=
  ∃ k, 0 < k ∧ (if 0 < a.angle then 1 else -1) * -(q.y - a.center.y) = k * d.x ∧ (if 0 < a.angle then 1 else -1) * (q.x - a.center.x) = k * d.y

/-! ## C93 -/

/-- **C93**: for every arc with a positive radius whose ends are on its circle, and every distance that does not take it beyond its centre, the offset arc has the same centre and
angle, the radius changed by the distance, and its ends are on the rays from the centre through the ends of the arc; it sweeps from one to the other. -/
theorem C93_offset_partial (a : Arc ℝ) (h : a.Sweeps) (hr : 0 < a.radius) (d : ℝ) (hd : 0 ≤ a.radius + d) :
    ∃ b, a.offset d = .ok b ∧ b.center = a.center ∧ b.angle = a.angle ∧ b.radius = a.radius + d ∧ b.Sweeps ∧
      (∃ k, 0 ≤ k ∧ b.p1 = segPt ⟨a.center, a.p1⟩ k) ∧ (∃ k, 0 ≤ k ∧ b.p2 = segPt ⟨a.center, a.p2⟩ k) := by
  obtain ⟨⟨-, h1, h2⟩, h3⟩ := h
  have hl : ∀ p, sqDist p a.center = a.radius ^ 2 → segLen ⟨a.center, p⟩ = a.radius := by
    intro p hp
    unfold segLen
    rw [sqDist_comm] at hp
    rw [hp, Real.sqrt_sq hr.le]
  have hne : a.radius ≠ 0 := hr.ne'
  have hk : 0 ≤ 1 + d / a.radius := by
    rw [← div_self hne, ← add_div]; exact div_nonneg hd hr.le
  have hext : ∀ p, sqDist p a.center = a.radius ^ 2 → Line.extend ⟨a.center, p⟩ d = .ok ⟨a.center, segPt ⟨a.center, p⟩ (1 + d / a.radius)⟩ := by
    intro p hp
    unfold Line.extend pdiv
    rw [length_real, hl p hp]
    simp only [real_beq, real_zero, hne, decide_false, Bool.false_eq_true, if_false, bind, Except.bind, pure, Except.pure, real_div]
    congr 2
    apply P.ext_real <;> simp [segPt, P.add, P.sub, P.mul] <;> ring
  refine ⟨⟨segPt ⟨a.center, a.p1⟩ (1 + d / a.radius), segPt ⟨a.center, a.p2⟩ (1 + d / a.radius), a.radius + d, a.angle, a.center⟩,
    ?_, rfl, rfl, rfl, ⟨⟨hd, ?_, ?_⟩, ?_⟩, ⟨_, hk, rfl⟩, ⟨_, hk, rfl⟩⟩
  · unfold Arc.offset
    rw [hext _ h1, hext _ h2]
    rfl
  · simp only [sqDist, segPt] at h1 ⊢
    have : a.radius + d = a.radius * (1 + d / a.radius) := by field_simp
    rw [this, mul_pow, ← h1]; ring
  · simp only [sqDist, segPt] at h2 ⊢
    have : a.radius + d = a.radius * (1 + d / a.radius) := by field_simp
    rw [this, mul_pow, ← h2]; ring
  · have e1 := congrArg P.x h3
    have e2 := congrArg P.y h3
    simp only [rotAbout] at e1 e2
    apply P.ext_real
    · simp only [rotAbout, segPt]; linear_combination (1 + d / a.radius) * e1
    · simp only [rotAbout, segPt]; linear_combination (1 + d / a.radius) * e2

/-- **C93** as stated is false of the code: offset by more than the radius towards the centre, the arc has a negative radius. -/
theorem C93_refuted (a : Arc ℝ) (h : a.Sweeps) (hr : 0 < a.radius) (d : ℝ) (hd : a.radius + d < 0) : ∃ b, a.offset d = .ok b ∧ b.radius < 0 := by
  obtain ⟨⟨-, h1, h2⟩, h3⟩ := h
  have hl : ∀ p, sqDist p a.center = a.radius ^ 2 → segLen ⟨a.center, p⟩ = a.radius := by
    intro p hp
    unfold segLen
    rw [sqDist_comm] at hp
    rw [hp, Real.sqrt_sq hr.le]
  have hext : ∀ p, sqDist p a.center = a.radius ^ 2 → ∃ l, Line.extend ⟨a.center, p⟩ d = .ok l := by
    intro p hp
    unfold Line.extend pdiv
    rw [length_real, hl p hp]
    simp only [real_beq, real_zero, hr.ne', decide_false, Bool.false_eq_true, if_false, bind, Except.bind, pure, Except.pure]
    exact ⟨_, rfl⟩
  obtain ⟨l1, e1⟩ := hext _ h1
  obtain ⟨l2, e2⟩ := hext _ h2
  refine ⟨⟨l1.p2, l2.p2, a.radius + d, a.angle, a.center⟩, ?_, hd⟩
  unfold Arc.offset
  rw [e1, e2]
  rfl

/-- Non-vacuity: a quarter circle. -/
example : (Arc.mk ⟨1, 0⟩ ⟨0, 1⟩ 1 (Real.pi / 2) ⟨0, 0⟩ : Arc ℝ).Sweeps := by
  refine ⟨⟨by norm_num, by simp [sqDist], by simp [sqDist]⟩, ?_⟩
  apply P.ext_real <;> simp [rotAbout]

/-! ## C60: `subdivide_at_point` -/

/-- **C60**, `subdivide_at_point`: for a point on the arc, less than half a turn from its start and not too near to its ends, the result is two arcs that join there, with the same centre and radius, each
of which sweeps from its start to its end, and whose angles add up to the angle of the arc.  For points further along the arc see `C60_refuted_at_point`. -/
theorem C60_at_point_partial (eps : ℝ) (a : Arc ℝ) (h : a.Sweeps) (hr : 0 < a.radius) (t : ℝ) (ht : |t| < Real.pi)
    (hin : (eps ≤ t ∧ t + eps ≤ a.angle) ∨ (t ≤ -eps ∧ a.angle ≤ t - eps)) (heps : 0 < eps)
    (hfar : eps ^ 2 ≤ sqDist a.p1 (rotAbout a.center t a.p1)) :
    ∃ b c, a.subdivideAtPoint eps (rotAbout a.center t a.p1) = [b, c] ∧ b.center = a.center ∧ c.center = a.center ∧
      b.radius = a.radius ∧ c.radius = a.radius ∧ b.p1 = a.p1 ∧ b.p2 = rotAbout a.center t a.p1 ∧ c.p1 = b.p2 ∧ c.p2 = a.p2 ∧
      b.Sweeps ∧ c.Sweeps ∧ b.angle = t ∧ b.angle + c.angle = a.angle := by
  obtain ⟨⟨h0, h1, h2⟩, h3⟩ := h
  set p := rotAbout a.center t a.p1 with hp
  have hpd : sqDist p a.center = a.radius ^ 2 := by rw [hp, sqDist_rotAbout, h1]
  have hang : a.center.angle2 eps a.p1 p = t := by
    rw [angle2_real eps _ _ _ hfar, real_atan2]
    have hc : (⟨(a.p1.x - a.center.x) * (p.x - a.center.x) + (a.p1.y - a.center.y) * (p.y - a.center.y),
        (a.p1.x - a.center.x) * (p.y - a.center.y) - (p.x - a.center.x) * (a.p1.y - a.center.y)⟩ : ℂ) =
        ((a.radius ^ 2 : ℝ) : ℂ) * (Complex.cos t + Complex.sin t * Complex.I) := by
      simp only [sqDist] at h1
      apply Complex.ext
      · simp [hp, rotAbout, ← Complex.ofReal_cos, ← Complex.ofReal_sin, -Complex.ofReal_pow]
        linear_combination Real.cos t * h1
      · simp [hp, rotAbout, ← Complex.ofReal_cos, ← Complex.ofReal_sin, -Complex.ofReal_pow]
        linear_combination Real.sin t * h1
    rw [hc, Complex.arg_mul_cos_add_sin_mul_I (by positivity) ⟨by linarith [(abs_lt.1 ht).1], by linarith [(abs_lt.1 ht).2]⟩]
  have hz : (isZero eps t || floatEq eps t a.angle) = false := by
    rw [Bool.or_eq_false_iff]
    constructor
    · apply isZero_false_of
      rcases hin with ⟨h, -⟩ | ⟨h, -⟩
      · exact le_trans h (le_abs_self t)
      · exact le_trans (by linarith) (neg_le_abs t)
    · rw [Bool.eq_false_iff]; intro h
      rw [floatEq_iff, abs_lt] at h
      rcases hin with ⟨-, h'⟩ | ⟨-, h'⟩ <;> linarith [h.1, h.2]
  refine ⟨⟨a.p1, p, a.radius, t, a.center⟩, ⟨p, a.p2, a.radius, a.angle - t, a.center⟩, ?_, rfl, rfl, rfl, rfl, rfl, rfl, rfl, rfl,
    ⟨⟨h0, h1, hpd⟩, rfl⟩, ⟨⟨h0, hpd, h2⟩, ?_⟩, rfl, by simp⟩
  · unfold Arc.subdivideAtPoint
    simp only [hang, hz, Bool.false_eq_true, if_false, real_sub]
  · show rotAbout a.center (a.angle - t) p = a.p2
    rw [← h3, hp]
    have hsc := Real.sin_sq_add_cos_sq t
    apply P.ext_real
    · simp only [rotAbout, Real.cos_sub, Real.sin_sub]
      linear_combination (Real.cos a.angle * (a.p1.x - a.center.x) - Real.sin a.angle * (a.p1.y - a.center.y)) * hsc
    · simp only [rotAbout, Real.cos_sub, Real.sin_sub]
      linear_combination (Real.sin a.angle * (a.p1.x - a.center.x) + Real.cos a.angle * (a.p1.y - a.center.y)) * hsc

/-- **C60** as stated is false of `subdivide_at_point`: for every point of a counter-clockwise arc that is more than half a turn from its start, the first part goes clockwise, outside of the arc, and the
second part is longer than the whole arc. -/
theorem C60_refuted_at_point (eps : ℝ) (a : Arc ℝ) (h : a.Sweeps) (hr : 0 < a.radius) (t : ℝ) (ht : Real.pi < t) (ht2 : t + eps ≤ 2 * Real.pi)
    (hin : t ≤ a.angle) (heps : 0 < eps) (hfar : eps ^ 2 ≤ sqDist a.p1 (rotAbout a.center t a.p1)) :
    ∃ b c, a.subdivideAtPoint eps (rotAbout a.center t a.p1) = [b, c] ∧ b.angle < 0 ∧ a.angle < c.angle := by
  obtain ⟨⟨h0, h1, h2⟩, h3⟩ := h
  set p := rotAbout a.center t a.p1 with hp
  have hang : a.center.angle2 eps a.p1 p = t - 2 * Real.pi := by
    rw [angle2_real eps _ _ _ hfar, real_atan2]
    have hc : (⟨(a.p1.x - a.center.x) * (p.x - a.center.x) + (a.p1.y - a.center.y) * (p.y - a.center.y),
        (a.p1.x - a.center.x) * (p.y - a.center.y) - (p.x - a.center.x) * (a.p1.y - a.center.y)⟩ : ℂ) =
        ((a.radius ^ 2 : ℝ) : ℂ) * (Complex.cos (t - 2 * Real.pi : ℝ) + Complex.sin (t - 2 * Real.pi : ℝ) * Complex.I) := by
      simp only [sqDist] at h1
      rw [← Complex.ofReal_cos, ← Complex.ofReal_sin, Real.cos_sub_two_pi, Real.sin_sub_two_pi]
      apply Complex.ext
      · simp [hp, rotAbout, -Complex.ofReal_pow, -Complex.ofReal_cos, -Complex.ofReal_sin]
        linear_combination Real.cos t * h1
      · simp [hp, rotAbout, -Complex.ofReal_pow, -Complex.ofReal_cos, -Complex.ofReal_sin]
        linear_combination Real.sin t * h1
    rw [hc, Complex.arg_mul_cos_add_sin_mul_I (by positivity) ⟨by linarith, by linarith [Real.pi_pos]⟩]
  have hz : (isZero eps (t - 2 * Real.pi) || floatEq eps (t - 2 * Real.pi) a.angle) = false := by
    rw [Bool.or_eq_false_iff]
    constructor
    · apply isZero_false_of
      rw [abs_of_neg (by linarith)]; linarith
    · rw [Bool.eq_false_iff]; intro h
      rw [floatEq_iff, abs_lt] at h
      linarith [h.1, h.2, Real.pi_pos]
  refine ⟨⟨a.p1, p, a.radius, t - 2 * Real.pi, a.center⟩, ⟨p, a.p2, a.radius, a.angle - (t - 2 * Real.pi), a.center⟩, ?_, ?_, ?_⟩
  · unfold Arc.subdivideAtPoint
    simp only [hang, hz, Bool.false_eq_true, if_false, real_sub]
  · show t - 2 * Real.pi < 0; linarith
  · show a.angle < a.angle - (t - 2 * Real.pi); linarith

/-! ## C94 -/

theorem rotAbout_neg (c : P ℝ) (a : ℝ) (p q : P ℝ) (h : rotAbout c (-a) p = q) : rotAbout c a q = p := by
  subst h
  have hsc := Real.sin_sq_add_cos_sq a
  apply P.ext_real
  · simp only [rotAbout, Real.cos_neg, Real.sin_neg]; linear_combination (p.x - c.x) * hsc
  · simp only [rotAbout, Real.cos_neg, Real.sin_neg]; linear_combination (p.y - c.y) * hsc

/-- The angle from the tangent to the secant. -/
theorem tangent_angle (eps : ℝ) (p1 pt p2 : P ℝ) (hfar : eps ^ 2 ≤ sqDist pt p2)
    (hdot : 0 ≤ (pt.x - p1.x) * (p2.x - p1.x) + (pt.y - p1.y) * (p2.y - p1.y))
    (hx : (pt.x - p1.x) * (p2.y - p1.y) - (pt.y - p1.y) * (p2.x - p1.x) ≠ 0) :
    ∃ al m : ℝ, p1.angle2 eps pt p2 = al ∧ 0 < m ∧ m ^ 2 = sqDist p1 pt * sqDist p1 p2 ∧ |al| ≤ Real.pi / 2 ∧ Real.sin al ≠ 0 ∧
      m * Real.cos al = (pt.x - p1.x) * (p2.x - p1.x) + (pt.y - p1.y) * (p2.y - p1.y) ∧
      m * Real.sin al = (pt.x - p1.x) * (p2.y - p1.y) - (pt.y - p1.y) * (p2.x - p1.x) := by
  set D := (pt.x - p1.x) * (p2.x - p1.x) + (pt.y - p1.y) * (p2.y - p1.y) with hD
  set X := (pt.x - p1.x) * (p2.y - p1.y) - (pt.y - p1.y) * (p2.x - p1.x) with hX
  have hDX : D ^ 2 + X ^ 2 = sqDist p1 pt * sqDist p1 p2 := by rw [hD, hX]; unfold sqDist; ring
  have hpos : 0 < D ^ 2 + X ^ 2 := by positivity
  set m := Real.sqrt (D ^ 2 + X ^ 2) with hm
  have hm0 : 0 < m := Real.sqrt_pos.2 hpos
  have hmm : m ^ 2 = D ^ 2 + X ^ 2 := Real.sq_sqrt hpos.le
  have hang : p1.angle2 eps pt p2 = PyTrig.atan2 X D := by
    rw [angle2_real eps _ _ _ hfar]
    congr 1
    rw [hX]; ring
  obtain ⟨hc, hs⟩ := atan2_cos_sin hm0 hmm.symm
  refine ⟨PyTrig.atan2 X D, m, hang, hm0, by rw [hmm, hDX], ?_, ?_, ?_, ?_⟩
  · rw [real_atan2, Complex.abs_arg_le_pi_div_two_iff]; exact hdot
  · rw [hs]; exact div_ne_zero hx hm0.ne'
  · rw [hc]; field_simp
  · rw [hs]; field_simp

/-- **C94**, for a tangent that makes at most a right angle with the secant but does not point along it (and does not end near the origin or near the second point): the arc starts at the first point in the direction
of the tangent and ends at the second point, turning about its centre by its angle, which is at most half a turn; reversed, it starts at the second point and arrives at the first one in the opposite direction. -/
theorem C94_tangent_arc_partial (eps : ℝ) (heps : 0 < eps) (p1 pt p2 : P ℝ) (rev : Bool) (h12 : eps ^ 2 ≤ sqDist p1 p2) (h0 : eps ^ 2 ≤ pt.x ^ 2 + pt.y ^ 2)
    (hfar : eps ^ 2 ≤ sqDist pt p2) (hdot : 0 ≤ (pt.x - p1.x) * (p2.x - p1.x) + (pt.y - p1.y) * (p2.y - p1.y))
    (hx : (pt.x - p1.x) * (p2.y - p1.y) - (pt.y - p1.y) * (p2.x - p1.x) ≠ 0) :
    ∃ a, Arc.fromTwoPointsAndTangent eps p1 pt p2 rev = .ok (some a) ∧ a.Sweeps ∧ 0 < a.radius ∧ |a.angle| ≤ Real.pi ∧
      (rev = false → a.p1 = p1 ∧ a.p2 = p2 ∧ a.GoesAt p1 ⟨pt.x - p1.x, pt.y - p1.y⟩) ∧
      (rev = true → a.p1 = p2 ∧ a.p2 = p1 ∧ a.GoesAt p1 ⟨p1.x - pt.x, p1.y - pt.y⟩) := by
  obtain ⟨al, m, hang, hm0, hmm, hal, hsin, hmc, hms⟩ := tangent_angle eps p1 pt p2 hfar hdot hx
  have hd1 : p1.eq eps p2 = false := (eq_false_iff eps p1 p2).2 h12
  have hd2 : p1.eq eps (p1.add pt) = false := by
    rw [eq_false_iff]; unfold sqDist; simp only [P.add, real_add]; nlinarith
  have hpos : 0 < sqDist p1 p2 := lt_of_lt_of_le (by positivity) h12
  set L := segLen ⟨p1, p2⟩ with hLdef
  have hL : 0 < L := Real.sqrt_pos.2 hpos
  have hL2 : L ^ 2 = sqDist p1 p2 := Real.sq_sqrt hpos.le
  have hdist : p1.distance p2 = L := by rw [distance_real]; rfl
  set r := |L / (2 * Real.sin al)| with hr
  have hr0 : 0 < r := abs_pos.2 (div_ne_zero hL.ne' (by simpa using hsin))
  have hrL : L = 2 * r * |Real.sin al| := by
    rw [hr, abs_div, abs_of_pos hL, abs_mul, abs_two]
    have : |Real.sin al| ≠ 0 := abs_ne_zero.2 hsin
    field_simp
  have hu : 0 < sqDist p1 pt := by
    by_contra hc
    have : sqDist p1 pt = 0 := le_antisymm (not_lt.1 hc) (sqDist_nonneg _ _)
    rw [this, zero_mul] at hmm
    exact absurd hmm (by positivity)
  -- the direction at p1 of any arc that turns about its centre by `2 al`
  have hdir : ∀ c, rotAbout c (2 * al) p1 = p2 → ∃ k, 0 < k ∧
      (if 0 < 2 * al then 1 else -1) * -(p1.y - c.y) = k * (pt.x - p1.x) ∧ (if 0 < 2 * al then 1 else -1) * (p1.x - c.x) = k * (pt.y - p1.y) := by
    intro c hc
    have e1 := congrArg P.x hc
    have e2 := congrArg P.y hc
    simp only [rotAbout] at e1 e2
    have hsgn : (if 0 < 2 * al then (1 : ℝ) else -1) * |Real.sin al| = Real.sin al := by
      have hb := abs_le.1 hal
      split
      · rename_i hp
        rw [one_mul, abs_of_nonneg]
        exact Real.sin_nonneg_of_nonneg_of_le_pi (by linarith) (by linarith [Real.pi_pos])
      · rename_i hn
        rw [abs_of_nonpos]
        · ring
        · exact Real.sin_nonpos_of_nonpos_of_neg_pi_le (by linarith) (by linarith [Real.pi_pos])
    have habs : 0 < |Real.sin al| := abs_pos.2 hsin
    have hss : (if 0 < 2 * al then (1 : ℝ) else -1) = Real.sin al / |Real.sin al| := by
      rw [eq_div_iff habs.ne']; exact hsgn
    rw [hss]
    have hc2 : Real.cos (2 * al) = 1 - 2 * Real.sin al ^ 2 := by rw [Real.cos_two_mul, Real.cos_sq']; ring
    have hs2 : Real.sin (2 * al) = 2 * Real.sin al * Real.cos al := Real.sin_two_mul al
    rw [hc2, hs2] at e1 e2
    have hsc := Real.sin_sq_add_cos_sq al
    have hL2' : sqDist p1 p2 = (p1.x - p2.x) ^ 2 + (p1.y - p2.y) ^ 2 := rfl
    refine ⟨sqDist p1 p2 / (2 * |Real.sin al| * m), by positivity, ?_, ?_⟩
    · have key : 2 * Real.sin al * -(p1.y - c.y) * m = sqDist p1 p2 * (pt.x - p1.x) := by
        have k1 : 2 * Real.sin al * -(p1.y - c.y) = Real.cos al * (p2.x - p1.x) + Real.sin al * (p2.y - p1.y) := by
          linear_combination Real.cos al * e1 + Real.sin al * e2 - 2 * Real.sin al * -(p1.y - c.y) * hsc + 0 * hsc
        rw [k1]
        linear_combination (p2.x - p1.x) * hmc + (p2.y - p1.y) * hms - (pt.x - p1.x) * hL2'
      field_simp
      linear_combination key
    · have key : 2 * Real.sin al * (p1.x - c.x) * m = sqDist p1 p2 * (pt.y - p1.y) := by
        have k1 : 2 * Real.sin al * (p1.x - c.x) = Real.cos al * (p2.y - p1.y) - Real.sin al * (p2.x - p1.x) := by
          linear_combination Real.cos al * e2 - Real.sin al * e1 - 2 * Real.sin al * (p1.x - c.x) * hsc
        rw [k1]
        linear_combination (p2.y - p1.y) * hmc - (p2.x - p1.x) * hms - (pt.y - p1.y) * hL2'
      field_simp
      linear_combination key
  have hbnd : |2 * al| ≤ Real.pi := by rw [abs_mul, abs_two]; linarith
  have hpd : pdiv L (2 * Real.sin (2 * al / 2)) = .ok (L / (2 * Real.sin al)) := by
    rw [show 2 * al / 2 = al by ring]
    unfold pdiv
    simp [hsin]
  cases rev with
  | false =>
    obtain ⟨c, hc1, hc2⟩ := C80_center_sweep_partial eps heps p1 p2 r (2 * al) hr0 h12 (by rw [show 2 * al / 2 = al by ring]; exact hrL) hbnd
    obtain ⟨c', hc3, hc4, hc5, -⟩ := (C59_calc_center eps heps p1 p2 r (2 * al) h12).1 (by
      rw [abs_of_pos hr0, ← hLdef, hrL]
      have := Real.abs_sin_le_one al
      nlinarith)
    have : c' = c := by rw [hc1] at hc3; simpa using hc3.symm
    subst this
    refine ⟨⟨p1, p2, r, 2 * al, c'⟩, ?_, ⟨⟨hr0.le, by rw [sqDist_comm]; exact hc4, by rw [sqDist_comm]; exact hc5⟩, hc2⟩, hr0, hbnd, fun _ => ⟨rfl, rfl, hdir c' hc2⟩, fun h => (by cases h)⟩
    unfold Arc.fromTwoPointsAndTangent
    rw [hd1, hd2]
    simp only [Bool.or_false, Bool.false_eq_true, if_false, hang, hdist, real_mul, real_ofInt, Int.cast_ofNat, real_sin, real_div, hpd, bind, Except.bind, real_abs, ← hr,
      Arc.mk', hc1, pure, Except.pure]
  | true =>
    have hLs : segLen ⟨p2, p1⟩ = L := by rw [hLdef]; unfold segLen; rw [sqDist_comm]
    have h21 : eps ^ 2 ≤ sqDist p2 p1 := by rw [sqDist_comm]; exact h12
    obtain ⟨c, hc1, hc2⟩ := C80_center_sweep_partial eps heps p2 p1 r (-(2 * al)) hr0 h21
      (by rw [hLs, show -(2 * al) / 2 = -al by ring, Real.sin_neg, abs_neg]; exact hrL) (by rw [abs_neg]; exact hbnd)
    obtain ⟨c', hc3, hc4, hc5, -⟩ := (C59_calc_center eps heps p2 p1 r (-(2 * al)) h21).1 (by
      rw [abs_of_pos hr0, hLs, hrL]
      have := Real.abs_sin_le_one al
      nlinarith)
    have : c' = c := by rw [hc1] at hc3; simpa using hc3.symm
    subst this
    refine ⟨⟨p2, p1, r, -(2 * al), c'⟩, ?_, ⟨⟨hr0.le, by rw [sqDist_comm]; exact hc4, by rw [sqDist_comm]; exact hc5⟩, hc2⟩, hr0, by rw [abs_neg]; exact hbnd,
      fun h => (by cases h), fun _ => ⟨rfl, rfl, ?_⟩⟩
    · unfold Arc.fromTwoPointsAndTangent
      rw [hd1, hd2]
      simp only [Bool.or_false, Bool.false_eq_true, if_false, if_true, hang, hdist, real_mul, real_ofInt, Int.cast_ofNat, real_sin, real_div, hpd, bind, Except.bind, real_abs, ← hr,
        real_neg, Arc.mk', hc1, pure, Except.pure]
    · obtain ⟨k, hk, g1, g2⟩ := hdir c' (rotAbout_neg _ _ _ _ hc2)
      have hal0 : 2 * al ≠ 0 := by
        intro h0'
        apply hsin
        have : al = 0 := by linarith
        rw [this, Real.sin_zero]
      have hflip : (if 0 < -(2 * al) then (1 : ℝ) else -1) = -(if 0 < 2 * al then (1 : ℝ) else -1) := by
        rcases lt_or_gt_of_ne hal0 with h | h
        · rw [if_pos (by linarith), if_neg (by linarith)]; ring
        · rw [if_neg (by linarith), if_pos (by linarith)]
      refine ⟨k, hk, ?_, ?_⟩
      · show (if 0 < -(2 * al) then (1 : ℝ) else -1) * -(p1.y - c'.y) = k * (p1.x - pt.x)
        rw [hflip]; linear_combination -g1
      · show (if 0 < -(2 * al) then (1 : ℝ) else -1) * (p1.x - c'.x) = k * (p1.y - pt.y)
        rw [hflip]; linear_combination -g2

/-- Non-vacuity: from (1, 0) in the direction (0, 1) to (0, 1). -/
example : ∃ a, Arc.fromTwoPointsAndTangent (1/1000) (⟨1, 0⟩ : P ℝ) ⟨1, 2⟩ ⟨0, 1⟩ = .ok (some a) ∧ a.Sweeps := by
  obtain ⟨a, h1, h2, -⟩ := C94_tangent_arc_partial (1/1000) (by norm_num) ⟨1, 0⟩ ⟨1, 2⟩ ⟨0, 1⟩ false (by norm_num [sqDist]) (by norm_num) (by norm_num [sqDist])
    (by norm_num) (by norm_num)
  exact ⟨a, h1, h2⟩

/-- **C94** as stated is false of the code: the arc that should leave (1, 0) upwards and go three quarters around the origin to (0, -1) is put about the centre (1, -1), and leaves to the left; a tangent
that points straight at the second point raises `ZeroDivisionError`; and a tangent point near the origin is taken for a degenerate one, wherever the points are. -/
theorem C94_refuted :
    (∃ a, Arc.fromTwoPointsAndTangent (1/1000000) (⟨1, 0⟩ : P ℝ) ⟨1, 1⟩ ⟨0, -1⟩ = .ok (some a) ∧ a.angle = 3 * Real.pi / 2 ∧ a.center = ⟨1, -1⟩ ∧
      ¬ a.GoesAt ⟨1, 0⟩ ⟨0, 1⟩ ∧ ¬ a.Sweeps) ∧
    (∀ (eps : ℝ) (p1 pt p2 : P ℝ) (rev : Bool), eps ^ 2 ≤ sqDist p1 p2 → eps ^ 2 ≤ pt.x ^ 2 + pt.y ^ 2 → eps ^ 2 ≤ sqDist pt p2 →
      (pt.x - p1.x) * (p2.y - p1.y) - (pt.y - p1.y) * (p2.x - p1.x) = 0 → Arc.fromTwoPointsAndTangent eps p1 pt p2 rev = .error .zeroDivision) ∧
    (∀ (eps : ℝ) (p1 pt p2 : P ℝ) (rev : Bool), pt.x ^ 2 + pt.y ^ 2 < eps ^ 2 → 0 < eps → Arc.fromTwoPointsAndTangent eps p1 pt p2 rev = .ok none) := by
  refine ⟨?_, ?_, ?_⟩
  · have hp := Real.pi_pos
    have hang : (⟨1, 0⟩ : P ℝ).angle2 (1/1000000) ⟨1, 1⟩ ⟨0, -1⟩ = 3 * Real.pi / 4 := by
      rw [angle2_real _ _ _ _ (by norm_num [sqDist]), real_atan2]
      have : (⟨((1 : ℝ) - 1) * (0 - 1) + (1 - 0) * (-1 - 0), (1 - 1) * (-1 - 0) - (0 - 1) * (1 - 0)⟩ : ℂ) =
          ((Real.sqrt 2 : ℝ) : ℂ) * (Complex.cos (3 * Real.pi / 4 : ℝ) + Complex.sin (3 * Real.pi / 4 : ℝ) * Complex.I) := by
        have hc : Real.cos (3 * Real.pi / 4) = -(Real.sqrt 2 / 2) := by
          rw [show 3 * Real.pi / 4 = Real.pi - Real.pi / 4 by ring, Real.cos_pi_sub, Real.cos_pi_div_four]
        have hs : Real.sin (3 * Real.pi / 4) = Real.sqrt 2 / 2 := by
          rw [show 3 * Real.pi / 4 = Real.pi - Real.pi / 4 by ring, Real.sin_pi_sub, Real.sin_pi_div_four]
        have h2 : Real.sqrt 2 * Real.sqrt 2 = 2 := Real.mul_self_sqrt (by norm_num)
        rw [← Complex.ofReal_cos, ← Complex.ofReal_sin, hc, hs]
        apply Complex.ext
        · simp; linarith
        · simp; linarith
      rw [this, Complex.arg_mul_cos_add_sin_mul_I (by positivity) ⟨by linarith, by linarith⟩]
    have hsin : Real.sin (3 * Real.pi / 4) = Real.sqrt 2 / 2 := by
      rw [show 3 * Real.pi / 4 = Real.pi - Real.pi / 4 by ring, Real.sin_pi_sub, Real.sin_pi_div_four]
    have hs2p : 0 < Real.sqrt 2 := Real.sqrt_pos.2 (by norm_num)
    have hs2 : Real.sqrt 2 * Real.sqrt 2 = 2 := Real.mul_self_sqrt (by norm_num)
    have hD : sqDist (⟨1, 0⟩ : P ℝ) ⟨0, -1⟩ = 2 := by norm_num [sqDist]
    have hL : segLen (⟨⟨1, 0⟩, ⟨0, -1⟩⟩ : Line ℝ) = Real.sqrt 2 := by unfold segLen; rw [hD]
    have hcc : Arc.calcCenter (1/1000000) (⟨1, 0⟩ : P ℝ) ⟨0, -1⟩ 1 (3 * Real.pi / 2) = .ok ⟨1, -1⟩ := by
      rw [calcCenter_real _ (by norm_num) _ _ _ _ (by rw [hD]; norm_num), hD, hL]
      rw [if_neg (by norm_num), if_pos (by linarith)]
      have hq : Real.sqrt ((1 : ℝ) ^ 2 - 2 / 4) = Real.sqrt 2 / 2 := by
        rw [show (1 : ℝ) ^ 2 - 2 / 4 = (Real.sqrt 2 / 2) ^ 2 by nlinarith, Real.sqrt_sq (by positivity)]
      rw [hq]
      congr 1
      apply P.ext_real
      · simp only; field_simp; linarith
      · simp only; field_simp; linarith
    refine ⟨⟨⟨1, 0⟩, ⟨0, -1⟩, 1, 3 * Real.pi / 2, ⟨1, -1⟩⟩, ?_, rfl, rfl, ?_, ?_⟩
    · unfold Arc.fromTwoPointsAndTangent
      rw [(eq_false_iff _ _ _).2 (by rw [hD]; norm_num), (eq_false_iff _ _ _).2 (by norm_num [sqDist, P.add])]
      have hdist : (⟨1, 0⟩ : P ℝ).distance ⟨0, -1⟩ = Real.sqrt 2 := by rw [distance_real, hD]
      have hpd : pdiv (Real.sqrt 2) (2 * Real.sin (2 * (3 * Real.pi / 4) / 2)) = .ok 1 := by
        rw [show 2 * (3 * Real.pi / 4) / 2 = 3 * Real.pi / 4 by ring, hsin]
        unfold pdiv
        have : (2 : ℝ) * (Real.sqrt 2 / 2) ≠ 0 := by positivity
        simp only [real_beq, real_zero, this, decide_false, Bool.false_eq_true, if_false, real_div]
        congr 1
        field_simp
      simp only [Bool.or_false, Bool.false_eq_true, if_false, hang, hdist, real_mul, real_ofInt, Int.cast_ofNat, real_sin, real_div, hpd, bind, Except.bind, real_abs, abs_one,
        Arc.mk']
      rw [show 2 * (3 * Real.pi / 4) = 3 * Real.pi / 2 by ring, hcc]
      rfl
    · rintro ⟨k, hk, h1, h2⟩
      simp only at h1 h2
      rw [if_pos (by linarith)] at h1
      norm_num at h1
    · rintro ⟨-, h⟩
      have := congrArg P.x h
      have hcos : Real.cos (3 * Real.pi / 2) = 0 := by
        rw [show 3 * Real.pi / 2 = Real.pi / 2 + Real.pi by ring, Real.cos_add_pi]; simp
      have hsin : Real.sin (3 * Real.pi / 2) = -1 := by
        rw [show 3 * Real.pi / 2 = Real.pi / 2 + Real.pi by ring, Real.sin_add_pi]; simp
      simp only [rotAbout, hcos, hsin] at this
      norm_num at this
  · intro eps p1 pt p2 rev h1 h2 h3 h4
    unfold Arc.fromTwoPointsAndTangent
    have hd2 : p1.eq eps (p1.add pt) = false := by
      rw [eq_false_iff]; unfold sqDist; simp only [P.add, real_add]; nlinarith
    rw [(eq_false_iff _ _ _).2 h1, hd2]
    have hs : Real.sin (2 * p1.angle2 eps pt p2 / 2) = 0 := by
      rw [show 2 * p1.angle2 eps pt p2 / 2 = p1.angle2 eps pt p2 by ring, angle2_real eps _ _ _ h3, real_atan2]
      have : (pt.x - p1.x) * (p2.y - p1.y) - (p2.x - p1.x) * (pt.y - p1.y) = 0 := by linarith
      rw [this, Complex.sin_arg]
      simp
    simp only [Bool.or_false, Bool.false_eq_true, if_false, real_mul, real_ofInt, Int.cast_ofNat, real_sin, real_div, hs, pdiv, real_beq, mul_zero, real_zero, decide_true, if_true,
      bind, Except.bind]
  · intro eps p1 pt p2 rev h1 h2
    unfold Arc.fromTwoPointsAndTangent
    have : p1.eq eps (p1.add pt) = true := by
      rw [← Bool.not_eq_false, eq_false_iff]
      unfold sqDist; simp only [P.add, real_add]
      push Not
      nlinarith
    rw [this, Bool.or_true, if_pos rfl]

end Verif.Geom
