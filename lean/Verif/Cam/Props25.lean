import Verif.Cam.Fillet
import Verif.Geom.Props10
import Verif.Geom.Props16

/-!
# C122: fillets round the corners of a polyline
-/

set_option linter.unusedSectionVars false

namespace Verif.Cam
open Verif Verif.Geom PyFloat PyTrig

/-- Specification: the point at distance `m` from `p` in the direction `u`. -/
def along (p u : P ℝ) (m : ℝ) : P ℝ := ⟨p.x + m * u.x, p.y + m * u.y⟩

/-- Specification: the cross product. -/
def crossOf (u w : P ℝ) : ℝ := u.x * w.y - u.y * w.x

/-- Specification: the dot product. -/
def dotOf (u w : P ℝ) : ℝ := u.x * w.x + u.y * w.y

/-- Specification: a vector of length one. -/
def UnitVec (u : P ℝ) : Prop := u.x ^ 2 + u.y ^ 2 = 1

/-- Specification: how much of each side a fillet of radius `r` takes away between the directions `u` and `w` : `r * tan (θ / 2)` for the turn `θ`. -/
noncomputable def cutOf (r : ℝ) (u w : P ℝ) : ℝ := r * |crossOf u w| / (1 + dotOf u w)

theorem cross_dot {u w : P ℝ} (hu : UnitVec u) (hw : UnitVec w) : crossOf u w ^ 2 + dotOf u w ^ 2 = 1 := by
  unfold UnitVec at *; unfold crossOf dotOf
  linear_combination (w.x ^ 2 + w.y ^ 2) * hu + hw

theorem dot_gt {u w : P ℝ} (hu : UnitVec u) (hw : UnitVec w) (h : crossOf u w ≠ 0) : -1 < dotOf u w ∧ dotOf u w < 1 := by
  have := cross_dot hu hw
  have : 0 < crossOf u w ^ 2 := by positivity
  constructor <;> nlinarith

theorem segLen_unit (p u : P ℝ) (hu : UnitVec u) (m k : ℝ) : segLen ⟨along p u m, along p u k⟩ = |k - m| := by
  unfold segLen sqDist along
  rw [← Real.sqrt_sq_eq_abs]
  congr 1
  unfold UnitVec at hu
  linear_combination (k - m) ^ 2 * hu

theorem offset_unit {eps : ℝ} (p u : P ℝ) (hu : UnitVec u) (m k d : ℝ) (hd : eps ≤ |d|) (hl : eps ≤ k - m) (hkm : 0 < k - m) :
    Line.offset eps ⟨along p u m, along p u k⟩ d = ⟨along ⟨p.x - d * u.y, p.y + d * u.x⟩ u m, along ⟨p.x - d * u.y, p.y + d * u.x⟩ u k⟩ := by
  have hlen := segLen_unit p u hu m k
  rw [abs_of_pos hkm] at hlen
  unfold Line.offset
  rw [length_real, hlen]
  dsimp only
  rw [if_neg]
  · simp only [P.normal, P.mul, P.add, P.sub, along, real_add, real_sub, real_mul, real_div, real_neg, if_true, Bool.false_eq_true, if_false]
    congr 1 <;> apply P.ext_real <;> simp only [] <;> field_simp <;> ring
  · rw [Bool.or_eq_true, isZero_iff, isZero_iff, abs_of_pos hkm, not_or, not_lt, not_lt]
    exact ⟨hd, hl⟩

/-- The projection of a point beside a line. -/
theorem project_unit {eps : ℝ} (heps : 0 < eps) (p u : P ℝ) (hu : UnitVec u) (m k s d : ℝ) (hl : eps ≤ k - m) (q : P ℝ) (hq : q = ⟨p.x + s * u.x - d * u.y, p.y + s * u.y + d * u.x⟩) :
    (m ≤ s → s ≤ k → Line.normalProjectionPoint eps ⟨along p u m, along p u k⟩ q true = along p u s) ∧
    (s ≤ m → Line.normalProjectionPoint eps ⟨along p u m, along p u k⟩ q true = along p u m) ∧
    (k ≤ s → Line.normalProjectionPoint eps ⟨along p u m, along p u k⟩ q true = along p u k) := by
  have hkm : 0 < k - m := lt_of_lt_of_le heps hl
  have hu' : u.x ^ 2 + u.y ^ 2 = 1 := hu
  have hL : ((along p u k).sub (along p u m)).x ^ 2 + ((along p u k).sub (along p u m)).y ^ 2 = (k - m) ^ 2 := by
    simp only [P.sub, along, real_sub]; linear_combination (k - m) ^ 2 * hu'
  have hn : ((along p u k).sub (along p u m)).normalProjection eps (q.sub (along p u m)) = (s - m) / (k - m) := by
    rw [normProj_real, hL, if_neg (not_lt.2 (by nlinarith)), div_eq_div_iff (by positivity) hkm.ne']
    subst hq
    simp only [P.sub, along, real_sub]
    linear_combination (s - m) * (k - m) ^ 2 * hu'
  unfold Line.normalProjectionPoint
  dsimp only
  rw [hn]
  simp only [Bool.true_and, real_le, real_zero, real_one, decide_eq_true_eq]
  have hin : (along p u m).add (((along p u k).sub (along p u m)).mul ((s - m) / (k - m))) = along p u s := by
    apply P.ext_real <;> simp only [P.add, P.mul, P.sub, along, real_add, real_sub, real_mul] <;> field_simp <;> ring
  refine ⟨fun h1 h2 => ?_, fun h => ?_, fun h => ?_⟩
  · split
    · rename_i h
      rw [div_le_iff₀ hkm] at h
      rw [show s = m by linarith]
    · split
      · rename_i h
        rw [le_div_iff₀ hkm] at h
        rw [show s = k by linarith]
      · exact hin
  · rw [if_pos]
    rw [div_le_iff₀ hkm]; linarith
  · rw [if_neg, if_pos]
    · rw [le_div_iff₀ hkm]; linarith
    · rw [div_le_iff₀ hkm]; linarith

theorem along_zero (p u : P ℝ) : along p u 0 = p := by apply P.ext_real <;> simp [along]

theorem cut_pos {r : ℝ} {u w : P ℝ} (hr : 0 < r) (hu : UnitVec u) (hw : UnitVec w) (h : crossOf u w ≠ 0) : 0 < cutOf r u w := by
  have := dot_gt hu hw h
  unfold cutOf
  have : 0 < |crossOf u w| := abs_pos.2 h
  apply div_pos (by positivity) (by linarith)

/-- The side of the turn. -/
noncomputable def turnSign (u w : P ℝ) : ℝ := if 0 ≤ crossOf u w then 1 else -1

theorem turnSign_abs (u w : P ℝ) : turnSign u w * |crossOf u w| = crossOf u w ∧ turnSign u w ^ 2 = 1 ∧ |turnSign u w| = 1 := by
  unfold turnSign
  split
  · rename_i h; rw [abs_of_nonneg h]; norm_num
  · rename_i h; rw [abs_of_neg (not_le.1 h)]; norm_num

/-- The centre of the fillet. -/
noncomputable def filletCenter (v u w : P ℝ) (r : ℝ) : P ℝ :=
  ⟨v.x - cutOf r u w * u.x - turnSign u w * r * u.y, v.y - cutOf r u w * u.y + turnSign u w * r * u.x⟩

theorem filletCenter_other {v u w : P ℝ} {r : ℝ} (hu : UnitVec u) (hw : UnitVec w) (h : crossOf u w ≠ 0) :
    filletCenter v u w r = ⟨v.x + cutOf r u w * w.x - turnSign u w * r * w.y, v.y + cutOf r u w * w.y + turnSign u w * r * w.x⟩ := by
  obtain ⟨h1, -⟩ := dot_gt hu hw h
  obtain ⟨hs, hs2, -⟩ := turnSign_abs u w
  have hcd := cross_dot hu hw
  have hne : 1 + dotOf u w ≠ 0 := by linarith
  have hu' : u.x ^ 2 + u.y ^ 2 = 1 := hu
  have hw' : w.x ^ 2 + w.y ^ 2 = 1 := hw
  have hcut : cutOf r u w * (1 + dotOf u w) = r * (turnSign u w * crossOf u w) := by
    unfold cutOf; rw [div_mul_cancel₀ _ hne]
    linear_combination (-(r * |crossOf u w|)) * hs2 + r * turnSign u w * hs
  have key : ∀ a b : ℝ, (1 + dotOf u w) * a = (1 + dotOf u w) * b → a = b := fun a b h => mul_left_cancel₀ hne h
  unfold filletCenter
  apply P.ext_real
  · apply key
    simp only
    have e1 : (1 + dotOf u w) * (u.y - w.y) = - crossOf u w * (u.x + w.x) := by
      unfold dotOf crossOf
      linear_combination w.y * hu' - u.y * hw'
    linear_combination (-(u.x + w.x)) * hcut - turnSign u w * r * e1
  · apply key
    simp only
    have e1 : (1 + dotOf u w) * (u.x - w.x) = crossOf u w * (u.y + w.y) := by
      unfold dotOf crossOf
      linear_combination w.x * hu' - u.x * hw'
    linear_combination (-(u.y + w.y)) * hcut + turnSign u w * r * e1

/-- What the function finds at a corner, before the test whether it fits. -/
theorem fillet_center {eps r : ℝ} (heps : 0 < eps) (hr : eps ≤ r) (v u w : P ℝ) (hu : UnitVec u) (hw : UnitVec w) (L1 L2 : ℝ) (h1 : eps ≤ L1) (h2 : eps ≤ L2) :
    let l1 : Line ℝ := ⟨along v u (-L1), v⟩
    let l2 : Line ℝ := ⟨v, along v w L2⟩
    let off := r *. ofInt (l1.whichSide eps l2.p2)
    (L1 * L2 * |crossOf u w| < eps → (l1.offset eps off).intersection eps (l2.offset eps off) = none) ∧
    (eps ≤ L1 * L2 * |crossOf u w| → (l1.offset eps off).intersection eps (l2.offset eps off) = some (filletCenter v u w r)) := by
  intro l1 l2 off
  have hr0 : 0 < r := lt_of_lt_of_le heps hr
  have p1 : 0 < L1 := lt_of_lt_of_le heps h1
  have p2 : 0 < L2 := lt_of_lt_of_le heps h2
  obtain ⟨hs, hs2, hs1⟩ := turnSign_abs u w
  have hoff : off = turnSign u w * r := by
    show r *. ofInt (l1.whichSide eps l2.p2) = _
    unfold Line.whichSide
    rw [cross_side]
    have : side l1 l2.p2 = L1 * L2 * crossOf u w := by
      unfold side leftArea2 crossOf; simp only [l1, l2, along]; ring
    rw [this]
    simp only [Bool.false_and, Bool.false_eq_true, if_false, real_le, real_zero, decide_eq_true_eq, real_mul, real_ofInt]
    unfold turnSign
    have : 0 ≤ L1 * L2 * crossOf u w ↔ 0 ≤ crossOf u w := by
      constructor
      · intro h; by_contra hc
        have := mul_pos_of_neg_of_neg (not_le.1 hc) (neg_lt_zero.2 (mul_pos p1 p2))
        nlinarith
      · intro h; positivity
    simp only [this]
    split <;> simp
  have habs : eps ≤ |off| := by rw [hoff, abs_mul, hs1, one_mul, abs_of_pos hr0]; exact hr
  have e1 : l1 = ⟨along v u (-L1), along v u 0⟩ := by simp only [l1, along_zero]
  have e2 : l2 = ⟨along v w 0, along v w L2⟩ := by simp only [l2, along_zero]
  have o1 := offset_unit (eps := eps) v u hu (-L1) 0 off habs (by linarith) (by linarith)
  have o2 := offset_unit (eps := eps) v w hw 0 L2 off habs (by linarith) (by linarith)
  rw [← e1] at o1
  rw [← e2] at o2
  have hd : dirCross (l1.offset eps off) (l2.offset eps off) = L1 * L2 * crossOf u w := by
    rw [o1, o2]; unfold dirCross crossOf along; ring
  obtain ⟨c1, c2⟩ := C55_intersection eps heps (l1.offset eps off) (l2.offset eps off) false false false
  have hx : |L1 * L2 * crossOf u w| = L1 * L2 * |crossOf u w| := by rw [abs_mul, abs_of_pos (mul_pos p1 p2)]
  constructor
  · intro h
    unfold Line.intersection Line.intersectionMu
    dsimp only
    have : (l1.offset eps off).denom (l2.offset eps off) = dirCross (l1.offset eps off) (l2.offset eps off) := by
      unfold Line.denom dirCross; simp only [real_sub, real_mul]; ring
    rw [this, hd, if_pos]
    · rfl
    · rw [real_lt, real_abs, decide_eq_true_eq, hx]; exact h
  · intro h
    have hc : crossOf u w ≠ 0 := by
      intro h0; rw [h0, abs_zero, mul_zero] at h; linarith
    have hp1 : filletCenter v u w r = segPt (l1.offset eps off) (1 - cutOf r u w / L1) := by
      rw [o1, hoff]; unfold filletCenter segPt along
      apply P.ext_real <;> simp only [] <;> field_simp <;> ring
    have hp2 : filletCenter v u w r = segPt (l2.offset eps off) (cutOf r u w / L2) := by
      rw [o2, hoff, filletCenter_other hu hw hc]; unfold segPt along
      apply P.ext_real <;> simp only [] <;> field_simp <;> ring
    cases hi : (l1.offset eps off).intersection eps (l2.offset eps off) with
    | none =>
      exfalso
      rcases c2 hi with hlt | ⟨s, t, -, h | h⟩
      · rw [hd, hx] at hlt; linarith
      · simp at h
      · simp at h
    | some p =>
      obtain ⟨s, t, hs', ht', hun, -, -⟩ := c1 p hi
      obtain ⟨k1, -⟩ := hun _ _ (hp1.symm.trans hp2)
      rw [hs', ← k1, ← hp1]

/-- Specification: an arc that rounds the corner `v` between the directions `u` and `w`, leaving the first side and reaching the second one at the distance `m` from the corner. -/
structure RoundsCorner (r m : ℝ) (v u w : P ℝ) (f : Arc ℝ) : Prop where
  start : f.p1 = along v u (-m)
  stop : f.p2 = along v w m
  radius : f.radius = r
  sweeps : f.Sweeps
  short : |f.angle| < Real.pi
  leaves : f.GoesAt f.p1 u
  arrives : f.GoesAt f.p2 w

theorem sqDist_center {v u w : P ℝ} {r : ℝ} (hu : UnitVec u) : sqDist (along v u (-cutOf r u w)) (filletCenter v u w r) = r ^ 2 := by
  have hs2 := (turnSign_abs u w).2.1
  have hu' : u.x ^ 2 + u.y ^ 2 = 1 := hu
  unfold sqDist along filletCenter
  linear_combination (turnSign u w ^ 2 * r ^ 2) * hu' + r ^ 2 * hs2

theorem sqDist_center2 {v u w : P ℝ} {r : ℝ} (hu : UnitVec u) (hw : UnitVec w) (h : crossOf u w ≠ 0) : sqDist (along v w (cutOf r u w)) (filletCenter v u w r) = r ^ 2 := by
  have hs2 := (turnSign_abs u w).2.1
  have hw' : w.x ^ 2 + w.y ^ 2 = 1 := hw
  rw [filletCenter_other hu hw h]
  unfold sqDist along
  linear_combination (turnSign u w ^ 2 * r ^ 2) * hw' + r ^ 2 * hs2

theorem sqDist_cut {v u w : P ℝ} (hu : UnitVec u) (hw : UnitVec w) (m : ℝ) : sqDist (along v u (-m)) (along v w m) = 2 * m ^ 2 * (1 + dotOf u w) := by
  have hu' : u.x ^ 2 + u.y ^ 2 = 1 := hu
  have hw' : w.x ^ 2 + w.y ^ 2 = 1 := hw
  unfold sqDist along dotOf
  linear_combination m ^ 2 * hu' + m ^ 2 * hw'

/-- The arc between the two points of contact. -/
theorem arc_rounds {eps r : ℝ} (hr : 0 < r) {v u w : P ℝ} (hu : UnitVec u) (hw : UnitVec w) (hc : crossOf u w ≠ 0)
    (hd : eps ^ 2 ≤ 2 * cutOf r u w ^ 2 * (1 + dotOf u w)) :
    RoundsCorner r (cutOf r u w) v u w (Arc.fromTwoPointsAndCenter eps (along v u (-cutOf r u w)) (along v w (cutOf r u w)) (filletCenter v u w r)) := by
  obtain ⟨hs, hs2, -⟩ := turnSign_abs u w
  have hcd := cross_dot hu hw
  have hne : turnSign u w ≠ 0 := by intro h; rw [h] at hs2; norm_num at hs2
  have hu' : u.x ^ 2 + u.y ^ 2 = 1 := hu
  have hw' : w.x ^ 2 + w.y ^ 2 = 1 := hw
  set c := filletCenter v u w r with hcdef
  set q1 := along v u (-cutOf r u w) with hq1
  set q2 := along v w (cutOf r u w) with hq2
  have a1 : q1.x - c.x = turnSign u w * r * u.y ∧ q1.y - c.y = -(turnSign u w * r * u.x) := by
    rw [hcdef, hq1]; unfold filletCenter along; constructor <;> ring
  have a2 : q2.x - c.x = turnSign u w * r * w.y ∧ q2.y - c.y = -(turnSign u w * r * w.x) := by
    rw [hcdef, filletCenter_other hu hw hc, hq2]; unfold along; constructor <;> ring
  have hang : c.angle2 eps q1 q2 = PyTrig.atan2 (r ^ 2 * crossOf u w) (r ^ 2 * dotOf u w) := by
    rw [angle2_real eps c q1 q2 (by rw [hq1, hq2, sqDist_cut hu hw]; exact hd)]
    rw [a1.1, a1.2, a2.1, a2.2]
    congr 1
    · unfold crossOf; linear_combination (r ^ 2 * (u.x * w.y - u.y * w.x)) * hs2
    · unfold dotOf; linear_combination (r ^ 2 * (u.x * w.x + u.y * w.y)) * hs2
  obtain ⟨ec, es⟩ := atan2_cos_sin (x := r ^ 2 * dotOf u w) (y := r ^ 2 * crossOf u w) (r := r ^ 2) (by positivity) (by linear_combination r ^ 4 * hcd)
  rw [← hang] at ec es
  rw [mul_div_cancel_left₀ _ (by positivity)] at ec es
  have hle : |c.angle2 eps q1 q2| ≤ Real.pi := by
    rw [hang, real_atan2]; exact Complex.abs_arg_le_pi _
  have hpos : 0 < c.angle2 eps q1 q2 ↔ 0 < crossOf u w := by
    rw [← es]
    constructor
    · intro h
      apply lt_of_le_of_ne (Real.sin_nonneg_of_nonneg_of_le_pi h.le (le_of_abs_le hle))
      rw [es]; exact hc.symm
    · intro h
      by_contra hn
      have := Real.sin_nonpos_of_nonpos_of_neg_pi_le (not_lt.1 hn) (neg_le_of_abs_le hle)
      linarith
  have hsgn : (if 0 < c.angle2 eps q1 q2 then (1 : ℝ) else -1) = turnSign u w := by
    unfold turnSign
    by_cases h : 0 < crossOf u w
    · rw [if_pos (hpos.2 h), if_pos h.le]
    · rw [if_neg (fun h' => h (hpos.1 h')), if_neg]
      intro h'; exact h (lt_of_le_of_ne h' hc.symm)
  have hrad : sqDist q1 c = r ^ 2 := sqDist_center hu
  have hrad2 : sqDist q2 c = r ^ 2 := sqDist_center2 hu hw hc
  refine ⟨rfl, rfl, ?_, ⟨⟨?_, ?_, ?_⟩, ?_⟩, ?_, ?_, ?_⟩
  · show P.distance q1 c = r
    rw [distance_real, hrad, Real.sqrt_sq hr.le]
  · show 0 ≤ P.distance q1 c
    rw [distance_real]; exact Real.sqrt_nonneg _
  · show sqDist q1 c = P.distance q1 c ^ 2
    rw [distance_real, hrad, Real.sqrt_sq hr.le]
  · show sqDist q2 c = P.distance q1 c ^ 2
    rw [distance_real, hrad, hrad2, Real.sqrt_sq hr.le]
  · show rotAbout c (c.angle2 eps q1 q2) q1 = q2
    unfold rotAbout
    rw [ec, es, a1.1, a1.2]
    apply P.ext_real
    · simp only
      have := a2.1
      have e : dotOf u w * u.y + crossOf u w * u.x = w.y := by unfold dotOf crossOf; linear_combination w.y * hu'
      linear_combination turnSign u w * r * e - this
    · simp only
      have := a2.2
      have e : crossOf u w * u.y - dotOf u w * u.x = - w.x := by unfold dotOf crossOf; linear_combination (-w.x) * hu'
      linear_combination turnSign u w * r * e - this
  · show |c.angle2 eps q1 q2| < Real.pi
    apply lt_of_le_of_ne hle
    intro h
    rcases abs_eq Real.pi_pos.le |>.1 h with h | h <;> rw [h] at es <;> simp at es <;> exact hc es.symm
  · refine ⟨r, hr, ?_, ?_⟩
    · show (if 0 < c.angle2 eps q1 q2 then (1 : ℝ) else -1) * -(q1.y - c.y) = r * u.x
      rw [hsgn, a1.2]; linear_combination r * u.x * hs2
    · show (if 0 < c.angle2 eps q1 q2 then (1 : ℝ) else -1) * (q1.x - c.x) = r * u.y
      rw [hsgn, a1.1]; linear_combination r * u.y * hs2
  · refine ⟨r, hr, ?_, ?_⟩
    · show (if 0 < c.angle2 eps q1 q2 then (1 : ℝ) else -1) * -(q2.y - c.y) = r * w.x
      rw [hsgn, a2.2]; linear_combination r * w.x * hs2
    · show (if 0 < c.angle2 eps q1 q2 then (1 : ℝ) else -1) * (q2.x - c.x) = r * w.y
      rw [hsgn, a2.1]; linear_combination r * w.y * hs2

/-- A fillet that fits is inserted. -/
theorem fillet_fits {eps r : ℝ} (heps : 0 < eps) (hr : eps ≤ r) (v u w : P ℝ) (hu : UnitVec u) (hw : UnitVec w) (L1 L2 : ℝ) (h1 : eps ≤ L1) (h2 : eps ≤ L2)
    (hf1 : cutOf r u w ≤ L1) (hf2 : cutOf r u w ≤ L2) (hx : eps ≤ L1 * L2 * |crossOf u w|) (hd : eps ^ 2 ≤ 2 * cutOf r u w ^ 2 * (1 + dotOf u w)) :
    ∃ f, filletLineLine eps ⟨along v u (-L1), v⟩ ⟨v, along v w L2⟩ r = some f ∧ RoundsCorner r (cutOf r u w) v u w f := by
  have hr0 : 0 < r := lt_of_lt_of_le heps hr
  have hc : crossOf u w ≠ 0 := by intro h0; rw [h0, abs_zero, mul_zero] at hx; linarith
  have hcut := cut_pos hr0 hu hw hc
  have hi := (fillet_center heps hr v u w hu hw L1 L2 h1 h2).2 hx
  have q1 := (project_unit heps v u hu (-L1) 0 (-cutOf r u w) (turnSign u w * r) (by linarith) (filletCenter v u w r)
    (by unfold filletCenter; apply P.ext_real <;> simp only [] <;> ring)).1 (by linarith) (by linarith)
  have q2 := (project_unit heps v w hw 0 L2 (cutOf r u w) (turnSign u w * r) (by linarith) (filletCenter v u w r)
    (filletCenter_other hu hw hc)).1 hcut.le hf2
  rw [along_zero] at q1 q2
  refine ⟨_, ?_, arc_rounds (eps := eps) hr0 hu hw hc hd⟩
  unfold filletLineLine
  dsimp only at hi ⊢
  rw [hi]
  dsimp only
  rw [q1, q2, if_pos]
  have e0 : |r - r| < eps := by simpa using heps
  rw [Bool.and_eq_true, Bool.and_eq_true, floatEq_iff, floatEq_iff, distance_real, distance_real, sqDist_center hu, sqDist_center2 hu hw hc, Real.sqrt_sq hr0.le]
  refine ⟨⟨?_, e0⟩, e0⟩
  show (!P.eq eps _ _) = true
  rw [Bool.not_eq_true', eq_false_iff, sqDist_cut hu hw]
  exact hd

/-- **C122**: whenever a fillet is inserted between two lines that meet, it fits: its circle touches both lines at points that are on them, or beyond their ends by less than the tolerance allows (then the
fillet ends at the end of the line). -/
theorem C122_fits {eps r : ℝ} (heps : 0 < eps) (hr : eps ≤ r) (v u w : P ℝ) (hu : UnitVec u) (hw : UnitVec w) (L1 L2 : ℝ) (h1 : eps ≤ L1) (h2 : eps ≤ L2) {f : Arc ℝ}
    (h : filletLineLine eps ⟨along v u (-L1), v⟩ ⟨v, along v w L2⟩ r = some f) :
    crossOf u w ≠ 0 ∧ f.center = filletCenter v u w r ∧ f.p1 = along v u (-min (cutOf r u w) L1) ∧ f.p2 = along v w (min (cutOf r u w) L2) ∧
      (∀ L ∈ [L1, L2], L ≤ cutOf r u w → (cutOf r u w - L) ^ 2 < (r + eps) ^ 2 - r ^ 2) := by
  have hr0 : 0 < r := lt_of_lt_of_le heps hr
  obtain ⟨hn, hi⟩ := fillet_center heps hr v u w hu hw L1 L2 h1 h2
  unfold filletLineLine at h
  dsimp only at h hn hi
  by_cases hx : L1 * L2 * |crossOf u w| < eps
  · rw [hn hx] at h; exact absurd h (by simp)
  · replace hx := not_lt.1 hx
    rw [hi hx] at h
    dsimp only at h
    have hc : crossOf u w ≠ 0 := by intro h0; rw [h0, abs_zero, mul_zero] at hx; linarith
    have hcut := cut_pos hr0 hu hw hc
    have hs2 := (turnSign_abs u w).2.1
    have hu' : u.x ^ 2 + u.y ^ 2 = 1 := hu
    have hw' : w.x ^ 2 + w.y ^ 2 = 1 := hw
    have q1 := project_unit heps v u hu (-L1) 0 (-cutOf r u w) (turnSign u w * r) (by linarith) (filletCenter v u w r)
      (by unfold filletCenter; apply P.ext_real <;> simp only [] <;> ring)
    have q2 := project_unit heps v w hw 0 L2 (cutOf r u w) (turnSign u w * r) (by linarith) (filletCenter v u w r) (filletCenter_other hu hw hc)
    rw [along_zero] at q1 q2
    have k1 : Line.normalProjectionPoint eps ⟨along v u (-L1), v⟩ (filletCenter v u w r) true = along v u (-min (cutOf r u w) L1) := by
      rcases le_total (cutOf r u w) L1 with hle | hle
      · rw [min_eq_left hle]; exact q1.1 (by linarith) (by linarith)
      · rw [min_eq_right hle]; exact q1.2.1 (by linarith)
    have k2 : Line.normalProjectionPoint eps ⟨v, along v w L2⟩ (filletCenter v u w r) true = along v w (min (cutOf r u w) L2) := by
      rcases le_total (cutOf r u w) L2 with hle | hle
      · rw [min_eq_left hle]; exact q2.1 (by linarith) (by linarith)
      · rw [min_eq_right hle]; exact q2.2.2 hle
    rw [k1, k2] at h
    split at h
    · rename_i hcond
      cases h
      refine ⟨hc, rfl, rfl, rfl, ?_⟩
      rw [Bool.and_eq_true, Bool.and_eq_true, floatEq_iff, floatEq_iff, distance_real, distance_real] at hcond
      obtain ⟨⟨-, g1⟩, g2⟩ := hcond
      intro L hL hle
      simp only [List.mem_cons, List.not_mem_nil, or_false] at hL
      have bound : ∀ x : ℝ, 0 ≤ x → |√x - r| < eps → x < (r + eps) ^ 2 := by
        intro x hx0 hb
        have := (abs_lt.1 hb).2
        have h0 := Real.sqrt_nonneg x
        have := Real.sq_sqrt hx0
        nlinarith
      rcases hL with rfl | rfl
      · rw [min_eq_right hle] at g1
        have := bound _ (sqDist_nonneg _ _) g1
        have e : sqDist (along v u (-L)) (filletCenter v u w r) = (cutOf r u w - L) ^ 2 + r ^ 2 := by
          unfold sqDist along filletCenter
          linear_combination ((cutOf r u w - L) ^ 2 + turnSign u w ^ 2 * r ^ 2) * hu' + r ^ 2 * hs2
        linarith
      · rw [min_eq_right hle] at g2
        have := bound _ (sqDist_nonneg _ _) g2
        have e : sqDist (along v w L) (filletCenter v u w r) = (cutOf r u w - L) ^ 2 + r ^ 2 := by
          rw [filletCenter_other hu hw hc]
          unfold sqDist along
          linear_combination ((cutOf r u w - L) ^ 2 + turnSign u w ^ 2 * r ^ 2) * hw' + r ^ 2 * hs2
        linarith
    · exact absurd h (by simp)

/-! ## Paths -/

/-- Specification: the direction from one point to another. -/
noncomputable def dirTo (a b : P ℝ) : P ℝ := ⟨(b.x - a.x) / √(sqDist a b), (b.y - a.y) / √(sqDist a b)⟩

/-- Specification: the distance of two points. -/
noncomputable def dist2 (a b : P ℝ) : ℝ := √(sqDist a b)

theorem dirTo_unit {a b : P ℝ} (h : 0 < dist2 a b) : UnitVec (dirTo a b) ∧ along a (dirTo a b) (dist2 a b) = b := by
  have hs : dist2 a b ^ 2 = sqDist a b := Real.sq_sqrt (sqDist_nonneg _ _)
  constructor
  · unfold UnitVec dirTo
    show ((b.x - a.x) / dist2 a b) ^ 2 + ((b.y - a.y) / dist2 a b) ^ 2 = 1
    rw [div_pow, div_pow, ← add_div, hs, div_eq_one_iff_eq (by rw [← hs]; positivity)]
    unfold sqDist; ring
  · unfold along dirTo
    show (⟨a.x + dist2 a b * ((b.x - a.x) / dist2 a b), a.y + dist2 a b * ((b.y - a.y) / dist2 a b)⟩ : P ℝ) = b
    apply P.ext_real <;> simp only [] <;> field_simp <;> ring

/-- Specification: the corner is either straight, or a turn that is clear to the tolerance. -/
def ClearCorner (eps r : ℝ) (u w : P ℝ) : Prop :=
  (crossOf u w = 0 ∧ 0 < dotOf u w) ∨ (eps ≤ cutOf r u w ^ 2 * |crossOf u w| ∧ eps ^ 2 ≤ 2 * cutOf r u w ^ 2 * (1 + dotOf u w))

/-- Specification: there is room for the fillets along the polyline through `a`, `v` and the points after it: of the first side the length `c` is needed at its start, of the last one the length `e`
at its end, and on every side the cuts at both ends leave something visible of it. -/
def Room (eps r e : ℝ) : ℝ → P ℝ → P ℝ → List (P ℝ) → Prop
  | c, a, v, [] => c + e + eps ≤ dist2 a v
  | c, a, v, b :: rest => ClearCorner eps r (dirTo a v) (dirTo v b) ∧ c + cutOf r (dirTo a v) (dirTo v b) + eps ≤ dist2 a v ∧
      Room eps r e (cutOf r (dirTo a v) (dirTo v b)) v b rest

/-- Specification: the segment starts in the direction `d`. -/
def StartsAlong : Shape ℝ → P ℝ → Prop
  | .line l, d => ∃ k, 0 < k ∧ l.p2 = along l.p1 d k
  | .arc a, d => a.GoesAt a.p1 d
  | _, _ => False

/-- Specification: the segment ends in the direction `d`. -/
def EndsAlong : Shape ℝ → P ℝ → Prop
  | .line l, d => ∃ k, 0 < k ∧ l.p2 = along l.p1 d k
  | .arc a, d => a.GoesAt a.p2 d
  | _, _ => False

/-- Specification: the second segment goes on where the first one ends, in the same direction. -/
def SmoothAt (s t : Shape ℝ) : Prop := s.p2 = t.p1 ∧ ∃ d, UnitVec d ∧ EndsAlong s d ∧ StartsAlong t d

/-- Specification: a part of a side of the polyline, or a fillet of radius `r` at one of its corners. -/
def RoundedPart (r : ℝ) (vs : List (P ℝ)) : Shape ℝ → Prop
  | .line l => ∃ a b, [a, b] <:+: vs ∧ OnSeg l.p1 ⟨a, b⟩ ∧ OnSeg l.p2 ⟨a, b⟩
  | .arc f => ∃ a v b, [a, v, b] <:+: vs ∧ RoundsCorner r (cutOf r (dirTo a v) (dirTo v b)) v (dirTo a v) (dirTo v b) f
  | _ => False

theorem straight_same {u w : P ℝ} (hu : UnitVec u) (hw : UnitVec w) (h : crossOf u w = 0) (hd : 0 < dotOf u w) : w = u := by
  have h2 := cross_dot hu hw
  rw [h] at h2
  have h1 : dotOf u w = 1 := by nlinarith
  have hu' : u.x ^ 2 + u.y ^ 2 = 1 := hu
  unfold crossOf at h
  unfold dotOf at h1
  apply P.ext_real
  · linear_combination u.x * h1 - u.y * h - w.x * hu'
  · linear_combination u.y * h1 + u.x * h - w.y * hu'

theorem cut_nonneg {r : ℝ} {u w : P ℝ} (hr : 0 < r) (hu : UnitVec u) (hw : UnitVec w) : 0 ≤ cutOf r u w := by
  by_cases h : crossOf u w = 0
  · unfold cutOf; rw [h]; simp
  · exact (cut_pos hr hu hw h).le

theorem cut_straight {r : ℝ} {u w : P ℝ} (h : crossOf u w = 0) : cutOf r u w = 0 := by unfold cutOf; rw [h]; simp

theorem along_along (p u : P ℝ) (m k : ℝ) : along (along p u m) u k = along p u (m + k) := by
  apply P.ext_real <;> simp only [along] <;> ring

/-- A corner. -/
theorem insert_corner {eps r : ℝ} (heps : 0 < eps) (hr : eps ≤ r) {v u w : P ℝ} (hu : UnitVec u) (hw : UnitVec w) (hc : ClearCorner eps r u w) {L1 L2 : ℝ}
    (h1 : cutOf r u w + eps ≤ L1) (h2 : cutOf r u w + eps ≤ L2) :
    (crossOf u w = 0 ∧ w = u ∧ insertFillet eps (.line ⟨along v u (-L1), v⟩) (.line ⟨v, along v w L2⟩) r = .ok none) ∨
    (crossOf u w ≠ 0 ∧ ∃ f, RoundsCorner r (cutOf r u w) v u w f ∧ insertFillet eps (.line ⟨along v u (-L1), v⟩) (.line ⟨v, along v w L2⟩) r =
      .ok (some (.line ⟨along v u (-L1), along v u (-cutOf r u w)⟩, f, .line ⟨along v w (cutOf r u w), along v w L2⟩))) := by
  have hr0 : 0 < r := lt_of_lt_of_le heps hr
  have h0 := cut_nonneg hr0 hu hw
  rcases hc with ⟨hc, hd⟩ | ⟨hx, hd⟩
  · left
    refine ⟨hc, straight_same hu hw hc hd, ?_⟩
    have := (fillet_center heps hr v u w hu hw L1 L2 (by linarith) (by linarith)).1 (by rw [hc]; simpa using heps)
    dsimp only at this
    unfold insertFillet createFilletArc filletLineLine
    dsimp only
    rw [this]
    rfl
  · right
    have hne : crossOf u w ≠ 0 := by intro h; rw [h, abs_zero, mul_zero] at hx; linarith
    have hx' : eps ≤ L1 * L2 * |crossOf u w| := by
      refine hx.trans (mul_le_mul_of_nonneg_right ?_ (abs_nonneg _))
      rw [pow_two]
      exact mul_le_mul (by linarith) (by linarith) h0 (by linarith)
    obtain ⟨f, hf, hrc⟩ := fillet_fits heps hr v u w hu hw L1 L2 (by linarith) (by linarith) (by linarith) (by linarith) hx' hd
    refine ⟨hne, f, hrc, ?_⟩
    unfold insertFillet createFilletArc
    dsimp only
    rw [hf]
    simp only [bind, Except.bind, pure, Except.pure, connectFirst, connectSecond, hrc.start, hrc.stop]

theorem cut_dirTo {r : ℝ} (hr : 0 < r) (a v b : P ℝ) : 0 ≤ cutOf r (dirTo a v) (dirTo v b) := by
  have zero : ∀ p q : P ℝ, ¬ 0 < dist2 p q → dirTo p q = ⟨0, 0⟩ := by
    intro p q h
    have : √(sqDist p q) = 0 := le_antisymm (not_lt.1 h) (Real.sqrt_nonneg _)
    unfold dirTo; rw [this]; simp
  by_cases h1 : 0 < dist2 a v
  · by_cases h2 : 0 < dist2 v b
    · exact cut_nonneg hr (dirTo_unit h1).1 (dirTo_unit h2).1
    · rw [zero _ _ h2]; unfold cutOf crossOf; simp
  · rw [zero _ _ h1]; unfold cutOf crossOf; simp

theorem room_len {eps r e : ℝ} (hr : 0 < r) (he : 0 ≤ e) {c : ℝ} {a v : P ℝ} {rest : List (P ℝ)} (h : Room eps r e c a v rest) : c + eps ≤ dist2 a v := by
  cases rest with
  | nil => unfold Room at h; linarith
  | cons b rest => have := cut_dirTo hr a v b; unfold Room at h; linarith [h.2.1]

theorem onSeg_along {a b : P ℝ} (h : 0 < dist2 a b) {m : ℝ} (h0 : 0 ≤ m) (h1 : m ≤ dist2 a b) : OnSeg (along a (dirTo a b) m) ⟨a, b⟩ := by
  refine ⟨m / dist2 a b, by positivity, by rw [div_le_one h]; exact h1, ?_⟩
  have := (dirTo_unit h).2
  have hx := congrArg P.x this
  have hy := congrArg P.y this
  simp only [along] at hx hy
  apply P.ext_real
  · simp only [along, segPt]; rw [← hx]; field_simp; ring
  · simp only [along, segPt]; rw [← hy]; field_simp; ring

theorem roundedPart_mono {r : ℝ} {vs ws : List (P ℝ)} (h : vs <:+: ws) {s : Shape ℝ} (hs : RoundedPart r vs s) : RoundedPart r ws s := by
  cases s with
  | line l => obtain ⟨a, b, h1, h2⟩ := hs; exact ⟨a, b, h1.trans h, h2⟩
  | arc f => obtain ⟨a, v, b, h1, h2⟩ := hs; exact ⟨a, v, b, h1.trans h, h2⟩
  | _ => exact hs

theorem infix_cons2 {α : Type} (a b : α) (l : List α) : [a, b] <:+: a :: b :: l := ⟨[], l, rfl⟩
theorem infix_cons3 {α : Type} (a b c : α) (l : List α) : [a, b, c] <:+: a :: b :: c :: l := ⟨[], l, rfl⟩

theorem polyLoop_spec {eps r e : ℝ} (heps : 0 < eps) (hr : eps ≤ r) (he : 0 ≤ e) : ∀ (rest : List (P ℝ)) (c c0 : ℝ) (a v : P ℝ), 0 ≤ c0 → c0 ≤ c → Room eps r e c a v rest →
    ∃ out, polyFilletLoop eps r (.line ⟨along a (dirTo a v) c0, v⟩) rest = .ok out ∧ out.IsChain SmoothAt ∧ (∀ s ∈ out, RoundedPart r (a :: v :: rest) s) ∧
      (∃ k tl, c + eps ≤ k ∧ k ≤ dist2 a v ∧ out = .line ⟨along a (dirTo a v) c0, along a (dirTo a v) k⟩ :: tl) ∧
      (∃ b z m, [b, z] <:+ a :: v :: rest ∧ m + e + eps ≤ dist2 b z ∧ 0 ≤ m ∧ out.getLast? = some (.line ⟨along b (dirTo b z) m, z⟩)) ∧ rest.length + 1 ≤ out.length := by
  have hr0 : 0 < r := lt_of_lt_of_le heps hr
  intro rest
  induction rest with
  | nil =>
    intro c c0 a v h0 h1 hroom
    have hroom' : c + e + eps ≤ dist2 a v := hroom
    have hpos : 0 < dist2 a v := by linarith
    obtain ⟨hu, hav⟩ := dirTo_unit hpos
    refine ⟨_, rfl, List.isChain_singleton _, ?_, ⟨dist2 a v, [], by linarith, le_refl _, by rw [hav]⟩, ⟨a, v, c0, List.suffix_refl _, by linarith, h0, rfl⟩, le_refl _⟩
    intro s hs
    rw [List.mem_singleton.1 hs]
    refine ⟨a, v, infix_cons2 _ _ _, onSeg_along hpos h0 (by linarith), ?_⟩
    have := onSeg_along hpos hpos.le (le_refl _)
    rw [hav] at this
    exact this
  | cons b rest ih =>
    intro c c0 a v h0 h1 hroom
    obtain ⟨hcc, hlen, htail⟩ : ClearCorner eps r (dirTo a v) (dirTo v b) ∧ c + cutOf r (dirTo a v) (dirTo v b) + eps ≤ dist2 a v ∧
      Room eps r e (cutOf r (dirTo a v) (dirTo v b)) v b rest := hroom
    have hcut0 := cut_dirTo hr0 a v b
    have hpos1 : 0 < dist2 a v := by linarith
    have hlen2 := room_len hr0 he htail
    have hpos2 : 0 < dist2 v b := by linarith
    obtain ⟨hu, hav⟩ := dirTo_unit hpos1
    obtain ⟨hw, hvb⟩ := dirTo_unit hpos2
    set u := dirTo a v with hudef
    set w := dirTo v b with hwdef
    set m := cutOf r u w with hm
    have e1 : ∀ x, along a u x = along v u (x - dist2 a v) := by
      intro x
      have := along_along a u (dist2 a v) (x - dist2 a v)
      rw [hav] at this
      rw [this]; congr 1; ring
    have hq : along a u c0 = along v u (-(dist2 a v - c0)) := by rw [e1]; congr 1; ring
    obtain ⟨out, hout, hchain, hparts, ⟨k, tl, hk, hkle, hhead⟩, ⟨b', z, m', hsuf, hm', hm0', hlast⟩, hcount⟩ := ih m m v b hcut0 (le_refl _) htail
    rw [← hwdef] at hout hhead
    have hsub : v :: b :: rest <:+: a :: v :: b :: rest := ⟨[a], [], by simp⟩
    have hparts' : ∀ s ∈ out, RoundedPart r (a :: v :: b :: rest) s := fun s hs => roundedPart_mono hsub (hparts s hs)
    have hlast' : ∀ l : List (Shape ℝ), (l ++ out).getLast? = some (.line ⟨along b' (dirTo b' z) m', z⟩) := by
      intro l
      rw [List.getLast?_append, hlast]; rfl
    have hsuf' : [b', z] <:+ a :: v :: b :: rest := hsuf.trans (List.suffix_cons _ _)
    have honv : OnSeg v ⟨a, v⟩ := by
      have := onSeg_along hpos1 hpos1.le (le_refl _)
      rwa [hav] at this
    rcases insert_corner heps hr (v := v) hu hw hcc (L1 := dist2 a v - c0) (L2 := dist2 v b) (by rw [← hm]; linarith) (by rw [← hm]; linarith) with ⟨hc, hsame, hi⟩ | ⟨hc, f, hf, hi⟩
    · rw [← hq, hvb] at hi
      have hm0 : m = 0 := cut_straight hc
      have hvv : along v w m = v := by rw [hm0, along_zero]
      rw [hvv] at hout hhead
      refine ⟨.line ⟨along a u c0, v⟩ :: out, ?_, ?_, ?_, ?_, ?_, ?_⟩
      · unfold polyFilletLoop
        rw [show (Shape.line (⟨along a u c0, v⟩ : Line ℝ)).p2 = v from rfl, hi]
        simp only [bind, Except.bind, hout, pure, Except.pure]
      · rw [hhead, List.isChain_cons_cons, ← hhead]
        refine ⟨⟨rfl, u, hu, ⟨dist2 a v - c0, by linarith, ?_⟩, ⟨k, by linarith, ?_⟩⟩, hchain⟩
        · show v = along (along a u c0) u (dist2 a v - c0)
          rw [along_along]; rw [show c0 + (dist2 a v - c0) = dist2 a v by ring, hav]
        · show along v w k = along v u k
          rw [hsame]
      · intro s hs
        rcases List.mem_cons.1 hs with rfl | hs
        · exact ⟨a, v, infix_cons2 _ _ _, onSeg_along hpos1 h0 (by linarith), honv⟩
        · exact hparts' s hs
      · exact ⟨dist2 a v, out, by linarith, le_refl _, by rw [hav]⟩
      · exact ⟨b', z, m', hsuf', hm', hm0', hlast' [_]⟩
      · simp only [List.length_cons]; omega
    · rw [← hq, hvb] at hi
      have hx : along v u (-m) = along a u (dist2 a v - m) := by rw [e1]; congr 1; ring
      rw [← hm, hx] at hi
      refine ⟨.line ⟨along a u c0, along a u (dist2 a v - m)⟩ :: .arc f :: out, ?_, ?_, ?_, ?_, ?_, ?_⟩
      · unfold polyFilletLoop
        rw [show (Shape.line (⟨along a u c0, v⟩ : Line ℝ)).p2 = v from rfl, hi]
        simp only [bind, Except.bind, hout, pure, Except.pure]
      · rw [hhead, List.isChain_cons_cons, List.isChain_cons_cons, ← hhead]
        refine ⟨⟨?_, u, hu, ⟨dist2 a v - m - c0, by linarith, ?_⟩, hf.leaves⟩, ⟨?_, w, hw, hf.arrives, ⟨k - m, by linarith, ?_⟩⟩, hchain⟩
        · show along a u (dist2 a v - m) = f.p1
          rw [hf.start, hx]
        · show along a u (dist2 a v - m) = along (along a u c0) u (dist2 a v - m - c0)
          rw [along_along]; congr 1; ring
        · show f.p2 = along v w m
          exact hf.stop
        · show along v w k = along (along v w m) w (k - m)
          rw [along_along]; congr 1; ring
      · intro s hs
        rcases List.mem_cons.1 hs with rfl | hs
        · exact ⟨a, v, infix_cons2 _ _ _, onSeg_along hpos1 h0 (by linarith), onSeg_along hpos1 (by linarith) (by linarith)⟩
        · rcases List.mem_cons.1 hs with rfl | hs
          · exact ⟨a, v, b, infix_cons3 _ _ _ _, hf⟩
          · exact hparts' s hs
      · exact ⟨dist2 a v - m, _, by linarith, by linarith, rfl⟩
      · exact ⟨b', z, m', hsuf', hm', hm0', hlast' [_, _]⟩
      · simp only [List.length_cons]; omega


/-- A line whose start is moved along it. -/
theorem smooth_tail {p q p' : P ℝ} {t : Shape ℝ} (d : P ℝ) {k k' : ℝ} (hk : 0 < k) (hk' : 0 < k') (h : q = along p d k) (h' : q = along p' d k') (hs : SmoothAt (.line ⟨p, q⟩) t) :
    SmoothAt (.line ⟨p', q⟩) t := by
  obtain ⟨h1, d', hd', ⟨m, hm, hm2⟩, h2⟩ := hs
  refine ⟨h1, d', hd', ⟨k' * (m / k), by positivity, ?_⟩, h2⟩
  have x1 := congrArg P.x h
  have y1 := congrArg P.y h
  have x2 := congrArg P.x h'
  have y2 := congrArg P.y h'
  have x3 := congrArg P.x hm2
  have y3 := congrArg P.y hm2
  simp only [along] at x1 y1 x2 y2 x3 y3
  show q = along p' d' (k' * (m / k))
  apply P.ext_real
  · simp only [along]
    have : k * d.x = m * d'.x := by linarith
    have e : d.x = m / k * d'.x := by field_simp; linarith
    rw [x2, e]; ring
  · simp only [along]
    have : k * d.y = m * d'.y := by linarith
    have e : d.y = m / k * d'.y := by field_simp; linarith
    rw [y2, e]; ring

/-- A line whose end is moved along it. -/
theorem smooth_head {p q q' : P ℝ} {t : Shape ℝ} (d : P ℝ) {k k' : ℝ} (hk : 0 < k) (hk' : 0 < k') (h : q = along p d k) (h' : q' = along p d k') (hs : SmoothAt t (.line ⟨p, q⟩)) :
    SmoothAt t (.line ⟨p, q'⟩) := by
  obtain ⟨h1, d', hd', h2, ⟨m, hm, hm2⟩⟩ := hs
  refine ⟨h1, d', hd', h2, ⟨k' * (m / k), by positivity, ?_⟩⟩
  have x1 := congrArg P.x h
  have y1 := congrArg P.y h
  have x3 := congrArg P.x hm2
  have y3 := congrArg P.y hm2
  simp only [along] at x1 y1 x3 y3
  show q' = along p d' (k' * (m / k))
  rw [h']
  apply P.ext_real
  · simp only [along]
    have e : d.x = m / k * d'.x := by field_simp; linarith
    rw [e]; ring
  · simp only [along]
    have e : d.y = m / k * d'.y := by field_simp; linarith
    rw [e]; ring

/-- Specification: the path is smooth, also where it closes. -/
def SmoothLoop (out : List (Shape ℝ)) : Prop := out.IsChain SmoothAt ∧ ∀ a b, out.getLast? = some a → out.head? = some b → SmoothAt a b

theorem setLast_append {α : Type} (l : List α) (a b : α) : setLast (l ++ [a]) b = l ++ [b] := by
  unfold setLast; simp

theorem close_none {eps r : ℝ} {new tl : List (Shape ℝ)} {first last : Shape ℝ} (h : new = first :: tl) (hl : new.getLast? = some last) (hi : insertFillet eps last first r = .ok none) :
    shapeFilletClose eps r new = .ok new := by
  subst h
  unfold shapeFilletClose
  rw [hl]
  simp only [bind, Except.bind, hi, pure, Except.pure]

theorem close_some {eps r : ℝ} {new tl : List (Shape ℝ)} {first last n1 n2 : Shape ℝ} {f : Arc ℝ} (h : new = first :: tl) (hl : new.getLast? = some last)
    (hi : insertFillet eps last first r = .ok (some (n1, f, n2))) : shapeFilletClose eps r new = .ok (n2 :: (setLast new n1 ++ [Shape.arc f]).tail) := by
  subst h
  unfold shapeFilletClose
  rw [hl]
  simp only [bind, Except.bind, hi, pure, Except.pure]
  cases hs : setLast (first :: tl) n1 ++ [Shape.arc f] with
  | nil => simp at hs
  | cons x y => rfl

/-- **C122**, open polylines: if there is room for the fillets, `fillet_polygon` returns a path from the first point to the last one that is smooth everywhere and consists of parts of the sides and of
arcs of the given radius that touch two sides which follow each other, at the same distance from the corner between them. -/
theorem C122_open {eps r : ℝ} (heps : 0 < eps) (hr : eps ≤ r) (close : Bool) (a v b : P ℝ) (rest : List (P ℝ)) (hroom : Room eps r 0 0 a v (b :: rest)) (z : P ℝ) (hz : (b :: rest).getLast? = some z)
    (hopen : close = false ∨ eps ^ 2 ≤ sqDist a z) :
    ∃ out, filletPolygon eps (a :: v :: b :: rest) r close = .ok out ∧ out.IsChain SmoothAt ∧ (∀ s ∈ out, RoundedPart r (a :: v :: b :: rest) s) ∧
      out.head?.map Shape.p1 = some a ∧ out.getLast?.map Shape.p2 = some z := by
  obtain ⟨out, hout, hchain, hparts, ⟨k, tl, hk, hkle, hhead⟩, ⟨b', z', m, hsuf, hm, hm0, hlast⟩, hcount⟩ := polyLoop_spec heps hr (le_refl 0) (b :: rest) 0 0 a v (le_refl 0) (le_refl 0) hroom
  rw [along_zero] at hout hhead
  have hzz : z' = z := by
    obtain ⟨pre, hpre⟩ := hsuf
    have h1 := congrArg List.getLast? hpre
    rw [List.getLast?_append] at h1
    rw [show a :: v :: b :: rest = [a, v] ++ (b :: rest) from rfl, List.getLast?_append, hz] at h1
    simpa using h1
  subst hzz
  refine ⟨out, ?_, hchain, hparts, by rw [hhead]; rfl, by rw [hlast]; rfl⟩
  unfold filletPolygon
  simp only [bind, Except.bind, hout]
  rw [if_neg]
  · rfl
  · rw [Bool.and_eq_true, Bool.and_eq_true]
    rintro ⟨⟨hc, -⟩, hcl⟩
    rcases hopen with h | h
    · rw [h] at hc; cases hc
    · unfold shapesClosed at hcl
      rw [hlast, hhead] at hcl
      have : P.eq eps a z' = true := hcl
      rw [eq_iff] at this
      linarith

/-- **C122**, closed polygons: if there is room for the fillets at all corners, including the one where the polygon closes, the result is smooth everywhere, also where it closes. -/
theorem C122_closed {eps r : ℝ} (heps : 0 < eps) (hr : eps ≤ r) (a v b : P ℝ) (rest : List (P ℝ)) (y : P ℝ) (hy : [y, a] <:+ v :: b :: rest) (hrest : rest ≠ [])
    (hcc : ClearCorner eps r (dirTo y a) (dirTo a v))
    (hroom : Room eps r (cutOf r (dirTo y a) (dirTo a v)) (cutOf r (dirTo y a) (dirTo a v)) a v (b :: rest)) :
    ∃ out, filletPolygon eps (a :: v :: b :: rest) r true = .ok out ∧ SmoothLoop out ∧ (∀ s ∈ out, RoundedPart r (a :: v :: b :: rest ++ [v]) s) := by
  have hr0 : 0 < r := lt_of_lt_of_le heps hr
  have hcut0 := cut_dirTo hr0 y a v
  obtain ⟨out, hout, hchain, hparts, ⟨k, tl, hk, hkle, hhead⟩, ⟨b', z', m, hsuf, hm, hm0, hlast⟩, hcount⟩ := polyLoop_spec heps hr hcut0 (b :: rest) _ 0 a v (le_refl 0) hcut0 hroom
  rw [along_zero] at hout hhead
  have hyz : b' = y ∧ z' = a := by
    have h1 : [y, a] <:+ a :: v :: b :: rest := hy.trans (List.suffix_cons _ _)
    have := List.suffix_of_suffix_length_le hsuf h1 (by simp)
    have := this.eq_of_length (by simp)
    simpa using this
  obtain ⟨rfl, rfl⟩ := hyz
  have hposv := room_len hr0 hcut0 hroom
  have hpos1 : 0 < dist2 z' v := by linarith
  have hpos2 : 0 < dist2 b' z' := by linarith
  obtain ⟨hw, hav⟩ := dirTo_unit hpos1
  obtain ⟨hu, hba⟩ := dirTo_unit hpos2
  set u := dirTo b' z' with hudef
  set w := dirTo z' v with hwdef
  set c := cutOf r u w with hcdef
  have hlen3 : 3 ≤ out.length := by
    have : 1 ≤ rest.length := List.length_pos_iff.2 hrest
    simp only [List.length_cons] at hcount; omega
  have hloop : filletPolygon eps (z' :: v :: b :: rest) r true = shapeFilletClose eps r out := by
    unfold filletPolygon
    simp only [bind, Except.bind, hout]
    rw [if_pos]
    rw [Bool.and_eq_true, Bool.and_eq_true, decide_eq_true_eq]
    refine ⟨⟨rfl, by omega⟩, ?_⟩
    unfold shapesClosed
    rw [hlast, hhead]
    show P.eq eps z' z' = true
    rw [eq_iff]
    have : sqDist z' z' = 0 := by unfold sqDist; ring
    rw [this]; positivity
  have htl : tl ≠ [] := by intro h; rw [h] at hhead; rw [hhead] at hlen3; simp at hlen3
  obtain ⟨mid, lastS, rfl⟩ : ∃ mid lastS, tl = mid ++ [lastS] := ⟨tl.dropLast, tl.getLast htl, (List.dropLast_append_getLast htl).symm⟩
  have hlastS : lastS = .line ⟨along b' u m, z'⟩ := by
    rw [hhead] at hlast
    rw [show ∀ x : Shape ℝ, x :: (mid ++ [lastS]) = (x :: mid) ++ [lastS] from fun _ => rfl, List.getLast?_append] at hlast
    simpa using hlast
  subst hlastS
  have hq : along b' u m = along z' u (-(dist2 b' z' - m)) := by
    have := along_along b' u (dist2 b' z') (-(dist2 b' z' - m))
    rw [hba] at this
    rw [this]; congr 1; ring
  have hmono : ∀ s ∈ out, RoundedPart r (z' :: v :: b :: rest ++ [v]) s := fun s hs => roundedPart_mono (List.prefix_append _ _).isInfix (hparts s hs)
  rcases insert_corner heps hr (v := z') hu hw hcc (L1 := dist2 b' z' - m) (L2 := k) (by rw [← hcdef]; linarith) (by rw [← hcdef]; linarith) with ⟨hc, hsame, hi⟩ | ⟨hc, f, hf, hi⟩
  · rw [← hq] at hi
    refine ⟨out, ?_, ⟨hchain, ?_⟩, hmono⟩
    · rw [hloop, close_none hhead hlast hi]
    · intro s t hs ht
      rw [hlast] at hs
      rw [hhead] at ht
      cases hs; cases ht
      refine ⟨rfl, u, hu, ⟨dist2 b' z' - m, by linarith, ?_⟩, ⟨k, by linarith, ?_⟩⟩
      · show z' = along (along b' u m) u (dist2 b' z' - m)
        rw [along_along, show m + (dist2 b' z' - m) = dist2 b' z' by ring, hba]
      · show along z' w k = along z' u k
        rw [hsame]
  · rw [← hq, ← hcdef] at hi
    have hx : along z' u (-c) = along b' u (dist2 b' z' - c) := by
      have := along_along b' u (dist2 b' z') (-c)
      rw [hba] at this
      rw [this]; congr 1
    rw [hx] at hi
    set n1 : Shape ℝ := .line ⟨along b' u m, along b' u (dist2 b' z' - c)⟩ with hn1
    set n2 : Shape ℝ := .line ⟨along z' w c, along z' w k⟩ with hn2
    have hsm1 : SmoothAt n1 (.arc f) := by
      refine ⟨?_, u, hu, ⟨dist2 b' z' - c - m, by linarith, ?_⟩, hf.leaves⟩
      · show along b' u (dist2 b' z' - c) = f.p1
        rw [hf.start, hx]
      · show along b' u (dist2 b' z' - c) = along (along b' u m) u _
        rw [along_along]; congr 1; ring
    have hsm2 : SmoothAt (.arc f) n2 := by
      refine ⟨hf.stop, w, hw, hf.arrives, ⟨k - c, by linarith, ?_⟩⟩
      show along z' w k = along (along z' w c) w (k - c)
      rw [along_along]; congr 1; ring
    have hres : shapeFilletClose eps r out = .ok (n2 :: (mid ++ [n1, .arc f])) := by
      rw [close_some hhead hlast hi, hhead, ← List.cons_append, setLast_append]
      simp
    have hold : ∀ t, SmoothAt (.line ⟨z', along z' w k⟩) t → SmoothAt n2 t := by
      intro t ht
      exact smooth_tail w (show 0 < k by linarith) (show 0 < k - c by linarith) rfl (by rw [along_along]; congr 1; ring) ht
    have hold1 : ∀ t, SmoothAt t (.line ⟨along b' u m, z'⟩) → SmoothAt t n1 := by
      intro t ht
      refine smooth_head u (show 0 < dist2 b' z' - m by linarith) (show 0 < dist2 b' z' - c - m by linarith) ?_ ?_ ht
      · rw [along_along, show m + (dist2 b' z' - m) = dist2 b' z' by ring, hba]
      · rw [along_along]; congr 1; ring
    refine ⟨_, by rw [hloop, hres], ⟨?_, ?_⟩, ?_⟩
    · rw [hhead] at hchain
      have h1 : (n2 :: (mid ++ [.line ⟨along b' u m, z'⟩])).IsChain SmoothAt := by
        cases mid with
        | nil =>
          rw [List.nil_append, List.isChain_cons_cons] at hchain ⊢
          exact ⟨hold _ hchain.1, hchain.2⟩
        | cons x mid =>
          rw [List.cons_append, List.isChain_cons_cons] at hchain ⊢
          exact ⟨hold _ hchain.1, hchain.2⟩
      rw [← List.cons_append, List.isChain_append] at h1 ⊢
      refine ⟨h1.1, ?_, ?_⟩
      · rw [List.isChain_cons_cons]; exact ⟨hsm1, List.isChain_singleton _⟩
      · intro x hx y hy
        simp only [List.head?_cons, Option.mem_def, Option.some.injEq] at hy
        subst hy
        exact hold1 x (h1.2.2 x hx _ (by simp))
    · intro s t hs ht
      rw [← List.cons_append, List.getLast?_append] at hs
      simp at hs ht
      subst hs; subst ht
      exact hsm2
    · have hinf : [z', v] <:+: z' :: v :: b :: rest ++ [v] := ⟨[], b :: rest ++ [v], by simp⟩
      intro s hs
      rcases List.mem_cons.1 hs with rfl | hs
      · exact ⟨z', v, hinf, onSeg_along hpos1 hcut0 (by linarith), onSeg_along hpos1 (by linarith) hkle⟩
      · rw [List.mem_append] at hs
        rcases hs with hs | hs
        · exact hmono s (by rw [hhead]; simp [hs])
        · simp only [List.mem_cons, List.not_mem_nil, or_false] at hs
          obtain ⟨pre, hpre⟩ := hy
          rcases hs with rfl | rfl
          · refine ⟨b', z', ⟨z' :: pre, [v], ?_⟩, onSeg_along hpos2 hm0 (by linarith), onSeg_along hpos2 (by linarith) (by linarith)⟩
            simp [← hpre]
          · refine ⟨b', z', v, ⟨z' :: pre, [], ?_⟩, hf⟩
            simp [← hpre]


/-- Specification: the sides of a polyline that starts at `p`, as a path. -/
def linesFrom {K : Type} (p : P K) : List (P K) → List (Shape K)
  | [] => []
  | q :: rest => .line ⟨p, q⟩ :: linesFrom q rest

theorem linesFrom_length {K : Type} (rest : List (P K)) : ∀ p, (linesFrom p rest).length = rest.length := by
  induction rest with
  | nil => intro p; rfl
  | cons q rest ih => intro p; simp [linesFrom, ih]

section
variable {K : Type} [PyTrig K]

theorem insertFillet_end {eps r : K} {s1 : Shape K} {l : Line K} {n1 n2 : Shape K} {f : Arc K} (h : insertFillet eps s1 (.line l) r = .ok (some (n1, f, n2))) : n2.p2 = l.p2 := by
  unfold insertFillet at h
  cases hc : createFilletArc eps s1 (.line l) r with
  | error e => rw [hc] at h; cases h
  | ok o =>
    rw [hc] at h
    cases o with
    | none => cases h
    | some f' => cases h; rfl

theorem loops_agree (eps r : K) (rest : List (P K)) : ∀ s : Shape K, shapeFilletLoop eps r s (linesFrom s.p2 rest) = polyFilletLoop eps r s rest := by
  induction rest with
  | nil => intro s; rfl
  | cons p rest ih =>
    intro s
    unfold linesFrom shapeFilletLoop polyFilletLoop
    cases hi : insertFillet eps s (.line ⟨s.p2, p⟩) r with
    | error e => rfl
    | ok o =>
      cases o with
      | none =>
        have := ih (.line ⟨s.p2, p⟩)
        rw [show (Shape.line (⟨s.p2, p⟩ : Line K)).p2 = p from rfl] at this
        simp only [bind, Except.bind, this]
      | some t =>
        obtain ⟨n1, f, n2⟩ := t
        have := ih n2
        rw [show n2.p2 = p from insertFillet_end hi] at this
        simp only [bind, Except.bind, this]

theorem polyLoop_length {eps r : K} (rest : List (P K)) : ∀ (s : Shape K) (out : List (Shape K)), polyFilletLoop eps r s rest = .ok out →
    rest.length + 1 ≤ out.length ∧ (out.length ≤ rest.length + 1 → out = s :: linesFrom s.p2 rest) := by
  induction rest with
  | nil => intro s out h; unfold polyFilletLoop at h; cases h; exact ⟨le_refl _, fun _ => rfl⟩
  | cons p rest ih =>
    intro s out h
    unfold polyFilletLoop at h
    cases hi : insertFillet eps s (.line ⟨s.p2, p⟩) r with
    | error e => rw [hi] at h; cases h
    | ok o =>
      rw [hi] at h
      cases o with
      | none =>
        simp only [bind, Except.bind] at h
        cases hl : polyFilletLoop eps r (.line ⟨s.p2, p⟩) rest with
        | error e => rw [hl] at h; cases h
        | ok out' =>
          rw [hl] at h
          cases h
          obtain ⟨h1, h2⟩ := ih _ _ hl
          refine ⟨by simp only [List.length_cons]; omega, fun h => ?_⟩
          rw [h2 (by simpa using h)]
          rfl
      | some t =>
        obtain ⟨n1, f, n2⟩ := t
        simp only [bind, Except.bind] at h
        cases hl : polyFilletLoop eps r n2 rest with
        | error e => rw [hl] at h; cases h
        | ok out' =>
          rw [hl] at h
          cases h
          obtain ⟨h1, h2⟩ := ih _ _ hl
          refine ⟨by simp only [List.length_cons]; omega, fun h => ?_⟩
          simp only [List.length_cons] at h
          omega

theorem close_length {eps r : K} {new out : List (Shape K)} (h : shapeFilletClose eps r new = .ok out) : out = new ∨ new.length < out.length := by
  unfold shapeFilletClose at h
  split at h
  · rename_i first tl last hl
    cases hi : insertFillet eps last first r with
    | error e => rw [hi] at h; cases h
    | ok o =>
      rw [hi] at h
      cases o with
      | none => cases h; exact Or.inl rfl
      | some t =>
        obtain ⟨n1, f, n2⟩ := t
        simp only [bind, Except.bind] at h
        have hlen : (setLast (first :: tl) n1 ++ [Shape.arc f]).length = (first :: tl).length + 1 := by
          unfold setLast; simp
        split at h
        · rename_i heq; rw [heq] at hlen; simp at hlen
        · rename_i x y heq
          cases h
          rw [heq] at hlen
          right
          simp only [List.length_cons] at hlen ⊢; omega
  · cases h; exact Or.inl rfl

theorem linesFrom_last (rest : List (P K)) : ∀ (p q z : P K), (q :: rest).getLast? = some z → ∃ s, (linesFrom p (q :: rest)).getLast? = some s ∧ s.p2 = z := by
  induction rest with
  | nil => intro p q z h; cases h; exact ⟨_, rfl, rfl⟩
  | cons x rest ih =>
    intro p q z h
    obtain ⟨s, h1, h2⟩ := ih q x z (by rw [List.getLast?_cons_cons] at h; exact h)
    refine ⟨s, ?_, h2⟩
    rw [linesFrom, linesFrom, List.getLast?_cons_cons]
    exact h1

theorem poly_ends {eps r : K} (rest : List (P K)) : ∀ (s : Shape K) (out : List (Shape K)), (∃ l, s = .line l) → polyFilletLoop eps r s rest = .ok out →
    (∃ a, out.head? = some a ∧ a.p1 = s.p1) ∧ (∃ b, out.getLast? = some b ∧ b.p2 = (rest.getLast?.getD s.p2)) := by
  induction rest with
  | nil => intro s out _ h; unfold polyFilletLoop at h; cases h; exact ⟨⟨s, rfl, rfl⟩, ⟨s, rfl, rfl⟩⟩
  | cons p rest ih =>
    intro s out hs h
    have hp : ∀ x : P K, (p :: rest).getLast?.getD x = rest.getLast?.getD p := by
      intro x; rw [List.getLast?_cons]; rfl
    rw [hp]
    unfold polyFilletLoop at h
    cases hi : insertFillet eps s (.line ⟨s.p2, p⟩) r with
    | error e => rw [hi] at h; cases h
    | ok o =>
      rw [hi] at h
      cases o with
      | none =>
        simp only [bind, Except.bind] at h
        cases hl : polyFilletLoop eps r (.line ⟨s.p2, p⟩) rest with
        | error e => rw [hl] at h; cases h
        | ok out' =>
          rw [hl] at h
          cases h
          obtain ⟨-, ⟨b, h3, h4⟩⟩ := ih _ _ ⟨_, rfl⟩ hl
          refine ⟨⟨s, rfl, rfl⟩, ⟨b, ?_, h4⟩⟩
          rw [List.getLast?_cons, h3]; rfl
      | some t =>
        obtain ⟨n1, f, n2⟩ := t
        have hn : n1.p1 = s.p1 ∧ (∃ l, n2 = .line l) := by
          obtain ⟨l, rfl⟩ := hs
          unfold insertFillet at hi
          cases hc : createFilletArc eps (.line l) (.line ⟨(Shape.line l).p2, p⟩) r with
          | error e => rw [hc] at hi; cases hi
          | ok o =>
            rw [hc] at hi
            cases o with
            | none => cases hi
            | some f' => cases hi; exact ⟨rfl, _, rfl⟩
        simp only [bind, Except.bind] at h
        cases hl : polyFilletLoop eps r n2 rest with
        | error e => rw [hl] at h; cases h
        | ok out' =>
          rw [hl] at h
          cases h
          obtain ⟨-, ⟨b, h3, h4⟩⟩ := ih _ _ hn.2 hl
          refine ⟨⟨n1, rfl, hn.1⟩, ⟨b, ?_, ?_⟩⟩
          · rw [List.getLast?_cons, List.getLast?_cons, h3]; rfl
          · rw [h4, insertFillet_end hi]

/-- **C122**, paths: `fillet_path` of the path of the sides of a polyline is `fillet_polygon` of the polyline (for an open polyline or one with at least three sides). -/
theorem C122_path (eps r : K) (hr : (r <. eps) = false) (close : Bool) (a v b : P K) (rest : List (P K)) (h : rest ≠ [] ∨ close = false ∨ a.eq eps b = false) :
    shapeFilletPath eps (linesFrom a (v :: b :: rest)) r close = filletPolygon eps (a :: v :: b :: rest) r close := by
  unfold shapeFilletPath filletPolygon
  rw [hr]
  have hlen : (linesFrom a (v :: b :: rest)).length = rest.length + 2 := linesFrom_length _ _
  rw [Bool.false_or, if_neg (by rw [hlen]; simp)]
  have hag := loops_agree eps r (b :: rest) (.line ⟨a, v⟩)
  rw [show linesFrom (Shape.line (⟨a, v⟩ : Line K)).p2 (b :: rest) = linesFrom v (b :: rest) from rfl] at hag
  rw [show linesFrom a (v :: b :: rest) = .line ⟨a, v⟩ :: linesFrom v (b :: rest) from rfl] at hlen ⊢
  dsimp only
  rw [hag]
  cases hl : polyFilletLoop eps r (.line ⟨a, v⟩) (b :: rest) with
  | error e => rfl
  | ok out =>
    obtain ⟨k1, k2⟩ := polyLoop_length _ _ _ hl
    obtain ⟨⟨s, hs, hs1⟩, ⟨t, ht, ht2⟩⟩ := poly_ends _ _ _ ⟨_, rfl⟩ hl
    obtain ⟨z, hz⟩ : ∃ z, (b :: rest).getLast? = some z := ⟨_, List.getLast?_eq_some_getLast (by simp)⟩
    obtain ⟨t', ht', ht2'⟩ := linesFrom_last rest v b z hz
    have hclosed : shapesClosed eps (.line ⟨a, v⟩ :: linesFrom v (b :: rest)) = a.eq eps z ∧ shapesClosed eps out = a.eq eps z := by
      constructor
      · unfold shapesClosed
        rw [List.getLast?_cons, ht']
        show (Shape.line (⟨a, v⟩ : Line K)).p1.eq eps t'.p2 = _
        rw [ht2']; rfl
      · unfold shapesClosed
        rw [hs, ht]
        show s.p1.eq eps t.p2 = _
        rw [hs1, ht2, hz]; rfl
    simp only [bind, Except.bind]
    rw [hclosed.1, hclosed.2, hlen]
    have hfin : ∀ new, (new = out ∨ out.length < new.length) → (if rest.length + 2 < new.length then new else .line ⟨a, v⟩ :: linesFrom v (b :: rest)) = new := by
      intro new hnew
      split
      · rfl
      · rename_i hc
        rcases hnew with rfl | hnew
        · rw [k2 (by simp only [List.length_cons]; omega)]; rfl
        · simp only [List.length_cons] at k1; omega
    have hcond : (close && decide (2 < rest.length + 2) && a.eq eps z) = (close && decide (2 < out.length) && a.eq eps z) := by
      by_cases hr0 : rest = []
      · rcases h with h | h | h
        · exact absurd hr0 h
        · rw [h]; rfl
        · subst hr0
          have hb : z = b := by simpa using hz.symm
          rw [hb, h]; simp
      · have : 0 < rest.length := List.length_pos_iff.2 hr0
        simp only [List.length_cons] at k1
        rw [decide_eq_true (show 2 < rest.length + 2 by omega), decide_eq_true (show 2 < out.length by omega)]
    rw [hcond]
    split
    · cases hc : shapeFilletClose eps r out with
      | error e => rfl
      | ok new =>
        dsimp only [pure, Except.pure]
        rw [hfin new (close_length hc)]
    · dsimp only [pure, Except.pure]
      rw [hfin out (Or.inl rfl)]

end

/-! ## Examples -/

theorem dirTo_x (x y d : ℝ) (hd : 0 < d) : dirTo ⟨x, y⟩ ⟨x + d, y⟩ = ⟨1, 0⟩ ∧ dist2 ⟨x, y⟩ ⟨x + d, y⟩ = d := by
  have : √(sqDist ⟨x, y⟩ ⟨x + d, y⟩) = d := by
    rw [show sqDist ⟨x, y⟩ ⟨x + d, y⟩ = d ^ 2 by unfold sqDist; ring, Real.sqrt_sq hd.le]
  unfold dirTo dist2
  rw [this]
  refine ⟨?_, rfl⟩
  apply P.ext_real <;> simp only [] <;> field_simp <;> ring

theorem dirTo_y (x y d : ℝ) (hd : 0 < d) : dirTo ⟨x, y⟩ ⟨x, y + d⟩ = ⟨0, 1⟩ ∧ dist2 ⟨x, y⟩ ⟨x, y + d⟩ = d := by
  have : √(sqDist ⟨x, y⟩ ⟨x, y + d⟩) = d := by
    rw [show sqDist ⟨x, y⟩ ⟨x, y + d⟩ = d ^ 2 by unfold sqDist; ring, Real.sqrt_sq hd.le]
  unfold dirTo dist2
  rw [this]
  refine ⟨?_, rfl⟩
  apply P.ext_real <;> simp only [] <;> field_simp <;> ring

theorem dirTo_nx (x y d : ℝ) (hd : 0 < d) : dirTo ⟨x, y⟩ ⟨x - d, y⟩ = ⟨-1, 0⟩ ∧ dist2 ⟨x, y⟩ ⟨x - d, y⟩ = d := by
  have : √(sqDist ⟨x, y⟩ ⟨x - d, y⟩) = d := by
    rw [show sqDist ⟨x, y⟩ ⟨x - d, y⟩ = d ^ 2 by unfold sqDist; ring, Real.sqrt_sq hd.le]
  unfold dirTo dist2
  rw [this]
  refine ⟨?_, rfl⟩
  apply P.ext_real <;> simp only [] <;> field_simp <;> ring

theorem dirTo_ny (x y d : ℝ) (hd : 0 < d) : dirTo ⟨x, y⟩ ⟨x, y - d⟩ = ⟨0, -1⟩ ∧ dist2 ⟨x, y⟩ ⟨x, y - d⟩ = d := by
  have : √(sqDist ⟨x, y⟩ ⟨x, y - d⟩) = d := by
    rw [show sqDist ⟨x, y⟩ ⟨x, y - d⟩ = d ^ 2 by unfold sqDist; ring, Real.sqrt_sq hd.le]
  unfold dirTo dist2
  rw [this]
  refine ⟨?_, rfl⟩
  apply P.ext_real <;> simp only [] <;> field_simp <;> ring

/-- Non-vacuity: a polyline with a left turn, a straight corner and a right turn. -/
example : Room (1 / 1000) 1 0 0 ⟨0, 0⟩ ⟨0 + 4, 0⟩ [⟨0 + 4, 0 + 4⟩, ⟨0 + 4, 0 + 4 + 2⟩, ⟨0 + 4 + 3, 0 + 4 + 2⟩] ∧ (1 / 1000 : ℝ) ^ 2 ≤ sqDist ⟨0, 0⟩ ⟨0 + 4 + 3, 0 + 4 + 2⟩ := by
  constructor
  · simp only [Room, (dirTo_x 0 0 4 (by norm_num)).1, (dirTo_y (0 + 4) 0 4 (by norm_num)).1, (dirTo_y (0 + 4) (0 + 4) 2 (by norm_num)).1, (dirTo_x (0 + 4) (0 + 4 + 2) 3 (by norm_num)).1,
      (dirTo_x 0 0 4 (by norm_num)).2, (dirTo_y (0 + 4) 0 4 (by norm_num)).2, (dirTo_y (0 + 4) (0 + 4) 2 (by norm_num)).2, (dirTo_x (0 + 4) (0 + 4 + 2) 3 (by norm_num)).2, ClearCorner, cutOf, crossOf, dotOf]
    norm_num
  · unfold sqDist; norm_num

/-- Non-vacuity: a square. -/
example : Room (1 / 1000) 1 1 1 ⟨0, 0⟩ ⟨0 + 4, 0⟩ [⟨0 + 4, 0 + 4⟩, ⟨0 + 4 - 4, 0 + 4⟩, ⟨0 + 4 - 4, 0 + 4 - 4⟩] ∧
    cutOf 1 (dirTo ⟨0 + 4 - 4, 0 + 4⟩ ⟨0 + 4 - 4, 0 + 4 - 4⟩) (dirTo ⟨0, 0⟩ ⟨0 + 4, 0⟩) = 1 ∧
    ClearCorner (1 / 1000) 1 (dirTo ⟨0 + 4 - 4, 0 + 4⟩ ⟨0 + 4 - 4, 0 + 4 - 4⟩) (dirTo ⟨0, 0⟩ ⟨0 + 4, 0⟩) := by
  simp only [Room, (dirTo_x 0 0 4 (by norm_num)).1, (dirTo_y (0 + 4) 0 4 (by norm_num)).1, (dirTo_nx (0 + 4) (0 + 4) 4 (by norm_num)).1, (dirTo_ny (0 + 4 - 4) (0 + 4) 4 (by norm_num)).1,
      (dirTo_x 0 0 4 (by norm_num)).2, (dirTo_y (0 + 4) 0 4 (by norm_num)).2, (dirTo_nx (0 + 4) (0 + 4) 4 (by norm_num)).2, (dirTo_ny (0 + 4 - 4) (0 + 4) 4 (by norm_num)).2, ClearCorner, cutOf, crossOf, dotOf]
  norm_num

/-- Non-vacuity: the square, computed. -/
example : filletPolygon (1/1000000 : ℚ) [⟨0, 0⟩, ⟨4, 0⟩, ⟨4, 4⟩, ⟨0, 4⟩, ⟨0, 0⟩] 1 = .ok [.line ⟨⟨1, 0⟩, ⟨3, 0⟩⟩, .arc ⟨⟨3, 0⟩, ⟨4, 1⟩, 1, piRat / 2, ⟨3, 1⟩⟩, .line ⟨⟨4, 1⟩, ⟨4, 3⟩⟩,
    .arc ⟨⟨4, 3⟩, ⟨3, 4⟩, 1, piRat / 2, ⟨3, 3⟩⟩, .line ⟨⟨3, 4⟩, ⟨1, 4⟩⟩, .arc ⟨⟨1, 4⟩, ⟨0, 3⟩, 1, piRat / 2, ⟨1, 3⟩⟩, .line ⟨⟨0, 3⟩, ⟨0, 1⟩⟩, .arc ⟨⟨0, 1⟩, ⟨1, 0⟩, 1, piRat / 2, ⟨1, 1⟩⟩] := by
  decide +kernel

end Verif.Cam
