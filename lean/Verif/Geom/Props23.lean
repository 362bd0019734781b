import Verif.Geom.Align
import Verif.Geom.Props14
import Verif.Geom.Props10
import Verif.Geom.Props7
import Mathlib.Analysis.SpecialFunctions.Integrals.Basic

/-!
# C171: extrema and bounding box of a curve along its chord; C172: equations of lines; C173: the start angle of an arc and the area it cuts off
-/

set_option linter.unusedSectionVars false
set_option linter.unusedVariables false

namespace Verif.Geom
open Verif PyFloat PyTrig

/-! ## Specification -/

/-- Specification: how far a point is from `o` in the direction `d` (a unit vector). -/
def alongD (d o p : P ℝ) : ℝ := (p.x - o.x) * d.x + (p.y - o.y) * d.y

/-- Specification: how far a point is to the left of the line through `o` in the direction `d`. -/
def acrossD (d o p : P ℝ) : ℝ := (p.y - o.y) * d.x - (p.x - o.x) * d.y

/-- Specification: the point `a` along and `c` to the left. -/
def inFrame (d o : P ℝ) (a c : ℝ) : P ℝ := ⟨o.x + a * d.x - c * d.y, o.y + a * d.y + c * d.x⟩

/-- Specification: the curve goes on in a direction along or across `d`, or stands still, at the parameter `t` inside it. -/
def Bez.ExtremeAt (b : Bez ℝ) (d : P ℝ) (t : ℝ) : Prop :=
  0 < t ∧ t < 1 ∧ (deriv (fun s => alongD d b.p1 (b.curve s)) t = 0 ∨ deriv (fun s => acrossD d b.p1 (b.curve s)) t = 0)

/-- Specification: the area swept by the line from the first point of the arc to a point that goes along the arc: half the integral of the cross product of this line and the velocity. -/
noncomputable def Arc.sweptFromStart (a : Arc ℝ) : ℝ :=
  ∫ t in (0 : ℝ)..a.angle, (((rotAbout a.center t a.p1).x - a.p1.x) * deriv (fun s => (rotAbout a.center s a.p1).y) t -
    ((rotAbout a.center t a.p1).y - a.p1.y) * deriv (fun s => (rotAbout a.center s a.p1).x) t) / 2

/-! ## C171 -/

section
variable (b : Bez ℝ) (d : P ℝ) (L : ℝ)

theorem chord_dir (hd : d.x ^ 2 + d.y ^ 2 = 1) (hL : 0 < L) (h2 : b.p2 = ⟨b.p1.x + L * d.x, b.p1.y + L * d.y⟩) :
    Real.cos b.chordAngle = d.x ∧ Real.sin b.chordAngle = d.y := by
  have e : b.p2.sub b.p1 = ⟨L * d.x, L * d.y⟩ := by rw [h2]; apply P.ext_real <;> simp [P.sub]
  have h := polar_atan2 (b.p2.sub b.p1) L hL.le (by rw [e]; dsimp only; linear_combination L ^ 2 * hd)
  rw [e] at h
  unfold Bez.chordAngle
  rw [e]
  exact ⟨mul_left_cancel₀ hL.ne' h.1, mul_left_cancel₀ hL.ne' h.2⟩

variable {d L} (hd : d.x ^ 2 + d.y ^ 2 = 1) (hc : Real.cos b.chordAngle = d.x) (hs : Real.sin b.chordAngle = d.y)

include hc hs in
theorem turn_apply (p : P ℝ) : p.transform (Mat.rotate (PyFloat.neg b.chordAngle) b.p1) = ⟨b.p1.x + alongD d b.p1 p, b.p1.y + acrossD d b.p1 p⟩ := by
  unfold P.transform
  rw [(C42_rotation 0 _ _ p p).2.2.2, real_neg, Real.cos_neg, Real.sin_neg, hc, hs]
  apply P.ext_real <;> simp only [alongD, acrossD] <;> ring

include hc hs in
theorem back_apply (a c : ℝ) : P.rotate ⟨b.p1.x + a, b.p1.y + c⟩ b.chordAngle b.p1 = inFrame d b.p1 a c := by
  unfold P.rotate P.transform
  rw [(C42_rotation 0 _ _ _ b.p1).2.2.2, hc, hs]
  apply P.ext_real <;> simp only [inFrame] <;> ring

include hd in
theorem inFrame_self (p : P ℝ) : inFrame d b.p1 (alongD d b.p1 p) (acrossD d b.p1 p) = p := by
  apply P.ext_real
  · simp only [inFrame, alongD, acrossD]; linear_combination (p.x - b.p1.x) * hd
  · simp only [inFrame, alongD, acrossD]; linear_combination (p.y - b.p1.y) * hd

include hc hs in
theorem aligned_curve (t : ℝ) : b.aligned.curve t = ⟨b.p1.x + alongD d b.p1 (b.curve t), b.p1.y + acrossD d b.p1 (b.curve t)⟩ := by
  unfold Bez.aligned Bez.transform Bez.curve
  rw [turn_apply b hc hs, turn_apply b hc hs, turn_apply b hc hs, turn_apply b hc hs]
  apply P.ext_real <;> simp only [bernstein3, alongD, acrossD] <;> ring

include hc hs in
theorem aligned_lead : (lead b.aligned).x = (lead b).x * d.x + (lead b).y * d.y ∧ (lead b.aligned).y = (lead b).y * d.x - (lead b).x * d.y := by
  unfold Bez.aligned Bez.transform
  rw [turn_apply b hc hs, turn_apply b hc hs, turn_apply b hc hs, turn_apply b hc hs]
  constructor <;> simp only [lead, alongD, acrossD] <;> ring

end

/-- **C171** (properly cubic curves): for every curve from `p1` to `p2 ≠ p1`, in the direction `d`, that is properly cubic along and across `d`, and has no extremum within
`EPSILON` of the parameter of an end: the points returned are those of the curve where it goes along or across the chord, and the box, unless there are none, is the rectangle with two sides parallel to the chord
that contains the whole curve and has a point of the curve on each side. -/
theorem C171_align_partial (eps : ℝ) (b : Bez ℝ) (d : P ℝ) (L : ℝ) (hd : d.x ^ 2 + d.y ^ 2 = 1) (hL : 0 < L) (h2 : b.p2 = ⟨b.p1.x + L * d.x, b.p1.y + L * d.y⟩)
    (hx : (lead b).x * d.x + (lead b).y * d.y ≠ 0) (hy : (lead b).y * d.x - (lead b).x * d.y ≠ 0)
    (hfar : ∀ t, b.ExtremeAt d t → eps ≤ t ∧ t ≤ 1 - eps) :
    ∃ ts : List ℝ, (∀ t, t ∈ ts ↔ b.ExtremeAt d t) ∧ b.findExtremaAlign eps false = .ok (ts.map b.curve, none) ∧
      (ts = [] → b.findExtremaAlign eps true = .ok ([], none)) ∧
      (ts ≠ [] → ∃ a0 a1 c0 c1 : ℝ, b.findExtremaAlign eps true = .ok (ts.map b.curve,
          some [inFrame d b.p1 a0 c0, inFrame d b.p1 a0 c1, inFrame d b.p1 a1 c1, inFrame d b.p1 a1 c0]) ∧
        (∀ t, 0 ≤ t → t ≤ 1 → (a0 ≤ alongD d b.p1 (b.curve t) ∧ alongD d b.p1 (b.curve t) ≤ a1) ∧ (c0 ≤ acrossD d b.p1 (b.curve t) ∧ acrossD d b.p1 (b.curve t) ≤ c1)) ∧
        (∃ t, 0 ≤ t ∧ t ≤ 1 ∧ alongD d b.p1 (b.curve t) = a0) ∧ (∃ t, 0 ≤ t ∧ t ≤ 1 ∧ alongD d b.p1 (b.curve t) = a1) ∧
        (∃ t, 0 ≤ t ∧ t ≤ 1 ∧ acrossD d b.p1 (b.curve t) = c0) ∧ (∃ t, 0 ≤ t ∧ t ≤ 1 ∧ acrossD d b.p1 (b.curve t) = c1)) := by
  obtain ⟨hc, hs⟩ := chord_dir b d L hd hL h2
  obtain ⟨lx, ly⟩ := aligned_lead b hc hs
  obtain ⟨ts, hts, hmem⟩ := C117_extrema_partial b.aligned (by rw [lx]; exact hx) (by rw [ly]; exact hy)
  have hcur := aligned_curve b hc hs
  have hder : ∀ t, t ∈ ts ↔ b.ExtremeAt d t := by
    intro t
    rw [hmem]
    unfold Bez.ExtremeAt
    have e1 : (fun s => (b.aligned.curve s).x) = fun s => b.p1.x + alongD d b.p1 (b.curve s) := by funext s; rw [hcur]
    have e2 : (fun s => (b.aligned.curve s).y) = fun s => b.p1.y + acrossD d b.p1 (b.curve s) := by funext s; rw [hcur]
    rw [e1, e2, deriv_const_add, deriv_const_add]
  have hpt : ∀ t ∈ ts, b.aligned.pointAt eps t = b.aligned.curve t := by
    intro t ht
    have hE := (hder t).mp ht
    obtain ⟨h1, h2⟩ := hfar t hE
    refine (C63_point_at eps b.aligned t).2.2.1 ?_ ?_
    · rw [abs_of_pos hE.1]; exact h1
    · rw [abs_of_neg (by linarith [hE.2.1])]; linarith
  have hmap : ts.map (b.aligned.pointAt eps) = ts.map b.aligned.curve := List.map_congr_left hpt
  have hfp : b.aligned.findExtremaPoints eps = .ok (ts.map b.aligned.curve) := by
    unfold Bez.findExtremaPoints
    rw [hts]
    exact congrArg Except.ok hmap
  have hback : ∀ t, (b.aligned.curve t).rotate b.chordAngle b.p1 = b.curve t := by
    intro t
    rw [hcur, back_apply b hc hs, inFrame_self b hd]
  have hbm : (ts.map b.aligned.curve).map (fun p => p.rotate b.chordAngle b.p1) = ts.map b.curve := by
    rw [List.map_map]
    exact List.map_congr_left fun t _ => hback t
  refine ⟨ts, hder, ?_, ?_, ?_⟩
  · unfold Bez.findExtremaAlign
    rw [hfp]
    cases ts with
    | nil => rfl
    | cons t ts =>
      rw [← hbm]
      rfl
  · rintro rfl
    unfold Bez.findExtremaAlign
    rw [hfp]
    rfl
  · intro hne
    obtain ⟨p, ps, hps⟩ : ∃ p ps, ts.map b.aligned.curve = p :: ps := by
      cases ts with
      | nil => exact absurd rfl hne
      | cons t ts => exact ⟨_, _, rfl⟩
    have hends : b.aligned.p1 = b.aligned.curve 0 ∧ b.aligned.p2 = b.aligned.curve 1 :=
      ⟨(C63_point_at eps b.aligned 0).2.2.2.1.symm, (C63_point_at eps b.aligned 0).2.2.2.2.symm⟩
    obtain ⟨box, hbox, hB⟩ := (C50_from_points (ts.map b.aligned.curve ++ [b.aligned.p1, b.aligned.p2])).2 (by simp)
    have hin : ∀ q, q ∈ ts.map b.aligned.curve ++ [b.aligned.p1, b.aligned.p2] ↔ ∃ s ∈ 0 :: 1 :: ts, q = b.aligned.curve s := by
      intro q
      rw [hends.1, hends.2]
      simp only [List.mem_append, List.mem_map, List.mem_cons, List.not_mem_nil, or_false]
      constructor
      · rintro (⟨s, h, rfl⟩ | rfl | rfl)
        · exact ⟨s, .inr (.inr h), rfl⟩
        · exact ⟨0, .inl rfl, rfl⟩
        · exact ⟨1, .inr (.inl rfl), rfl⟩
      · rintro ⟨s, rfl | rfl | h, rfl⟩
        · exact .inr (.inl rfl)
        · exact .inr (.inr rfl)
        · exact .inl ⟨s, h, rfl⟩
    have hunit : ∀ s ∈ 0 :: 1 :: ts, 0 ≤ s ∧ s ≤ 1 := by
      intro s hs
      simp only [List.mem_cons] at hs
      rcases hs with rfl | rfl | h
      · norm_num
      · norm_num
      · have := (hder s).mp h
        exact ⟨this.1.le, this.2.1.le⟩
    obtain ⟨hcont, hx0, hx1, hy0, hy1⟩ := hB
    refine ⟨box.p1.x - b.p1.x, box.p2.x - b.p1.x, box.p1.y - b.p1.y, box.p2.y - b.p1.y, ?_, ?_, ?_, ?_, ?_, ?_⟩
    · unfold Bez.findExtremaAlign
      rw [hfp, hps]
      dsimp only
      rw [if_pos rfl]
      refine congrArg Except.ok (Prod.ext ?_ ?_)
      · exact (congrArg (List.map fun p => p.rotate b.chordAngle b.p1) hps.symm).trans hbm
      · dsimp only
        unfold Bez.turnedBox
        rw [← hps, hbox]
        have hv : ∀ a c : ℝ, P.rotate ⟨a, c⟩ b.chordAngle b.p1 = inFrame d b.p1 (a - b.p1.x) (c - b.p1.y) := by
          intro a c
          rw [← back_apply b hc hs]
          congr 2 <;> ring
        exact congrArg some (congrArg₂ List.cons (hv box.p1.x box.p1.y) (congrArg₂ List.cons (hv box.p1.x box.p2.y)
          (congrArg₂ List.cons (hv box.p2.x box.p2.y) (congrArg₂ List.cons (hv box.p2.x box.p1.y) rfl))))
    · intro t h0 h1
      obtain ⟨⟨s1, m1, g1⟩, ⟨s2, m2, g2⟩, ⟨s3, m3, g3⟩, ⟨s4, m4, g4⟩⟩ := C117_bounds_partial b.aligned ts hts (by rw [lx]; exact hx) (by rw [ly]; exact hy) t ⟨h0, h1⟩
      have c1 := (hcont _ ((hin _).mpr ⟨s1, m1, rfl⟩))
      have c2 := (hcont _ ((hin _).mpr ⟨s2, m2, rfl⟩))
      have c3 := (hcont _ ((hin _).mpr ⟨s3, m3, rfl⟩))
      have c4 := (hcont _ ((hin _).mpr ⟨s4, m4, rfl⟩))
      have hx' : (b.aligned.curve t).x = b.p1.x + alongD d b.p1 (b.curve t) := by rw [hcur]
      have hy' : (b.aligned.curve t).y = b.p1.y + acrossD d b.p1 (b.curve t) := by rw [hcur]
      unfold Box.Contains at c1 c2 c3 c4
      refine ⟨⟨?_, ?_⟩, ?_, ?_⟩ <;> linarith [c1.1, c1.2.1, c1.2.2.1, c1.2.2.2, c2.1, c2.2.1, c2.2.2.1, c2.2.2.2, c3.1, c3.2.1, c3.2.2.1, c3.2.2.2, c4.1, c4.2.1, c4.2.2.1, c4.2.2.2]
    · obtain ⟨q, hq, he⟩ := hx0
      obtain ⟨s, hs', rfl⟩ := (hin q).mp hq
      rw [hcur] at he
      exact ⟨s, (hunit s hs').1, (hunit s hs').2, by dsimp only at he; linarith⟩
    · obtain ⟨q, hq, he⟩ := hx1
      obtain ⟨s, hs', rfl⟩ := (hin q).mp hq
      rw [hcur] at he
      exact ⟨s, (hunit s hs').1, (hunit s hs').2, by dsimp only at he; linarith⟩
    · obtain ⟨q, hq, he⟩ := hy0
      obtain ⟨s, hs', rfl⟩ := (hin q).mp hq
      rw [hcur] at he
      exact ⟨s, (hunit s hs').1, (hunit s hs').2, by dsimp only at he; linarith⟩
    · obtain ⟨q, hq, he⟩ := hy1
      obtain ⟨s, hs', rfl⟩ := (hin q).mp hq
      rw [hcur] at he
      exact ⟨s, (hunit s hs').1, (hunit s hs').2, by dsimp only at he; linarith⟩

/-- **C171, refuted (symmetric curves).**  Every curve whose control points are equally far to the left of its chord (or to the right), as those of every symmetric bump are, makes `find_extrema_align` fail with a
`ZeroDivisionError`, although it has a highest point over its chord. -/
theorem C171_refuted (eps : ℝ) (box : Bool) (b : Bez ℝ) (d : P ℝ) (L : ℝ) (hd : d.x ^ 2 + d.y ^ 2 = 1) (hL : 0 < L) (h2 : b.p2 = ⟨b.p1.x + L * d.x, b.p1.y + L * d.y⟩)
    (h : acrossD d b.p1 b.c1 = acrossD d b.p1 b.c2) :
    b.findExtremaAlign eps box = .error .zeroDivision ∧ ∃ t, b.ExtremeAt d t := by
  obtain ⟨hc, hs⟩ := chord_dir b d L hd hL h2
  obtain ⟨lx, ly⟩ := aligned_lead b hc hs
  have hz : (lead b.aligned).y = 0 := by
    rw [ly]
    have e := h
    unfold acrossD at e
    unfold lead
    rw [h2]
    dsimp only
    linear_combination 3 * e
  have hf := (C117_refuted b.aligned b.p1 b.p1 b.p1).1 (.inr hz)
  refine ⟨?_, ?_⟩
  · unfold Bez.findExtremaAlign Bez.findExtremaPoints
    rw [hf]
    rfl
  · have hcont : Continuous fun s => acrossD d b.p1 (b.curve s) := by
      have e2 : (fun s => acrossD d b.p1 (b.curve s)) = fun s => (b.aligned.curve s).y - b.p1.y := by
        funext s; rw [aligned_curve b hc hs]; dsimp only; ring
      rw [e2]
      exact (curve_continuous b.aligned).2.sub continuous_const
    have he : (fun s => acrossD d b.p1 (b.curve s)) 0 = (fun s => acrossD d b.p1 (b.curve s)) 1 := by
      dsimp only
      rw [(C63_point_at eps b 0).2.2.2.1, (C63_point_at eps b 0).2.2.2.2, h2]
      unfold acrossD
      dsimp only
      ring
    obtain ⟨t, ht, hdt⟩ := exists_deriv_eq_zero zero_lt_one hcont.continuousOn he
    exact ⟨t, ht.1, ht.2, .inr hdt⟩

/-- A curve over the X axis that meets the hypotheses of C171, with an extremum. -/
example : let b : Bez ℝ := ⟨⟨0, 0⟩, ⟨1, 3⟩, ⟨2, 1⟩, ⟨4, 0⟩⟩
    (lead b).x * 1 + (lead b).y * 0 ≠ 0 ∧ (lead b).y * 1 - (lead b).x * 0 ≠ 0 ∧ b.p2 = ⟨b.p1.x + 4 * 1, b.p1.y + 4 * 0⟩ := by
  refine ⟨by norm_num [lead], by norm_num [lead], by norm_num⟩

/-! ## C172 -/

/-- **C172** (`slope_intercept`): for every line that is neither vertical nor level within `EPSILON`, the equation `y = mx + b` holds exactly for the points of the line through its ends; for a line
that rises or falls by less than `EPSILON` the slope is 0 and the equation is off by less than `EPSILON` between the ends. -/
theorem C172_equation_partial (eps : ℝ) (l : Line ℝ) :
    (eps ≤ |l.p2.y - l.p1.y| → l.p1.x ≠ l.p2.x → ∃ m c, l.slope eps = .ok m ∧ l.slopeIntercept eps = .ok (m, c) ∧
      ∀ p : P ℝ, p.y = m * p.x + c ↔ side l p = 0) ∧
    (|l.p2.y - l.p1.y| < eps → l.slope eps = .ok 0 ∧ l.slopeIntercept eps = .ok (0, l.p1.y) ∧
      ∀ t, 0 ≤ t → t ≤ 1 → |(segPt l t).y - l.p1.y| < eps) := by
  constructor
  · intro h hx
    have hd : l.p2.x - l.p1.x ≠ 0 := sub_ne_zero.mpr hx.symm
    have hsl : l.slope eps = .ok ((l.p2.y - l.p1.y) / (l.p2.x - l.p1.x)) := by
      unfold Line.slope
      simp only [real_sub]
      rw [if_neg (fun hz => absurd ((isZero_iff eps _).1 hz) (not_lt.2 h))]
      unfold pdiv
      rw [if_neg (by simpa using hd)]
      rfl
    refine ⟨(l.p2.y - l.p1.y) / (l.p2.x - l.p1.x), (l.p2.y - l.p1.y) / (l.p2.x - l.p1.x) * -l.p1.x + l.p1.y, hsl, ?_, fun p => ?_⟩
    · unfold Line.slopeIntercept
      rw [hsl]
      rfl
    · unfold side leftArea2
      constructor
      · intro e
        rw [e]
        field_simp
        ring
      · intro e
        field_simp
        linear_combination e
  · intro h
    have hsl : l.slope eps = .ok 0 := by
      unfold Line.slope
      simp only [real_sub]
      rw [if_pos ((isZero_iff eps _).2 h), real_zero]
    refine ⟨hsl, ?_, fun t h0 h1 => ?_⟩
    · unfold Line.slopeIntercept
      rw [hsl]
      show Except.ok (0, 0 * -l.p1.x + l.p1.y) = _
      rw [zero_mul, zero_add]
    · unfold segPt
      dsimp only
      rw [add_sub_cancel_left, abs_mul, abs_of_nonneg h0]
      calc t * |l.p2.y - l.p1.y| ≤ 1 * |l.p2.y - l.p1.y| := by gcongr
        _ < eps := by linarith

/-- **C172, refuted.**  `general_equation` raises a `TypeError` for every line (it raises its result), and for a vertical line of at least `EPSILON` `slope` and `slope_intercept` raise a `ZeroDivisionError`. -/
theorem C172_refuted (eps : ℝ) (l : Line ℝ) :
    l.generalEquation = .error .typeError ∧
    (l.p1.x = l.p2.x → eps ≤ |l.p2.y - l.p1.y| → l.slope eps = .error .zeroDivision ∧ l.slopeIntercept eps = .error .zeroDivision) := by
  refine ⟨rfl, fun hx h => ?_⟩
  have hsl : l.slope eps = .error .zeroDivision := by
    unfold Line.slope
    simp only [real_sub]
    rw [if_neg (fun hz => absurd ((isZero_iff eps _).1 hz) (not_lt.2 h))]
    unfold pdiv
    rw [if_pos (by simp [hx])]
  refine ⟨hsl, ?_⟩
  unfold Line.slopeIntercept
  rw [hsl]
  rfl

/-- A sloped line for C172. -/
example : ∃ m c : ℝ, (⟨⟨1, 1⟩, ⟨3, 5⟩⟩ : Line ℝ).slopeIntercept (1 / 10) = .ok (m, c) ∧ (5 : ℝ) = m * 3 + c := by
  obtain ⟨m, c, -, h, hp⟩ := (C172_equation_partial (1 / 10) ⟨⟨1, 1⟩, ⟨3, 5⟩⟩).1 (by norm_num) (by norm_num)
  exact ⟨m, c, h, (hp ⟨3, 5⟩).2 (by norm_num [side, leftArea2])⟩

/-! ## C173 -/

/-- **C173** (`segment_area`): for every arc with its first point on its circle, whatever its angle, `segment_area()` is the area swept by the line from the first point to a point that goes along the arc, that is for
arcs up to a full turn the area between the arc and its chord. -/
theorem C173_segment_area (a : Arc ℝ) (h : sqDist a.p1 a.center = a.radius ^ 2) : a.segmentArea = |a.sweptFromStart| := by
  have hx : ∀ t, deriv (fun s => (rotAbout a.center s a.p1).x) t = -Real.sin t * (a.p1.x - a.center.x) - Real.cos t * (a.p1.y - a.center.y) := by
    intro t
    have : HasDerivAt (fun s => (rotAbout a.center s a.p1).x) (0 + -Real.sin t * (a.p1.x - a.center.x) - Real.cos t * (a.p1.y - a.center.y)) t := by
      unfold rotAbout
      exact (((hasDerivAt_const t _).add ((Real.hasDerivAt_cos t).mul_const _)).sub ((Real.hasDerivAt_sin t).mul_const _))
    rw [this.deriv]
    ring
  have hy : ∀ t, deriv (fun s => (rotAbout a.center s a.p1).y) t = Real.cos t * (a.p1.x - a.center.x) - Real.sin t * (a.p1.y - a.center.y) := by
    intro t
    have : HasDerivAt (fun s => (rotAbout a.center s a.p1).y) (0 + Real.cos t * (a.p1.x - a.center.x) + -Real.sin t * (a.p1.y - a.center.y)) t := by
      unfold rotAbout
      exact (((hasDerivAt_const t _).add ((Real.hasDerivAt_sin t).mul_const _)).add ((Real.hasDerivAt_cos t).mul_const _))
    rw [this.deriv]
    ring
  have e : a.sweptFromStart = a.radius ^ 2 * (a.angle - Real.sin a.angle) / 2 := by
    unfold Arc.sweptFromStart
    have hi : ∀ t : ℝ, (((rotAbout a.center t a.p1).x - a.p1.x) * deriv (fun s => (rotAbout a.center s a.p1).y) t -
        ((rotAbout a.center t a.p1).y - a.p1.y) * deriv (fun s => (rotAbout a.center s a.p1).x) t) / 2 = a.radius ^ 2 / 2 * (1 - Real.cos t) := by
      intro t
      rw [hx, hy, ← h]
      unfold sqDist rotAbout
      dsimp only
      have hsc := Real.sin_sq_add_cos_sq t
      linear_combination (((a.p1.x - a.center.x) ^ 2 + (a.p1.y - a.center.y) ^ 2) / 2) * hsc
    simp_rw [hi]
    rw [intervalIntegral.integral_const_mul, intervalIntegral.integral_sub (by simp) (by simp)]
    simp
    ring
  rw [e]
  unfold Arc.segmentArea
  simp only [real_mul, real_div, real_abs, real_sub, real_sin, real_ofInt]
  rw [abs_div, abs_mul, abs_of_nonneg (sq_nonneg a.radius), abs_of_pos (by norm_num : (0 : ℝ) < 2), sq]
  norm_num

/-- **C173** (`start_angle` about the origin): for an arc with its centre at the origin, whose first point is not within `EPSILON` of `(1, 0)`, `start_angle()` is the direction of its first point. -/
theorem C173_start_angle_partial (eps : ℝ) (a : Arc ℝ) (hc : a.center = ⟨0, 0⟩) (hr : 0 < a.radius) (h : sqDist a.p1 a.center = a.radius ^ 2)
    (hp : eps ^ 2 ≤ sqDist ⟨1, 0⟩ a.p1) :
    a.radius * Real.cos (a.startAngle eps) = a.p1.x - a.center.x ∧ a.radius * Real.sin (a.startAngle eps) = a.p1.y - a.center.y := by
  have e : a.startAngle eps = a.p1.angle := by
    unfold Arc.startAngle P.angle2
    rw [hc]
    have e1 : (P.sub (⟨one, zero⟩ : P ℝ) ⟨0, 0⟩) = ⟨1, 0⟩ := by apply P.ext_real <;> simp [P.sub]
    have e2 : a.p1.sub ⟨0, 0⟩ = a.p1 := by apply P.ext_real <;> simp [P.sub]
    simp only [e1, e2]
    rw [if_neg]
    · simp [P.cross, P.dot, P.angle]
    · rw [Bool.not_eq_true, eq_false_iff]
      exact hp
  rw [e, hc]
  have := polar_atan2 a.p1 a.radius hr.le (by rw [← h, hc]; unfold sqDist; ring)
  simpa using this

/-- **C173, refuted (`start_angle`).**  For an arc with its centre elsewhere `start_angle()` measures from the direction of the point `(1, 0)`, not from that of the X axis: an arc around `(1, 1)` that starts to the
right of its centre gets a right angle instead of 0. -/
theorem C173_refuted (eps : ℝ) (he : 0 ≤ eps) (he1 : eps ≤ 1) : (⟨⟨2, 1⟩, ⟨1, 2⟩, 1, Real.pi / 2, ⟨1, 1⟩⟩ : Arc ℝ).Sweeps ∧
    (⟨⟨2, 1⟩, ⟨1, 2⟩, 1, Real.pi / 2, ⟨1, 1⟩⟩ : Arc ℝ).startAngle eps = Real.pi / 2 := by
  refine ⟨⟨⟨by norm_num, by norm_num [sqDist], by norm_num [sqDist]⟩, ?_⟩, ?_⟩
  · apply P.ext_real <;> norm_num [rotAbout]
  · unfold Arc.startAngle P.angle2
    dsimp only
    rw [if_neg]
    · simp only [P.cross, P.dot, P.sub, real_mul, real_sub, real_add, real_one, real_zero, real_atan2]
      norm_num
      rw [show (⟨0, 1⟩ : ℂ) = Complex.I from rfl]
      exact Complex.arg_I
    · rw [Bool.not_eq_true, eq_false_iff]
      simp only [P.sub, sqDist, real_sub, real_one, real_zero]
      nlinarith

/-- A quarter of a circle for C173. -/
example : (⟨⟨2, 0⟩, ⟨0, 2⟩, 2, Real.pi / 2, ⟨0, 0⟩⟩ : Arc ℝ).segmentArea = Real.pi - 2 := by
  unfold Arc.segmentArea
  simp only [real_mul, real_div, real_abs, real_sub, real_sin, real_ofInt, Real.sin_pi_div_two]
  rw [abs_of_nonneg (by linarith [Real.two_le_pi])]
  push_cast
  ring

end Verif.Geom
