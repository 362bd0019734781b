import Verif.Ext.Lines
import Verif.Geom.Props3
import Verif.Geom.Props4
import Verif.Geom.Props5
import Mathlib.Analysis.Real.Pi.Bounds

/-!
# C126: grids of lines stay within the margins, and end
-/

set_option linter.unusedSectionVars false

namespace Verif.Ext
open Verif PyFloat PyTrig Geom

/-! ## Lines stay within the rectangle -/

theorem kept_within (eps : ℝ) (heps : 0 < eps) (b : Box ℝ) (l r : Line ℝ) (h : r ∈ keptSegment eps b l) :
    (∀ t, 0 ≤ t → t ≤ 1 → b.ContainsTol eps (segPt r t)) ∧ eps ≤ segLen r ∧ ∃ s e, 0 ≤ s ∧ s ≤ e ∧ e ≤ 1 ∧ r = ⟨segPt l s, segPt l e⟩ := by
  unfold keptSegment at h
  cases hc : b.clipLine eps l with
  | none => rw [hc] at h; cases h
  | some q =>
    rw [hc] at h
    obtain ⟨s, e, h0, h1, h2, h3, h4, -⟩ := (C49_clip_within_eps eps heps b l).2 q hc
    dsimp only at h
    split at h
    · cases h
    · rename_i hz
      rw [List.mem_singleton] at h
      subst h
      refine ⟨?_, ?_, s, e, h0, h1, h2, h3⟩
      · intro t ht0 ht1
        have : segPt r t = segPt l (s + t * (e - s)) := by
          rw [h3]
          simp only [segPt, P.mk.injEq]
          constructor <;> ring
        rw [this]
        have := mul_nonneg ht0 (sub_nonneg.2 h1)
        have := mul_le_of_le_one_left (sub_nonneg.2 h1) ht1
        exact h4 _ (by linarith) (by linarith)
      · by_contra hlt
        apply hz
        rw [length_real, isZero_iff, abs_of_nonneg (show 0 ≤ segLen r from Real.sqrt_nonneg _)]
        exact not_le.1 hlt

/-- What every line found by the loop is: a part of one of the moved lines. -/
theorem loop_mem (eps : ℝ) (log : ℝ → ℝ) (e : ℝ) (c : LineArgs ℝ) (rnd : Noise ℝ) (a axis vmin vmax extent : ℝ) (fuel : Nat) :
    ∀ (n : Nat) (offset jitter : ℝ) (ls : List (Line ℝ)), linesLoop eps log e c rnd a axis vmin vmax extent fuel n offset jitter = some (.ok ls) →
      ∀ r ∈ ls, ∃ k d, r ∈ keptSegment eps c.cliprect (jitteredLine eps c (rnd.angle k) (movedLine (lineVertical a) (startLine c.cliprect a) d)) := by
  induction fuel with
  | zero => intro n offset jitter ls h; cases h
  | succ fuel ih =>
    intro n offset jitter ls h r hr
    rw [linesLoop] at h
    split at h
    · cases hs : scaledSpacing log e c axis vmin vmax offset extent with
      | error x => rw [hs] at h; cases h
      | ok s =>
        rw [hs] at h
        dsimp only at h
        generalize hj : (if (zero : ℝ) <. c.spacingJitter then s *. (rnd.normal n *. c.spacingJitter) else jitter) = j at h
        cases hl : linesLoop eps log e c rnd a axis vmin vmax extent fuel (n + 1) (offset +. s) j with
        | none => rw [hl] at h; cases h
        | some q =>
          rw [hl] at h
          cases q with
          | error x => cases h
          | ok rest =>
            simp only [Option.map_some, Except.map, Option.some.injEq, Except.ok.injEq] at h
            subst h
            rcases List.mem_append.1 hr with hr | hr
            · exact ⟨n, _, hr⟩
            · exact ih _ _ _ _ hl r hr
    · simp only [Option.some.injEq, Except.ok.injEq] at h
      subst h
      cases hr

/-- **C126**, within the margins: whatever the random numbers, the angle, the spacing and its variation are, every line that is drawn is inside
the rectangle within the margins, to the tolerance, and is not shorter than the tolerance. -/
theorem C126_within (eps : ℝ) (heps : 0 < eps) (log : ℝ → ℝ) (e : ℝ) (fuel : Nat) (rnd : Noise ℝ) (c : LineArgs ℝ) (ls : List (Line ℝ))
    (h : lineSet eps log e fuel rnd c = some (.ok ls)) :
    ∀ l ∈ ls, (∀ t, 0 ≤ t → t ≤ 1 → c.cliprect.ContainsTol eps (segPt l t)) ∧ eps ≤ segLen l := by
  intro l hl
  unfold lineSet at h
  dsimp only at h
  cases ha : axisSpacing eps c.spacing (lineAngle c.angle) with
  | error x => rw [ha] at h; cases h
  | ok axis =>
    rw [ha] at h
    obtain ⟨k, d, hk⟩ := loop_mem eps log e c rnd _ axis _ _ _ fuel _ _ _ ls h l hl
    have := kept_within eps heps _ _ _ hk
    exact ⟨this.1, this.2.1⟩

/-! ## The loop ends -/

theorem loop_more (eps : ℝ) (log : ℝ → ℝ) (e : ℝ) (c : LineArgs ℝ) (rnd : Noise ℝ) (a axis vmin vmax extent : ℝ) (fuel : Nat) :
    ∀ (n : Nat) (offset jitter : ℝ) (r : Except PyErr (List (Line ℝ))), linesLoop eps log e c rnd a axis vmin vmax extent fuel n offset jitter = some r →
      linesLoop eps log e c rnd a axis vmin vmax extent (fuel + 1) n offset jitter = some r := by
  induction fuel with
  | zero => intro n offset jitter r h; cases h
  | succ fuel ih =>
    intro n offset jitter r h
    rw [linesLoop] at h ⊢
    split at h
    · rename_i hlt
      rw [if_pos hlt]
      cases hs : scaledSpacing log e c axis vmin vmax offset extent with
      | error x => rw [hs] at h; exact h
      | ok s =>
        rw [hs] at h
        dsimp only at h ⊢
        generalize hj : (if (zero : ℝ) <. c.spacingJitter then s *. (rnd.normal n *. c.spacingJitter) else jitter) = j at h ⊢
        cases hl : linesLoop eps log e c rnd a axis vmin vmax extent fuel (n + 1) (offset +. s) j with
        | none => rw [hl] at h; cases h
        | some q =>
          rw [hl] at h
          rw [ih _ _ _ _ hl]
          exact h
    · rename_i hlt
      rw [if_neg hlt]
      exact h

theorem loop_more_le (eps : ℝ) (log : ℝ → ℝ) (e : ℝ) (c : LineArgs ℝ) (rnd : Noise ℝ) (a axis vmin vmax extent : ℝ) {fuel fuel' : Nat} (hf : fuel ≤ fuel')
    {n : Nat} {offset jitter : ℝ} {r : Except PyErr (List (Line ℝ))} (h : linesLoop eps log e c rnd a axis vmin vmax extent fuel n offset jitter = some r) :
    linesLoop eps log e c rnd a axis vmin vmax extent fuel' n offset jitter = some r := by
  induction hf with
  | refl => exact h
  | step _ ih => exact loop_more _ _ _ _ _ _ _ _ _ _ _ _ _ _ _ ih

theorem kept_length (eps : ℝ) (b : Box ℝ) (l : Line ℝ) : (keptSegment eps b l).length ≤ 1 := by
  unfold keptSegment
  split
  · split <;> simp
  · simp

theorem loop_ends (eps : ℝ) (log : ℝ → ℝ) (e : ℝ) (c : LineArgs ℝ) (rnd : Noise ℝ) (a axis vmin vmax extent m : ℝ) (hm : 0 < m)
    (hs : ∀ off, 0 ≤ off → off < extent → ∃ s, scaledSpacing log e c axis vmin vmax off extent = .ok s ∧ m ≤ s) (fuel : Nat) :
    ∀ (n : Nat) (offset jitter : ℝ), 0 ≤ offset → extent < offset + fuel * m →
      ∃ ls, linesLoop eps log e c rnd a axis vmin vmax extent (fuel + 1) n offset jitter = some (.ok ls) ∧
        (ls = [] ∨ ((ls.length : ℝ) - 1) * m < extent - offset) := by
  induction fuel with
  | zero =>
    intro n offset jitter h0 h
    rw [linesLoop, if_neg (by simp only [real_lt, decide_eq_true_eq]; simp at h; linarith)]
    exact ⟨[], rfl, .inl rfl⟩
  | succ fuel ih =>
    intro n offset jitter h0 h
    rw [linesLoop]
    by_cases hlt : offset < extent
    · rw [if_pos (by simpa using hlt)]
      obtain ⟨s, hs1, hs2⟩ := hs offset h0 hlt
      rw [hs1]
      dsimp only
      generalize (if (zero : ℝ) <. c.spacingJitter then s *. (rnd.normal n *. c.spacingJitter) else jitter) = j
      obtain ⟨rest, hr, hrl⟩ := ih (n + 1) (offset +. s) j (by simp only [real_add]; linarith) (by simp only [real_add]; push_cast at h; linarith)
      rw [hr]
      refine ⟨_, rfl, ?_⟩
      right
      set l := jitteredLine eps c (rnd.angle n) (movedLine (lineVertical a) (startLine c.cliprect a) (offset +. jitter))
      have hk : ((keptSegment eps c.cliprect l).length : ℝ) ≤ 1 := by exact_mod_cast kept_length eps c.cliprect l
      rw [List.length_append]
      push_cast
      rcases hrl with rfl | hrl
      · simp only [List.length_nil, Nat.cast_zero]
        nlinarith
      · simp only [real_add] at hrl
        nlinarith
    · rw [if_neg (by simpa using hlt)]
      exact ⟨[], rfl, .inl rfl⟩

/-- The normalised angle is one of the angles of the line, at most a quarter turn. -/
theorem lineAngle_spec (angle : ℝ) : (∃ n : ℤ, lineAngle angle = angle + n * Real.pi) ∧ -(Real.pi / 2) ≤ lineAngle angle ∧ lineAngle angle ≤ Real.pi / 2 := by
  obtain ⟨⟨n, hn⟩, h1, h2⟩ := C33_normalize_angle angle (0 : ℝ)
  have hp := Real.pi_pos
  unfold lineAngle
  simp only [real_zero, real_div, real_pi, real_ofInt, real_sub, real_neg, real_add, real_lt, decide_eq_true_eq] at *
  push_cast
  split
  · refine ⟨⟨2 * n - 1, ?_⟩, by linarith, by linarith⟩
    push_cast; linarith
  · split
    · refine ⟨⟨2 * n + 1, ?_⟩, by linarith, by linarith⟩
      push_cast; linarith
    · refine ⟨⟨2 * n, ?_⟩, by linarith, by linarith⟩
      push_cast; linarith

theorem lineVertical_iff (a : ℝ) : lineVertical a = true ↔ Real.pi / 4 < a ∧ a < 3 * Real.pi / 4 := by
  unfold lineVertical
  simp only [real_lt, real_mul, real_pi, real_lit, Bool.and_eq_true, decide_eq_true_eq]
  have e1 : Real.pi * (((25 : ℤ) : ℝ) / 10 ^ 2) = Real.pi / 4 := by push_cast; ring
  have e2 : Real.pi * (((75 : ℤ) : ℝ) / 10 ^ 2) = 3 * Real.pi / 4 := by push_cast; ring
  rw [e1, e2]

theorem pdiv_real {a b : ℝ} (h : b ≠ 0) : pdiv a b = .ok (a / b) := by
  unfold pdiv
  rw [if_neg (by simpa using h)]
  rfl

/-- Specification: the angle points straight down. -/
def Down (angle : ℝ) : Prop := ∃ n : ℤ, angle = -(Real.pi / 2) + n * (2 * Real.pi)

theorem lineAngle_down {angle : ℝ} (h : lineAngle angle = -(Real.pi / 2)) : Down angle := by
  obtain ⟨⟨n, hn⟩, h1, h2⟩ := C33_normalize_angle angle (0 : ℝ)
  have hp := Real.pi_pos
  unfold lineAngle at h
  simp only [real_zero, real_div, real_pi, real_ofInt, real_sub, real_neg, real_add, real_lt, decide_eq_true_eq] at *
  push_cast at h
  split at h
  · linarith
  · split at h
    · linarith
    · exact ⟨-n, by push_cast; linarith⟩

theorem axis_ok (eps spacing angle : ℝ) (hs : 0 < spacing) (hd : ¬ Down angle) :
    ∃ axis, axisSpacing eps spacing (lineAngle angle) = .ok axis ∧ 0 < axis := by
  obtain ⟨-, h1, h2⟩ := lineAngle_spec angle
  have hp := Real.pi_pos
  unfold axisSpacing
  split
  · exact ⟨spacing, rfl, hs⟩
  · split
    · rename_i hv
      obtain ⟨h3, h4⟩ := (lineVertical_iff _).1 hv
      have : 0 < Real.sin (lineAngle angle) := Real.sin_pos_of_pos_of_lt_pi (by linarith) (by linarith)
      exact ⟨_, pdiv_real (ne_of_gt this), div_pos hs this⟩
    · rename_i hv
      have h3 : lineAngle angle ≠ -(Real.pi / 2) := fun h => hd (lineAngle_down h)
      have h4 : lineAngle angle < Real.pi / 2 := by
        by_contra hh
        apply hv
        rw [lineVertical_iff]
        constructor <;> linarith [not_lt.1 hh]
      have : 0 < Real.cos (lineAngle angle) := Real.cos_pos_of_mem_Ioo ⟨lt_of_le_of_ne h1 (Ne.symm h3), h4⟩
      exact ⟨_, pdiv_real (ne_of_gt this), div_pos hs this⟩

theorem spacing_ok (log : ℝ → ℝ) (e : ℝ) (c : LineArgs ℝ) (axis vmin vmax off extent : ℝ) (hc : c.cycles ≠ 0) (h0 : 0 ≤ off) (hlt : off < extent) :
    ∃ s, scaledSpacing log e c axis vmin vmax off extent = .ok s ∧ min vmin vmax ≤ s := by
  unfold scaledSpacing
  have hi : extent / c.cycles ≠ 0 := div_ne_zero (by linarith) hc
  rw [pdiv_real hc]
  simp only [bind, Except.bind]
  rw [pdiv_real hi]
  refine ⟨_, rfl, ?_⟩
  simp only [pmin_real, pmax_real]
  exact min_le_min_right _ (le_max_right _ _)

/-- **C126**, the program ends: if the spacing is positive, the number of cycles not zero and the least and greatest spacing not negative, then,
whatever the random numbers are, the lines are found without an exception, in a number of rounds that does not depend on the random numbers, unless the angle points straight down. -/
theorem C126_ends_partial (eps : ℝ) (heps : 0 < eps) (log : ℝ → ℝ) (e : ℝ) (c : LineArgs ℝ) (hs : 0 < c.spacing) (hd : ¬ Down c.angle) (hc : c.cycles ≠ 0)
    (hmin : 0 ≤ c.vmin) (hmax : 0 ≤ c.vmax) :
    ∃ N, ∀ rnd : Noise ℝ, ∃ ls, ∀ fuel, N ≤ fuel → lineSet eps log e fuel rnd c = some (.ok ls) := by
  obtain ⟨axis, ha, hpos⟩ := axis_ok eps c.spacing c.angle hs hd
  set vmin := spaceMin eps c.vmin with hvmin
  set vmax := spaceMax eps c.vmax axis with hvmax
  set extent := maxExtent c.cliprect (lineAngle c.angle) axis c.spacingJitter with hext
  have hm : 0 < min vmin vmax := by
    refine lt_min ?_ ?_
    · rw [hvmin]; unfold spaceMin
      split
      · norm_num
      · rename_i hz
        rw [isZero_iff, not_lt, abs_of_nonneg hmin] at hz
        linarith
    · rw [hvmax]; unfold spaceMax
      split
      · exact hpos
      · rename_i hz
        rw [isZero_iff, not_lt, abs_of_nonneg hmax] at hz
        linarith
  obtain ⟨N, hN⟩ := exists_nat_gt (extent / min vmin vmax)
  rw [div_lt_iff₀ hm] at hN
  refine ⟨N + 1, fun rnd => ?_⟩
  obtain ⟨ls, h1, -⟩ := loop_ends eps log e c rnd (lineAngle c.angle) axis vmin vmax extent _ hm
    (fun off h0 hlt => spacing_ok log e c axis vmin vmax off extent hc h0 hlt) N 0 0 0 le_rfl (by linarith)
  refine ⟨ls, fun fuel hf => ?_⟩
  unfold lineSet
  dsimp only
  rw [ha]
  dsimp only
  rw [← hvmin, ← hvmax, ← hext]
  have := loop_more_le eps log e c rnd (lineAngle c.angle) axis vmin vmax extent hf h1
  rw [real_zero]
  exact this

/-- **C126**, refuted for lines that point straight down (a rotation of -90 degrees in the dialog): division by zero in exact arithmetic; in floats the
cosine is about 6e-17, so that the lines are as far apart as that says and only the first one is drawn. -/
theorem C126_refuted_down (eps : ℝ) (heps : eps ≤ 1) (log : ℝ → ℝ) (e : ℝ) (fuel : Nat) (rnd : Noise ℝ) (c : LineArgs ℝ) (h : c.angle = -(Real.pi / 2)) :
    lineSet eps log e fuel rnd c = some (.error .zeroDivision) := by
  have hp : 3 < Real.pi := Real.pi_gt_three
  have hn : lineAngle c.angle = -(Real.pi / 2) := by
    have : normalizeAngle c.angle (zero : ℝ) = -(Real.pi / 2) := by
      rw [h]
      unfold normalizeAngle tau
      simp only [real_zero, real_sub, real_mul, real_pi, real_ofInt, real_floor, real_div, real_add]
      have : ⌊(-(Real.pi / 2) + Real.pi - 0) / (Real.pi * ((2 : ℤ) : ℝ))⌋ = 0 := by
        rw [Int.floor_eq_iff]
        have e1 : (-(Real.pi / 2) + Real.pi - 0) / (Real.pi * ((2 : ℤ) : ℝ)) = 1 / 4 := by
          push_cast; field_simp; ring
        rw [e1]; norm_num
      rw [this]; simp
    unfold lineAngle
    dsimp only
    rw [this, if_neg, if_neg]
    · simp
    · simp only [real_lt, real_div, real_pi, real_ofInt, decide_eq_true_eq]
      push_cast; linarith
  unfold lineSet
  dsimp only
  rw [hn]
  unfold axisSpacing
  rw [if_neg, if_neg]
  · have : Real.cos (-(Real.pi / 2)) = 0 := by rw [Real.cos_neg, Real.cos_pi_div_two]
    simp only [real_cos, this]
    unfold pdiv
    rw [if_pos (by simp)]
  · rw [lineVertical_iff]
    rintro ⟨h1, -⟩; linarith
  · rw [isZero_iff, not_lt, abs_neg, abs_of_pos (by linarith)]
    linarith

/-- The rectangle for the examples. -/
def box10 {K : Type} [PyTrig K] : Box K := ⟨⟨zero, zero⟩, ⟨ofInt 10, ofInt 10⟩⟩

/-- **C126**, refuted for a number of cycles of zero, which the dialog allows: division by zero. -/
theorem C126_refuted_cycles : lineSet (1 / 1000000 : ℚ) id 3 100 ⟨fun _ => 0, fun _ => 0⟩
    { cliprect := box10, spacing := 1, angle := 0, spacingJitter := 0, angleJitter := 0, vmin := 0, vmax := 0, cycles := 0 } = some (.error .zeroDivision) := by
  decide +kernel

/-- **C126**, refuted for a spacing of zero: the program does not end. -/
theorem C126_refuted_zero (eps : ℝ) (heps : 0 < eps) (log : ℝ → ℝ) (e : ℝ) (fuel : Nat) (rnd : Noise ℝ) :
    lineSet eps log e fuel rnd { cliprect := box10, spacing := 0, angle := 0, spacingJitter := 0, angleJitter := 0, vmin := 0, vmax := 0, cycles := 1 } = none := by
  set c : LineArgs ℝ := { cliprect := box10, spacing := 0, angle := 0, spacingJitter := 0, angleJitter := 0, vmin := 0, vmax := 0, cycles := 1 } with hc
  have hp := Real.pi_pos
  have hn : lineAngle (0 : ℝ) = 0 := by
    have : normalizeAngle (0 : ℝ) (zero : ℝ) = 0 := by
      unfold normalizeAngle tau
      simp only [real_zero, real_sub, real_mul, real_pi, real_ofInt, real_floor, real_div, real_add]
      have : ⌊(0 + Real.pi - 0) / (Real.pi * ((2 : ℤ) : ℝ))⌋ = 0 := by
        rw [Int.floor_eq_iff]
        have e1 : (0 + Real.pi - 0) / (Real.pi * ((2 : ℤ) : ℝ)) = 1 / 2 := by
          push_cast; field_simp; ring
        rw [e1]; norm_num
      rw [this]; simp
    unfold lineAngle
    dsimp only
    rw [this, if_neg, if_neg]
    · simp only [real_lt, real_neg, real_div, real_pi, real_ofInt, decide_eq_true_eq]
      push_cast; linarith
    · simp only [real_lt, real_div, real_pi, real_ofInt, decide_eq_true_eq]
      push_cast; linarith
  have hv : lineVertical (0 : ℝ) = false := by
    cases h : lineVertical (0 : ℝ) with
    | false => rfl
    | true => have := (lineVertical_iff _).1 h; linarith [this.1]
  have ha : axisSpacing eps c.spacing (lineAngle c.angle) = .ok 0 := by
    rw [hc]; dsimp only
    rw [hn, axisSpacing, if_pos]
    rw [isZero_iff]; simpa using heps
  unfold lineSet
  dsimp only
  rw [ha]
  dsimp only
  have hmax : spaceMax eps c.vmax 0 = 0 := by
    unfold spaceMax; rw [hc]; simp
  have hmin : 0 ≤ spaceMin eps c.vmin := by
    unfold spaceMin
    split
    · norm_num
    · rw [hc]
  have hext : maxExtent c.cliprect (lineAngle c.angle) 0 c.spacingJitter = 10 := by
    rw [hc]; dsimp only
    rw [hn]
    unfold maxExtent
    rw [hv]
    simp [boxHeight, boxWidth, box10]
  rw [hmax, hext]
  have key : ∀ fuel n (j : ℝ), linesLoop eps log e c rnd (lineAngle c.angle) 0 (spaceMin eps c.vmin) 0 10 fuel n 0 j = none := by
    intro fuel
    induction fuel with
    | zero => intro n j; rfl
    | succ fuel ih =>
      intro n j
      rw [linesLoop, if_pos (by simp)]
      have hs : scaledSpacing log e c 0 (spaceMin eps c.vmin) 0 0 10 = .ok 0 := by
        unfold scaledSpacing
        rw [hc]
        dsimp only
        rw [pdiv_real (by norm_num)]
        simp only [bind, Except.bind]
        rw [pdiv_real (by norm_num)]
        simp only [pmin_real, pmax_real, real_mul, zero_mul]
        rw [min_eq_right (le_max_left _ _)]
        rfl
      rw [hs]
      dsimp only
      rw [show (0 : ℝ) +. 0 = 0 by simp, ih]
      rfl
  rw [real_zero]
  exact key fuel 0 0

/-- Non-vacuity of `C126_within` and `C126_ends_partial`: three horizontal lines in a rectangle of 10 by 10 at a distance of 4. -/
example : ((lineSet (1 / 1000000 : ℚ) id 3 100 ⟨fun _ => 0, fun _ => 0⟩
    { cliprect := box10, spacing := 4, angle := 0, spacingJitter := 0, angleJitter := 0, vmin := 0, vmax := 0, cycles := 1 }).bind Except.toOption) =
    some [⟨⟨0, 0⟩, ⟨10, 0⟩⟩, ⟨⟨0, 4⟩, ⟨10, 4⟩⟩, ⟨⟨0, 8⟩, ⟨10, 8⟩⟩] := by
  decide +kernel

example : ¬ Down 0 := by
  rintro ⟨n, hn⟩
  have hp := Real.pi_pos
  have : (n : ℝ) * 4 = 1 := by nlinarith
  have : n * 4 = 1 := by exact_mod_cast this
  omega

end Verif.Ext
