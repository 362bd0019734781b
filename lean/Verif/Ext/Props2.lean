import Verif.Ext.Props1

/-!
# C127: evenly spaced lines
-/

set_option linter.unusedSectionVars false

namespace Verif.Ext
open Verif PyFloat PyTrig Geom

/-! ## Specification -/

/-- Specification: evenly spaced lines are asked for: no formula, no random numbers, no greatest spacing given. -/
structure Even (eps : ℝ) (c : LineArgs ℝ) : Prop where
  formula : c.formula = []
  invert : c.invert = false
  spacingJitter : c.spacingJitter = 0
  angleJitter : c.angleJitter = 0
  vmax : c.vmax = 0
  cycles : c.cycles ≠ 0
  spacing : 0 < c.spacing
  eps : 0 < eps

/-- Specification: the result of the program, for all large enough bounds of the loop and all random numbers. -/
def Draws (eps : ℝ) (log : ℝ → ℝ) (e : ℝ) (c : LineArgs ℝ) (ls : List (Line ℝ)) : Prop :=
  ∃ N, ∀ fuel, N ≤ fuel → ∀ rnd, lineSet eps log e fuel rnd c = some (.ok ls)

/-- Specification: a line at the height `y` from side to side. -/
def across (b : Box ℝ) (y : ℝ) : Line ℝ := ⟨⟨b.p1.x, y⟩, ⟨b.p2.x, y⟩⟩

/-- Specification: a line at `x` from the bottom to the top. -/
def upright (b : Box ℝ) (x : ℝ) : Line ℝ := ⟨⟨x, b.p1.y⟩, ⟨x, b.p2.y⟩⟩

/-- Specification: the part of a line that is in the rectangle, less what is shorter than the tolerance: `found` is that part as a list of at most
one line. -/
def PartInside (eps : ℝ) (b : Box ℝ) (l : Line ℝ) (found : List (Line ℝ)) : Prop :=
  (found = [] ∧ ∀ t t', 0 ≤ t → t ≤ 1 → 0 ≤ t' → t' ≤ 1 → b.Contains (segPt l t) → b.Contains (segPt l t') → segLen ⟨segPt l t, segPt l t'⟩ < eps) ∨
  ∃ s e, 0 ≤ s ∧ s ≤ e ∧ e ≤ 1 ∧ found = [⟨segPt l s, segPt l e⟩] ∧ ∀ t, 0 ≤ t → t ≤ 1 → (b.Contains (segPt l t) ↔ s ≤ t ∧ t ≤ e)

/-! ## The loop with a constant spacing -/

theorem even_spacing {eps : ℝ} {c : LineArgs ℝ} (h : Even eps c) (log : ℝ → ℝ) (e axis off extent : ℝ) (hpos : 0 < axis) (h0 : 0 ≤ off) (hlt : off < extent) :
    scaledSpacing log e c axis (spaceMin eps c.vmin) (spaceMax eps c.vmax axis) off extent = .ok axis := by
  unfold scaledSpacing
  have hi : extent / c.cycles ≠ 0 := div_ne_zero (by linarith) h.cycles
  rw [pdiv_real h.cycles]
  simp only [bind, Except.bind]
  rw [pdiv_real hi]
  have hm : spaceMax eps c.vmax axis = axis := by
    unfold spaceMax
    rw [if_pos]
    rw [isZero_iff, h.vmax]; simpa using h.eps
  have hsc : spacingScale log e c (pmod off (extent / c.cycles) / (extent / c.cycles)) = 1 := by
    unfold spacingScale
    rw [h.formula, h.invert]
    rw [if_neg (by decide), if_neg (by decide), if_neg (by decide)]
    simp
  simp only [pmin_real, pmax_real]
  rw [hm, hsc]
  simp only [real_mul, mul_one]
  rw [min_eq_right (le_max_left _ _)]
  rfl

theorem loop_even {eps : ℝ} {c : LineArgs ℝ} (h : Even eps c) (log : ℝ → ℝ) (e : ℝ) (rnd : Noise ℝ) (a axis extent : ℝ) (hpos : 0 < axis) (fuel : Nat) :
    ∀ (n k : Nat), ⌈extent / axis⌉₊ ≤ k + fuel →
      linesLoop eps log e c rnd a axis (spaceMin eps c.vmin) (spaceMax eps c.vmax axis) extent (fuel + 1) n (k * axis) 0 =
        some (.ok ((List.range' k (⌈extent / axis⌉₊ - k)).flatMap fun i : ℕ =>
          keptSegment eps c.cliprect (movedLine (lineVertical a) (startLine c.cliprect a) (i * axis)))) := by
  have hk : ∀ k : Nat, ((k : ℝ) * axis < extent ↔ k < ⌈extent / axis⌉₊) := by
    intro k
    rw [Nat.lt_ceil, lt_div_iff₀ hpos]
  induction fuel with
  | zero =>
    intro n k hf
    rw [linesLoop, if_neg]
    · rw [Nat.sub_eq_zero_of_le (by omega)]; rfl
    · simp only [real_lt, decide_eq_true_eq]
      rw [hk]; omega
  | succ fuel ih =>
    intro n k hf
    rw [linesLoop]
    by_cases hlt : (k : ℝ) * axis < extent
    · rw [if_pos (by simpa using hlt)]
      rw [even_spacing h log e axis _ extent hpos (by positivity) hlt]
      dsimp only
      rw [if_neg (by simp [h.spacingJitter])]
      have e1 : ((k : ℝ) * axis) +. axis = ((k + 1 : ℕ) : ℝ) * axis := by
        simp only [real_add]; push_cast; ring
      rw [e1, ih (n + 1) (k + 1) (by omega)]
      have hk' := (hk k).1 hlt
      obtain ⟨m, hm⟩ : ∃ m, ⌈extent / axis⌉₊ - k = m + 1 := ⟨⌈extent / axis⌉₊ - k - 1, by omega⟩
      have hm' : ⌈extent / axis⌉₊ - (k + 1) = m := by omega
      rw [hm, hm', List.range'_succ, List.flatMap_cons]
      have hj : ∀ l : Line ℝ, jitteredLine eps c (rnd.angle n) l = l := by
        intro l
        unfold jitteredLine
        rw [if_pos]
        rw [isZero_iff, h.angleJitter]; simpa using h.eps
      rw [hj]
      simp only [Option.map_some, Except.map, real_add, add_zero]
    · rw [if_neg (by simpa using hlt)]
      rw [hk] at hlt
      rw [Nat.sub_eq_zero_of_le (by omega)]
      rfl

theorem even_draws {eps : ℝ} {c : LineArgs ℝ} (h : Even eps c) (log : ℝ → ℝ) (e axis : ℝ) (hpos : 0 < axis)
    (ha : axisSpacing eps c.spacing (lineAngle c.angle) = .ok axis) :
    Draws eps log e c ((List.range ⌈maxExtent c.cliprect (lineAngle c.angle) axis 0 / axis⌉₊).flatMap fun i : ℕ =>
      keptSegment eps c.cliprect (movedLine (lineVertical (lineAngle c.angle)) (startLine c.cliprect (lineAngle c.angle)) (i * axis))) := by
  refine ⟨⌈maxExtent c.cliprect (lineAngle c.angle) axis 0 / axis⌉₊ + 1, fun fuel hf rnd => ?_⟩
  unfold lineSet
  dsimp only
  rw [ha]
  dsimp only
  rw [h.spacingJitter, real_zero]
  have := loop_even h log e rnd (lineAngle c.angle) axis (maxExtent c.cliprect (lineAngle c.angle) axis 0) hpos
    ⌈maxExtent c.cliprect (lineAngle c.angle) axis 0 / axis⌉₊ 0 0 (by omega)
  simp only [Nat.cast_zero, zero_mul, Nat.sub_zero] at this
  rw [List.range_eq_range']
  exact loop_more_le eps log e c rnd _ _ _ _ _ hf this

/-! ## The piece of a line in the rectangle -/

theorem kept_part (eps : ℝ) (heps : 0 < eps) (b : Box ℝ) (l : Line ℝ)
    (hx : l.p2.x - l.p1.x = 0 ∨ eps ≤ |l.p2.x - l.p1.x|) (hy : l.p2.y - l.p1.y = 0 ∨ eps ≤ |l.p2.y - l.p1.y|) :
    PartInside eps b l (keptSegment eps b l) := by
  obtain ⟨h1, h2⟩ := C49_clip_exact eps heps b l hx hy
  unfold keptSegment
  cases hc : b.clipLine eps l with
  | none =>
    left
    refine ⟨rfl, fun t t' a1 a2 _ _ a5 _ => ?_⟩
    exact absurd ⟨t, a1, a2, a5⟩ (h1.1 hc)
  | some q =>
    obtain ⟨s, e, h0, h01, h11, hq, hin⟩ := h2 q hc
    dsimp only
    split
    · rename_i hz
      left
      refine ⟨rfl, fun t t' a1 a2 a3 a4 a5 a6 => ?_⟩
      rw [length_real, isZero_iff, abs_of_nonneg (show 0 ≤ segLen q from Real.sqrt_nonneg _)] at hz
      refine lt_of_le_of_lt ?_ hz
      obtain ⟨b1, b2⟩ := (hin t a1 a2).1 a5
      obtain ⟨b3, b4⟩ := (hin t' a3 a4).1 a6
      rw [hq]
      unfold segLen
      apply Real.sqrt_le_sqrt
      unfold sqDist segPt
      dsimp only
      have : (t - t') ^ 2 ≤ (s - e) ^ 2 := by nlinarith [mul_nonneg (sub_nonneg.2 b1) (sub_nonneg.2 b4), mul_nonneg (sub_nonneg.2 b3) (sub_nonneg.2 b2), mul_nonneg (sub_nonneg.2 b1) (sub_nonneg.2 b2), mul_nonneg (sub_nonneg.2 b3) (sub_nonneg.2 b4)]
      have e1 : (l.p1.x + t * (l.p2.x - l.p1.x) - (l.p1.x + t' * (l.p2.x - l.p1.x))) ^ 2 + (l.p1.y + t * (l.p2.y - l.p1.y) - (l.p1.y + t' * (l.p2.y - l.p1.y))) ^ 2
          = (t - t') ^ 2 * ((l.p2.x - l.p1.x) ^ 2 + (l.p2.y - l.p1.y) ^ 2) := by ring
      have e2 : (l.p1.x + s * (l.p2.x - l.p1.x) - (l.p1.x + e * (l.p2.x - l.p1.x))) ^ 2 + (l.p1.y + s * (l.p2.y - l.p1.y) - (l.p1.y + e * (l.p2.y - l.p1.y))) ^ 2
          = (s - e) ^ 2 * ((l.p2.x - l.p1.x) ^ 2 + (l.p2.y - l.p1.y) ^ 2) := by ring
      rw [e1, e2]
      exact mul_le_mul_of_nonneg_right this (by positivity)
    · right
      exact ⟨s, e, h0, h01, h11, by rw [hq], hin⟩

/-- A line that is wholly in the rectangle and long enough is kept. -/
theorem kept_whole (eps : ℝ) (heps : 0 < eps) (b : Box ℝ) (l : Line ℝ)
    (hx : l.p2.x - l.p1.x = 0 ∨ eps ≤ |l.p2.x - l.p1.x|) (hy : l.p2.y - l.p1.y = 0 ∨ eps ≤ |l.p2.y - l.p1.y|)
    (hin : ∀ t, 0 ≤ t → t ≤ 1 → b.Contains (segPt l t)) (hlen : eps ≤ segLen l) : keptSegment eps b l = [l] := by
  have e0 : segPt l 0 = l.p1 := by simp [segPt]
  have e1 : segPt l 1 = l.p2 := by simp [segPt]
  rcases kept_part eps heps b l hx hy with ⟨-, h⟩ | ⟨s, e, h0, h01, h11, hf, h⟩
  · have := h 0 1 le_rfl zero_le_one zero_le_one le_rfl (hin 0 le_rfl zero_le_one) (hin 1 zero_le_one le_rfl)
    rw [e0, e1] at this
    exact absurd this (not_lt.2 hlen)
  · have hs : s = 0 := le_antisymm ((h 0 le_rfl zero_le_one).1 (hin 0 le_rfl zero_le_one)).1 h0
    have he : e = 1 := le_antisymm h11 ((h 1 zero_le_one le_rfl).1 (hin 1 zero_le_one le_rfl)).2
    rw [hf, hs, he, e0, e1]

theorem flatMap_single {α β : Type} (l : List α) (f : α → List β) (g : α → β) (h : ∀ x ∈ l, f x = [g x]) : l.flatMap f = l.map g := by
  induction l with
  | nil => rfl
  | cons x l ih =>
    rw [List.flatMap_cons, h x (by simp), ih fun y hy => h y (by simp [hy])]
    rfl

/-! ## Horizontal and vertical lines -/

theorem normalize_small {a : ℝ} (h1 : -Real.pi ≤ a) (h2 : a < Real.pi) : normalizeAngle a (zero : ℝ) = a := by
  have hp := Real.pi_pos
  unfold normalizeAngle tau
  simp only [real_zero, real_sub, real_mul, real_pi, real_ofInt, real_floor, real_div, real_add]
  have : ⌊(a + Real.pi - 0) / (Real.pi * ((2 : ℤ) : ℝ))⌋ = 0 := by
    rw [Int.floor_eq_iff]
    push_cast
    constructor
    · apply div_nonneg <;> linarith
    · rw [div_lt_iff₀ (by linarith)]; linarith
  rw [this]; simp

theorem lineAngle_small {a : ℝ} (h1 : -(Real.pi / 2) ≤ a) (h2 : a ≤ Real.pi / 2) : lineAngle a = a := by
  have hp := Real.pi_pos
  unfold lineAngle
  dsimp only
  rw [normalize_small (by linarith) (by linarith), if_neg, if_neg]
  · simp only [real_lt, real_neg, real_div, real_pi, real_ofInt, decide_eq_true_eq]
    push_cast; linarith
  · simp only [real_lt, real_div, real_pi, real_ofInt, decide_eq_true_eq]
    push_cast; linarith

theorem not_vertical {a : ℝ} (h : a ≤ Real.pi / 4) : lineVertical a = false := by
  cases h' : lineVertical a with
  | false => rfl
  | true => have := (lineVertical_iff _).1 h'; linarith [this.1]

/-- **C127**, horizontal lines: evenly spaced lines without rotation are exactly the lines from side to side of the rectangle at the heights `0`, `s`,
`2 s`, … above its bottom that are below its top, in this order. -/
theorem C127_horizontal (eps : ℝ) (log : ℝ → ℝ) (e : ℝ) (c : LineArgs ℝ) (h : Even eps c) (hr : c.angle = 0) (hb : c.cliprect.Valid)
    (hw : eps ≤ c.cliprect.p2.x - c.cliprect.p1.x) :
    Draws eps log e c ((List.range ⌈(c.cliprect.p2.y - c.cliprect.p1.y) / c.spacing⌉₊).map fun k : ℕ => across c.cliprect (c.cliprect.p1.y + k * c.spacing)) := by
  have hp := Real.pi_pos
  have ha : lineAngle c.angle = 0 := by rw [hr]; exact lineAngle_small (by linarith) (by linarith)
  have hv : lineVertical (0 : ℝ) = false := not_vertical (by linarith)
  have := even_draws h log e c.spacing h.spacing (by
    rw [ha, axisSpacing, if_pos]
    rw [isZero_iff]; simpa using h.eps)
  rw [ha] at this
  have hext : maxExtent c.cliprect (0 : ℝ) c.spacing 0 = c.cliprect.p2.y - c.cliprect.p1.y := by
    unfold maxExtent
    rw [hv]
    simp [boxHeight, boxWidth]
  rw [hext] at this
  rw [flatMap_single _ _ (fun k : ℕ => across c.cliprect (c.cliprect.p1.y + k * c.spacing))] at this
  · exact this
  · intro k hk
    have hk' : (k : ℝ) * c.spacing < c.cliprect.p2.y - c.cliprect.p1.y := by
      rw [List.mem_range, Nat.lt_ceil, lt_div_iff₀ h.spacing] at hk
      exact hk
    have hks : 0 ≤ (k : ℝ) * c.spacing := mul_nonneg (Nat.cast_nonneg _) h.spacing.le
    have el : movedLine (lineVertical (0 : ℝ)) (startLine c.cliprect 0) (k * c.spacing) = across c.cliprect (c.cliprect.p1.y + k * c.spacing) := by
      unfold movedLine startLine across
      rw [hv]
      simp [boxWidth, P.add]
    rw [el]
    have hxx : c.cliprect.p1.x ≤ c.cliprect.p2.x := hb.1
    apply kept_whole eps h.eps
    · right; simp only [across]; rw [abs_of_nonneg (by linarith)]; exact hw
    · left; simp [across]
    · intro t h0 h1
      unfold Box.Contains segPt across
      dsimp only
      have := mul_nonneg h0 (sub_nonneg.2 hxx)
      have := mul_le_of_le_one_left (sub_nonneg.2 hxx) h1
      refine ⟨by linarith, by linarith, by linarith, by linarith⟩
    · unfold segLen sqDist across
      dsimp only
      rw [sub_self, show (c.cliprect.p1.x - c.cliprect.p2.x) ^ 2 + 0 ^ 2 = (c.cliprect.p2.x - c.cliprect.p1.x) ^ 2 by ring, Real.sqrt_sq (by linarith)]
      exact hw

/-- **C127**, vertical lines: with the angle of vertical lines (a quarter turn) they are exactly the lines from the bottom to the top of the rectangle at
the distances `0`, `s`, `2 s`, … from its left side that are left of its right side, in this order. -/
theorem C127_vertical (eps : ℝ) (heps : eps ≤ 1) (log : ℝ → ℝ) (e : ℝ) (c : LineArgs ℝ) (h : Even eps c) (hr : c.angle = Real.pi / 2) (hb : c.cliprect.Valid)
    (hw : eps ≤ c.cliprect.p2.y - c.cliprect.p1.y) :
    Draws eps log e c ((List.range ⌈(c.cliprect.p2.x - c.cliprect.p1.x) / c.spacing⌉₊).map fun k : ℕ => upright c.cliprect (c.cliprect.p1.x + k * c.spacing)) := by
  have hp : 3 < Real.pi := Real.pi_gt_three
  have ha : lineAngle c.angle = Real.pi / 2 := by rw [hr]; exact lineAngle_small (by linarith) le_rfl
  have hv : lineVertical (Real.pi / 2) = true := (lineVertical_iff _).2 ⟨by linarith, by linarith⟩
  have hcos : Real.cos (Real.pi / 2) = 0 := Real.cos_pi_div_two
  have := even_draws h log e c.spacing h.spacing (by
    rw [ha, axisSpacing, if_neg, if_pos hv]
    · simp only [real_sin, Real.sin_pi_div_two]
      rw [pdiv_real one_ne_zero, div_one]
    · rw [isZero_iff, not_lt, abs_of_pos (by linarith)]; linarith)
  rw [ha] at this
  have hext : maxExtent c.cliprect (Real.pi / 2) c.spacing 0 = c.cliprect.p2.x - c.cliprect.p1.x := by
    unfold maxExtent
    rw [hv]
    simp [boxHeight, boxWidth, hcos]
  rw [hext] at this
  rw [flatMap_single _ _ (fun k : ℕ => upright c.cliprect (c.cliprect.p1.x + k * c.spacing))] at this
  · exact this
  · intro k hk
    have hk' : (k : ℝ) * c.spacing < c.cliprect.p2.x - c.cliprect.p1.x := by
      rw [List.mem_range, Nat.lt_ceil, lt_div_iff₀ h.spacing] at hk
      exact hk
    have hks : 0 ≤ (k : ℝ) * c.spacing := mul_nonneg (Nat.cast_nonneg _) h.spacing.le
    have el : movedLine (lineVertical (Real.pi / 2)) (startLine c.cliprect (Real.pi / 2)) (k * c.spacing) = upright c.cliprect (c.cliprect.p1.x + k * c.spacing) := by
      unfold movedLine startLine upright
      rw [hv]
      simp [boxHeight, P.add, hcos]
    rw [el]
    have hxx : c.cliprect.p1.y ≤ c.cliprect.p2.y := hb.2
    apply kept_whole eps h.eps
    · left; simp [upright]
    · right; simp only [upright]; rw [abs_of_nonneg (by linarith)]; exact hw
    · intro t h0 h1
      unfold Box.Contains segPt upright
      dsimp only
      have := mul_nonneg h0 (sub_nonneg.2 hxx)
      have := mul_le_of_le_one_left (sub_nonneg.2 hxx) h1
      refine ⟨by linarith, by linarith, by linarith, by linarith⟩
    · unfold segLen sqDist upright
      dsimp only
      rw [sub_self, show 0 ^ 2 + (c.cliprect.p1.y - c.cliprect.p2.y) ^ 2 = (c.cliprect.p2.y - c.cliprect.p1.y) ^ 2 by ring, Real.sqrt_sq (by linarith)]
      exact hw

/-- Non-vacuity of `C127_horizontal` and `C127_vertical`. -/
example : Even (1 / 1000000) ({ cliprect := box10, spacing := 4, angle := 0, spacingJitter := 0, angleJitter := 0, vmin := 0, vmax := 0, cycles := 1 } : LineArgs ℝ) ∧
    (box10 : Box ℝ).Valid ∧ (1 / 1000000 : ℝ) ≤ (box10 : Box ℝ).p2.x - (box10 : Box ℝ).p1.x := by
  refine ⟨⟨rfl, rfl, rfl, rfl, rfl, one_ne_zero, by norm_num, by norm_num⟩, ?_, ?_⟩
  · norm_num [Box.Valid, box10]
  · norm_num [box10]

/-! ## Rotated lines -/

/-- The line of number `k` of a rotated set: the angle `a` is at most an eighth of a turn (or negative), the line goes from side to side. -/
noncomputable def leaning (b : Box ℝ) (a d : ℝ) : Line ℝ :=
  if a < 0 then ⟨⟨b.p1.x, b.p1.y + d⟩, ⟨b.p2.x, b.p1.y - |Real.sin a * (b.p2.x - b.p1.x)| + d⟩⟩
  else ⟨⟨b.p1.x, b.p1.y - |Real.sin a * (b.p2.x - b.p1.x)| + d⟩, ⟨b.p2.x, b.p1.y + d⟩⟩

/-- **C127**, rotated lines, as the program draws them: for an angle `θ` from minus a quarter to an eighth of a turn, the lines go from side to side
and rise (or fall) by `|sin θ|` times the width, at heights that differ by the spacing divided by `cos θ`; those drawn are exactly
the parts within the rectangle that are not shorter than the tolerance.  The rise should be `tan θ` times the width: see `C127_refuted_rotation`. -/
theorem C127_leaning_partial (eps : ℝ) (log : ℝ → ℝ) (e : ℝ) (c : LineArgs ℝ) (h : Even eps c) (h1 : -(Real.pi / 2) < c.angle) (h2 : c.angle ≤ Real.pi / 4)
    (hne : eps ≤ |c.angle|)
    (hw : eps ≤ c.cliprect.p2.x - c.cliprect.p1.x) (hd : eps ≤ |Real.sin c.angle * (c.cliprect.p2.x - c.cliprect.p1.x)|) :
    ∃ (n : ℕ) (found : ℕ → List (Line ℝ)), Draws eps log e c ((List.range n).flatMap found) ∧
      (∀ k : ℕ, k < n ↔ k * (c.spacing / Real.cos c.angle) < c.cliprect.p2.y - c.cliprect.p1.y + |Real.sin c.angle * (c.cliprect.p2.x - c.cliprect.p1.x)|) ∧
      ∀ k : ℕ, PartInside eps c.cliprect (leaning c.cliprect c.angle (k * (c.spacing / Real.cos c.angle))) (found k) := by
  have hp : 3 < Real.pi := Real.pi_gt_three
  have ha : lineAngle c.angle = c.angle := lineAngle_small (by linarith) (by linarith)
  have hv : lineVertical c.angle = false := not_vertical h2
  have hcos : 0 < Real.cos c.angle := Real.cos_pos_of_mem_Ioo ⟨h1, by linarith⟩
  have hpos : 0 < c.spacing / Real.cos c.angle := div_pos h.spacing hcos
  have := even_draws h log e (c.spacing / Real.cos c.angle) hpos (by
    rw [ha, axisSpacing, if_neg, if_neg (by rw [hv]; simp)]
    · exact pdiv_real (ne_of_gt hcos)
    · rw [isZero_iff, not_lt]; exact hne)
  rw [ha] at this
  have hext : maxExtent c.cliprect c.angle (c.spacing / Real.cos c.angle) 0 = c.cliprect.p2.y - c.cliprect.p1.y + |Real.sin c.angle * (c.cliprect.p2.x - c.cliprect.p1.x)| := by
    unfold maxExtent
    rw [hv]
    simp [boxHeight, boxWidth]
  rw [hext] at this
  refine ⟨_, _, this, ?_, ?_⟩
  · intro k
    rw [Nat.lt_ceil, lt_div_iff₀ hpos]
  · intro k
    have el : movedLine (lineVertical c.angle) (startLine c.cliprect c.angle) (k * (c.spacing / Real.cos c.angle)) =
        leaning c.cliprect c.angle (k * (c.spacing / Real.cos c.angle)) := by
      unfold movedLine startLine leaning
      rw [hv]
      by_cases hn : c.angle < 0
      · simp [boxWidth, P.add, hn]
      · simp [boxWidth, P.add, hn]
    rw [el]
    apply kept_part eps h.eps
    · right
      unfold leaning
      split <;> (dsimp only; rw [abs_of_nonneg (by linarith [h.eps])]; exact hw)
    · right
      unfold leaning
      split
      · dsimp only
        rw [show c.cliprect.p1.y - |Real.sin c.angle * (c.cliprect.p2.x - c.cliprect.p1.x)| + k * (c.spacing / Real.cos c.angle) -
          (c.cliprect.p1.y + k * (c.spacing / Real.cos c.angle)) = -|Real.sin c.angle * (c.cliprect.p2.x - c.cliprect.p1.x)| by ring, abs_neg, abs_abs]
        exact hd
      · dsimp only
        rw [show c.cliprect.p1.y + k * (c.spacing / Real.cos c.angle) - (c.cliprect.p1.y - |Real.sin c.angle * (c.cliprect.p2.x - c.cliprect.p1.x)| +
          k * (c.spacing / Real.cos c.angle)) = |Real.sin c.angle * (c.cliprect.p2.x - c.cliprect.p1.x)| by ring, abs_abs]
        exact hd

/-- Non-vacuity of `C127_leaning_partial`: a rotation by 30 degrees in a rectangle of 10 by 10. -/
example : (1 / 1000000 : ℝ) ≤ |Real.pi / 6| ∧ -(Real.pi / 2) < Real.pi / 6 ∧ Real.pi / 6 ≤ Real.pi / 4 ∧
    (1 / 1000000 : ℝ) ≤ |Real.sin (Real.pi / 6) * ((box10 : Box ℝ).p2.x - (box10 : Box ℝ).p1.x)| := by
  have hp : 3 < Real.pi := Real.pi_gt_three
  refine ⟨?_, by linarith, by linarith, ?_⟩
  · rw [abs_of_pos (by linarith)]; linarith
  · rw [Real.sin_pi_div_six]
    norm_num [box10]

/-- The direction of the drawn lines, for every set without random angles. -/
theorem drawn_direction (eps : ℝ) (heps : 0 < eps) (log : ℝ → ℝ) (e : ℝ) (fuel : Nat) (rnd : Noise ℝ) (c : LineArgs ℝ) (hj : c.angleJitter = 0)
    (ls : List (Line ℝ)) (h : lineSet eps log e fuel rnd c = some (.ok ls)) (l : Line ℝ) (hl : l ∈ ls) :
    ∃ m, 0 < |m| ∧ l.p2.x - l.p1.x = m * ((startLine c.cliprect (lineAngle c.angle)).p2.x - (startLine c.cliprect (lineAngle c.angle)).p1.x) ∧
      l.p2.y - l.p1.y = m * ((startLine c.cliprect (lineAngle c.angle)).p2.y - (startLine c.cliprect (lineAngle c.angle)).p1.y) := by
  unfold lineSet at h
  dsimp only at h
  cases ha : axisSpacing eps c.spacing (lineAngle c.angle) with
  | error x => rw [ha] at h; cases h
  | ok axis =>
    rw [ha] at h
    obtain ⟨k, d, hk⟩ := loop_mem eps log e c rnd _ axis _ _ _ fuel _ _ _ ls h l hl
    obtain ⟨-, hlen, s, t, h0, h01, h1, hr⟩ := kept_within eps heps _ _ _ hk
    have hjl : ∀ q : Line ℝ, jitteredLine eps c (rnd.angle k) q = q := by
      intro q
      unfold jitteredLine
      rw [if_pos]
      rw [isZero_iff, hj]; simpa using heps
    rw [hjl] at hr
    refine ⟨t - s, ?_, ?_, ?_⟩
    · rw [abs_pos]
      intro h0'
      have : s = t := by linarith
      rw [hr, this] at hlen
      unfold segLen sqDist at hlen
      simp at hlen
      linarith
    · rw [hr]
      unfold segPt movedLine
      cases lineVertical (lineAngle c.angle) <;> (simp [P.add]; ring)
    · rw [hr]
      unfold segPt movedLine
      cases lineVertical (lineAngle c.angle) <;> (simp [P.add]; ring)

/-- **C127**, refuted for rotated lines: if the angle asked for is not a multiple of a quarter turn, no line that is drawn has that direction (in a rectangle
that is not empty, without random angles): horizontal lines rise by `sin θ` of the width, not `tan θ`. -/
theorem C127_refuted_rotation (eps : ℝ) (heps : 0 < eps) (log : ℝ → ℝ) (e : ℝ) (fuel : Nat) (rnd : Noise ℝ) (c : LineArgs ℝ) (hj : c.angleJitter = 0)
    (h1 : -(Real.pi / 2) < c.angle) (h2 : c.angle < Real.pi / 2) (h0 : c.angle ≠ 0)
    (hw : c.cliprect.p1.x < c.cliprect.p2.x) (hh : c.cliprect.p1.y < c.cliprect.p2.y)
    (ls : List (Line ℝ)) (h : lineSet eps log e fuel rnd c = some (.ok ls)) :
    ∀ l ∈ ls, Real.cos c.angle * (l.p2.y - l.p1.y) - Real.sin c.angle * (l.p2.x - l.p1.x) ≠ 0 := by
  intro l hl
  have hp := Real.pi_pos
  obtain ⟨m, hm, hx, hy⟩ := drawn_direction eps heps log e fuel rnd c hj ls h l hl
  rw [abs_pos] at hm
  rw [lineAngle_small h1.le h2.le] at hx hy
  have hc : 0 < Real.cos c.angle := Real.cos_pos_of_mem_Ioo ⟨h1, h2⟩
  have hs : Real.sin c.angle ≠ 0 := by
    intro hs
    rcases lt_or_gt_of_ne h0 with hneg | hpos
    · have := Real.sin_neg_of_neg_of_neg_pi_lt hneg (by linarith); linarith
    · have := Real.sin_pos_of_pos_of_lt_pi hpos (by linarith); linarith
  have hc1 : Real.cos c.angle < 1 := by
    have := Real.sin_sq_add_cos_sq c.angle
    have : 0 < Real.sin c.angle ^ 2 := by positivity
    nlinarith
  have hs1 : Real.sin c.angle < 1 := by
    have := Real.sin_sq_add_cos_sq c.angle
    have : 0 < Real.cos c.angle ^ 2 := by positivity
    nlinarith
  rw [hx, hy]
  cases hv : lineVertical c.angle with
  | true =>
    have hva := (lineVertical_iff _).1 hv
    have hn : ¬ c.angle < 0 := by linarith [hva.1]
    unfold startLine
    rw [hv]
    simp only [if_true, real_lt, real_zero, hn, decide_false, Bool.false_eq_true, if_false, real_sub, real_abs, real_mul, real_cos, boxHeight]
    rw [abs_of_pos (mul_pos hc (by linarith))]
    have : Real.cos c.angle * (m * (c.cliprect.p2.y - c.cliprect.p1.y)) - Real.sin c.angle *
        (m * (c.cliprect.p1.x - (c.cliprect.p1.x - Real.cos c.angle * (c.cliprect.p2.y - c.cliprect.p1.y)))) =
        m * ((c.cliprect.p2.y - c.cliprect.p1.y) * (Real.cos c.angle * (1 - Real.sin c.angle))) := by ring
    rw [this]
    refine mul_ne_zero hm (mul_ne_zero (by linarith) (mul_ne_zero (ne_of_gt hc) (by linarith)))
  | false =>
    unfold startLine
    rw [hv]
    by_cases hn : c.angle < 0
    · have hsn : Real.sin c.angle < 0 := Real.sin_neg_of_neg_of_neg_pi_lt hn (by linarith)
      simp only [Bool.false_eq_true, if_true, real_lt, real_zero, hn, decide_true, if_false, real_sub, real_abs, real_mul, real_sin, boxWidth]
      rw [abs_of_neg (mul_neg_of_neg_of_pos hsn (by linarith))]
      have : Real.cos c.angle * (m * (c.cliprect.p1.y - -(Real.sin c.angle * (c.cliprect.p2.x - c.cliprect.p1.x)) - c.cliprect.p1.y)) -
          Real.sin c.angle * (m * (c.cliprect.p2.x - c.cliprect.p1.x)) =
          m * ((c.cliprect.p2.x - c.cliprect.p1.x) * (Real.sin c.angle * (Real.cos c.angle - 1))) := by ring
      rw [this]
      refine mul_ne_zero hm (mul_ne_zero (by linarith) (mul_ne_zero hs (by linarith)))
    · have hsn : 0 < Real.sin c.angle := Real.sin_pos_of_pos_of_lt_pi (lt_of_le_of_ne (not_lt.1 hn) (Ne.symm h0)) (by linarith)
      simp only [Bool.false_eq_true, real_lt, real_zero, hn, decide_false, if_false, real_sub, real_abs, real_mul, real_sin, boxWidth]
      rw [abs_of_pos (mul_pos hsn (by linarith))]
      have : Real.cos c.angle * (m * (c.cliprect.p1.y - (c.cliprect.p1.y - Real.sin c.angle * (c.cliprect.p2.x - c.cliprect.p1.x)))) -
          Real.sin c.angle * (m * (c.cliprect.p2.x - c.cliprect.p1.x)) =
          m * ((c.cliprect.p2.x - c.cliprect.p1.x) * (Real.sin c.angle * (Real.cos c.angle - 1))) := by ring
      rw [this]
      refine mul_ne_zero hm (mul_ne_zero (by linarith) (mul_ne_zero hs (by linarith)))

/-- Lines rotated by 30 degrees in a rectangle of 10 by 10, for the example. -/
noncomputable def rotated30 : LineArgs ℝ :=
  { cliprect := box10, spacing := Real.cos (Real.pi / 6) * 2.5, angle := Real.pi / 6, spacingJitter := 0, angleJitter := 0, vmin := 0, vmax := 0, cycles := 1 }

/-- Non-vacuity of `C127_refuted_rotation`: there are such lines. -/
example : ∃ ls, Draws (1 / 1000000) id 3 rotated30 ls ∧ ls ≠ [] := by
  have hp : 3 < Real.pi := Real.pi_gt_three
  have hp4 : Real.pi < 4 := Real.pi_lt_four
  have hcos : 0 < Real.cos (Real.pi / 6) := Real.cos_pos_of_mem_Ioo ⟨by linarith, by linarith⟩
  have hs : (rotated30.cliprect.p2.x - rotated30.cliprect.p1.x) = 10 := by simp [rotated30, box10]
  have hh : (rotated30.cliprect.p2.y - rotated30.cliprect.p1.y) = 10 := by simp [rotated30, box10]
  have hsin : |Real.sin rotated30.angle * (rotated30.cliprect.p2.x - rotated30.cliprect.p1.x)| = 5 := by
    rw [hs]
    simp only [rotated30, Real.sin_pi_div_six]
    norm_num
  have hax : rotated30.spacing / Real.cos rotated30.angle = 2.5 := by
    simp only [rotated30]
    field_simp
  obtain ⟨n, found, h1, h2, h3⟩ := C127_leaning_partial (1 / 1000000) id 3 rotated30
    ⟨rfl, rfl, rfl, rfl, rfl, one_ne_zero, by simp only [rotated30]; positivity, by norm_num⟩
    (by simp only [rotated30]; linarith) (by simp only [rotated30]; linarith)
    (by simp only [rotated30]; rw [abs_of_pos (by linarith)]; linarith) (by rw [hs]; norm_num) (by rw [hsin]; norm_num)
  refine ⟨_, h1, ?_⟩
  intro h0
  have h4 : found 4 = [] := by
    rw [List.flatMap_eq_nil_iff] at h0
    apply h0
    rw [List.mem_range, h2, hh, hsin, hax]
    norm_num
  have h5 := h3 4
  rw [hax] at h5
  have el : leaning rotated30.cliprect rotated30.angle (((4 : ℕ) : ℝ) * 2.5) = ⟨⟨0, 5⟩, ⟨10, 10⟩⟩ := by
    unfold leaning
    rw [hsin, if_neg (by simp only [rotated30]; linarith)]
    simp [rotated30, box10]
    norm_num
  rw [el] at h5
  rcases h5 with ⟨-, h5⟩ | ⟨s, e, -, -, -, h5, -⟩
  · have := h5 0 1 le_rfl zero_le_one zero_le_one le_rfl
      (by norm_num [Box.Contains, segPt, rotated30, box10]) (by norm_num [Box.Contains, segPt, rotated30, box10])
    have h6 : (10 : ℝ) ≤ segLen ⟨segPt ⟨⟨0, 5⟩, ⟨10, 10⟩⟩ 0, segPt ⟨⟨0, 5⟩, ⟨10, 10⟩⟩ 1⟩ := by
      unfold segLen
      apply Real.le_sqrt_of_sq_le
      norm_num [sqDist, segPt]
    linarith
  · rw [h4] at h5; cases h5

/-- **C127**, refuted if the spacing is inverted without a formula (the default of the option for vertical lines): whatever spacing is asked for, the
lines are a tenth of a unit apart: in a rectangle 1 high, 10 lines instead of the 2 that are asked for. -/
theorem C127_refuted_invert :
    ((lineSet (1 / 1000000 : ℚ) id 3 100 ⟨fun _ => 0, fun _ => 0⟩
      { cliprect := ⟨⟨0, 0⟩, ⟨1, 1⟩⟩, spacing := 1 / 2, angle := 0, spacingJitter := 0, angleJitter := 0, vmin := 0, vmax := 0, cycles := 1, invert := true }).bind
        Except.toOption).map List.length = some 10 ∧
    ((lineSet (1 / 1000000 : ℚ) id 3 100 ⟨fun _ => 0, fun _ => 0⟩
      { cliprect := ⟨⟨0, 0⟩, ⟨1, 1⟩⟩, spacing := 1 / 2, angle := 0, spacingJitter := 0, angleJitter := 0, vmin := 0, vmax := 0, cycles := 1, invert := false }).bind
        Except.toOption).map List.length = some 2 := by
  constructor <;> decide +kernel

end Verif.Ext
