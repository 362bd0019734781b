import Verif.Geom.Props3

/-!
# Properties C55–C58 (lines)
-/

set_option linter.unusedSectionVars false

namespace Verif.Geom
open Verif PyFloat PyTrig

/-- Specification: cross product of the direction vectors of two lines (zero iff parallel). -/
def dirCross (l o : Line ℝ) : ℝ :=
  (l.p2.x - l.p1.x) * (o.p2.y - o.p1.y) - (o.p2.x - o.p1.x) * (l.p2.y - l.p1.y)

/-- Specification: length of a segment. -/
noncomputable def segLen (l : Line ℝ) : ℝ := Real.sqrt (sqDist l.p1 l.p2)

theorem pointAt_real (l : Line ℝ) (t : ℝ) : l.pointAt t = segPt l t := by
  apply P.ext_real <;> simp [Line.pointAt, segPt, P.add, P.mul, P.sub] <;> ring

theorem length_real (l : Line ℝ) : l.length = segLen l := by
  unfold Line.length P.length segLen sqDist
  simp only [P.sub, real_hypot, real_sub]
  congr 1
  ring

/-- Specification: parameter `t` is outside the segment by more than `eps`. -/
def OutsideSeg (eps t : ℝ) : Prop := t < -eps ∨ 1 + eps < t

/-- **C55.** When `intersection` returns a point it lies on both lines, and, for each line whose segment flag is set, at
a parameter within `EPSILON` of `[0, 1]`.  When it returns `None` then either the cross product of the directions is below
`EPSILON`, or the lines cross but the crossing is outside a flagged segment by more than `EPSILON`. -/
theorem C55_intersection (eps : ℝ) (heps : 0 < eps) (l o : Line ℝ) (sg sA sB : Bool) :
    (∀ p, l.intersection eps o sg sA sB = some p → ∃ s t, p = segPt l s ∧ p = segPt o t ∧
      (∀ s' t', segPt l s' = segPt o t' → s' = s ∧ t' = t) ∧
      ((sg || sA) = true → ¬ OutsideSeg eps s) ∧ ((sg || sB) = true → ¬ OutsideSeg eps t)) ∧
    (l.intersection eps o sg sA sB = none → |dirCross l o| < eps ∨
      ∃ s t, segPt l s = segPt o t ∧ (((sg || sA) = true ∧ OutsideSeg eps s) ∨ ((sg || sB) = true ∧ OutsideSeg eps t))) := by
  have hd : l.denom o = dirCross l o := by
    unfold Line.denom dirCross; simp only [real_sub, real_mul]; ring
  unfold Line.intersection Line.intersectionMu
  rw [hd]
  dsimp only
  simp only [real_lt, real_abs, real_div, decide_eq_true_eq]
  by_cases hp : |dirCross l o| < eps
  · rw [if_pos hp]
    exact ⟨fun p h => absurd h (by simp), fun _ => .inl hp⟩
  · rw [if_neg hp]
    have hD : dirCross l o ≠ 0 := by
      intro h; rw [h] at hp; simp at hp; linarith
    have hA : l.numA o = (o.p2.x - o.p1.x) * (l.p1.y - o.p1.y) - (o.p2.y - o.p1.y) * (l.p1.x - o.p1.x) := by
      unfold Line.numA; simp only [real_sub, real_mul]
    have hB : l.numB o = (l.p2.x - l.p1.x) * (l.p1.y - o.p1.y) - (l.p2.y - l.p1.y) * (l.p1.x - o.p1.x) := by
      unfold Line.numB; simp only [real_sub, real_mul]
    generalize hs : l.numA o / dirCross l o = s
    generalize ht : l.numB o / dirCross l o = t
    have hs' : s * dirCross l o = l.numA o := by rw [← hs]; field_simp
    have ht' : t * dirCross l o = l.numB o := by rw [← ht]; field_simp
    have meet : segPt l s = segPt o t := by
      apply P.ext_real
      · apply mul_right_cancel₀ hD
        have e1 : (segPt l s).x * dirCross l o = l.p1.x * dirCross l o + (s * dirCross l o) * (l.p2.x - l.p1.x) := by
          simp only [segPt]; ring
        have e2 : (segPt o t).x * dirCross l o = o.p1.x * dirCross l o + (t * dirCross l o) * (o.p2.x - o.p1.x) := by
          simp only [segPt]; ring
        rw [e1, e2, hs', ht', hA, hB]
        unfold dirCross; ring
      · apply mul_right_cancel₀ hD
        have e1 : (segPt l s).y * dirCross l o = l.p1.y * dirCross l o + (s * dirCross l o) * (l.p2.y - l.p1.y) := by
          simp only [segPt]; ring
        have e2 : (segPt o t).y * dirCross l o = o.p1.y * dirCross l o + (t * dirCross l o) * (o.p2.y - o.p1.y) := by
          simp only [segPt]; ring
        rw [e1, e2, hs', ht', hA, hB]
        unfold dirCross; ring
    have uniq : ∀ s' t', segPt l s' = segPt o t' → s' = s ∧ t' = t := by
      intro s' t' h
      have hx : (segPt l s').x = (segPt o t').x := by rw [h]
      have hy : (segPt l s').y = (segPt o t').y := by rw [h]
      have hx0 : (segPt l s).x = (segPt o t).x := by rw [meet]
      have hy0 : (segPt l s).y = (segPt o t).y := by rw [meet]
      simp only [segPt] at hx hy hx0 hy0
      constructor
      · have : (s' - s) * dirCross l o = 0 := by
          unfold dirCross
          linear_combination (o.p2.y - o.p1.y) * (hx - hx0) - (o.p2.x - o.p1.x) * (hy - hy0)
        rcases mul_eq_zero.1 this with h | h
        · linarith
        · exact absurd h hD
      · have : (t' - t) * dirCross l o = 0 := by
          unfold dirCross
          linear_combination (l.p2.y - l.p1.y) * (hx - hx0) - (l.p2.x - l.p1.x) * (hy - hy0)
        rcases mul_eq_zero.1 this with h | h
        · linarith
        · exact absurd h hD
    have hout : ∀ u : ℝ, Line.muOutside eps u = true ↔ OutsideSeg eps u := by
      intro u; unfold Line.muOutside OutsideSeg
      simp only [real_lt, real_neg, real_add, real_one, Bool.or_eq_true, decide_eq_true_eq]
    by_cases hc : ((sg || sA) && Line.muOutside eps s || (sg || sB) && Line.muOutside eps t) = true
    · rw [if_pos hc]
      refine ⟨fun p h => absurd h (by simp), fun _ => .inr ⟨s, t, meet, ?_⟩⟩
      rw [Bool.or_eq_true, Bool.and_eq_true, Bool.and_eq_true, hout, hout] at hc
      exact hc
    · rw [if_neg hc]
      rw [Bool.or_eq_true, Bool.and_eq_true, Bool.and_eq_true, hout, hout] at hc
      push Not at hc
      refine ⟨fun p h => ?_, fun h => absurd h (by simp)⟩
      rw [Option.map_some, Option.some.injEq, pointAt_real] at h
      exact ⟨s, t, h.symm, by rw [← h, meet], uniq, hc.1, hc.2⟩

/-- Non-vacuity: crossing diagonals meet in the middle; the same lines, one moved away, do not meet as segments. -/
example : (Line.mk ⟨0, 0⟩ ⟨2, 2⟩ : Line ℚ).intersection (1/1000000) ⟨⟨0, 2⟩, ⟨2, 0⟩⟩ true = some ⟨1, 1⟩ ∧
    (Line.mk ⟨0, 0⟩ ⟨2, 2⟩ : Line ℚ).intersection (1/1000000) ⟨⟨5, 2⟩, ⟨7, 0⟩⟩ true = none ∧
    (Line.mk ⟨0, 0⟩ ⟨2, 2⟩ : Line ℚ).intersection (1/1000000) ⟨⟨5, 2⟩, ⟨7, 0⟩⟩ = some ⟨7/2, 7/2⟩ := by
  decide +kernel

/-! ## C56 -/

/-- Specification: signed side of a point, positive on the left. -/
def side (l : Line ℝ) (p : P ℝ) : ℝ := leftArea2 l.p1 l.p2 p

/-- Specification: both in the closed left half plane or both in the open right one. -/
def SameSide (l : Line ℝ) (p q : P ℝ) : Prop := (0 ≤ side l p ∧ 0 ≤ side l q) ∨ (side l p < 0 ∧ side l q < 0)

theorem cross_side (l : Line ℝ) (p : P ℝ) : (l.p2.sub l.p1).cross (p.sub l.p1) = side l p := by
  unfold P.cross P.sub side leftArea2; simp only [real_sub, real_mul]

/-- What the function computes. -/
theorem sameSide_iff (l : Line ℝ) (p q : P ℝ) : l.sameSide p q = true ↔ 0 ≤ side l p ∨ (side l p < 0 ∧ side l q < 0) := by
  unfold Line.sameSide
  dsimp only
  rw [cross_side, cross_side]
  simp only [real_le, real_lt, real_zero, Bool.or_eq_true, Bool.and_eq_true, decide_eq_true_eq, and_self]

/-- **C56** is false: for every line and every pair of points on different sides of it, `same_side` answers `True` in one
order of the arguments (so it is not symmetric either). -/
theorem C56_refuted (l : Line ℝ) (p q : P ℝ) (hp : 0 ≤ side l p) (hq : side l q < 0) :
    ¬ SameSide l p q ∧ l.sameSide p q = true ∧ l.sameSide q p = false := by
  refine ⟨?_, ?_, ?_⟩
  · rintro (⟨_, h⟩ | ⟨h, _⟩) <;> linarith
  · rw [sameSide_iff]; exact .inl hp
  · rw [← Bool.not_eq_true, sameSide_iff]
    rintro (h | ⟨_, h⟩) <;> linarith

/-- Points as in the refutation exist. -/
example : ∃ (l : Line ℝ) (p q : P ℝ), 0 ≤ side l p ∧ side l q < 0 :=
  ⟨⟨⟨0, 0⟩, ⟨1, 0⟩⟩, ⟨0, 1⟩, ⟨0, -1⟩, by norm_num [side, leftArea2], by norm_num [side, leftArea2]⟩

/-- **C56**, the part that holds: points on the same side are always reported so, and the answer is right whenever the
first point is strictly right of the line or the second is on its left.  Missing: first left, second right. -/
theorem C56_same_side_partial (l : Line ℝ) (p q : P ℝ) :
    (SameSide l p q → l.sameSide p q = true) ∧
      (side l p < 0 ∨ 0 ≤ side l q → (l.sameSide p q = true ↔ SameSide l p q)) := by
  rw [sameSide_iff]
  unfold SameSide
  constructor
  · rintro (⟨h, _⟩ | h)
    · exact .inl h
    · exact .inr h
  · rintro (h | h)
    · constructor
      · rintro (h' | h')
        · linarith
        · exact .inr h'
      · rintro (⟨h', _⟩ | h')
        · linarith
        · exact .inr h'
    · constructor
      · rintro (h' | ⟨_, h'⟩)
        · exact .inl ⟨h', h⟩
        · linarith
      · rintro (⟨h', _⟩ | ⟨_, h'⟩)
        · exact .inl h'
        · linarith

/-! ## C57 -/

theorem normProj_real (eps : ℝ) (v w : P ℝ) : v.normalProjection eps w =
    if v.x ^ 2 + v.y ^ 2 < eps ^ 2 then 0 else (w.x * v.x + w.y * v.y) / (v.x ^ 2 + v.y ^ 2) := by
  unfold P.normalProjection P.length2 P.dot
  simp only [real_lt, real_add, real_mul, real_div, real_zero, decide_eq_true_eq]
  simp only [← pow_two]

theorem sqrt_le_sqrt' {a b : ℝ} (h : a ≤ b) : Real.sqrt a ≤ Real.sqrt b := Real.sqrt_le_sqrt h

/-- Triangle inequality for the Euclidean distance. -/
theorem dist_triangle' (p q r : P ℝ) : Real.sqrt (sqDist p r) ≤ Real.sqrt (sqDist p q) + Real.sqrt (sqDist q r) := by
  apply le_of_forall_pos_lt_add
  intro e he
  have h1 : sqDist p q < (Real.sqrt (sqDist p q) + e / 2) ^ 2 := by
    have := Real.sq_sqrt (show 0 ≤ sqDist p q by unfold sqDist; positivity)
    nlinarith [Real.sqrt_nonneg (sqDist p q)]
  have h2 : sqDist q r < (Real.sqrt (sqDist q r) + e / 2) ^ 2 := by
    have := Real.sq_sqrt (show 0 ≤ sqDist q r by unfold sqDist; positivity)
    nlinarith [Real.sqrt_nonneg (sqDist q r)]
  have := sqDist_triangle _ _ (by positivity) (by positivity) p q r h1 h2
  have h3 := Real.sqrt_lt_sqrt (by unfold sqDist; positivity) this
  rw [Real.sqrt_sq (by positivity)] at h3
  linarith

/-- **C57.** For every point `p` and every segment, `normal_projection_point(p, segment=True)` is a point of the
segment and `distance_to_point` is its distance from `p`.  If the segment is at least `EPSILON` long (or a single point) no
point of the segment is closer; for shorter segments no point is closer by `EPSILON` or more. -/
theorem C57_projection (eps : ℝ) (heps : 0 < eps) (l : Line ℝ) (p : P ℝ) :
    (∃ t, 0 ≤ t ∧ t ≤ 1 ∧ l.normalProjectionPoint eps p true = segPt l t) ∧
    l.distanceToPoint eps p true = Real.sqrt (sqDist (l.normalProjectionPoint eps p true) p) ∧
    (eps ≤ segLen l ∨ l.p1 = l.p2 → ∀ t, 0 ≤ t → t ≤ 1 → l.distanceToPoint eps p true ≤ Real.sqrt (sqDist (segPt l t) p)) ∧
    (∀ t, 0 ≤ t → t ≤ 1 → l.distanceToPoint eps p true < Real.sqrt (sqDist (segPt l t) p) + eps) := by
  have hdist : l.distanceToPoint eps p true = Real.sqrt (sqDist (l.normalProjectionPoint eps p true) p) := by
    unfold Line.distanceToPoint; rw [distance_real]
  have exact : (eps ≤ segLen l ∨ l.p1 = l.p2 → ∀ t, 0 ≤ t → t ≤ 1 →
      l.distanceToPoint eps p true ≤ Real.sqrt (sqDist (segPt l t) p)) := by
    intro hlen t t0 t1
    rw [hdist]
    apply Real.sqrt_le_sqrt
    rcases hlen with hlen | hlen
    · have hL : eps ^ 2 ≤ (l.p2.x - l.p1.x) ^ 2 + (l.p2.y - l.p1.y) ^ 2 := by
        unfold segLen sqDist at hlen
        have := Real.sq_sqrt (show 0 ≤ (l.p1.x - l.p2.x) ^ 2 + (l.p1.y - l.p2.y) ^ 2 by positivity)
        nlinarith [Real.sqrt_nonneg ((l.p1.x - l.p2.x) ^ 2 + (l.p1.y - l.p2.y) ^ 2)]
      have hLpos : 0 < (l.p2.x - l.p1.x) ^ 2 + (l.p2.y - l.p1.y) ^ 2 := lt_of_lt_of_le (by positivity) hL
      unfold Line.normalProjectionPoint
      dsimp only
      rw [normProj_real, if_neg (c := (l.p2.sub l.p1).x ^ 2 + (l.p2.sub l.p1).y ^ 2 < eps ^ 2) (not_lt.2 hL)]
      simp only [P.sub, real_sub]
      simp only [Bool.true_and, real_le, real_zero, real_one, decide_eq_true_eq]
      set dx := l.p2.x - l.p1.x with hdx
      set dy := l.p2.y - l.p1.y with hdy
      set px := p.x - l.p1.x with hpx
      set py := p.y - l.p1.y with hpy
      set L := dx ^ 2 + dy ^ 2 with hLdef
      have eT : sqDist (segPt l t) p = (t * dx - px) ^ 2 + (t * dy - py) ^ 2 := by
        simp only [sqDist, segPt, hdx, hdy, hpx, hpy]; ring
      rw [eT]
      split
      · rename_i h
        rw [div_le_iff₀ hLpos] at h
        have e1 : sqDist l.p1 p = px ^ 2 + py ^ 2 := by simp only [sqDist, hpx, hpy]; ring
        rw [e1]
        nlinarith [mul_nonneg t0 (sq_nonneg dx), mul_nonneg t0 (sq_nonneg dy), sq_nonneg (t * dx), sq_nonneg (t * dy)]
      · split
        · rename_i h1 h2
          rw [le_div_iff₀ hLpos] at h2
          have e1 : sqDist l.p2 p = (dx - px) ^ 2 + (dy - py) ^ 2 := by simp only [sqDist, hpx, hpy, hdx, hdy]; ring
          rw [e1]
          nlinarith [mul_nonneg (sub_nonneg.2 t1) (sub_nonneg.2 h2), sq_nonneg ((1 - t) * dx), sq_nonneg ((1 - t) * dy)]
        · generalize hu : (px * dx + py * dy) / L = u
          have hu' : u * L = px * dx + py * dy := by rw [← hu]; field_simp
          have e1 : sqDist (P.add l.p1 (P.mul ⟨dx, dy⟩ u)) p = (u * dx - px) ^ 2 + (u * dy - py) ^ 2 := by
            simp only [sqDist, P.add, P.mul, real_add, real_mul, hpx, hpy]; ring
          rw [e1]
          have : (t * dx - px) ^ 2 + (t * dy - py) ^ 2 - ((u * dx - px) ^ 2 + (u * dy - py) ^ 2) = (t - u) ^ 2 * L := by
            rw [hLdef] at hu' ⊢
            linear_combination (-2 * (u - t)) * hu'
          nlinarith [mul_nonneg (sq_nonneg (t - u)) hLpos.le]
    · obtain ⟨s, s0, s1, e⟩ := projPoint_on_segment eps l p
      rw [e]
      simp only [segPt, hlen, sub_self, mul_zero, add_zero]
      exact le_rfl
  refine ⟨projPoint_on_segment eps l p, hdist, exact, ?_⟩
  intro t t0 t1
  by_cases hlen : eps ≤ segLen l
  · have := exact (.inl hlen) t t0 t1
    linarith
  · push Not at hlen
    obtain ⟨s, s0, s1, e⟩ := projPoint_on_segment eps l p
    rw [hdist, e]
    have h1 := dist_triangle' (segPt l s) (segPt l t) p
    have h2 : Real.sqrt (sqDist (segPt l s) (segPt l t)) ≤ segLen l := by
      unfold segLen
      apply Real.sqrt_le_sqrt
      simp only [sqDist, segPt]
      have : |s - t| ≤ 1 := by rw [abs_le]; constructor <;> linarith
      have h3 : (s - t) ^ 2 ≤ 1 := by rw [← sq_abs]; nlinarith [abs_nonneg (s - t)]
      have e2 : (l.p1.x + s * (l.p2.x - l.p1.x) - (l.p1.x + t * (l.p2.x - l.p1.x))) ^ 2 +
          (l.p1.y + s * (l.p2.y - l.p1.y) - (l.p1.y + t * (l.p2.y - l.p1.y))) ^ 2
          = (s - t) ^ 2 * ((l.p1.x - l.p2.x) ^ 2 + (l.p1.y - l.p2.y) ^ 2) := by ring
      rw [e2]
      nlinarith [sq_nonneg (l.p1.x - l.p2.x), sq_nonneg (l.p1.y - l.p2.y)]
    linarith

/-- Non-vacuity: the projection is an end point for a point beyond the segment. -/
example : (Line.mk ⟨0, 0⟩ ⟨2, 0⟩ : Line ℚ).normalProjectionPoint (1/1000000) ⟨5, 0⟩ true = ⟨2, 0⟩ ∧
    (Line.mk ⟨0, 0⟩ ⟨2, 0⟩ : Line ℚ).distanceToPoint (1/1000000) ⟨1, 3⟩ true = 3 := by decide +kernel

/-! ## C58 -/

/-- Specification: the segment moved by a vector. -/
def shiftL (v : P ℝ) (l : Line ℝ) : Line ℝ := ⟨shiftP v l.p1, shiftP v l.p2⟩

theorem segLen_shift (v : P ℝ) (l : Line ℝ) : segLen (shiftL v l) = segLen l := by
  unfold segLen sqDist shiftL shiftP; congr 1; ring

theorem segLen_sq (l : Line ℝ) : segLen l ^ 2 = (l.p2.x - l.p1.x) ^ 2 + (l.p2.y - l.p1.y) ^ 2 := by
  unfold segLen
  rw [Real.sq_sqrt (by unfold sqDist; positivity)]
  unfold sqDist; ring

/-- **C58** (`shift`).  Shifting a segment of positive length moves it along itself by exactly the amount, without
changing length or direction. -/
theorem C58_shift (l : Line ℝ) (d : ℝ) (h : 0 < segLen l) :
    ∃ v, l.shift d = .ok (shiftL v l) ∧ v = ⟨d / segLen l * (l.p2.x - l.p1.x), d / segLen l * (l.p2.y - l.p1.y)⟩ ∧
      v.x ^ 2 + v.y ^ 2 = d ^ 2 ∧ segLen (shiftL v l) = segLen l := by
  refine ⟨_, ?_, rfl, ?_, segLen_shift _ _⟩
  · unfold Line.shift pdiv
    rw [length_real]
    simp only [real_beq, real_zero, ne_of_gt h, decide_false, Bool.false_eq_true, if_false, bind, Except.bind, pure,
      Except.pure]
    congr 2 <;> apply P.ext_real <;> simp [shiftP, P.add, P.sub, P.mul] <;> ring
  · have := segLen_sq l
    simp only
    field_simp
    nlinarith

/-- Lengths of a segment extended at its end. -/
theorem segLen_scale (l : Line ℝ) (k : ℝ) (a b : P ℝ) (hx : b.x - a.x = k * (l.p2.x - l.p1.x))
    (hy : b.y - a.y = k * (l.p2.y - l.p1.y)) : segLen ⟨a, b⟩ = |k| * segLen l := by
  have e : sqDist a b = k ^ 2 * sqDist l.p1 l.p2 := by
    have h1 : sqDist a b = (b.x - a.x) ^ 2 + (b.y - a.y) ^ 2 := by unfold sqDist; ring
    rw [h1, hx, hy]; unfold sqDist; ring
  show Real.sqrt (sqDist a b) = _
  rw [e, Real.sqrt_mul (sq_nonneg k), Real.sqrt_sq_eq_abs]
  rfl

/-- **C58** (`extend`).  Extending a segment of positive length keeps its start point (its midpoint with `from_midpoint`) and
its line, and changes the length by exactly the amount (as long as the amount does not exceed the length
backwards); a zero-length segment raises `ZeroDivisionError`. -/
theorem C58_extend (l : Line ℝ) (d : ℝ) (h : 0 < segLen l) (hd : -segLen l ≤ d) :
    (∃ r, l.extend d = .ok r ∧ r.p1 = l.p1 ∧ (∃ t, 0 ≤ t ∧ r.p2 = segPt l t) ∧ segLen r = segLen l + d) ∧
    (∃ r, l.extend d true = .ok r ∧ r.midpoint = l.midpoint ∧ (∃ s t, r = ⟨segPt l s, segPt l t⟩) ∧
      segLen r = segLen l + d) := by
  have hne : segLen l ≠ 0 := ne_of_gt h
  have hk : 0 ≤ 1 + d / segLen l := by
    rw [← div_self hne, ← add_div]; apply div_nonneg <;> linarith
  constructor
  · refine ⟨⟨l.p1, segPt l (1 + d / segLen l)⟩, ?_, rfl, ⟨_, hk, rfl⟩, ?_⟩
    · unfold Line.extend pdiv
      rw [length_real]
      simp only [real_beq, real_zero, hne, decide_false, Bool.false_eq_true, if_false, bind, Except.bind, pure, Except.pure,
        real_div]
      congr 2
      apply P.ext_real <;> simp [segPt, P.add, P.sub, P.mul] <;> ring
    · rw [segLen_scale l (1 + d / segLen l) _ _ (by simp only [segPt]; ring) (by simp only [segPt]; ring), abs_of_nonneg hk]
      field_simp
  · refine ⟨⟨segPt l (-(d / 2 / segLen l)), segPt l (1 + d / 2 / segLen l)⟩, ?_, ?_, ⟨_, _, rfl⟩, ?_⟩
    · unfold Line.extend pdiv
      rw [length_real]
      simp only [real_beq, real_zero, hne, decide_false, Bool.false_eq_true, if_false, if_true, bind, Except.bind, pure,
        Except.pure, real_div, real_ofInt]
      congr 2
      · apply P.ext_real <;> simp [segPt, P.add, P.sub, P.mul] <;> ring
      · apply P.ext_real <;> simp [segPt, P.add, P.sub, P.mul] <;> ring
    · apply P.ext_real <;> simp [Line.midpoint, segPt, P.add, P.mul] <;> ring
    · rw [segLen_scale l (1 + d / segLen l) _ _ (by simp only [segPt]; ring) (by simp only [segPt]; ring), abs_of_nonneg hk]
      field_simp

/-- **C58** (degenerate).  `extend` and `shift` of a zero-length segment raise `ZeroDivisionError`. -/
theorem C58_degenerate (l : Line ℝ) (d : ℝ) (m : Bool) (h : segLen l = 0) :
    l.extend d m = .error .zeroDivision ∧ l.shift d = .error .zeroDivision := by
  unfold Line.extend Line.shift pdiv
  rw [length_real, h]
  simp [bind, Except.bind]

/-- **C58** (`offset`).  Offsetting translates the segment perpendicularly: length and direction are unchanged and the
displacement is exactly the distance, to the left for positive distances; distances or segments shorter than `EPSILON` leave
the segment as it is. -/
theorem C58_offset (eps : ℝ) (heps : 0 < eps) (l : Line ℝ) (d : ℝ) :
    (|d| < eps ∨ segLen l < eps → l.offset eps d = l) ∧
    (eps ≤ |d| → eps ≤ segLen l → ∃ v, l.offset eps d = shiftL v l ∧ v.x ^ 2 + v.y ^ 2 = d ^ 2 ∧
      v.x * (l.p2.x - l.p1.x) + v.y * (l.p2.y - l.p1.y) = 0 ∧
      side l (shiftP v l.p1) = d * segLen l ∧ segLen (l.offset eps d) = segLen l) := by
  have hnn : 0 ≤ segLen l := Real.sqrt_nonneg _
  constructor
  · intro h
    unfold Line.offset
    rw [length_real]
    rw [if_pos]
    rw [Bool.or_eq_true, isZero_iff, isZero_iff, abs_of_nonneg hnn]
    exact h
  · intro h1 h2
    have hpos : 0 < segLen l := lt_of_lt_of_le heps h2
    have hne : segLen l ≠ 0 := ne_of_gt hpos
    have key : l.offset eps d = shiftL ⟨-(l.p2.y - l.p1.y) * (d / segLen l), (l.p2.x - l.p1.x) * (d / segLen l)⟩ l := by
      unfold Line.offset
      rw [length_real]
      rw [if_neg]
      · simp only [real_div]
        generalize d / segLen l = u
        unfold shiftL
        congr 1 <;> apply P.ext_real <;> simp [shiftP, P.add, P.sub, P.mul, P.normal] <;> ring
      · rw [Bool.or_eq_true, isZero_iff, isZero_iff, abs_of_nonneg hnn]
        rintro (h | h) <;> linarith
    have hsq := segLen_sq l
    refine ⟨_, key, ?_, ?_, ?_, ?_⟩
    · simp only
      field_simp
      nlinarith
    · simp only; ring
    · simp only [side, leftArea2, shiftP]
      have e : (l.p2.x - l.p1.x) * (l.p1.y + (l.p2.x - l.p1.x) * (d / segLen l) - l.p1.y) -
          (l.p1.x + -(l.p2.y - l.p1.y) * (d / segLen l) - l.p1.x) * (l.p2.y - l.p1.y)
          = (d / segLen l) * segLen l ^ 2 := by rw [hsq]; ring
      rw [e]; field_simp
    · rw [key, segLen_shift]

/-- **C58** (`subdivide`).  For `0 < mu < 1` the two parts join at `point_at(mu)`, keep the outer end points, and their
lengths are the fractions `mu` and `1 - mu` of the whole, so they add up; other `mu` are refused. -/
theorem C58_subdivide (l : Line ℝ) (mu : ℝ) :
    (0 < mu → mu < 1 → ∃ a b, l.subdivide mu = .ok (a, b) ∧ a.p1 = l.p1 ∧ b.p2 = l.p2 ∧ a.p2 = b.p1 ∧
      segLen a = mu * segLen l ∧ segLen b = (1 - mu) * segLen l ∧ segLen a + segLen b = segLen l) ∧
    (mu ≤ 0 ∨ 1 ≤ mu → ∃ e, l.subdivide mu = .error e) := by
  constructor
  · intro h0 h1
    refine ⟨⟨l.p1, segPt l mu⟩, ⟨segPt l mu, l.p2⟩, ?_, rfl, rfl, rfl, ?_, ?_, ?_⟩
    · unfold Line.subdivide
      rw [pointAt_real]
      simp [h0, h1]
    · rw [segLen_scale l mu _ _ (by simp only [segPt]; ring) (by simp only [segPt]; ring), abs_of_pos h0]
    · rw [segLen_scale l (1 - mu) _ _ (by simp only [segPt]; ring) (by simp only [segPt]; ring), abs_of_pos (by linarith)]
    · rw [segLen_scale l mu l.p1 (segPt l mu) (by simp only [segPt]; ring) (by simp only [segPt]; ring), abs_of_pos h0]
      rw [segLen_scale l (1 - mu) (segPt l mu) l.p2 (by simp only [segPt]; ring) (by simp only [segPt]; ring),
        abs_of_pos (by linarith)]
      ring
  · intro h
    refine ⟨.runtime, ?_⟩
    unfold Line.subdivide
    rw [if_neg]
    simp only [real_lt, real_zero, real_one, Bool.and_eq_true, decide_eq_true_eq, not_and, not_lt]
    intro h0
    rcases h with h | h <;> linarith

/-- **C58** (`flipped`).  Flipping keeps the start point and the length and points the other way; twice is the identity. -/
theorem C58_flipped (l : Line ℝ) :
    l.flipped.p1 = l.p1 ∧ l.flipped.p2 = segPt l (-1) ∧ segLen l.flipped = segLen l ∧ l.flipped.flipped = l := by
  have h2 : l.flipped.p2 = segPt l (-1) := by
    apply P.ext_real <;> simp [Line.flipped, segPt, P.add, P.sub, P.neg] <;> ring
  refine ⟨rfl, h2, ?_, ?_⟩
  · rw [show l.flipped = ⟨l.p1, segPt l (-1)⟩ by rw [← h2]; rfl]
    rw [segLen_scale l (-1) _ _ (by simp only [segPt]; ring) (by simp only [segPt]; ring)]
    simp
  · ext <;> simp [Line.flipped, P.add, P.sub, P.neg]

/-- Non-vacuity: a segment of positive length, and the values the theorems speak of. -/
example : (Line.mk ⟨0, 0⟩ ⟨4, 0⟩ : Line ℚ).extend 1 = .ok ⟨⟨0, 0⟩, ⟨5, 0⟩⟩ ∧
    (Line.mk ⟨0, 0⟩ ⟨4, 0⟩ : Line ℚ).shift 1 = .ok ⟨⟨1, 0⟩, ⟨5, 0⟩⟩ ∧
    (Line.mk ⟨0, 0⟩ ⟨4, 0⟩ : Line ℚ).offset (1/1000000) 1 = ⟨⟨0, 1⟩, ⟨4, 1⟩⟩ := by decide +kernel

end Verif.Geom
