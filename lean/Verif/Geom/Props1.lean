import Verif.Geom.Shapes
import Mathlib.Data.Int.Bitwise

/-!
# Properties C41–C48, C50 (transforms, points, boxes)

Theorems about ℝ are about the model instantiated with exact real arithmetic.
-/

set_option linter.unusedSectionVars false

namespace Verif.Geom
open Verif PyFloat PyTrig

/-- Two points of the real plane are the same when their coordinates are. -/
theorem P.ext_real {p q : P ℝ} (hx : p.x = q.x) (hy : p.y = q.y) : p = q := P.ext hx hy

/-- Specification: squared Euclidean distance. -/
def sqDist (p q : P ℝ) : ℝ := (p.x - q.x) ^ 2 + (p.y - q.y) ^ 2

/-! ## C41 -/

/-- **C41.** Composing two matrices and applying the result is applying one after the other; composition is
associative and the identity matrix is a two-sided unit. -/
theorem C41_compose (m1 m2 m3 : Mat ℝ) (p : P ℝ) :
    (m1.compose m2).apply p = m1.apply (m2.apply p) ∧
    (m1.compose m2).compose m3 = m1.compose (m2.compose m3) ∧
    m1.compose Mat.ident = m1 ∧ Mat.ident.compose m1 = m1 ∧ Mat.ident.apply p = p := by
  refine ⟨?_, ?_, ?_, ?_, ?_⟩
  · apply P.ext_real <;> simp [Mat.compose, Mat.apply] <;> ring
  · ext <;> simp [Mat.compose] <;> ring
  · ext <;> simp [Mat.compose, Mat.ident]
  · ext <;> simp [Mat.compose, Mat.ident]
  · ext <;> simp [Mat.apply, Mat.ident]

/-- Non-vacuity: composition is not commutative, so the order in the statement matters. -/
example : (Mat.compose (Mat.scale 2 2) (Mat.translate 1 0) : Mat ℚ) ≠
    Mat.compose (Mat.translate 1 0) (Mat.scale 2 2) := by decide +kernel

/-! ## C42 -/

theorem rotate_apply (t : ℝ) (o p : P ℝ) :
    (Mat.rotate t o).apply p =
      ⟨o.x + Real.cos t * (p.x - o.x) - Real.sin t * (p.y - o.y),
       o.y + Real.sin t * (p.x - o.x) + Real.cos t * (p.y - o.y)⟩ := by
  apply P.ext_real <;> simp [Mat.rotate, Mat.compose, Mat.apply, Mat.translate] <;> ring

/-- **C42.** Rotation about `o` by `t` turns the offset from `o` by `t` (the textbook rotation), so it fixes `o`, preserves
all distances, and rotations about one origin compose by adding their angles. -/
theorem C42_rotation (s t : ℝ) (o p q : P ℝ) :
    (Mat.rotate t o).apply o = o ∧
    sqDist ((Mat.rotate t o).apply p) ((Mat.rotate t o).apply q) = sqDist p q ∧
    (Mat.rotate s o).apply ((Mat.rotate t o).apply p) = (Mat.rotate (s + t) o).apply p ∧
    (Mat.rotate t o).apply p =
      ⟨o.x + Real.cos t * (p.x - o.x) - Real.sin t * (p.y - o.y),
       o.y + Real.sin t * (p.x - o.x) + Real.cos t * (p.y - o.y)⟩ := by
  have h := Real.sin_sq_add_cos_sq t
  refine ⟨?_, ?_, ?_, rotate_apply t o p⟩
  · rw [rotate_apply]; apply P.ext_real <;> simp
  · rw [rotate_apply, rotate_apply]
    simp only [sqDist]
    have e : Real.sin t ^ 2 = 1 - Real.cos t ^ 2 := by linarith
    ring_nf
    rw [e]
    ring
  · rw [rotate_apply, rotate_apply, rotate_apply]
    apply P.ext_real
    · simp only [Real.cos_add, Real.sin_add]; ring
    · simp only [Real.cos_add, Real.sin_add]; ring

/-- A quarter turn about `(1, 0)` takes `(2, 0)` to `(1, 1)`: counter-clockwise is positive. -/
example : (Mat.rotate (Real.pi / 2) ⟨1, 0⟩).apply (⟨2, 0⟩ : P ℝ) = ⟨1, 1⟩ := by
  rw [rotate_apply]; apply P.ext_real <;> norm_num

/-! ## C43 -/

/-- **C43.** Scaling about an origin fixes it and multiplies the offsets from it by the two factors; without an origin
it scales about `(0, 0)`. -/
theorem C43_scale (sx sy : ℝ) (o p : P ℝ) :
    (Mat.scale sx sy (some o)).apply o = o ∧
    (Mat.scale sx sy (some o)).apply p = ⟨o.x + sx * (p.x - o.x), o.y + sy * (p.y - o.y)⟩ ∧
    (Mat.scale sx sy none).apply p = ⟨sx * p.x, sy * p.y⟩ := by
  refine ⟨?_, ?_, ?_⟩ <;> apply P.ext_real <;>
    simp [Mat.scale, Mat.compose, Mat.apply, Mat.translate] <;> ring

/-! ## C44 -/

theorem almostEq_iff (tol : ℝ) (p q : P ℝ) : p.almostEq tol q = true ↔ sqDist p q < tol ^ 2 := by
  unfold P.almostEq sqDist
  simp only [real_lt, real_add, real_mul, real_sub, decide_eq_true_eq]
  rw [show (p.x - q.x) ^ 2 + (p.y - q.y) ^ 2 = (p.x - q.x) * (p.x - q.x) + (p.y - q.y) * (p.y - q.y) by ring,
    show tol ^ 2 = tol * tol by ring]

theorem eq_iff (eps : ℝ) (p q : P ℝ) : p.eq eps q = true ↔ sqDist p q < eps ^ 2 := almostEq_iff eps p q

/-- **C44** is false as stated: approximate equality is not transitive, for any tolerance. -/
theorem C44_refuted_transitivity (eps : ℝ) (h : 0 < eps) :
    ∃ p q r : P ℝ, p.eq eps q = true ∧ q.eq eps r = true ∧ p.eq eps r = false := by
  refine ⟨⟨0, 0⟩, ⟨3 / 4 * eps, 0⟩, ⟨3 / 2 * eps, 0⟩, ?_, ?_, ?_⟩
  · rw [eq_iff]; simp only [sqDist]; nlinarith [sq_nonneg eps, mul_pos h h]
  · rw [eq_iff]; simp only [sqDist]; nlinarith [sq_nonneg eps, mul_pos h h]
  · rw [← Bool.not_eq_true, eq_iff]; simp only [sqDist]; nlinarith [sq_nonneg eps, mul_pos h h]

/-- Triangle inequality for the `sqDist` test. -/
theorem sqDist_triangle (a b : ℝ) (ha : 0 ≤ a) (hb : 0 ≤ b) (p q r : P ℝ)
    (h1 : sqDist p q < a ^ 2) (h2 : sqDist q r < b ^ 2) : sqDist p r < (a + b) ^ 2 := by
  unfold sqDist at *
  set x := p.x - q.x with hx
  set y := p.y - q.y with hy
  set u := q.x - r.x with hu
  set v := q.y - r.y with hv
  have e1 : p.x - r.x = x + u := by rw [hx, hu]; ring
  have e2 : p.y - r.y = y + v := by rw [hy, hv]; ring
  rw [e1, e2]
  have hab : 0 ≤ a * b := mul_nonneg ha hb
  have hcs : x * u + y * v ≤ a * b := by
    apply le_of_sq_le_sq ?_ hab
    nlinarith [sq_nonneg (x * v - y * u), sq_nonneg x, sq_nonneg y, sq_nonneg u, sq_nonneg v,
      mul_nonneg (add_nonneg (sq_nonneg x) (sq_nonneg y)) (add_nonneg (sq_nonneg u) (sq_nonneg v)),
      mul_le_mul h1.le h2.le (add_nonneg (sq_nonneg u) (sq_nonneg v)) (sq_nonneg a)]
  nlinarith
where
  le_of_sq_le_sq {s t : ℝ} (h : s ^ 2 ≤ t ^ 2) (ht : 0 ≤ t) : s ≤ t := by
    by_contra hc
    push Not at hc
    nlinarith

/-- **C44**, the part that holds: reflexive, symmetric (the converse comparison gives the same answer, in any
arithmetic where squares of opposite differences agree), and transitive up to doubling the tolerance.
Missing: transitivity at the same tolerance, which is refuted above. -/
theorem C44_point_equality_partial (eps : ℝ) (h : 0 < eps) (p q r : P ℝ) :
    p.eq eps p = true ∧ p.eq eps q = q.eq eps p ∧
      (p.eq eps q = true → q.eq eps r = true → p.eq (2 * eps) r = true) ∧
      (p.ne eps q = !p.eq eps q) := by
  refine ⟨?_, ?_, ?_, rfl⟩
  · rw [eq_iff]; simp only [sqDist]; nlinarith [mul_pos h h]
  · rw [Bool.eq_iff_iff, eq_iff, eq_iff]; simp only [sqDist]
    constructor <;> intro h <;> nlinarith
  · rw [eq_iff, eq_iff, eq_iff]
    intro h1 h2
    have := sqDist_triangle eps eps h.le h.le p q r h1 h2
    rw [two_mul]; exact this

example : (⟨0, 0⟩ : P ℚ).eq (1/1000000) ⟨1/2000000, 0⟩ = true ∧
    (⟨0, 0⟩ : P ℚ).eq (1/1000000) ⟨1/1000000, 0⟩ = false := by decide +kernel

/-! ## C45 -/

/-- Python 2 `round(v, n)` of an exact number: nearest multiple of `10^-n`, halves away from zero. -/
def roundDec (n : Nat) (q : ℚ) : ℚ :=
  (if q < 0 then -1 else 1) * (⌊|q| * 10 ^ n + 1 / 2⌋ : ℚ) / 10 ^ n

/-- `P.__hash__` (`geom/point.py:490-521`) on exact coordinates; `prec` is `EPSILON_PRECISION`. -/
def P.hash (prec : Nat) (p : P ℚ) : Int :=
  (Int.xor (truncRat (roundDec prec p.x) * 73856093) (truncRat (roundDec prec p.y) * 83492791)) % 2147483647

/-- `Line.__hash__` (`geom/line.py:585-589`). -/
def Line.hash (prec : Nat) (l : Line ℚ) : Int := Int.xor (l.p1.hash prec) (l.p2.hash prec)

/-- **C45** is false: these two points compare equal at the default tolerance but hash differently, so a set or
dictionary keeps both. -/
theorem C45_refuted :
    ∃ p q : P ℚ, p.eq (1/1000000) q = true ∧ p.hash 6 ≠ q.hash 6 :=
  ⟨⟨999999/1000000, 0⟩, ⟨9999996/10000000, 0⟩, by decide +kernel, by decide +kernel⟩

/-- **C45**, the part that holds: the hash only depends on the integer part of the rounded coordinates, so points whose
rounded coordinates have the same integer parts hash equally.  Missing: points that compare equal across
an integer boundary (refuted above). -/
theorem C45_hash_partial (prec : Nat) (p q : P ℚ)
    (hx : truncRat (roundDec prec p.x) = truncRat (roundDec prec q.x))
    (hy : truncRat (roundDec prec p.y) = truncRat (roundDec prec q.y)) : p.hash prec = q.hash prec := by
  unfold P.hash; rw [hx, hy]

example : (⟨1/2, 1/3⟩ : P ℚ).hash 6 = (⟨1/2 + 1/2000000, 1/3⟩ : P ℚ).hash 6 :=
  C45_hash_partial 6 _ _ (by decide +kernel) (by decide +kernel)

/-! ## C46 -/

/-- **C46.** A segment equals its reverse (for every positive tolerance), equality is symmetric, and reversing twice gives the
segment back. -/
theorem C46_segment_equality (eps : ℝ) (h : 0 < eps) (l o : Line ℝ) :
    l.eq eps l.reversed = true ∧ l.eq eps l = true ∧ l.eq eps o = o.eq eps l ∧ l.reversed.reversed = l ∧
      l.eq eps o = l.eq eps o.reversed := by
  obtain ⟨p1, p2⟩ := l
  obtain ⟨q1, q2⟩ := o
  have hr : ∀ p : P ℝ, p.eq eps p = true := fun p => (C44_point_equality_partial eps h p p p).1
  have hs : ∀ p q : P ℝ, p.eq eps q = q.eq eps p := fun p q => (C44_point_equality_partial eps h p q p).2.1
  refine ⟨?_, ?_, ?_, rfl, ?_⟩
  · simp [Line.eq, Line.reversed, hr]
  · simp [Line.eq, hr]
  · simp only [Line.eq]
    rw [hs p1 q1, hs p2 q2, hs p1 q2, hs p2 q1]
    rw [Bool.and_comm (q2.eq eps p1)]
  · simp only [Line.eq, Line.reversed]
    rw [Bool.or_comm]

/-- **C46** (hash).  A segment and its reverse hash identically. -/
theorem C46_segment_hash (prec : Nat) (l : Line ℚ) : l.reversed.hash prec = l.hash prec := by
  unfold Line.hash Line.reversed
  exact xor_comm' _ _
where
  xor_comm' (a b : Int) : Int.xor a b = Int.xor b a := by
    cases a <;> cases b <;> simp only [Int.xor, Nat.xor_comm]

/-! ## C47, C48, C50: boxes -/

theorem pmin_real (a b : ℝ) : pmin a b = min a b := by
  unfold pmin; simp only [real_lt, decide_eq_true_eq]
  split
  · rw [min_eq_right]; linarith
  · rw [min_eq_left]; linarith
theorem pmax_real (a b : ℝ) : pmax a b = max a b := by
  unfold pmax; simp only [real_lt, decide_eq_true_eq]
  split
  · rw [max_eq_right]; linarith
  · rw [max_eq_left]; linarith

/-- Specification: membership of a point in the closed box with corners `lo`, `hi`. -/
def Box.Contains (b : Box ℝ) (p : P ℝ) : Prop := b.p1.x ≤ p.x ∧ p.x ≤ b.p2.x ∧ b.p1.y ≤ p.y ∧ p.y ≤ b.p2.y

/-- Specification: a box whose corners are in order. -/
def Box.Valid (b : Box ℝ) : Prop := b.p1.x ≤ b.p2.x ∧ b.p1.y ≤ b.p2.y

/-- **C47.** A box built from any two corners is in order, contains both corners, and does not depend on which
corner is given first; it is the smallest such box. -/
theorem C47_box_normalised (a b : P ℝ) :
    (Box.mk' a b).Valid ∧ (Box.mk' a b).Contains a ∧ (Box.mk' a b).Contains b ∧ Box.mk' a b = Box.mk' b a ∧
      (∀ c : Box ℝ, c.Contains a → c.Contains b → ∀ p, (Box.mk' a b).Contains p → c.Contains p) := by
  simp only [Box.mk', Box.Valid, Box.Contains, pmin_real, pmax_real]
  refine ⟨⟨?_, ?_⟩, ⟨?_, ?_, ?_, ?_⟩, ⟨?_, ?_, ?_, ?_⟩, ?_, ?_⟩
  all_goals first
    | exact min_le_max
    | exact min_le_left _ _
    | exact min_le_right _ _
    | exact le_max_left _ _
    | exact le_max_right _ _
    | skip
  · rw [min_comm, max_comm, min_comm a.y, max_comm a.y]
  · rintro c ⟨h1, h2, h3, h4⟩ ⟨g1, g2, g3, g4⟩ p ⟨k1, k2, k3, k4⟩
    exact ⟨le_trans (le_min h1 g1) k1, le_trans k2 (max_le h2 g2), le_trans (le_min h3 g3) k3,
      le_trans k4 (max_le h4 g4)⟩

/-- A `Box` value is always in order: the only constructor orders its corners, so `Valid` is what every client sees. -/
theorem box_mk_valid (a b : P ℝ) : (Box.mk' a b).Valid := (C47_box_normalised a b).1

theorem mk'_valid {b : Box ℝ} (h : b.Valid) : Box.mk' b.p1 b.p2 = b := by
  unfold Box.mk'
  simp only [pmin_real, pmax_real]
  obtain ⟨hx, hy⟩ := h
  ext <;> simp [hx, hy]

theorem box_inter (a b : Box ℝ) :
    a.intersection b =
      if min a.p2.x b.p2.x < max a.p1.x b.p1.x ∨ min a.p2.y b.p2.y < max a.p1.y b.p1.y then none
      else some ⟨⟨max a.p1.x b.p1.x, max a.p1.y b.p1.y⟩, ⟨min a.p2.x b.p2.x, min a.p2.y b.p2.y⟩⟩ := by
  unfold Box.intersection
  simp only [pmin_real, pmax_real, real_lt, Bool.or_eq_true, decide_eq_true_eq]
  split
  · rfl
  · rename_i h
    push Not at h
    rw [← mk'_valid (b := ⟨⟨max a.p1.x b.p1.x, max a.p1.y b.p1.y⟩, ⟨min a.p2.x b.p2.x, min a.p2.y b.p2.y⟩⟩) h]

theorem box_union (a b : Box ℝ) (ha : a.Valid) (hb : b.Valid) :
    a.union b = ⟨⟨min a.p1.x b.p1.x, min a.p1.y b.p1.y⟩, ⟨max a.p2.x b.p2.x, max a.p2.y b.p2.y⟩⟩ := by
  unfold Box.union
  simp only [pmin_real, pmax_real]
  refine mk'_valid (b := ⟨⟨min a.p1.x b.p1.x, min a.p1.y b.p1.y⟩, ⟨max a.p2.x b.p2.x, max a.p2.y b.p2.y⟩⟩) ⟨?_, ?_⟩
  · exact le_trans (min_le_left _ _) (le_trans ha.1 (le_max_left _ _))
  · exact le_trans (min_le_left _ _) (le_trans ha.2 (le_max_left _ _))

/-- **C48** (intersection).  The intersection of two boxes contains exactly the common points; `None` is returned exactly
when there is no common point. -/
theorem C48_box_intersection (a b : Box ℝ) :
    (∀ c, a.intersection b = some c → c.Valid ∧ ∀ p, c.Contains p ↔ a.Contains p ∧ b.Contains p) ∧
      (a.intersection b = none ↔ ¬ ∃ p, a.Contains p ∧ b.Contains p) := by
  rw [box_inter]
  constructor
  · intro c hc
    split at hc
    · exact absurd hc (by simp)
    · rename_i h
      push Not at h
      rw [Option.some.injEq] at hc
      subst hc
      refine ⟨h, fun p => ?_⟩
      simp only [Box.Contains, max_le_iff, le_min_iff]
      tauto
  · split
    · rename_i h
      refine ⟨fun _ => ?_, fun _ => rfl⟩
      rintro ⟨p, ⟨h1, h2, h3, h4⟩, ⟨g1, g2, g3, g4⟩⟩
      rcases h with h | h
      · have := le_trans (max_le h1 g1) (le_min h2 g2); linarith
      · have := le_trans (max_le h3 g3) (le_min h4 g4); linarith
    · rename_i h
      push Not at h
      refine ⟨fun hc => absurd hc (by simp), fun hc => absurd ?_ hc⟩
      refine ⟨⟨max a.p1.x b.p1.x, max a.p1.y b.p1.y⟩, ?_, ?_⟩
      · exact ⟨le_max_left _ _, le_trans h.1 (min_le_left _ _), le_max_left _ _, le_trans h.2 (min_le_left _ _)⟩
      · exact ⟨le_max_right _ _, le_trans h.1 (min_le_right _ _), le_max_right _ _, le_trans h.2 (min_le_right _ _)⟩

/-- **C48** (union).  The union box contains both boxes and is contained in every box that contains both. -/
theorem C48_box_union (a b : Box ℝ) (ha : a.Valid) (hb : b.Valid) :
    (a.union b).Valid ∧ (∀ p, a.Contains p → (a.union b).Contains p) ∧ (∀ p, b.Contains p → (a.union b).Contains p) ∧
      (∀ c : Box ℝ, (∀ p, a.Contains p → c.Contains p) → (∀ p, b.Contains p → c.Contains p) →
        ∀ p, (a.union b).Contains p → c.Contains p) := by
  rw [box_union a b ha hb]
  refine ⟨⟨?_, ?_⟩, ?_, ?_, ?_⟩
  · exact le_trans (min_le_left _ _) (le_trans ha.1 (le_max_left _ _))
  · exact le_trans (min_le_left _ _) (le_trans ha.2 (le_max_left _ _))
  · rintro p ⟨h1, h2, h3, h4⟩
    exact ⟨le_trans (min_le_left _ _) h1, le_trans h2 (le_max_left _ _), le_trans (min_le_left _ _) h3,
      le_trans h4 (le_max_left _ _)⟩
  · rintro p ⟨h1, h2, h3, h4⟩
    exact ⟨le_trans (min_le_right _ _) h1, le_trans h2 (le_max_right _ _), le_trans (min_le_right _ _) h3,
      le_trans h4 (le_max_right _ _)⟩
  · intro c hca hcb p hp
    have a1 := hca a.p1 ⟨le_rfl, ha.1, le_rfl, ha.2⟩
    have a2 := hca a.p2 ⟨ha.1, le_rfl, ha.2, le_rfl⟩
    have b1 := hcb b.p1 ⟨le_rfl, hb.1, le_rfl, hb.2⟩
    have b2 := hcb b.p2 ⟨hb.1, le_rfl, hb.2, le_rfl⟩
    obtain ⟨k1, k2, k3, k4⟩ := hp
    exact ⟨le_trans (le_min a1.1 b1.1) k1, le_trans k2 (max_le a2.2.1 b2.2.1),
      le_trans (le_min a1.2.2.1 b1.2.2.1) k3, le_trans k4 (max_le a2.2.2.2 b2.2.2.2)⟩

/-- **C48** (algebra).  Both operations are commutative and associative (`None` absorbs). -/
theorem C48_box_algebra (a b c : Box ℝ) (ha : a.Valid) (hb : b.Valid) (hc : c.Valid) :
    a.intersection b = b.intersection a ∧ a.union b = b.union a ∧
      (a.intersection b).bind (fun d => d.intersection c) = (b.intersection c).bind (fun d => a.intersection d) ∧
      (a.union b).union c = a.union (b.union c) := by
  refine ⟨?_, ?_, ?_, ?_⟩
  · rw [box_inter, box_inter]
    simp only [min_comm, max_comm]
  · rw [box_union a b ha hb, box_union b a hb ha]
    simp only [min_comm, max_comm]
  · by_cases hab : ∃ p, a.Contains p ∧ b.Contains p ∧ c.Contains p
    · obtain ⟨p, ⟨a1, a2, a3, a4⟩, ⟨b1, b2, b3, b4⟩, ⟨c1, c2, c3, c4⟩⟩ := hab
      rw [box_inter a b, box_inter b c, if_neg, if_neg, Option.bind_some, Option.bind_some, box_inter, box_inter,
        if_neg, if_neg]
      · simp only [max_assoc, min_assoc]
      all_goals
        rintro (h | h)
        · have h1 : max (max a.p1.x b.p1.x) c.p1.x ≤ p.x := max_le (max_le a1 b1) c1
          have h2 : p.x ≤ min (min a.p2.x b.p2.x) c.p2.x := le_min (le_min a2 b2) c2
          simp only [max_le_iff, le_min_iff] at h1 h2
          simp only [min_lt_iff, lt_max_iff] at h
          casesm* _ ∨ _ <;> linarith
        · have h1 : max (max a.p1.y b.p1.y) c.p1.y ≤ p.y := max_le (max_le a3 b3) c3
          have h2 : p.y ≤ min (min a.p2.y b.p2.y) c.p2.y := le_min (le_min a4 b4) c4
          simp only [max_le_iff, le_min_iff] at h1 h2
          simp only [min_lt_iff, lt_max_iff] at h
          casesm* _ ∨ _ <;> linarith
    · have lhs : (a.intersection b).bind (fun d => d.intersection c) = none := by
        cases hi : a.intersection b with
        | none => rfl
        | some d =>
          rw [Option.bind_some, (C48_box_intersection d c).2]
          rintro ⟨p, hd, hp⟩
          have := ((C48_box_intersection a b).1 d hi).2 p
          exact hab ⟨p, (this.1 hd).1, (this.1 hd).2, hp⟩
      have rhs : (b.intersection c).bind (fun d => a.intersection d) = none := by
        cases hi : b.intersection c with
        | none => rfl
        | some d =>
          rw [Option.bind_some, (C48_box_intersection a d).2]
          rintro ⟨p, hp, hd⟩
          have := ((C48_box_intersection b c).1 d hi).2 p
          exact hab ⟨p, hp, (this.1 hd).1, (this.1 hd).2⟩
      rw [lhs, rhs]
  · rw [box_union (a.union b) c (C48_box_union a b ha hb).1 hc, box_union a (b.union c) ha (C48_box_union b c hb hc).1,
      box_union a b ha hb, box_union b c hb hc]
    simp only [max_assoc, min_assoc]

/-- Non-vacuity: overlapping and disjoint boxes. -/
example : (Box.mk' ⟨0, 0⟩ ⟨2, 2⟩ : Box ℚ).intersection (Box.mk' ⟨3, 3⟩ ⟨1, 1⟩) = some ⟨⟨1, 1⟩, ⟨2, 2⟩⟩ ∧
    (Box.mk' ⟨0, 0⟩ ⟨2, 2⟩ : Box ℚ).intersection (Box.mk' ⟨3, 3⟩ ⟨4, 4⟩) = none := by decide +kernel

/-! ## C50 -/

theorem minL_spec (l : List ℝ) (a : ℝ) :
    Box.minL l a ≤ a ∧ (∀ x ∈ l, Box.minL l a ≤ x) ∧ (Box.minL l a = a ∨ Box.minL l a ∈ l) := by
  induction l generalizing a with
  | nil => exact ⟨le_rfl, by simp, .inl rfl⟩
  | cons y l ih =>
    have e : Box.minL (y :: l) a = Box.minL l (min a y) := by
      show List.foldl pmin (pmin a y) l = _
      rw [pmin_real]; rfl
    rw [e]
    obtain ⟨h1, h2, h3⟩ := ih (min a y)
    refine ⟨le_trans h1 (min_le_left _ _), ?_, ?_⟩
    · intro x hx
      rcases List.mem_cons.1 hx with rfl | hx
      · exact le_trans h1 (min_le_right _ _)
      · exact h2 x hx
    · rcases h3 with h3 | h3
      · rcases min_choice a y with h | h
        · left; rw [h3, h]
        · right; rw [h3, h]; exact List.mem_cons_self
      · right; exact List.mem_cons_of_mem _ h3

theorem maxL_spec (l : List ℝ) (a : ℝ) :
    a ≤ Box.maxL l a ∧ (∀ x ∈ l, x ≤ Box.maxL l a) ∧ (Box.maxL l a = a ∨ Box.maxL l a ∈ l) := by
  induction l generalizing a with
  | nil => exact ⟨le_rfl, by simp, .inl rfl⟩
  | cons y l ih =>
    have e : Box.maxL (y :: l) a = Box.maxL l (max a y) := by
      show List.foldl pmax (pmax a y) l = _
      rw [pmax_real]; rfl
    rw [e]
    obtain ⟨h1, h2, h3⟩ := ih (max a y)
    refine ⟨le_trans (le_max_left _ _) h1, ?_, ?_⟩
    · intro x hx
      rcases List.mem_cons.1 hx with rfl | hx
      · exact le_trans (le_max_right _ _) h1
      · exact h2 x hx
    · rcases h3 with h3 | h3
      · rcases max_choice a y with h | h
        · left; rw [h3, h]
        · right; rw [h3, h]; exact List.mem_cons_self
      · right; exact List.mem_cons_of_mem _ h3

/-- Specification: `b` is the bounding box of `ps`: it contains every point and each side is touched by some point. -/
def IsBoundingBox (b : Box ℝ) (ps : List (P ℝ)) : Prop :=
  (∀ p ∈ ps, b.Contains p) ∧ (∃ p ∈ ps, p.x = b.p1.x) ∧ (∃ p ∈ ps, p.x = b.p2.x) ∧ (∃ p ∈ ps, p.y = b.p1.y) ∧
    (∃ p ∈ ps, p.y = b.p2.y)

/-- **C50** (`Box.from_points`).  `None` exactly for no points, otherwise the bounding box. -/
theorem C50_from_points (ps : List (P ℝ)) :
    (ps = [] → Box.fromPoints ps = none) ∧
      (ps ≠ [] → ∃ b, Box.fromPoints ps = some b ∧ IsBoundingBox b ps) := by
  constructor
  · rintro rfl; rfl
  · intro hne
    match ps, hne with
    | p :: ps, _ =>
      obtain ⟨a1, a2, a3⟩ := minL_spec (ps.map P.x) p.x
      obtain ⟨b1, b2, b3⟩ := minL_spec (ps.map P.y) p.y
      obtain ⟨c1, c2, c3⟩ := maxL_spec (ps.map P.x) p.x
      obtain ⟨d1, d2, d3⟩ := maxL_spec (ps.map P.y) p.y
      refine ⟨_, rfl, ?_⟩
      rw [mk'_valid (b := ⟨⟨Box.minL (ps.map P.x) p.x, Box.minL (ps.map P.y) p.y⟩,
        ⟨Box.maxL (ps.map P.x) p.x, Box.maxL (ps.map P.y) p.y⟩⟩) ⟨le_trans a1 c1, le_trans b1 d1⟩]
      have touch : ∀ (f : P ℝ → ℝ) (v : ℝ), (v = f p ∨ v ∈ ps.map f) → ∃ q ∈ p :: ps, f q = v := by
        intro f v h
        rcases h with h | h
        · exact ⟨p, List.mem_cons_self, h.symm⟩
        · obtain ⟨q, hq, e⟩ := List.mem_map.1 h
          exact ⟨q, List.mem_cons_of_mem _ hq, e⟩
      refine ⟨?_, touch P.x _ a3, touch P.x _ c3, touch P.y _ b3, touch P.y _ d3⟩
      intro q hq
      rcases List.mem_cons.1 hq with rfl | hq
      · exact ⟨a1, c1, b1, d1⟩
      · exact ⟨a2 _ (List.mem_map_of_mem hq), c2 _ (List.mem_map_of_mem hq), b2 _ (List.mem_map_of_mem hq),
          d2 _ (List.mem_map_of_mem hq)⟩

/-- `polygon.bounding_box` (`geom/polygon.py:158-174`); `fmax`, `fmin` are `sys.float_info.max` and `.min` (the smallest
*positive* normal double). -/
noncomputable def polyBoundingBox (fmax fmin : ℝ) (ps : List (P ℝ)) : Box ℝ :=
  Box.mk' ⟨ps.foldl (fun m p => pmin m p.x) fmax, ps.foldl (fun m p => pmin m p.y) fmax⟩
    ⟨ps.foldl (fun m p => pmax m p.x) fmin, ps.foldl (fun m p => pmax m p.y) fmin⟩

theorem foldl_pmin_eq (f : P ℝ → ℝ) (ps : List (P ℝ)) (a : ℝ) :
    ps.foldl (fun m p => pmin m (f p)) a = Box.minL (ps.map f) a := by
  unfold Box.minL; rw [List.foldl_map]
theorem foldl_pmax_eq (f : P ℝ → ℝ) (ps : List (P ℝ)) (a : ℝ) :
    ps.foldl (fun m p => pmax m (f p)) a = Box.maxL (ps.map f) a := by
  unfold Box.maxL; rw [List.foldl_map]

/-- **C50** is false for `polygon.bounding_box`: a polygon entirely in the negative quadrant gets a box that is not its
bounding box, for every positive initial maximum. -/
theorem C50_refuted_polygon_bounding_box (fmax fmin : ℝ) (h1 : 0 < fmin) (h2 : fmin < fmax) :
    ∃ ps : List (P ℝ), ps ≠ [] ∧ ¬ IsBoundingBox (polyBoundingBox fmax fmin ps) ps := by
  refine ⟨[⟨-2, -2⟩, ⟨-1, -1⟩], by simp, ?_⟩
  rintro ⟨-, -, ⟨p, hp, e⟩, -⟩
  have : (polyBoundingBox fmax fmin [⟨-2, -2⟩, ⟨-1, -1⟩]).p2.x = fmin := by
    simp only [polyBoundingBox, Box.mk', List.foldl, pmin_real, pmax_real]
    have e1 : min (min fmax (-2)) (-1) = (-2 : ℝ) := by
      rw [min_eq_right (by linarith : (-2 : ℝ) ≤ fmax)]; norm_num
    have e2 : max (max fmin (-2)) (-1) = fmin := by
      rw [max_eq_left (by linarith : (-2 : ℝ) ≤ fmin), max_eq_left (by linarith)]
    rw [e1, e2]
    rw [max_eq_right (by linarith)]
  rw [this] at e
  simp only [List.mem_cons, List.not_mem_nil, or_false] at hp
  rcases hp with rfl | rfl <;> simp at e <;> linarith

/-- **C50** for `polygon.bounding_box`, the part that holds: the box contains every point whose coordinates do not
exceed the largest float, and it is the bounding box if some point reaches at least `fmin` on each axis and
some point is below `fmax`.  Missing: polygons with a negative maximum on an axis (refuted above). -/
theorem C50_polygon_bounding_box_partial (fmax fmin : ℝ) (ps : List (P ℝ)) (hne : ps ≠ [])
    (hmax : ∀ p ∈ ps, p.x ≤ fmax ∧ p.y ≤ fmax) :
    (∀ p ∈ ps, (polyBoundingBox fmax fmin ps).Contains p) ∧
      ((∃ p ∈ ps, fmin ≤ p.x) → (∃ p ∈ ps, fmin ≤ p.y) → IsBoundingBox (polyBoundingBox fmax fmin ps) ps) := by
  obtain ⟨p0, hp0⟩ := List.exists_mem_of_ne_nil ps hne
  have hb : polyBoundingBox fmax fmin ps = Box.mk' ⟨Box.minL (ps.map P.x) fmax, Box.minL (ps.map P.y) fmax⟩
      ⟨Box.maxL (ps.map P.x) fmin, Box.maxL (ps.map P.y) fmin⟩ := by
    unfold polyBoundingBox
    rw [foldl_pmin_eq P.x, foldl_pmin_eq P.y, foldl_pmax_eq P.x, foldl_pmax_eq P.y]
  obtain ⟨a1, a2, a3⟩ := minL_spec (ps.map P.x) fmax
  obtain ⟨b1, b2, b3⟩ := minL_spec (ps.map P.y) fmax
  obtain ⟨c1, c2, c3⟩ := maxL_spec (ps.map P.x) fmin
  obtain ⟨d1, d2, d3⟩ := maxL_spec (ps.map P.y) fmin
  have hc : ∀ p ∈ ps, Box.minL (ps.map P.x) fmax ≤ p.x ∧ p.x ≤ Box.maxL (ps.map P.x) fmin ∧
      Box.minL (ps.map P.y) fmax ≤ p.y ∧ p.y ≤ Box.maxL (ps.map P.y) fmin := fun p hp =>
    ⟨a2 _ (List.mem_map_of_mem hp), c2 _ (List.mem_map_of_mem hp), b2 _ (List.mem_map_of_mem hp),
      d2 _ (List.mem_map_of_mem hp)⟩
  have hv : (Box.mk ⟨Box.minL (ps.map P.x) fmax, Box.minL (ps.map P.y) fmax⟩
      ⟨Box.maxL (ps.map P.x) fmin, Box.maxL (ps.map P.y) fmin⟩ : Box ℝ).Valid :=
    ⟨le_trans (hc p0 hp0).1 (hc p0 hp0).2.1, le_trans (hc p0 hp0).2.2.1 (hc p0 hp0).2.2.2⟩
  rw [hb, mk'_valid hv]
  refine ⟨hc, ?_⟩
  rintro ⟨p, hp, hpx⟩ ⟨q, hq, hqy⟩
  have tmin : ∀ (f : P ℝ → ℝ), (∀ r ∈ ps, f r ≤ fmax) →
      (Box.minL (ps.map f) fmax = fmax ∨ Box.minL (ps.map f) fmax ∈ ps.map f) →
      ∃ r ∈ ps, f r = Box.minL (ps.map f) fmax := by
    intro f hf h
    rcases h with h | h
    · have := (minL_spec (ps.map f) fmax).2.1 _ (List.mem_map_of_mem hp0)
      exact ⟨p0, hp0, le_antisymm (by rw [h]; exact hf p0 hp0) this⟩
    · obtain ⟨r, hr, e⟩ := List.mem_map.1 h
      exact ⟨r, hr, e⟩
  have tmax : ∀ (f : P ℝ → ℝ), (∃ r ∈ ps, fmin ≤ f r) →
      (Box.maxL (ps.map f) fmin = fmin ∨ Box.maxL (ps.map f) fmin ∈ ps.map f) →
      ∃ r ∈ ps, f r = Box.maxL (ps.map f) fmin := by
    rintro f ⟨r, hr, hf⟩ h
    rcases h with h | h
    · have := (maxL_spec (ps.map f) fmin).2.1 _ (List.mem_map_of_mem hr)
      exact ⟨r, hr, le_antisymm this (by rw [h]; exact hf)⟩
    · obtain ⟨r, hr, e⟩ := List.mem_map.1 h
      exact ⟨r, hr, e⟩
  exact ⟨hc, tmin P.x (fun r hr => (hmax r hr).1) a3, tmax P.x ⟨p, hp, hpx⟩ c3,
    tmin P.y (fun r hr => (hmax r hr).2) b3, tmax P.y ⟨q, hq, hqy⟩ d3⟩

/-- Non-vacuity: a triangle with a positive corner meets the hypotheses. -/
example : ∃ ps : List (P ℝ), ps ≠ [] ∧ (∀ p ∈ ps, p.x ≤ 100 ∧ p.y ≤ 100) ∧ (∃ p ∈ ps, (1/1000 : ℝ) ≤ p.x) ∧
    (∃ p ∈ ps, (1/1000 : ℝ) ≤ p.y) :=
  ⟨[⟨-1, 2⟩, ⟨3, -4⟩, ⟨0, 0⟩], by simp, by intro p hp; simp at hp; rcases hp with rfl | rfl | rfl <;> norm_num,
    ⟨⟨3, -4⟩, by simp, by norm_num⟩, ⟨⟨-1, 2⟩, by simp, by norm_num⟩⟩

end Verif.Geom
