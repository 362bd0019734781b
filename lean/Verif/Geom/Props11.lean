import Verif.Geom.Props9
import Verif.Geom.Props10
import Verif.Geom.Biarc
import Mathlib.Analysis.SpecialFunctions.Trigonometric.Bounds

/-!
# C95: the biarc approximation of a Bezier curve
-/

set_option linter.unusedSectionVars false

namespace Verif.Geom
open Verif PyFloat PyTrig

/-! ## Specification -/

/-- Specification: a part of a curve, from parameter `s` to parameter `t`, and the shapes that replace it. -/
structure Piece where
  s : ℝ
  t : ℝ
  out : List (Shape ℝ)

/-- Specification: the parts follow each other from `a` to `b` without gap or overlap. -/
def Tiles (a b : ℝ) : List Piece → Prop
  | [] => a = b
  | p :: ps => p.s = a ∧ p.s < p.t ∧ Tiles p.t b ps

/-- Specification: the derivative of the curve. -/
def Bez.vel (b : Bez ℝ) (t : ℝ) : P ℝ :=
  ⟨3 * ((1 - t) ^ 2 * (b.c1.x - b.p1.x) + 2 * t * (1 - t) * (b.c2.x - b.c1.x) + t ^ 2 * (b.p2.x - b.c2.x)),
   3 * ((1 - t) ^ 2 * (b.c1.y - b.p1.y) + 2 * t * (1 - t) * (b.c2.y - b.c1.y) + t ^ 2 * (b.p2.y - b.c2.y))⟩

/-- The derivative is the derivative. -/
theorem vel_hasDerivAt (b : Bez ℝ) (t : ℝ) :
    HasDerivAt (fun u => (b.curve u).x) (b.vel t).x t ∧ HasDerivAt (fun u => (b.curve u).y) (b.vel t).y t := by
  have key : ∀ p0 p1 p2 p3 : ℝ, HasDerivAt (fun u : ℝ => (1 - u) ^ 3 * p0 + 3 * (1 - u) ^ 2 * u * p1 + 3 * (1 - u) * u ^ 2 * p2 + u ^ 3 * p3)
      (3 * ((1 - t) ^ 2 * (p1 - p0) + 2 * t * (1 - t) * (p2 - p1) + t ^ 2 * (p3 - p2))) t := by
    intro p0 p1 p2 p3
    have h1 : HasDerivAt (fun u : ℝ => 1 - u) (-1) t := by simpa using (hasDerivAt_id t).const_sub 1
    have h2 : HasDerivAt (fun u : ℝ => u) 1 t := hasDerivAt_id t
    have := ((((h1.pow 3).mul_const p0).add ((((h1.pow 2).const_mul 3).mul h2).mul_const p1)).add
      (((h1.const_mul 3).mul (h2.pow 2)).mul_const p2)).add ((h2.pow 3).mul_const p3)
    refine this.congr_deriv ?_
    simp; ring
  exact ⟨key b.p1.x b.c1.x b.c2.x b.p2.x, key b.p1.y b.c1.y b.c2.y b.p2.y⟩

/-- Specification: the curve `c` is the part of the curve `b` from `s` to `t`. -/
def PartOf (b : Bez ℝ) (s t : ℝ) (c : Bez ℝ) : Prop := ∀ u, c.curve u = b.curve (s + u * (t - s))

/-- Specification: the point `q` is within `tol` of the circle of the arc, or of its start point (for tiny arcs), or the code finds that the arc has no point in the direction of `q` (and then
accepts it whatever the distance). -/
def SampleOk (eps tol : ℝ) (a : Arc ℝ) (q : P ℝ) : Prop :=
  |Real.sqrt (sqDist a.center q) - a.radius| ≤ tol ∨ Real.sqrt (sqDist a.p1 q) ≤ tol ∨ a.distanceToPoint eps q = .ok (-1)

/-- Specification: what may replace the part of `b` from `p.s` to `p.t`.
* Nothing, if the ends of the part are within two tolerances of each other, or the difference of the unit tangents at its ends is parallel to its chord.
* The chord, if the whole part is near to it.
* Two arcs that start and end where the part does, meet, and have the same tangent angle where they meet.  Each of them is a circular arc that is tangent to the curve at its end, provided that the
  tangent makes at most a right angle with the secant to the joint.  The samples of the part are near to them unless the part is shorter than `d`. -/
def GoodPiece (eps tol flat d : ℝ) (b : Bez ℝ) (p : Piece) : Prop :=
  (p.out = [] ∧ (sqDist (b.curve p.s) (b.curve p.t) < (2 * eps) ^ 2 ∨
      ∃ c, PartOf b p.s p.t c ∧ |dirCross ⟨b.curve p.s, b.curve p.t⟩ ⟨c.tangent eps 0, c.tangent eps 1⟩| < eps)) ∨
  (p.out = [.line ⟨b.curve p.s, b.curve p.t⟩] ∧ ∀ u, p.s ≤ u → u ≤ p.t → NearSegment (max flat eps) (b.curve p.s) (b.curve p.t) (b.curve u)) ∨
  (∃ a1 a2, p.out = [.arc a1, .arc a2] ∧ a1.p1 = b.curve p.s ∧ a1.p2 = a2.p1 ∧ a2.p2 = b.curve p.t ∧ |a1.endTangent - a2.startTangent| < eps ∧
    (eps ^ 2 ≤ ((p.t - p.s) / 3) ^ 2 * ((b.vel p.s).x ^ 2 + (b.vel p.s).y ^ 2) →
      0 ≤ (b.vel p.s).x * (a1.p2.x - a1.p1.x) + (b.vel p.s).y * (a1.p2.y - a1.p1.y) → a1.Sweeps ∧ a1.GoesAt a1.p1 (b.vel p.s)) ∧
    (eps ^ 2 ≤ ((p.t - p.s) / 3) ^ 2 * ((b.vel p.t).x ^ 2 + (b.vel p.t).y ^ 2) →
      0 ≤ (b.vel p.t).x * (a2.p2.x - a2.p1.x) + (b.vel p.t).y * (a2.p2.y - a2.p1.y) → a2.Sweeps ∧ a2.GoesAt a2.p2 (b.vel p.t)) ∧
    ((∀ k : ℕ, 1 ≤ k → k ≤ 6 → SampleOk eps tol a1 (b.curve (p.s + (k / 14) * (p.t - p.s))) ∧
        SampleOk eps tol a2 (b.curve (p.s + (1 / 2 + k / 14) * (p.t - p.s)))) ∨ p.t - p.s ≤ d))

/-! ## Lemmas -/

theorem ok_bind {α β : Type} {x : Except PyErr α} {f : α → Except PyErr β} {b : β} (h : (x >>= f) = .ok b) :
    ∃ a, x = .ok a ∧ f a = .ok b := by
  cases x with
  | error e => cases h
  | ok a => exact ⟨a, rfl, h⟩

theorem tiles_append {a b c : ℝ} {ps qs : List Piece} (h1 : Tiles a b ps) (h2 : Tiles b c qs) : Tiles a c (ps ++ qs) := by
  induction ps generalizing a with
  | nil => cases h1; exact h2
  | cons p ps ih => exact ⟨h1.1, h1.2.1, ih h1.2.2⟩

theorem part_zero {b c : Bez ℝ} {s t : ℝ} (h : PartOf b s t c) : c.p1 = b.curve s := by
  rw [← (C63_point_at 1 c 0).2.2.2.1, h]; congr 1; ring

theorem part_one {b c : Bez ℝ} {s t : ℝ} (h : PartOf b s t c) : c.p2 = b.curve t := by
  rw [← (C63_point_at 1 c 0).2.2.2.2, h]; congr 1; ring

/-- Control points of a part. -/
theorem part_vel {b c : Bez ℝ} {s t : ℝ} (h : PartOf b s t c) :
    (c.c1.x - c.p1.x = (t - s) / 3 * (b.vel s).x ∧ c.c1.y - c.p1.y = (t - s) / 3 * (b.vel s).y) ∧
    (c.p2.x - c.c2.x = (t - s) / 3 * (b.vel t).x ∧ c.p2.y - c.c2.y = (t - s) / 3 * (b.vel t).y) := by
  have h0 := h 0
  have h1 := h 1
  have h2 := h 2
  have h3 := h 3
  have k : ∀ u, (c.curve u).x = (b.curve (s + u * (t - s))).x ∧ (c.curve u).y = (b.curve (s + u * (t - s))).y := fun u => by rw [h u]; exact ⟨rfl, rfl⟩
  obtain ⟨a0, b0⟩ := k 0
  obtain ⟨a1, b1⟩ := k 1
  obtain ⟨a2, b2⟩ := k 2
  obtain ⟨a3, b3⟩ := k 3
  simp only [Bez.curve, bernstein3] at a0 a1 a2 a3 b0 b1 b2 b3
  refine ⟨⟨?_, ?_⟩, ?_, ?_⟩
  · simp only [Bez.vel]; linear_combination (-11/18) * a0 + a1 - (1/2) * a2 + (1/9) * a3
  · simp only [Bez.vel]; linear_combination (-11/18) * b0 + b1 - (1/2) * b2 + (1/9) * b3
  · simp only [Bez.vel]; linear_combination (-1/9) * a0 - (1/6) * a1 + (1/3) * a2 - (1/18) * a3
  · simp only [Bez.vel]; linear_combination (-1/9) * b0 - (1/6) * b1 + (1/3) * b2 - (1/18) * b3

/-- A curve whose control points are near to the chord is near to it. -/
theorem near_chord {d : ℝ} (hd : 0 ≤ d) (c : Bez ℝ) (h1 : NearSegment d c.p1 c.p2 c.c1) (h2 : NearSegment d c.p1 c.p2 c.c2) (u : ℝ) (hu0 : 0 ≤ u) (hu1 : u ≤ 1) :
    NearSegment d c.p1 c.p2 (c.curve u) := by
  obtain ⟨t1, h10, h11, h12⟩ := h1
  obtain ⟨t2, h20, h21, h22⟩ := h2
  have hv : 0 ≤ 1 - u := by linarith
  set B1 := 3 * u * (1 - u) ^ 2 with hB1
  set B2 := 3 * u ^ 2 * (1 - u) with hB2
  have p1 : 0 ≤ B1 := by positivity
  have p2 : 0 ≤ B2 := by positivity
  have p3 : 0 ≤ u ^ 3 := by positivity
  have p0 : 0 ≤ (1 - u) ^ 3 := by positivity
  have hsum : (1 - u) ^ 3 + B1 + B2 + u ^ 3 = 1 := by rw [hB1, hB2]; ring
  have q1 : sqDist (segPt ⟨c.p1, c.p2⟩ t1) c.c1 ≤ d ^ 2 := (Real.sqrt_le_left hd).1 h12
  have q2 : sqDist (segPt ⟨c.p1, c.p2⟩ t2) c.c2 ≤ d ^ 2 := (Real.sqrt_le_left hd).1 h22
  have m1 : B1 * t1 ≤ B1 := mul_le_of_le_one_right p1 h11
  have m2 : B2 * t2 ≤ B2 := mul_le_of_le_one_right p2 h21
  refine ⟨B1 * t1 + B2 * t2 + u ^ 3, add_nonneg (add_nonneg (mul_nonneg p1 h10) (mul_nonneg p2 h20)) p3, by linarith, ?_⟩
  rw [Real.sqrt_le_left hd]
  set ex1 := (segPt ⟨c.p1, c.p2⟩ t1).x - c.c1.x with hex1
  set ey1 := (segPt ⟨c.p1, c.p2⟩ t1).y - c.c1.y with hey1
  set ex2 := (segPt ⟨c.p1, c.p2⟩ t2).x - c.c2.x with hex2
  set ey2 := (segPt ⟨c.p1, c.p2⟩ t2).y - c.c2.y with hey2
  have e1 : ex1 ^ 2 + ey1 ^ 2 ≤ d ^ 2 := q1
  have e2 : ex2 ^ 2 + ey2 ^ 2 ≤ d ^ 2 := q2
  have key : sqDist (segPt ⟨c.p1, c.p2⟩ (B1 * t1 + B2 * t2 + u ^ 3)) (c.curve u) = (B1 * ex1 + B2 * ex2) ^ 2 + (B1 * ey1 + B2 * ey2) ^ 2 := by
    rw [hex1, hex2, hey1, hey2, hB1, hB2]
    simp only [sqDist, segPt, Bez.curve, bernstein3]
    ring
  rw [key]
  have cs : 2 * (ex1 * ex2 + ey1 * ey2) ≤ 2 * d ^ 2 := by nlinarith [sq_nonneg (ex1 - ex2), sq_nonneg (ey1 - ey2)]
  have hle : B1 + B2 ≤ 1 := by linarith
  calc (B1 * ex1 + B2 * ex2) ^ 2 + (B1 * ey1 + B2 * ey2) ^ 2
      = B1 ^ 2 * (ex1 ^ 2 + ey1 ^ 2) + B2 ^ 2 * (ex2 ^ 2 + ey2 ^ 2) + B1 * B2 * (2 * (ex1 * ex2 + ey1 * ey2)) := by ring
    _ ≤ B1 ^ 2 * d ^ 2 + B2 ^ 2 * d ^ 2 + B1 * B2 * (2 * d ^ 2) := by
        have := mul_le_mul_of_nonneg_left e1 (sq_nonneg B1)
        have := mul_le_mul_of_nonneg_left e2 (sq_nonneg B2)
        have := mul_le_mul_of_nonneg_left cs (mul_nonneg p1 p2)
        linarith
    _ = (B1 + B2) ^ 2 * d ^ 2 := by ring
    _ ≤ 1 * d ^ 2 := by
        exact mul_le_mul_of_nonneg_right (pow_le_one₀ (add_nonneg p1 p2) hle) (sq_nonneg d)
    _ = d ^ 2 := one_mul _

theorem flat_near {eps flat : ℝ} (heps : 0 < eps) (c : Bez ℝ) (h : (c.flatness eps <. flat) = true) (u : ℝ) (hu0 : 0 ≤ u) (hu1 : u ≤ 1) :
    NearSegment (max flat eps) c.p1 c.p2 (c.curve u) := by
  have hd : 0 ≤ max flat eps := le_max_of_le_right heps.le
  rw [real_lt, decide_eq_true_eq] at h
  have both : NearSegment (max flat eps) c.p1 c.p2 c.c1 ∧ NearSegment (max flat eps) c.p1 c.p2 c.c2 := by
    unfold Bez.flatness at h
    split at h
    · rename_i hz
      rw [Bool.and_eq_true, eq_iff, eq_iff] at hz
      refine ⟨⟨0, le_rfl, zero_le_one, ?_⟩, ⟨1, zero_le_one, le_rfl, ?_⟩⟩
      · rw [show segPt ⟨c.p1, c.p2⟩ 0 = c.p1 by apply P.ext_real <;> simp [segPt]]
        exact le_trans ((Real.sqrt_le_left heps.le).2 hz.1.le) (le_max_right _ _)
      · rw [show segPt ⟨c.p1, c.p2⟩ 1 = c.p2 by apply P.ext_real <;> simp [segPt]]
        exact le_trans ((Real.sqrt_le_left heps.le).2 hz.2.le) (le_max_right _ _)
    · have hm : ∀ a b : ℝ, pmax a b < flat → a < flat ∧ b < flat := by
        intro a b hab
        unfold pmax at hab
        split at hab
        · rename_i hh; simp at hh; exact ⟨by linarith, hab⟩
        · rename_i hh; simp at hh; exact ⟨hab, by linarith⟩
      obtain ⟨g1, g2⟩ := hm _ _ h
      constructor
      · obtain ⟨⟨t, t0, t1, ht⟩, hdist, -⟩ := C57_projection eps heps ⟨c.p1, c.p2⟩ c.c1
        rw [hdist, ht] at g1
        exact ⟨t, t0, t1, le_trans g1.le (le_max_left _ _)⟩
      · obtain ⟨⟨t, t0, t1, ht⟩, hdist, -⟩ := C57_projection eps heps ⟨c.p1, c.p2⟩ c.c2
        rw [hdist, ht] at g2
        exact ⟨t, t0, t1, le_trans g2.le (le_max_left _ _)⟩
  exact near_chord hd c both.1 both.2 u hu0 hu1

/-- If the code returns an arc, then the conditions of C94 hold but for the right angle. -/
theorem tangentArc_ok {eps : ℝ} (heps : 0 < eps) {p1 pt p2 : P ℝ} {rev : Bool} {a : Arc ℝ} (h : Arc.fromTwoPointsAndTangent eps p1 pt p2 rev = .ok (some a)) :
    (a.p1 = if rev then p2 else p1) ∧ (a.p2 = if rev then p1 else p2) ∧
    (0 ≤ (pt.x - p1.x) * (p2.x - p1.x) + (pt.y - p1.y) * (p2.y - p1.y) → a.Sweeps ∧
      (rev = false → a.GoesAt p1 ⟨pt.x - p1.x, pt.y - p1.y⟩) ∧ (rev = true → a.GoesAt p1 ⟨p1.x - pt.x, p1.y - pt.y⟩)) := by
  have h12 : eps ^ 2 ≤ sqDist p1 p2 := by
    by_contra hc
    rw [not_le, ← eq_iff] at hc
    unfold Arc.fromTwoPointsAndTangent at h
    rw [hc, Bool.true_or, if_pos rfl] at h
    cases h
  have h0 : eps ^ 2 ≤ pt.x ^ 2 + pt.y ^ 2 := by
    by_contra hc
    rw [not_le] at hc
    have := C94_refuted.2.2 eps p1 pt p2 rev hc heps
    rw [h] at this; cases this
  have hfar : eps ^ 2 ≤ sqDist pt p2 := by
    by_contra hc
    rw [not_le, ← eq_iff] at hc
    unfold Arc.fromTwoPointsAndTangent at h
    have hang : p1.angle2 eps pt p2 = 0 := by
      unfold P.angle2
      have : (pt.sub p1).eq eps (p2.sub p1) = true := by
        rw [eq_iff] at hc ⊢
        refine lt_of_eq_of_lt ?_ hc
        simp [sqDist, P.sub]
      dsimp only
      rw [this, if_pos rfl, real_zero]
    split at h
    · cases h
    · rw [hang] at h
      simp [pdiv, bind, Except.bind] at h
  have hx : (pt.x - p1.x) * (p2.y - p1.y) - (pt.y - p1.y) * (p2.x - p1.x) ≠ 0 := by
    intro hc
    have := C94_refuted.2.1 eps p1 pt p2 rev h12 h0 hfar hc
    rw [h] at this; cases this
  have ends : (a.p1 = if rev then p2 else p1) ∧ (a.p2 = if rev then p1 else p2) := by
    unfold Arc.fromTwoPointsAndTangent at h
    split at h
    · cases h
    · cases hp : pdiv (p1.distance p2) (ofInt 2 *. sin (ofInt 2 *. p1.angle2 eps pt p2 /. ofInt 2)) with
      | error e => simp only [hp, bind, Except.bind] at h; cases h
      | ok r =>
        simp only [hp, bind, Except.bind] at h
        cases rev with
        | false =>
          simp only [Bool.false_eq_true, if_false, Arc.mk'] at h ⊢
          cases hc : Arc.calcCenter eps p1 p2 (PyFloat.abs r) (ofInt 2 *. p1.angle2 eps pt p2) with
          | error e => simp only [hc, bind, Except.bind] at h; cases h
          | ok c => simp only [hc, bind, Except.bind, pure, Except.pure] at h; cases h; exact ⟨rfl, rfl⟩
        | true =>
          simp only [if_true, Arc.mk'] at h ⊢
          cases hc : Arc.calcCenter eps p2 p1 (PyFloat.abs r) (PyFloat.neg (ofInt 2 *. p1.angle2 eps pt p2)) with
          | error e => simp only [hc, bind, Except.bind] at h; cases h
          | ok c => simp only [hc, bind, Except.bind, pure, Except.pure] at h; cases h; exact ⟨rfl, rfl⟩
  refine ⟨ends.1, ends.2, fun hdot => ?_⟩
  obtain ⟨a', ha, hs, -, -, hf, ht⟩ := C94_tangent_arc_partial eps heps p1 pt p2 rev h12 h0 hfar hdot hx
  rw [h] at ha
  cases ha
  exact ⟨hs, fun hr => (hf hr).2.2, fun hr => (ht hr).2.2⟩

theorem goesAt_scale {a : Arc ℝ} {q d d' : P ℝ} {k : ℝ} (hk : 0 < k) (hx : d'.x = k * d.x) (hy : d'.y = k * d.y) (h : a.GoesAt q d') : a.GoesAt q d := by
  obtain ⟨m, hm, h1, h2⟩ := h
  exact ⟨m * k, mul_pos hm hk, by rw [h1, hx]; ring, by rw [h2, hy]; ring⟩

/-- The circle of the joints goes through the ends of the curve, so its arc is not shorter than the chord. -/
theorem jointArc_spec {eps : ℝ} (heps : 0 < eps) (c : Bez ℝ) :
    (c.biarcJointArc eps = none → |dirCross ⟨c.p1, c.p2⟩ ⟨c.tangent eps 0, c.tangent eps 1⟩| < eps) ∧
    (∀ j, c.biarcJointArc eps = some j → eps ^ 2 ≤ sqDist c.p1 c.p2 → (j.radius <. eps || j.length <. eps) = true → sqDist c.p1 c.p2 < (2 * eps) ^ 2) := by
  have hmid : (Line.midpoint ⟨c.p1, c.p2⟩ : P ℝ) = ⟨(c.p1.x + c.p2.x) / 2, (c.p1.y + c.p2.y) / 2⟩ := by
    apply P.ext_real <;> simp [Line.midpoint, P.add, P.mul, lit_real] <;> ring
  constructor
  · intro h
    unfold Bez.biarcJointArc at h
    dsimp only at h
    split at h
    · cases h
    · rename_i hn
      rcases (C55_intersection eps heps _ _ _ _ _).2 hn with hh | ⟨s, t, -, hh⟩
      · refine lt_of_eq_of_lt (congrArg _ ?_) hh
        simp [dirCross, Line.bisector, Line.midpoint, P.add, P.sub, P.mul, P.neg, lit_real]
        ring
      · simp at hh
  · intro j h hfar hsmall
    unfold Bez.biarcJointArc at h
    dsimp only at h
    split at h
    case h_2 => cases h
    rename_i ce hce
    obtain ⟨s, t, hs, -, -⟩ := (C55_intersection eps heps _ _ _ _ _).1 ce hce
    have heq : sqDist ce c.p1 = sqDist ce c.p2 := by
      rw [hs]
      simp [sqDist, segPt, Line.bisector, Line.midpoint, P.add, P.sub, P.mul, lit_real]
      ring
    have hr : j.radius = Real.sqrt (sqDist ce c.p1) ∧ |j.angle| = |ce.angle2 eps c.p1 c.p2| := by
      cases h
      refine ⟨distance_real _ _, ?_⟩
      dsimp only
      split
      · simp
      · rfl
    obtain ⟨hr, hang⟩ := hr
    have hr2 : j.radius ^ 2 = sqDist ce c.p1 := by rw [hr, Real.sq_sqrt (sqDist_nonneg _ _)]
    have hr0 : 0 ≤ j.radius := by rw [hr]; exact Real.sqrt_nonneg _
    have hchord : sqDist c.p1 c.p2 ≤ (2 * j.radius) ^ 2 := by
      have e1 : j.radius ^ 2 = (ce.x - c.p1.x) ^ 2 + (ce.y - c.p1.y) ^ 2 := hr2
      have e2 : j.radius ^ 2 = (ce.x - c.p2.x) ^ 2 + (ce.y - c.p2.y) ^ 2 := by rw [hr2, heq]; rfl
      unfold sqDist
      nlinarith [sq_nonneg (2 * ce.x - c.p1.x - c.p2.x), sq_nonneg (2 * ce.y - c.p1.y - c.p2.y)]
    rw [Bool.or_eq_true, real_lt, real_lt, decide_eq_true_eq, decide_eq_true_eq] at hsmall
    rcases hsmall with hsmall | hsmall
    · nlinarith
    · exfalso
      have hpos : 0 < j.radius := by
        rcases hr0.lt_or_eq with h | h
        · exact h
        · rw [← h] at hchord; nlinarith
      have hrot := angle2_rotates eps ce c.p1 c.p2 j.radius hpos (by rw [sqDist_comm, hr2]) (by rw [sqDist_comm, ← heq, hr2]) hfar
      set th := ce.angle2 eps c.p1 c.p2 with hth
      have hd : sqDist c.p1 c.p2 = 2 * j.radius ^ 2 * (1 - Real.cos th) := by
        rw [hr2]
        have e1 := congrArg P.x hrot
        have e2 := congrArg P.y hrot
        simp only [rotAbout] at e1 e2
        simp only [sqDist]
        rw [← e1, ← e2]
        have := Real.sin_sq_add_cos_sq th
        linear_combination ((c.p1.x - ce.x) ^ 2 + (c.p1.y - ce.y) ^ 2) * this
      have hcos : 1 - Real.cos th ≤ th ^ 2 / 2 := by linarith [Real.one_sub_sq_div_two_le_cos (x := th)]
      have hlen : j.length = j.radius * |th| := by
        unfold Arc.length
        rw [real_abs, real_mul, abs_mul, hang, abs_of_pos hpos]
      have : eps ^ 2 ≤ (j.radius * |th|) ^ 2 := by
        calc eps ^ 2 ≤ 2 * j.radius ^ 2 * (1 - Real.cos th) := by rw [← hd]; exact hfar
          _ ≤ 2 * j.radius ^ 2 * (th ^ 2 / 2) := by apply mul_le_mul_of_nonneg_left hcos; positivity
          _ = (j.radius * |th|) ^ 2 := by rw [mul_pow, sq_abs]; ring
      rw [hlen] at hsmall
      have h0 : 0 ≤ j.radius * |th| := by positivity
      nlinarith

/-- What an accepted sample means. -/
theorem sampleOk {eps tol : ℝ} {a : Arc ℝ} {q : P ℝ} {d : ℝ} (h : a.distanceToPoint eps q = .ok d) (hd : d ≤ tol) : SampleOk eps tol a q := by
  have h' := h
  unfold Arc.distanceToPoint at h
  split at h
  · cases h
    right; left
    rw [distance_real] at hd
    exact hd
  · have tail : ∀ inside : Bool, (if inside = true then pure (PyFloat.abs (a.center.distance q -. a.radius))
        else if true = true then pure (ofInt (-1)) else pure (pmin (a.p1.distance q) (a.p2.distance q)) : Except PyErr ℝ) = .ok d → SampleOk eps tol a q := by
      intro inside h
      split at h
      · cases h
        left
        rw [real_abs, real_sub, distance_real] at hd
        exact hd
      · right; right
        rw [h']
        cases h
        simp
    dsimp only at h
    split at h
    · obtain ⟨i, -, h⟩ := ok_bind h; exact tail i h
    split at h
    · obtain ⟨i, -, h⟩ := ok_bind h; exact tail i h
    · obtain ⟨x, -, h⟩ := ok_bind h
      obtain ⟨y, -, h⟩ := ok_bind h
      obtain ⟨i, -, h⟩ := ok_bind h; exact tail i h

theorem checkSamples_ok {eps tol t2 step : ℝ} {b : Bez ℝ} {a : Arc ℝ} (n : Nat) (t : ℝ) (h : b.checkSamples eps a t2 step tol n t = .ok true) :
    ∀ k : ℕ, k < n → (∀ i : ℕ, i ≤ k → t + i * step < t2) → SampleOk eps tol a (b.pointAt eps (t + k * step)) := by
  induction n generalizing t with
  | zero => intro k hk; omega
  | succ n ih =>
    intro k hk hlt
    unfold Bez.checkSamples at h
    have h0 : t < t2 := by have := hlt 0 (Nat.zero_le _); simpa using this
    rw [if_pos (by rw [real_lt]; exact decide_eq_true h0)] at h
    obtain ⟨d, hd, h⟩ := ok_bind h
    split at h
    · cases h
    · rename_i hh
      rw [real_lt, decide_eq_true_eq, not_lt] at hh
      cases k with
      | zero => simpa using sampleOk hd hh
      | succ k =>
        have := ih (t +. step) h k (by omega) (fun i hi => by
          have := hlt (i + 1) (by omega)
          push_cast at this
          rw [real_add]; linarith)
        rw [real_add] at this
        push_cast
        rwa [show t + (k + 1) * step = t + step + k * step by ring]

theorem hausdorff_ok {eps tol t1 : ℝ} (heps : 0 < eps) (he : eps ≤ 1 / 14) {b : Bez ℝ} {a : Arc ℝ} (h0 : 0 ≤ t1) (h1 : t1 ≤ 1 / 2)
    (h : b.checkHausdorff eps a t1 (t1 + 1 / 2) tol = .ok true) : ∀ k : ℕ, 1 ≤ k → k ≤ 6 → SampleOk eps tol a (b.curve (t1 + k / 14)) := by
  intro k hk1 hk6
  unfold Bez.checkHausdorff at h
  have hstep : (t1 + 1 / 2 -. t1) *. (one /. ofInt 7) = (1 / 14 : ℝ) := by simp; norm_num
  dsimp only at h
  rw [hstep] at h
  obtain ⟨m, rfl⟩ : ∃ m, k = m + 1 := ⟨k - 1, by omega⟩
  have hm : (m : ℝ) ≤ 5 := by exact_mod_cast (by omega : m ≤ 5)
  have hm0 : (0 : ℝ) ≤ m := Nat.cast_nonneg m
  have := checkSamples_ok 8 _ h m (by omega) (fun i hi => by
    have : (i : ℝ) ≤ 5 := by exact_mod_cast (by omega : i ≤ 5)
    rw [real_add]; linarith)
  rw [real_add] at this
  have e : t1 + 1 / 14 + m * (1 / 14) = t1 + ((m + 1 : ℕ) : ℝ) / 14 := by push_cast; ring
  rw [e] at this
  have hv : 1 / 14 ≤ t1 + ((m + 1 : ℕ) : ℝ) / 14 ∧ t1 + ((m + 1 : ℕ) : ℝ) / 14 ≤ 13 / 14 := by
    push_cast; constructor <;> linarith
  rwa [(C63_point_at eps b _).2.2.1 (by rw [abs_of_pos (by linarith)]; linarith) (by rw [abs_of_neg (by linarith)]; linarith)] at this

/-- A biarc of a part of the curve. -/
theorem arcs_good {eps tol flat d : ℝ} (heps : 0 < eps) {b c : Bez ℝ} {s t : ℝ} (hst : s < t) (hp : PartOf b s t c) {pj : P ℝ} {arcs : Arc ℝ × Arc ℝ}
    (h : c.biarcArcs eps pj = .ok arcs)
    (hs : (∀ k : ℕ, 1 ≤ k → k ≤ 6 → SampleOk eps tol arcs.1 (c.curve (k / 14)) ∧ SampleOk eps tol arcs.2 (c.curve (1 / 2 + k / 14))) ∨ t - s ≤ d) :
    GoodPiece eps tol flat d b ⟨s, t, [.arc arcs.1, .arc arcs.2]⟩ := by
  obtain ⟨⟨vx1, vy1⟩, vx2, vy2⟩ := part_vel hp
  have hk : 0 < (t - s) / 3 := by linarith
  unfold Bez.biarcArcs at h
  obtain ⟨o1, h1, h⟩ := ok_bind h
  obtain ⟨o2, h2, h⟩ := ok_bind h
  cases o1 with
  | none => cases h
  | some a1 =>
    cases o2 with
    | none => cases h
    | some a2 =>
      dsimp only at h
      split at h
      case isFalse => cases h
      rename_i hj
      cases h
      rw [floatEq_iff] at hj
      obtain ⟨e1, e2, e3⟩ := tangentArc_ok heps h1
      obtain ⟨f1, f2, f3⟩ := tangentArc_ok heps h2
      simp only [Bool.false_eq_true, if_false, if_true] at e1 e2 f1 f2
      refine Or.inr (Or.inr ⟨a1, a2, rfl, by rw [e1]; exact part_zero hp, by rw [e2, f1], by rw [f2]; exact part_one hp, hj, ?_, ?_, ?_⟩)
      · dsimp only
        intro hv hdot
        have hne : c.c1.ne eps c.p1 = true := by
          unfold P.ne
          rw [Bool.not_eq_true']
          refine (eq_false_iff _ _ _).2 ?_
          refine le_trans hv (le_of_eq ?_)
          simp only [sqDist]; rw [vx1, vy1]; ring
        rw [if_pos hne] at e3
        obtain ⟨g1, g2, -⟩ := e3 (by
          rw [vx1, vy1]
          rw [e1, e2] at hdot
          have := mul_nonneg hk.le hdot
          linarith)
        refine ⟨g1, ?_⟩
        rw [e1]
        exact goesAt_scale hk vx1 vy1 (g2 rfl)
      · dsimp only
        intro hv hdot
        have hne : c.c2.ne eps c.p2 = true := by
          unfold P.ne
          rw [Bool.not_eq_true']
          refine (eq_false_iff _ _ _).2 ?_
          refine le_trans hv (le_of_eq ?_)
          rw [sqDist_comm]
          simp only [sqDist]; rw [vx2, vy2]; ring
        rw [if_pos hne] at f3
        obtain ⟨g1, -, g2⟩ := f3 (by
          rw [f1, f2] at hdot
          have := mul_nonneg hk.le hdot
          have e : (c.c2.x - c.p2.x) * (pj.x - c.p2.x) + (c.c2.y - c.p2.y) * (pj.y - c.p2.y) =
            (c.p2.x - c.c2.x) * (c.p2.x - pj.x) + (c.p2.y - c.c2.y) * (c.p2.y - pj.y) := by ring
          rw [e, vx2, vy2]
          linarith)
        refine ⟨g1, ?_⟩
        rw [f2]
        exact goesAt_scale hk vx2 vy2 (g2 rfl)
      · rcases hs with hs | hs
        · left
          intro k k1 k6
          obtain ⟨g1, g2⟩ := hs k k1 k6
          rw [hp] at g1 g2
          exact ⟨g1, g2⟩
        · right; exact hs

theorem goodPiece_mono {eps tol flat d d' : ℝ} (h : d ≤ d') {b : Bez ℝ} {p : Piece} (hp : GoodPiece eps tol flat d b p) : GoodPiece eps tol flat d' b p := by
  rcases hp with hp | hp | ⟨a1, a2, h1, h2, h3, h4, h5, h6, h7, h8⟩
  · exact Or.inl hp
  · exact Or.inr (Or.inl hp)
  · exact Or.inr (Or.inr ⟨a1, a2, h1, h2, h3, h4, h5, h6, h7, h8.imp id (fun g => le_trans g h)⟩)

theorem part_sub {b c d : Bez ℝ} {s t u v : ℝ} (h : PartOf b s t c) (g : PartOf c u v d) : PartOf b (s + u * (t - s)) (s + v * (t - s)) d := by
  intro w
  rw [g, h]
  congr 1; ring

theorem lit_half : (lit 5 1 : ℝ) = 1 / 2 := by rw [lit_real]; norm_num

/-- Below the first level. -/
theorem core_tiles {eps tol flat : ℝ} (heps : 0 < eps) (he : eps ≤ 1 / 14) (b : Bez ℝ) (n : Nat) (c : Bez ℝ) (s t : ℝ) (hst : s < t) (hp : PartOf b s t c)
    (l : List (Shape ℝ)) (h : Bez.biarcCore eps tol flat n c = .ok l) :
    ∃ ps, Tiles s t ps ∧ l = ps.flatMap Piece.out ∧ ∀ p ∈ ps, GoodPiece eps tol flat ((t - s) * (1 / 2) ^ n) b p := by
  have one : ∀ d out, GoodPiece eps tol flat d b ⟨s, t, out⟩ → ∃ ps, Tiles s t ps ∧ out = ps.flatMap Piece.out ∧ ∀ p ∈ ps, GoodPiece eps tol flat d b p := by
    intro d out hg
    exact ⟨[⟨s, t, out⟩], ⟨rfl, hst, rfl⟩, by simp, by simpa using hg⟩
  induction n generalizing c s t l with
  | zero =>
    unfold Bez.biarcCore at h
    split at h
    · rename_i heq
      cases h
      rw [eq_iff, part_zero hp, part_one hp] at heq
      exact one _ _ (Or.inl ⟨rfl, Or.inl (by nlinarith)⟩)
    rename_i hne
    rw [Bool.not_eq_true, eq_false_iff] at hne
    split at h
    · rename_i hfl
      cases h
      refine one _ _ (Or.inr (Or.inl ⟨by rw [part_zero hp, part_one hp], fun u h1 h2 => ?_⟩))
      have := flat_near heps c hfl ((u - s) / (t - s)) (div_nonneg (by linarith) (by linarith)) (by rw [div_le_one (by linarith)]; linarith)
      rw [hp, part_zero hp, part_one hp, div_mul_cancel₀ _ (by linarith : t - s ≠ 0)] at this
      simpa using this
    split at h
    · rename_i hj
      cases h
      refine one _ _ (Or.inl ⟨rfl, Or.inr ⟨c, hp, ?_⟩⟩)
      have := (jointArc_spec heps c).1 hj
      rwa [part_zero hp, part_one hp] at this
    rename_i j hj
    split at h
    · rename_i hsm
      cases h
      have := (jointArc_spec heps c).2 j hj hne hsm
      rw [part_zero hp, part_one hp] at this
      exact one _ _ (Or.inl ⟨rfl, Or.inl this⟩)
    obtain ⟨pj, -, h⟩ := ok_bind h
    obtain ⟨arcs, ha, h⟩ := ok_bind h
    cases h
    exact one _ _ (arcs_good heps hst hp ha (Or.inr (by simp)))
  | succ n ih =>
    have halves : ∀ {l}, Bez.joinHalves (Bez.biarcCore eps tol flat n (c.subdivide (lit 5 1)).1)
        ((c.subdivide (lit 5 1)).2.elim (.error .attributeError) fun d => Bez.biarcCore eps tol flat n d) = .ok l →
        ∃ ps, Tiles s t ps ∧ l = ps.flatMap Piece.out ∧ ∀ p ∈ ps, GoodPiece eps tol flat ((t - s) * (1 / 2) ^ (n + 1)) b p := by
      intro l h
      obtain ⟨c1, c2, hsub, hc1, hc2, -⟩ := (C63_subdivide c (1 / 2)).1 (by norm_num) (by norm_num)
      rw [lit_half, hsub] at h
      obtain ⟨l1, h1, h⟩ := ok_bind h
      obtain ⟨l2, h2, h⟩ := ok_bind h
      cases h
      have p1 : PartOf b s ((s + t) / 2) c1 := by
        intro u; rw [hc1, hp]; congr 1; ring
      have p2 : PartOf b ((s + t) / 2) t c2 := by
        intro u; rw [hc2, hp]; congr 1; ring
      have one' : ∀ (s t : ℝ), s < t → ∀ d out, GoodPiece eps tol flat d b ⟨s, t, out⟩ →
          ∃ ps, Tiles s t ps ∧ out = ps.flatMap Piece.out ∧ ∀ p ∈ ps, GoodPiece eps tol flat d b p := by
        intro s t hst d out hg
        exact ⟨[⟨s, t, out⟩], ⟨rfl, hst, rfl⟩, by simp, by simpa using hg⟩
      obtain ⟨ps, t1, e1, g1⟩ := ih c1 s ((s + t) / 2) (by linarith) p1 l1 h1 (one' _ _ (by linarith))
      obtain ⟨qs, t2, e2, g2⟩ := ih c2 ((s + t) / 2) t (by linarith) p2 l2 h2 (one' _ _ (by linarith))
      refine ⟨ps ++ qs, tiles_append t1 t2, by rw [e1, e2, List.flatMap_append], ?_⟩
      intro p hp'
      rcases List.mem_append.1 hp' with hp' | hp'
      · refine goodPiece_mono (le_of_eq ?_) (g1 p hp'); rw [pow_succ]; ring
      · refine goodPiece_mono (le_of_eq ?_) (g2 p hp'); rw [pow_succ]; ring
    unfold Bez.biarcCore at h
    split at h
    · rename_i heq
      cases h
      rw [eq_iff, part_zero hp, part_one hp] at heq
      exact one _ _ (Or.inl ⟨rfl, Or.inl (by nlinarith)⟩)
    rename_i hne
    rw [Bool.not_eq_true, eq_false_iff] at hne
    split at h
    · rename_i hfl
      cases h
      refine one _ _ (Or.inr (Or.inl ⟨by rw [part_zero hp, part_one hp], fun u h1 h2 => ?_⟩))
      have := flat_near heps c hfl ((u - s) / (t - s)) (div_nonneg (by linarith) (by linarith)) (by rw [div_le_one (by linarith)]; linarith)
      rw [hp, part_zero hp, part_one hp, div_mul_cancel₀ _ (by linarith : t - s ≠ 0)] at this
      simpa using this
    split at h
    · rename_i hj
      cases h
      refine one _ _ (Or.inl ⟨rfl, Or.inr ⟨c, hp, ?_⟩⟩)
      have := (jointArc_spec heps c).1 hj
      rwa [part_zero hp, part_one hp] at this
    rename_i j hj
    split at h
    · rename_i hsm
      cases h
      have := (jointArc_spec heps c).2 j hj hne hsm
      rw [part_zero hp, part_one hp] at this
      exact one _ _ (Or.inl ⟨rfl, Or.inl this⟩)
    obtain ⟨pj, -, h⟩ := ok_bind h
    dsimp only at h
    split at h
    · exact halves h
    · obtain ⟨arcs, ha, h⟩ := ok_bind h
      obtain ⟨off, ho, h⟩ := ok_bind h
      split at h
      · exact halves h
      · rename_i hoff
        cases h
        refine one _ _ (arcs_good heps hst hp ha (Or.inl fun k k1 k6 => ?_))
        unfold Bez.biarcOff at ho
        obtain ⟨ok2, hok2, ho⟩ := ok_bind ho
        split at ho
        · cases ho; simp at hoff
        · rename_i h2
          obtain ⟨ok1, hok1, ho⟩ := ok_bind ho
          cases ho
          have e2 : ok2 = true := by simpa using h2
          have e1 : ok1 = true := by simpa using hoff
          subst e1 e2
          constructor
          · have := hausdorff_ok heps he le_rfl (by norm_num) (by rw [lit_half] at hok1; simpa using hok1) k k1 k6
            simpa using this
          · exact hausdorff_ok heps he (by norm_num) le_rfl (by rw [lit_half] at hok2; norm_num; simpa using hok2) k k1 k6

/-- Specification: the curves are consecutive parts of `b` from `s` to `t`. -/
def CurveTiles (b : Bez ℝ) (s t : ℝ) : List (Bez ℝ) → Prop
  | [] => s = t
  | c :: cs => ∃ m, s < m ∧ PartOf b s m c ∧ CurveTiles b m t cs

theorem curveTiles_append {b : Bez ℝ} {s m t : ℝ} {cs ds : List (Bez ℝ)} (h1 : CurveTiles b s m cs) (h2 : CurveTiles b m t ds) : CurveTiles b s t (cs ++ ds) := by
  induction cs generalizing s with
  | nil => cases h1; exact h2
  | cons c cs ih =>
    obtain ⟨k, hk, hp, hr⟩ := h1
    exact ⟨k, hk, hp, ih hr⟩

theorem pieces_tiles {b c : Bez ℝ} {s t : ℝ} (hst : s < t) (hp : PartOf b s t c) (u : ℝ) (hu : 0 < u) : CurveTiles b s t (c.pieces u) := by
  unfold Bez.pieces
  rcases lt_or_ge u 1 with h1 | h1
  · obtain ⟨l, r, hsub, hl, hr, -⟩ := (C63_subdivide c u).1 hu h1
    rw [hsub]
    refine ⟨s + u * (t - s), by nlinarith, ?_, t, by nlinarith, ?_, rfl⟩
    · intro w; rw [hl, hp]; congr 1; ring
    · intro w; rw [hr, hp]; congr 1; ring
  · rw [(C63_subdivide c u).2 (Or.inr h1)]
    exact ⟨t, hst, hp, rfl⟩

theorem inflection_tiles (eps : ℝ) (b : Bez ℝ) : CurveTiles b 0 1 (b.subdivideInflections eps) := by
  have hb : PartOf b 0 1 b := by intro u; congr 1; ring
  unfold Bez.subdivideInflections
  dsimp only
  split
  · rename_i h
    simp only [Bool.and_eq_true, real_lt, decide_eq_true_eq, real_zero] at h
    exact pieces_tiles zero_lt_one hb _ h.1
  split
  · rename_i h
    simp only [Bool.and_eq_true, real_lt, decide_eq_true_eq, real_zero] at h
    exact pieces_tiles zero_lt_one hb _ h.2
  split
  · rename_i h
    simp only [Bool.and_eq_true, real_lt, decide_eq_true_eq, real_zero] at h
    generalize hu : (if ((b.findInflections eps).2 <. (b.findInflections eps).1) = true then (b.findInflections eps).2 else (b.findInflections eps).1) = u
    have hu0 : 0 < u := by rw [← hu]; split <;> [exact h.2; exact h.1]
    rcases lt_or_ge u 1 with h1 | h1
    · obtain ⟨l, r, hsub, hl, hr, -⟩ := (C63_subdivide b u).1 hu0 h1
      rw [hsub]
      have pl : PartOf b 0 u l := by intro w; rw [hl, sub_zero, zero_add]
      have pr : PartOf b u 1 r := by intro w; rw [hr]
      dsimp only
      split
      · rename_i hm
        simp only [real_lt, decide_eq_true_eq, real_zero] at hm
        exact curveTiles_append (pieces_tiles hu0 pl _ hm) ⟨1, h1, pr, rfl⟩
      · split
        · rename_i hm
          simp only [real_lt, decide_eq_true_eq, real_zero] at hm
          exact ⟨u, hu0, pl, pieces_tiles h1 pr _ hm⟩
        · exact ⟨u, hu0, pl, 1, h1, pr, rfl⟩
    · rw [(C63_subdivide b u).2 (Or.inr h1)]
      exact ⟨1, zero_lt_one, hb, rfl⟩
  · exact ⟨1, zero_lt_one, hb, rfl⟩

theorem curveTiles_le {b : Bez ℝ} {s t : ℝ} {cs : List (Bez ℝ)} (h : CurveTiles b s t cs) : s ≤ t := by
  induction cs generalizing s with
  | nil => exact le_of_eq h
  | cons c cs ih => obtain ⟨m, hm, -, hr⟩ := h; exact le_trans hm.le (ih hr)

theorem mapM_tiles {eps tol flat : ℝ} (heps : 0 < eps) (he : eps ≤ 1 / 14) (b : Bez ℝ) (n : Nat) (cs : List (Bez ℝ)) (s t : ℝ) (hs : 0 ≤ s) (ht : t ≤ 1)
    (hp : CurveTiles b s t cs) (rs : List (List (Shape ℝ))) (h : cs.mapM (Bez.biarcCore eps tol flat n) = .ok rs) :
    ∃ ps, Tiles s t ps ∧ rs.flatten = ps.flatMap Piece.out ∧ ∀ p ∈ ps, GoodPiece eps tol flat ((1 / 2) ^ n) b p := by
  induction cs generalizing s rs with
  | nil => cases h; exact ⟨[], hp, rfl, by simp⟩
  | cons c cs ih =>
    obtain ⟨m, hm, hc, hr⟩ := hp
    rw [List.mapM_cons] at h
    obtain ⟨l, hl, h⟩ := ok_bind h
    obtain ⟨ls, hls, h⟩ := ok_bind h
    cases h
    obtain ⟨ps, t1, e1, g1⟩ := core_tiles heps he b n c s m hm hc l hl
    obtain ⟨qs, t2, e2, g2⟩ := ih m (by linarith) hr ls hls
    refine ⟨ps ++ qs, tiles_append t1 t2, by rw [List.flatten_cons, e1, e2, List.flatMap_append], ?_⟩
    intro p hp'
    rcases List.mem_append.1 hp' with hp' | hp'
    · refine goodPiece_mono ?_ (g1 p hp')
      have := curveTiles_le hr
      exact mul_le_of_le_one_left (by positivity) (by linarith)
    · exact g2 p hp'

/-- **C95**: whatever `biarc_approximation` returns replaces consecutive parts of the curve, from its start to its end, each by its chord, by two tangent arcs, or (only if it is degenerate) by nothing.
`GoodPiece` says how they agree with the curve.  Missing: parts between samples, samples in whose direction the arc has no point, parts that cannot be divided further (shorter than the last argument of
`GoodPiece`), and the absence of errors. -/
theorem C95_biarc_partial (eps tol flat : ℝ) (heps : 0 < eps) (he : eps ≤ 1 / 14) (depth : Nat) (b : Bez ℝ) (l : List (Shape ℝ))
    (h : b.biarcApproximation eps tol depth flat = .ok l) :
    ∃ ps, Tiles 0 1 ps ∧ l = ps.flatMap Piece.out ∧ ∀ p ∈ ps, GoodPiece eps tol flat ((1 / 2) ^ (depth - 1)) b p := by
  have hb : PartOf b 0 1 b := by intro u; congr 1; ring
  have key : ∀ n, Bez.biarcCore eps tol flat n b = .ok l → depth - 1 ≤ n →
      ∃ ps, Tiles 0 1 ps ∧ l = ps.flatMap Piece.out ∧ ∀ p ∈ ps, GoodPiece eps tol flat ((1 / 2) ^ (depth - 1)) b p := by
    intro n hn hle
    obtain ⟨ps, h1, h2, h3⟩ := core_tiles heps he b n b 0 1 zero_lt_one hb l hn
    refine ⟨ps, h1, h2, fun p hp => goodPiece_mono ?_ (h3 p hp)⟩
    rw [sub_zero, one_mul]
    exact pow_le_pow_of_le_one (by norm_num) (by norm_num) hle
  unfold Bez.biarcApproximation at h
  split at h
  · rename_i heq
    cases h
    refine key depth ?_ (by omega)
    unfold Bez.biarcCore; rw [if_pos heq]
  split at h
  · rename_i heq hfl
    cases h
    refine key depth ?_ (by omega)
    unfold Bez.biarcCore; rw [if_neg heq, if_pos hfl]
  · dsimp only at h
    split at h
    · obtain ⟨rs, hrs, h⟩ := ok_bind h
      cases h
      exact mapM_tiles heps he b (depth - 1) _ 0 1 le_rfl le_rfl (inflection_tiles eps b) rs hrs
    · exact key depth h (by omega)

/-- **C95** as stated is false of the code: a closed curve, however large, is replaced by nothing at all. -/
theorem C95_refuted (eps tol flat : ℝ) (heps : 0 < eps) (depth : Nat) (b : Bez ℝ) (h : b.p1 = b.p2) : b.biarcApproximation eps tol depth flat = .ok [] := by
  unfold Bez.biarcApproximation
  rw [if_pos]
  rw [eq_iff, h, show sqDist b.p2 b.p2 = 0 by simp [sqDist]]
  exact pow_pos heps 2

/-- Non-vacuity: a round arch is replaced by two quarter circles. -/
example : ∃ a1 a2, (Bez.mk ⟨-1, 0⟩ ⟨-1, 4/3⟩ ⟨1, 4/3⟩ ⟨1, 0⟩ : Bez ℝ).biarcApproximation (1/1000) (1/1000) 0 (1/1000) = .ok [.arc a1, .arc a2] := by
  set e : ℝ := 1/1000 with he
  have e0 : 0 < e := by norm_num [he]
  obtain ⟨a1, h1, ⟨⟨-, c1, c1'⟩, s1⟩, -, -, f1, -⟩ := C94_tangent_arc_partial e e0 ⟨-1, 0⟩ ⟨-1, 4/3⟩ ⟨0, 1⟩ false (by norm_num [sqDist, he]) (by norm_num [he]) (by norm_num [sqDist, he])
    (by norm_num) (by norm_num)
  obtain ⟨a2, h2, ⟨⟨-, c2, c2'⟩, s2⟩, -, -, -, f2⟩ := C94_tangent_arc_partial e e0 ⟨1, 0⟩ ⟨1, 4/3⟩ ⟨0, 1⟩ true (by norm_num [sqDist, he]) (by norm_num [he]) (by norm_num [sqDist, he])
    (by norm_num) (by norm_num)
  obtain ⟨q1, r1, k1, hk1, u1, v1⟩ := f1 rfl
  obtain ⟨q2, r2, k2, hk2, u2, v2⟩ := f2 rfl
  have zero_turn : ∀ a : Arc ℝ, a.angle = 0 → rotAbout a.center a.angle a.p1 = a.p2 → a.p1 = a.p2 := by
    intro a h0 h; rw [← h, h0]; apply P.ext_real <;> simp [rotAbout]
  have g1 : a1.center = ⟨0, 0⟩ ∧ a1.angle < 0 := by
    rw [q1] at c1; rw [r1] at c1'
    simp only [sqDist] at c1 c1'
    simp only at u1 v1
    have hy : a1.center.y = 0 := by
      split at u1 <;> linarith
    have hx : a1.center.x = 0 := by rw [hy] at c1 c1'; nlinarith
    refine ⟨P.ext_real hx hy, ?_⟩
    rw [hx] at v1
    by_contra hn
    rcases (not_lt.1 hn).lt_or_eq with h | h
    · rw [if_pos h] at v1; nlinarith
    · have := zero_turn a1 h.symm s1
      rw [q1, r1] at this
      have := congrArg P.x this
      norm_num at this
  have g2 : a2.center = ⟨0, 0⟩ ∧ a2.angle < 0 := by
    rw [q2] at c2; rw [r2] at c2'
    simp only [sqDist] at c2 c2'
    simp only at u2 v2
    have hy : a2.center.y = 0 := by
      split at u2 <;> linarith
    have hx : a2.center.x = 0 := by rw [hy] at c2 c2'; nlinarith
    refine ⟨P.ext_real hx hy, ?_⟩
    rw [hx] at v2
    by_contra hn
    rcases (not_lt.1 hn).lt_or_eq with h | h
    · rw [if_pos h] at v2; nlinarith
    · have := zero_turn a2 h.symm s2
      rw [q2, r2] at this
      have := congrArg P.x this
      norm_num at this
  have htan : a1.endTangent = a2.startTangent := by
    unfold Arc.endTangent Arc.startTangent Arc.isClockwise
    rw [g1.1, g2.1, r1, q2, if_pos (by rw [real_lt, real_zero]; exact decide_eq_true g1.2), if_pos (by rw [real_lt, real_zero]; exact decide_eq_true g2.2)]
  refine ⟨a1, a2, ?_⟩
  have hflat : (Bez.mk ⟨-1, 0⟩ ⟨-1, 4/3⟩ ⟨1, 4/3⟩ ⟨1, 0⟩ : Bez ℝ).flatness e = 4/3 := by
    unfold Bez.flatness
    rw [if_neg (by rw [Bool.and_eq_true, eq_iff]; norm_num [sqDist, he])]
    have hp : ∀ x : ℝ, x = -1 ∨ x = 1 → Line.distanceToPoint e ⟨⟨-1, 0⟩, ⟨1, 0⟩⟩ ⟨x, 4/3⟩ true = 4/3 := by
      intro x hx
      unfold Line.distanceToPoint
      have : Line.normalProjectionPoint e ⟨⟨-1, 0⟩, ⟨1, 0⟩⟩ ⟨x, 4/3⟩ true = ⟨x, 0⟩ := by
        unfold Line.normalProjectionPoint P.normalProjection
        rcases hx with rfl | rfl <;> norm_num [P.sub, P.dot, P.length2, he]
      rw [this, distance_real]
      have : sqDist (⟨x, 0⟩ : P ℝ) ⟨x, 4/3⟩ = (4/3) ^ 2 := by simp [sqDist]
      rw [this, Real.sqrt_sq (by norm_num)]
    simp only [hp (-1) (Or.inl rfl), hp 1 (Or.inr rfl)]
    simp [pmax]
  have hunit : ∀ y : ℝ, |y| = 4/3 → ∀ z, y = 4/3 * z → P.unit e (⟨0, y⟩ : P ℝ) = ⟨0, z⟩ := by
    intro y hy z hz
    have hl : P.length2 (⟨0, y⟩ : P ℝ) = y ^ 2 := by simp [P.length2]; ring
    have hy2 : y ^ 2 = 16/9 := by rw [← sq_abs, hy]; norm_num
    unfold P.unit
    rw [hl, if_pos (by rw [real_lt, hy2, he]; norm_num), real_sqrt, Real.sqrt_sq_eq_abs, hy]
    apply P.ext_real
    · simp
    · simp only [real_div]; rw [hz]; ring
  have htan0 : (Bez.mk ⟨-1, 0⟩ ⟨-1, 4/3⟩ ⟨1, 4/3⟩ ⟨1, 0⟩ : Bez ℝ).tangent e zero = ⟨0, 1⟩ := by
    have hc : P.eq e (⟨-1, 4/3⟩ : P ℝ) ⟨-1, 0⟩ = false := by rw [eq_false_iff]; norm_num [sqDist, he]
    unfold Bez.tangent
    rw [if_pos (by rw [isZero_iff, real_zero, abs_zero]; exact e0)]
    simp only [hc, Bool.false_eq_true, if_false]
    rw [show P.sub (⟨-1, 4/3⟩ : P ℝ) ⟨-1, 0⟩ = ⟨0, 4/3⟩ by simp [P.sub]]
    exact hunit (4/3) (by norm_num) 1 (by norm_num)
  have htan1 : (Bez.mk ⟨-1, 0⟩ ⟨-1, 4/3⟩ ⟨1, 4/3⟩ ⟨1, 0⟩ : Bez ℝ).tangent e one = ⟨0, -1⟩ := by
    have hc : P.eq e (⟨1, 4/3⟩ : P ℝ) ⟨1, 0⟩ = false := by rw [eq_false_iff]; norm_num [sqDist, he]
    unfold Bez.tangent
    rw [if_neg (by rw [isZero_iff, real_one, abs_one, he]; norm_num), if_pos (by rw [floatEq_iff, sub_self, abs_zero]; exact e0)]
    simp only [hc, Bool.false_eq_true, if_false]
    rw [show P.neg (P.sub (⟨1, 4/3⟩ : P ℝ) ⟨1, 0⟩) = ⟨0, -(4/3)⟩ by simp [P.sub, P.neg]]
    exact hunit (-(4/3)) (by norm_num) (-1) (by norm_num)
  have hang : ∃ j, (Bez.mk ⟨-1, 0⟩ ⟨-1, 4/3⟩ ⟨1, 4/3⟩ ⟨1, 0⟩ : Bez ℝ).biarcJointArc e = some j ∧ j.radius = 1 ∧ j.center = ⟨0, 0⟩ := by
    unfold Bez.biarcJointArc
    rw [htan0, htan1]
    have : (Line.bisector ⟨⟨-1, 0⟩, ⟨1, 0⟩⟩).intersection e (Line.bisector ⟨P.add ⟨-1, 0⟩ ⟨0, 1⟩, P.add ⟨1, 0⟩ (P.neg (P.neg ⟨0, -1⟩))⟩) = some (⟨0, 0⟩ : P ℝ) := by
      unfold Line.intersection Line.intersectionMu
      norm_num [Line.bisector, Line.midpoint, P.add, P.sub, P.neg, P.mul, lit_real, Line.denom, Line.numA, Line.numB, Line.pointAt, he]
    simp only [this]
    refine ⟨_, rfl, ?_, rfl⟩
    show P.distance _ _ = _
    rw [distance_real]
    norm_num [sqDist]
  obtain ⟨j, hj, hjr, hjc⟩ := hang
  have hne : P.eq e (⟨-1, 0⟩ : P ℝ) ⟨1, 0⟩ = false := by rw [eq_false_iff]; norm_num [sqDist, he]
  have hjl : ¬ ((j.radius <. e || j.length <. e) = true) := by
    intro hc
    have := (jointArc_spec e0 _).2 j hj (by norm_num [sqDist, he]) hc
    norm_num [sqDist, he] at this
  have hpj : (Bez.mk ⟨-1, 0⟩ ⟨-1, 4/3⟩ ⟨1, 4/3⟩ ⟨1, 0⟩ : Bez ℝ).biarcJoint e j = .ok ⟨0, 1⟩ := by
    unfold Bez.biarcJoint
    rw [hjr, hjc, lit_half, (C63_point_at e _ (1/2)).2.2.1 (by norm_num [he]) (by norm_num [he])]
    have : (P.sub ((Bez.mk ⟨-1, 0⟩ ⟨-1, 4/3⟩ ⟨1, 4/3⟩ ⟨1, 0⟩ : Bez ℝ).curve (1/2)) ⟨0, 0⟩) = ⟨0, 1⟩ := by
      apply P.ext_real <;> norm_num [Bez.curve, bernstein3, P.sub]
    simp only [this]
    norm_num [P.length, pdiv, P.mul, P.add, bind, Except.bind, pure, Except.pure]
  have harcs : (Bez.mk ⟨-1, 0⟩ ⟨-1, 4/3⟩ ⟨1, 4/3⟩ ⟨1, 0⟩ : Bez ℝ).biarcArcs e ⟨0, 1⟩ = .ok (a1, a2) := by
    unfold Bez.biarcArcs
    have n1 : P.ne e (⟨-1, 4/3⟩ : P ℝ) ⟨-1, 0⟩ = true := by
      unfold P.ne; rw [Bool.not_eq_true']; refine (eq_false_iff _ _ _).2 ?_; norm_num [sqDist, he]
    have n2 : P.ne e (⟨1, 4/3⟩ : P ℝ) ⟨1, 0⟩ = true := by
      unfold P.ne; rw [Bool.not_eq_true']; refine (eq_false_iff _ _ _).2 ?_; norm_num [sqDist, he]
    simp only [n1, n2, if_true, h1, h2, bind, Except.bind]
    rw [if_pos (by rw [floatEq_iff, htan, sub_self, abs_zero]; exact e0)]
    rfl
  have hinf : (Bez.mk ⟨-1, 0⟩ ⟨-1, 4/3⟩ ⟨1, 4/3⟩ ⟨1, 0⟩ : Bez ℝ).findInflections e = (0, 0) := by
    unfold Bez.findInflections
    have hc : P.eq e (P.sub (⟨-1, 4/3⟩ : P ℝ) ⟨-1, 0⟩) (P.neg (P.sub ⟨1, 4/3⟩ ⟨1, 0⟩)) = false := by
      rw [eq_false_iff]; norm_num [sqDist, he, P.sub, P.neg]
    have hs : Real.sqrt (256 / 9) = 16 / 3 := by
      rw [show (256 / 9 : ℝ) = (16/3) ^ 2 by norm_num, Real.sqrt_sq (by norm_num)]
    simp only [hc, Bool.false_eq_true, if_false]
    norm_num [P.sub, P.mul, Bez.filterRoots, hs, he]
  unfold Bez.biarcApproximation
  rw [if_neg (by rw [hne]; simp), hflat, if_neg (by rw [real_lt, decide_eq_true_eq, he]; norm_num)]
  have hsub : (Bez.mk ⟨-1, 0⟩ ⟨-1, 4/3⟩ ⟨1, 4/3⟩ ⟨1, 0⟩ : Bez ℝ).subdivideInflections e = [⟨⟨-1, 0⟩, ⟨-1, 4/3⟩, ⟨1, 4/3⟩, ⟨1, 0⟩⟩] := by
    unfold Bez.subdivideInflections
    rw [hinf]
    simp
  rw [hsub]
  dsimp only
  rw [if_neg (by simp)]
  unfold Bez.biarcCore
  rw [if_neg (by rw [hne]; simp), hflat, if_neg (by rw [real_lt, decide_eq_true_eq, he]; norm_num), hj]
  dsimp only
  rw [if_neg hjl, hpj]
  simp only [bind, Except.bind, harcs]
  rfl

/-- **C95** also fails for the exceptions: an ordinary round arch, wherever else it is replaced by two quarter circles, raises `AttributeError` if its first
handle is at the origin of the coordinates - for every number of subdivisions, every tolerance, and with small constants. -/
theorem C95_refuted_origin (eps tol flat : ℝ) (heps : 0 < eps) (he : eps ≤ 1 / 1000) (htol : 0 ≤ tol) (hflat1 : flat ≤ 1) (depth : Nat) :
    (Bez.mk ⟨0, -4/3⟩ ⟨0, 0⟩ ⟨2, 0⟩ ⟨2, -4/3⟩ : Bez ℝ).biarcApproximation eps tol depth flat = .error .attributeError := by
  have hsq : eps ^ 2 ≤ 1 / 1000000 := by nlinarith
  have hmul : eps * eps ≤ 1 / 1000000 := by nlinarith
  obtain ⟨a2, h2, -⟩ := C94_tangent_arc_partial eps heps ⟨2, -4/3⟩ ⟨2, 0⟩ ⟨1, -1/3⟩ true (by norm_num [sqDist]; linarith) (by norm_num; linarith)
    (by norm_num [sqDist]; linarith) (by norm_num) (by norm_num)
  have hflat : (Bez.mk ⟨0, -4/3⟩ ⟨0, 0⟩ ⟨2, 0⟩ ⟨2, -4/3⟩ : Bez ℝ).flatness eps = 4/3 := by
    unfold Bez.flatness
    rw [if_neg (by rw [Bool.and_eq_true, eq_iff]; norm_num [sqDist]; intro h; linarith)]
    have hp : ∀ x : ℝ, x = 0 ∨ x = 2 → Line.distanceToPoint eps ⟨⟨0, -4/3⟩, ⟨2, -4/3⟩⟩ ⟨x, 0⟩ true = 4/3 := by
      intro x hx
      unfold Line.distanceToPoint
      have : Line.normalProjectionPoint eps ⟨⟨0, -4/3⟩, ⟨2, -4/3⟩⟩ ⟨x, 0⟩ true = ⟨x, -4/3⟩ := by
        unfold Line.normalProjectionPoint P.normalProjection
        have h4 : ¬ (4 < eps) := by linarith
        have h5 : ¬ (4 < eps * eps) := by linarith
        rcases hx with rfl | rfl <;> norm_num [P.sub, P.dot, P.length2, h4, h5]
      rw [this, distance_real]
      have : sqDist (⟨x, -4/3⟩ : P ℝ) ⟨x, 0⟩ = (4/3) ^ 2 := by simp [sqDist]; norm_num
      rw [this, Real.sqrt_sq (by norm_num)]
    simp only [hp 0 (Or.inl rfl), hp 2 (Or.inr rfl)]
    simp [pmax]
  have hunit : ∀ y : ℝ, |y| = 4/3 → ∀ z, y = 4/3 * z → P.unit eps (⟨0, y⟩ : P ℝ) = ⟨0, z⟩ := by
    intro y hy z hz
    have hl : P.length2 (⟨0, y⟩ : P ℝ) = y ^ 2 := by simp [P.length2]; ring
    have hy2 : y ^ 2 = 16/9 := by rw [← sq_abs, hy]; norm_num
    unfold P.unit
    rw [hl, if_pos (by rw [real_lt, hy2, decide_eq_true_eq, real_mul]; linarith), real_sqrt, Real.sqrt_sq_eq_abs, hy]
    apply P.ext_real
    · simp
    · simp only [real_div]; rw [hz]; ring
  have htan0 : (Bez.mk ⟨0, -4/3⟩ ⟨0, 0⟩ ⟨2, 0⟩ ⟨2, -4/3⟩ : Bez ℝ).tangent eps zero = ⟨0, 1⟩ := by
    have hc : P.eq eps (⟨0, 0⟩ : P ℝ) ⟨0, -4/3⟩ = false := by rw [eq_false_iff]; norm_num [sqDist]; linarith
    unfold Bez.tangent
    rw [if_pos (by rw [isZero_iff, real_zero, abs_zero]; exact heps)]
    simp only [hc, Bool.false_eq_true, if_false]
    rw [show P.sub (⟨0, 0⟩ : P ℝ) ⟨0, -4/3⟩ = ⟨0, 4/3⟩ by simp [P.sub]; norm_num]
    exact hunit (4/3) (by norm_num) 1 (by norm_num)
  have htan1 : (Bez.mk ⟨0, -4/3⟩ ⟨0, 0⟩ ⟨2, 0⟩ ⟨2, -4/3⟩ : Bez ℝ).tangent eps one = ⟨0, -1⟩ := by
    have hc : P.eq eps (⟨2, 0⟩ : P ℝ) ⟨2, -4/3⟩ = false := by rw [eq_false_iff]; norm_num [sqDist]; linarith
    unfold Bez.tangent
    rw [if_neg (by rw [isZero_iff, real_one, abs_one]; linarith), if_pos (by rw [floatEq_iff, sub_self, abs_zero]; exact heps)]
    simp only [hc, Bool.false_eq_true, if_false]
    rw [show P.neg (P.sub (⟨2, 0⟩ : P ℝ) ⟨2, -4/3⟩) = ⟨0, -(4/3)⟩ by simp [P.sub, P.neg]; norm_num]
    exact hunit (-(4/3)) (by norm_num) (-1) (by norm_num)
  have hang : ∃ j, (Bez.mk ⟨0, -4/3⟩ ⟨0, 0⟩ ⟨2, 0⟩ ⟨2, -4/3⟩ : Bez ℝ).biarcJointArc eps = some j ∧ j.radius = 1 ∧ j.center = ⟨1, -4/3⟩ := by
    unfold Bez.biarcJointArc
    rw [htan0, htan1]
    have : (Line.bisector ⟨⟨0, -4/3⟩, ⟨2, -4/3⟩⟩).intersection eps (Line.bisector ⟨P.add ⟨0, -4/3⟩ ⟨0, 1⟩, P.add ⟨2, -4/3⟩ (P.neg (P.neg ⟨0, -1⟩))⟩) = some (⟨1, -4/3⟩ : P ℝ) := by
      unfold Line.intersection Line.intersectionMu
      norm_num [Line.bisector, Line.midpoint, P.add, P.sub, P.neg, P.mul, lit_real, Line.denom, Line.numA, Line.numB, Line.pointAt]
      exact ⟨1 / 2, ⟨by linarith, rfl⟩, by norm_num⟩
    simp only [this]
    refine ⟨_, rfl, ?_, rfl⟩
    show P.distance _ _ = _
    rw [distance_real]
    norm_num [sqDist]
  obtain ⟨j, hj, hjr, hjc⟩ := hang
  have hne : P.eq eps (⟨0, -4/3⟩ : P ℝ) ⟨2, -4/3⟩ = false := by rw [eq_false_iff]; norm_num [sqDist]; linarith
  have hjl : ¬ ((j.radius <. eps || j.length <. eps) = true) := by
    intro hc
    have := (jointArc_spec heps _).2 j hj (by norm_num [sqDist]; linarith) hc
    norm_num [sqDist] at this
    linarith
  have hmid : (Bez.mk ⟨0, -4/3⟩ ⟨0, 0⟩ ⟨2, 0⟩ ⟨2, -4/3⟩ : Bez ℝ).pointAt eps (lit 5 1) = ⟨1, -1/3⟩ := by
    rw [lit_half, (C63_point_at eps _ (1/2)).2.2.1 (by linarith) (by linarith)]
    apply P.ext_real <;> norm_num [Bez.curve, bernstein3]
  have hpj : (Bez.mk ⟨0, -4/3⟩ ⟨0, 0⟩ ⟨2, 0⟩ ⟨2, -4/3⟩ : Bez ℝ).biarcJoint eps j = .ok ⟨1, -1/3⟩ := by
    unfold Bez.biarcJoint
    rw [hjr, hjc, hmid]
    have : (P.sub (⟨1, -1/3⟩ : P ℝ) ⟨1, -4/3⟩) = ⟨0, 1⟩ := by
      apply P.ext_real <;> norm_num [P.sub]
    simp only [this]
    norm_num [P.length, pdiv, P.mul, P.add, bind, Except.bind, pure, Except.pure]
  have harcs : (Bez.mk ⟨0, -4/3⟩ ⟨0, 0⟩ ⟨2, 0⟩ ⟨2, -4/3⟩ : Bez ℝ).biarcArcs eps ⟨1, -1/3⟩ = .error .attributeError := by
    unfold Bez.biarcArcs
    have n1 : P.ne eps (⟨0, 0⟩ : P ℝ) ⟨0, -4/3⟩ = true := by
      unfold P.ne; rw [Bool.not_eq_true']; refine (eq_false_iff _ _ _).2 ?_; norm_num [sqDist]; linarith
    have n2 : P.ne eps (⟨2, 0⟩ : P ℝ) ⟨2, -4/3⟩ = true := by
      unfold P.ne; rw [Bool.not_eq_true']; refine (eq_false_iff _ _ _).2 ?_; norm_num [sqDist]; linarith
    have h1 := C94_refuted.2.2 eps ⟨0, -4/3⟩ ⟨0, 0⟩ ⟨1, -1/3⟩ false (by norm_num; positivity) heps
    simp only [n1, n2, if_true, h1, h2, bind, Except.bind]
  have hinf : (Bez.mk ⟨0, -4/3⟩ ⟨0, 0⟩ ⟨2, 0⟩ ⟨2, -4/3⟩ : Bez ℝ).findInflections eps = (0, 0) := by
    unfold Bez.findInflections
    have hc : P.eq eps (P.sub (⟨0, 0⟩ : P ℝ) ⟨0, -4/3⟩) (P.neg (P.sub ⟨2, 0⟩ ⟨2, -4/3⟩)) = false := by
      rw [eq_false_iff]; norm_num [sqDist, P.sub, P.neg]; linarith
    have hs : Real.sqrt (256 / 9) = 16 / 3 := by
      rw [show (256 / 9 : ℝ) = (16/3) ^ 2 by norm_num, Real.sqrt_sq (by norm_num)]
    simp only [hc, Bool.false_eq_true, if_false]
    norm_num [P.sub, P.mul, Bez.filterRoots, hs]
  unfold Bez.biarcApproximation
  rw [if_neg (by rw [hne]; simp), hflat, if_neg (by rw [real_lt, decide_eq_true_eq]; linarith)]
  have hsub : (Bez.mk ⟨0, -4/3⟩ ⟨0, 0⟩ ⟨2, 0⟩ ⟨2, -4/3⟩ : Bez ℝ).subdivideInflections eps = [⟨⟨0, -4/3⟩, ⟨0, 0⟩, ⟨2, 0⟩, ⟨2, -4/3⟩⟩] := by
    unfold Bez.subdivideInflections
    rw [hinf]
    simp
  rw [hsub]
  dsimp only
  rw [if_neg (by simp)]
  cases depth with
  | zero =>
    unfold Bez.biarcCore
    rw [if_neg (by rw [hne]; simp), hflat, if_neg (by rw [real_lt, decide_eq_true_eq]; linarith), hj]
    simp only [hjl, if_false, hpj, harcs, bind, Except.bind, Bool.false_eq_true]
  | succ n =>
    unfold Bez.biarcCore
    rw [if_neg (by rw [hne]; simp), hflat, if_neg (by rw [real_lt, decide_eq_true_eq]; linarith), hj]
    have hd : (tol <. P.distance (⟨1, -1/3⟩ : P ℝ) ⟨1, -1/3⟩) = false := by
      rw [distance_real]
      have : sqDist (⟨1, -1/3⟩ : P ℝ) ⟨1, -1/3⟩ = 0 := by simp [sqDist]
      rw [this, Real.sqrt_zero, real_lt, decide_eq_false_iff_not]
      linarith
    simp only [hjl, if_false, hpj, harcs, hmid, hd, bind, Except.bind, Bool.false_eq_true]

end Verif.Geom
