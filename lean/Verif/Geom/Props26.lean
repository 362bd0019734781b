import Verif.Geom.Vw
import Verif.Geom.Props1

/-!
# C195: the simplification by areas of triangles has no result
-/

set_option linter.unusedSectionVars false

namespace Verif.Geom
open Verif PyFloat PyTrig

section
variable {K : Type} [PyTrig K]

/-- **C195**, fewer than three points: there is nothing to simplify and the points are returned. -/
theorem C195_few (points : List (P K)) (tolerance : K) (h : points.length < 3) : simplifyPolylineVw points tolerance = .ok (some points) := by
  unfold simplifyPolylineVw
  rw [if_pos h]

theorem vwTriangles_length (points : List (P K)) : ∀ i, (vwTriangles i points).length = points.length - 2 := by
  induction points with
  | nil => intro i; rfl
  | cons a l ih =>
    intro i
    match l, ih with
    | [], _ => rfl
    | [b], _ => rfl
    | b :: c :: r, ih =>
      have := ih (i + 1)
      simp only [vwTriangles, List.length_cons] at this ⊢
      omega

theorem vwPops_ok : ∀ (n : Nat) (l : List (Nat × K)), n ≤ l.length → vwPops n l = .ok ()
  | 0, _, _ => rfl
  | n + 1, [], h => by simp at h
  | n + 1, _ :: r, h => by
    unfold vwPops
    exact vwPops_ok n r (by simpa using h)

theorem vw_eq (points : List (P K)) (tolerance : K) (h : 3 ≤ points.length) :
    simplifyPolylineVw points tolerance = if (points.length : Int) < 2 * trunc (tolerance *. ofInt points.length) then .error .typeError else .ok none := by
  unfold simplifyPolylineVw
  rw [if_neg (by omega)]
  split
  · rfl
  · rename_i hn
    rw [vwPops_ok]
    · rfl
    · rw [vwTriangles_length]
      omega

/-- **C195, refuted.**  For three or more points there is never a polyline: the function returns `None` or fails with a `TypeError`, whatever the points, the tolerance and the arithmetic. -/
theorem C195_refuted (points : List (P K)) (tolerance : K) (h : 3 ≤ points.length) :
    simplifyPolylineVw points tolerance = .ok none ∨ simplifyPolylineVw points tolerance = .error .typeError := by
  rw [vw_eq points tolerance h]
  split
  · exact .inr rfl
  · exact .inl rfl

end

/-- **C195, refuted (which).**  The `TypeError` is for the tolerances that, multiplied by the number of points and cut to a whole number, are more than half of that number. -/
theorem C195_refuted_tolerance (points : List (P ℝ)) (tolerance : ℝ) (h : 3 ≤ points.length) :
    simplifyPolylineVw points tolerance = .error .typeError ↔ (points.length / 2 + 1 : ℕ) ≤ tolerance * points.length := by
  have ht : (trunc (tolerance * points.length) : ℤ) = if 0 ≤ tolerance * points.length then ⌊tolerance * points.length⌋ else ⌈tolerance * points.length⌉ := rfl
  have hlen : ofInt (points.length : ℤ) = (points.length : ℝ) := by rw [real_ofInt]; push_cast; rfl
  rw [vw_eq points tolerance h, real_mul, hlen, ht]
  by_cases h0 : 0 ≤ tolerance * points.length
  · rw [if_pos h0]
    have key : (points.length : ℤ) < 2 * ⌊tolerance * points.length⌋ ↔ ((points.length / 2 + 1 : ℕ) : ℤ) ≤ ⌊tolerance * points.length⌋ := by omega
    rw [Int.le_floor] at key
    rw [show ((points.length / 2 + 1 : ℕ) : ℝ) = (((points.length / 2 + 1 : ℕ) : ℤ) : ℝ) by push_cast; rfl, ← key]
    split <;> simp_all
  · rw [if_neg h0]
    have h1 : ⌈tolerance * points.length⌉ ≤ 0 := by rw [Int.ceil_le]; push_cast; linarith
    rw [if_neg (by omega)]
    simp only [reduceCtorEq, false_iff, not_le]
    have : (0 : ℝ) ≤ ((points.length / 2 + 1 : ℕ) : ℝ) := Nat.cast_nonneg _
    linarith

/-- Four points: with a tolerance of a half there is no result, with three quarters an exception; two points are returned. -/
example : simplifyPolylineVw [⟨0, 0⟩, ⟨1, 0⟩, ⟨1, 1⟩, ⟨0, 1⟩] (1 / 2 : ℚ) = .ok none ∧
    simplifyPolylineVw [⟨0, 0⟩, ⟨1, 0⟩, ⟨1, 1⟩, ⟨0, 1⟩] (3 / 4 : ℚ) = .error .typeError ∧
    simplifyPolylineVw [⟨0, 0⟩, ⟨1, 0⟩] (3 / 4 : ℚ) = .ok (some [⟨0, 0⟩, ⟨1, 0⟩]) := by decide +kernel

end Verif.Geom
