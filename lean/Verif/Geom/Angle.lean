import Verif.Num

/-!
# Model of `tcnc/geom/const.py` comparisons and the angle functions of `tcnc/geom/util.py`

`eps` is the module global `EPSILON` (`geom/const.py:37-40`, settable with `set_epsilon`); it is an explicit
parameter, so every theorem holds for every tolerance a client sets.
-/

set_option linter.unusedSectionVars false

namespace Verif.Geom
open Verif PyFloat

section
variable {K : Type} [PyFloat K]

/-- `TAU` (`geom/const.py:36`). -/
def tau : K := pi *. ofInt 2

/-- `EPSILON` default (`geom/const.py:39`). -/
def epsDefault : K := ofInt 1 /. ofInt 1000000

/-- `float_eq` (`geom/const.py:76-98`). -/
def floatEq (eps a b : K) : Bool := PyFloat.abs (a -. b) <. eps

/-- `is_zero` (`geom/const.py:101-106`). -/
def isZero (eps v : K) : Bool := (PyFloat.neg eps <. v) && (v <. eps)

/-- `normalize_angle` (`geom/util.py:37-53`). -/
def normalizeAngle (angle center : K) : K :=
  angle -. tau *. floor ((angle +. pi -. center) /. tau)

/-- `calc_rotation` (`geom/util.py:56-76`). -/
def calcRotation (eps start stop : K) : K :=
  if floatEq eps start stop then zero
  else
    let rotation := normalizeAngle stop zero -. normalizeAngle start zero
    if rotation <. PyFloat.neg pi then rotation +. tau
    else if pi <. rotation then rotation -. tau
    else rotation
end

section
variable {K : Type} [Field K] [LinearOrder K] [IsStrictOrderedRing K] [PyFloat K] [ExactFloat K]

/-- Specification: `a` and `b` are the same direction (differ by whole turns). -/
def SameDirection (a b : K) : Prop := ∃ n : Int, a - b = n * (2 * PyFloat.pi)

theorem SameDirection.refl (a : K) : SameDirection a a := ⟨0, by simp⟩

theorem SameDirection.symm {a b : K} (h : SameDirection a b) : SameDirection b a := by
  obtain ⟨n, h⟩ := h
  exact ⟨-n, by push_cast; linarith⟩

theorem SameDirection.trans {a b c : K} (h : SameDirection a b) (h' : SameDirection b c) :
    SameDirection a c := by
  obtain ⟨n, h⟩ := h
  obtain ⟨m, h'⟩ := h'
  exact ⟨n + m, by push_cast; linarith⟩

theorem tau_eq : (tau : K) = 2 * PyFloat.pi := by
  unfold tau; py; push_cast; ring

theorem tau_pos : (0 : K) < tau := by
  rw [tau_eq]; have := ExactFloat.pi_pos (K := K); linarith

/-- Two numbers of the same direction in a half-open interval of one turn are equal. -/
theorem sameDirection_unique {a b c : K} (h : SameDirection a b)
    (ha : c ≤ a ∧ a < c + 2 * PyFloat.pi) (hb : c ≤ b ∧ b < c + 2 * PyFloat.pi) : a = b := by
  obtain ⟨n, h⟩ := h
  have hp := ExactFloat.pi_pos (K := K)
  have h1 : (n : K) * (2 * PyFloat.pi) < 1 * (2 * PyFloat.pi) := by linarith
  have h2 : (-1 : K) * (2 * PyFloat.pi) < n * (2 * PyFloat.pi) := by linarith
  have h1' : (n : K) < 1 := lt_of_mul_lt_mul_right h1 (by linarith)
  have h2' : (-1 : K) < n := lt_of_mul_lt_mul_right h2 (by linarith)
  have e1 : n < 1 := by exact_mod_cast h1'
  have e2 : -1 < n := by exact_mod_cast h2'
  have : n = 0 := by omega
  subst this
  simp at h
  linarith

/-- **C33** (value).  For every angle and centre, `normalize_angle(a, c)` is the same direction as `a` and lies in the
half-open turn `[c - π, c + π)`. -/
theorem C33_normalize_angle (a c : K) :
    SameDirection (normalizeAngle a c) a ∧ c - PyFloat.pi ≤ normalizeAngle a c ∧
      normalizeAngle a c < c + PyFloat.pi := by
  have hp := ExactFloat.pi_pos (K := K)
  have ht := tau_pos (K := K)
  unfold normalizeAngle
  py
  obtain ⟨n, hn, h1, h2⟩ := ExactFloat.floor_spec ((a + PyFloat.pi - c) / tau)
  rw [hn]
  rw [le_div_iff₀ ht] at h1
  rw [div_lt_iff₀ ht] at h2
  rw [tau_eq] at *
  refine ⟨⟨-n, ?_⟩, ?_, ?_⟩
  · push_cast; ring
  · linarith
  · linarith

/-- **C33** (idempotence).  Normalising twice about the same centre changes nothing, and any two angles of the same
direction normalise to the same number. -/
theorem C33_normalize_angle_idempotent (a b c : K) (h : SameDirection a b) :
    normalizeAngle (normalizeAngle a c) c = normalizeAngle a c ∧
      normalizeAngle a c = normalizeAngle b c := by
  obtain ⟨e1, l1, u1⟩ := C33_normalize_angle a c
  obtain ⟨e2, l2, u2⟩ := C33_normalize_angle b c
  obtain ⟨e3, l3, u3⟩ := C33_normalize_angle (normalizeAngle a c) c
  constructor
  · exact sameDirection_unique (c := c - PyFloat.pi) e3 ⟨l3, by linarith⟩ ⟨l1, by linarith⟩
  · exact sameDirection_unique (c := c - PyFloat.pi) (e1.trans (h.trans e2.symm)) ⟨l1, by linarith⟩
      ⟨l2, by linarith⟩

/-- Non-vacuity: `5π/2` and `π/2` are the same direction, and the normal form is really reached from outside the turn. -/
example : SameDirection (5 * piRat / 2 : ℚ) (piRat / 2) ∧
    normalizeAngle (5 * piRat / 2 : ℚ) 0 = piRat / 2 :=
  ⟨⟨1, by show 5 * piRat / 2 - piRat / 2 = _ ; simp only [PyFloat.pi]; push_cast; ring⟩, by decide +kernel⟩

/-- **C32** (range).  The rotation never exceeds half a turn either way. -/
theorem C32_rotation_range (eps a b : K) :
    -PyFloat.pi ≤ calcRotation eps a b ∧ calcRotation eps a b ≤ PyFloat.pi := by
  have hp := ExactFloat.pi_pos (K := K)
  unfold calcRotation
  split
  · py; constructor <;> linarith
  · obtain ⟨-, l1, u1⟩ := C33_normalize_angle a (0 : K)
    obtain ⟨-, l2, u2⟩ := C33_normalize_angle b (0 : K)
    have e0 : (PyFloat.zero : K) = 0 := by py
    rw [e0]
    have ht := tau_eq (K := K)
    dsimp only
    py
    rw [ht]
    split
    · constructor <;> linarith
    · split
      · constructor <;> linarith
      · constructor <;> linarith

/-- **C32** (target).  Turning by `calc_rotation(a, b)` from `a` ends in the direction of `b`, exactly, unless the two
angles already agree to within `EPSILON`, in which case the rotation is zero. -/
theorem C32_rotation_target (eps a b : K) :
    (|a - b| < eps ∧ calcRotation eps a b = 0) ∨
      (eps ≤ |a - b| ∧ SameDirection (a + calcRotation eps a b) b) := by
  unfold calcRotation
  have hf : (floatEq eps a b = true) ↔ |a - b| < eps := by unfold floatEq; py
  by_cases h : |a - b| < eps
  · left
    rw [if_pos (hf.2 h)]
    exact ⟨h, by py⟩
  · right
    rw [if_neg (fun h' => h (hf.1 h'))]
    refine ⟨not_lt.1 h, ?_⟩
    obtain ⟨n, hn⟩ := (C33_normalize_angle a (0 : K)).1
    obtain ⟨m, hm⟩ := (C33_normalize_angle b (0 : K)).1
    have e0 : (PyFloat.zero : K) = 0 := by py
    have ht := tau_eq (K := K)
    rw [e0]
    dsimp only
    py
    rw [ht]
    split
    · exact ⟨m - n + 1, by push_cast; linarith⟩
    · split
      · exact ⟨m - n - 1, by push_cast; linarith⟩
      · exact ⟨m - n, by push_cast; linarith⟩

/-- Non-vacuity: both cases of `C32_rotation_target` occur, and the turn is the short one: from `170°` to `-170°` the
tool turns `+20°`, not `-340°`. -/
example : calcRotation (1/1000000 : ℚ) (17 * piRat / 18) (-17 * piRat / 18) = piRat / 9 ∧
    calcRotation (1/1000000 : ℚ) 1 1 = 0 := by decide +kernel
end

/-- Law-free fact used below: equal angles need no rotation, in any arithmetic where a value differs from itself by
less than the tolerance. -/
theorem calcRotation_self {K : Type} [PyFloat K] (eps a : K) (h : (PyFloat.abs (a -. a) <. eps) = true) :
    calcRotation eps a a = zero := by
  unfold calcRotation floatEq; rw [if_pos h]

end Verif.Geom
