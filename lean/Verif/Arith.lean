import Verif.Py
import Mathlib.Algebra.Order.Field.Basic
import Mathlib.Algebra.Order.Round
import Mathlib.Algebra.Order.AbsoluteValue.Basic
import Mathlib.Data.Rat.Floor
import Mathlib.Tactic.Linarith
import Mathlib.Tactic.Ring
import Mathlib.Tactic.NormNum
import Mathlib.Tactic.FieldSimp
import Mathlib.Tactic.Positivity

/-!
# Number interface

`PyFloat K` lists the float operations the modelled Python code uses, with *no laws*.
Any theorem proved for every `PyFloat K` holds in particular of IEEE-754 doubles.
`ExactFloat K` adds that the operations are those of an ordered field with floor.
-/

namespace Verif

/-- The float operations used by `cam/gcode.py` and `cam/simplecam.py`, without laws. -/
class PyFloat (K : Type) where
  /-- int literal used as a float -/
  ofInt : Int → K
  add : K → K → K
  sub : K → K → K
  mul : K → K → K
  div : K → K → K
  neg : K → K
  /-- builtin `abs` -/
  abs : K → K
  /-- `a < b` -/
  lt : K → K → Bool
  /-- `a <= b` -/
  le : K → K → Bool
  /-- `math.floor` (a float in Python 2) -/
  floor : K → K
  /-- `math.fmod` -/
  fmod : K → K → K
  /-- `math.hypot` -/
  hypot : K → K → K
  /-- `math.pi` -/
  pi : K
  /-- `math.degrees` -/
  degrees : K → K
  /-- `'%.<n>f' % v` -/
  fmt : Nat → K → Str
  /-- `int(v)` (truncation toward zero) -/
  trunc : K → Int

namespace PyFloat
variable {K : Type} [PyFloat K]

scoped infixl:65 " +. " => PyFloat.add
scoped infixl:65 " -. " => PyFloat.sub
scoped infixl:70 " *. " => PyFloat.mul
scoped infixl:70 " /. " => PyFloat.div
scoped infix:50 " <. " => PyFloat.lt
scoped infix:50 " <=. " => PyFloat.le

/-- Python literal `0`, `0.0`. -/
def zero : K := ofInt 0
/-- Python literal `1`, `1.0`. -/
def one : K := ofInt 1

end PyFloat

/-! ## Decimal formatting of exact rationals -/

/-- Round a non-negative rational to the nearest integer, ties to even
(the rounding C's `printf("%.nf")`, hence Python's `'%.nf'`, applies to the exact value). -/
def roundHalfEven (q : ℚ) : Nat :=
  let f := ⌊q⌋.toNat
  let r := q - f
  if r < 1/2 then f
  else if 1/2 < r then f + 1
  else if f % 2 = 0 then f else f + 1

/-- Left-pad a digit string with zeros to width `n`. -/
def padZero (n : Nat) (s : Str) : Str := List.replicate (n - s.length) '0' ++ s

/-- `'%.<n>f' % q` for an exact rational. (No negative zero: ℚ has none.) -/
def fmtRat (n : Nat) (q : ℚ) : Str :=
  let m := roundHalfEven (|q| * 10 ^ n)
  let ip := natDigits (m / 10 ^ n)
  let fp := if n = 0 then [] else '.' :: padZero n (natDigits (m % 10 ^ n))
  (if q < 0 then ['-'] else []) ++ ip ++ fp

/-- C `fmod` on exact numbers: remainder of truncated division, with the sign of the dividend. -/
def fmodRat (a b : ℚ) : ℚ :=
  if b = 0 then 0 else
  let q := a / b
  let t : ℤ := if 0 ≤ q then ⌊q⌋ else ⌈q⌉
  a - b * t

/-- `int(v)`. -/
def truncRat (q : ℚ) : Int := if 0 ≤ q then ⌊q⌋ else ⌈q⌉

/-- The double nearest to π, as an exact rational (`math.pi`). -/
def piRat : ℚ := 884279719003555 / 281474976710656

/-- Exact rational arithmetic; used for concrete witnesses.  `hypot` is not rational-valued in general,
so it is replaced by the Manhattan norm here, which no theorem over ℚ relies on (it agrees with
`hypot` on axis-parallel vectors, the only ones used in witnesses). -/
instance instPyFloatRat : PyFloat ℚ where
  ofInt n := n
  add a b := a + b
  sub a b := a - b
  mul a b := a * b
  div a b := a / b
  neg a := -a
  abs a := |a|
  lt a b := decide (a < b)
  le a b := decide (a ≤ b)
  floor a := (⌊a⌋ : ℤ)
  fmod := fmodRat
  hypot a b := |a| + |b|
  pi := piRat
  degrees a := a * 180 / piRat
  fmt := fmtRat
  trunc := truncRat

/-- IEEE doubles: shows that law-free theorems apply to the arithmetic the program really uses
(Lean's `Float` operations are opaque to the kernel, so nothing about their values is assumed). -/
noncomputable instance instPyFloatFloat : PyFloat Float where
  ofInt n := Float.ofInt n
  add a b := a + b
  sub a b := a - b
  mul a b := a * b
  div a b := a / b
  neg a := -a
  abs a := a.abs
  lt a b := decide (a < b)
  le a b := decide (a ≤ b)
  floor a := a.floor
  fmod a b := a - b * (if a / b < 0 then (a / b).ceil else (a / b).floor)
  hypot a b := (a * a + b * b).sqrt
  pi := 3.141592653589793
  degrees a := a * 180 / 3.141592653589793
  fmt _ a := a.toString.toList
  trunc a := if a < 0 then -((-a).toUInt64.toNat : Int) else (a.toUInt64.toNat : Int)

/-- Exact arithmetic: the operations are those of an ordered field.  Used where a property needs
algebra; the gap to IEEE doubles (rounding) is part of the trusted base. -/
class ExactFloat (K : Type) [Field K] [LinearOrder K] [IsStrictOrderedRing K] [PyFloat K] : Prop where
  ofInt_eq : ∀ n : Int, (PyFloat.ofInt n : K) = (n : K)
  add_eq : ∀ a b : K, PyFloat.add a b = a + b
  sub_eq : ∀ a b : K, PyFloat.sub a b = a - b
  mul_eq : ∀ a b : K, PyFloat.mul a b = a * b
  div_eq : ∀ a b : K, PyFloat.div a b = a / b
  neg_eq : ∀ a : K, PyFloat.neg a = -a
  abs_eq : ∀ a : K, PyFloat.abs a = |a|
  lt_eq : ∀ a b : K, PyFloat.lt a b = decide (a < b)
  le_eq : ∀ a b : K, PyFloat.le a b = decide (a ≤ b)
  floor_spec : ∀ a : K, ∃ n : Int, (PyFloat.floor a : K) = n ∧ (n : K) ≤ a ∧ a < n + 1
  pi_pos : (0 : K) < PyFloat.pi
  degrees_eq : ∀ a : K, PyFloat.degrees a = a * 180 / PyFloat.pi
  /-- `fmod a b` differs from `a` by an integer multiple of `b`, is smaller than `b` in magnitude. -/
  fmod_spec : ∀ a b : K, 0 < b → ∃ n : Int, PyFloat.fmod a b = a - b * n ∧ |PyFloat.fmod a b| < b

theorem fmodRat_spec (a b : ℚ) (hb : 0 < b) : ∃ n : Int, fmodRat a b = a - b * n ∧ |fmodRat a b| < b := by
  have hb' : b ≠ 0 := ne_of_gt hb
  have hq : a = b * (a / b) := by field_simp
  unfold fmodRat
  rw [if_neg hb']
  refine ⟨_, rfl, ?_⟩
  dsimp only
  generalize a / b = q at *
  subst hq
  split
  · have h1 := Int.floor_le q
    have h2 := Int.lt_floor_add_one q
    rw [abs_lt]; constructor <;> nlinarith
  · have h1 := Int.le_ceil q
    have h2 := Int.ceil_lt_add_one q
    rw [abs_lt]; constructor <;> nlinarith

instance : ExactFloat ℚ where
  ofInt_eq _ := rfl
  add_eq _ _ := rfl
  sub_eq _ _ := rfl
  mul_eq _ _ := rfl
  div_eq _ _ := rfl
  neg_eq _ := rfl
  abs_eq _ := rfl
  lt_eq _ _ := rfl
  le_eq _ _ := rfl
  floor_spec a := ⟨⌊a⌋, rfl, Int.floor_le a, Int.lt_floor_add_one a⟩
  pi_pos := by show (0:ℚ) < piRat; norm_num [piRat]
  degrees_eq _ := rfl
  fmod_spec a b hb := fmodRat_spec a b hb

end Verif
