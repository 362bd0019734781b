import Verif.Arith
import Mathlib.Analysis.SpecialFunctions.Complex.Arg
import Mathlib.Analysis.SpecialFunctions.Trigonometric.Basic
import Mathlib.Data.Real.Sqrt
import Mathlib.Algebra.Order.Floor.Ring

/-!
# Trigonometric number interface

`PyTrig K` adds the `math` functions the geometry code uses, still without laws.
Instances: ℝ (exact arithmetic; the geometric theorems are about it), ℚ (only for evaluating concrete cases) and
`Float`.
-/

set_option linter.unusedSectionVars false

namespace Verif
open PyFloat

/-- The remaining float operations used by the `geom` package, without laws. -/
class PyTrig (K : Type) extends PyFloat K where
  /-- `a == b` on floats -/
  beq : K → K → Bool
  /-- `math.sqrt` -/
  sqrt : K → K
  sin : K → K
  cos : K → K
  tan : K → K
  /-- `math.atan2 y x` -/
  atan2 : K → K → K
  /-- a decimal literal `num / 10 ^ digits` as the float the source text denotes -/
  lit : Int → Nat → K

/-- `'%.<n>f' % x` for an exact real number (same rounding rule as `fmtRat`). -/
noncomputable def fmtReal (n : Nat) (x : ℝ) : Str :=
  let s := |x| * 10 ^ n
  let f := ⌊s⌋.toNat
  let r := s - f
  let m := if r < 1/2 then f else if 1/2 < r then f + 1 else if f % 2 = 0 then f else f + 1
  let ip := natDigits (m / 10 ^ n)
  let fp := if n = 0 then [] else '.' :: padZero n (natDigits (m % 10 ^ n))
  (if x < 0 then ['-'] else []) ++ ip ++ fp

/-- C `fmod` on exact reals. -/
noncomputable def fmodReal (a b : ℝ) : ℝ :=
  if b = 0 then 0 else
  let q := a / b
  let t : ℤ := if 0 ≤ q then ⌊q⌋ else ⌈q⌉
  a - b * t

/-- Exact real arithmetic with the true π and the true trigonometric functions.  `atan2 y x` is the argument of
`x + iy`, in `(-π, π]`, with `atan2 0 0 = 0` (there is no signed zero). -/
noncomputable instance instPyTrigReal : PyTrig ℝ where
  ofInt n := n
  add a b := a + b
  sub a b := a - b
  mul a b := a * b
  div a b := a / b
  neg a := -a
  abs a := |a|
  lt a b := decide (a < b)
  le a b := decide (a ≤ b)
  floor a := (⌊a⌋ : ℤ)
  fmod := fmodReal
  hypot a b := Real.sqrt (a ^ 2 + b ^ 2)
  pi := Real.pi
  degrees a := a * 180 / Real.pi
  fmt := fmtReal
  trunc q := if 0 ≤ q then ⌊q⌋ else ⌈q⌉
  beq a b := decide (a = b)
  sqrt := Real.sqrt
  sin := Real.sin
  cos := Real.cos
  tan := Real.tan
  atan2 y x := Complex.arg ⟨x, y⟩
  lit n d := n / 10 ^ d

theorem fmodReal_spec (a b : ℝ) (hb : 0 < b) : ∃ n : Int, fmodReal a b = a - b * n ∧ |fmodReal a b| < b := by
  have hb' : b ≠ 0 := ne_of_gt hb
  have hq : a = b * (a / b) := by field_simp
  unfold fmodReal
  rw [if_neg hb']
  refine ⟨_, rfl, ?_⟩
  dsimp only
  generalize a / b = q at *
  subst hq
  split
  · have h1 := Int.floor_le q
    have h2 := Int.lt_floor_add_one q
    rw [abs_lt]; constructor <;> nlinarith
  · have h1 := Int.le_ceil q
    have h2 := Int.ceil_lt_add_one q
    rw [abs_lt]; constructor <;> nlinarith

noncomputable instance : ExactFloat ℝ where
  ofInt_eq _ := rfl
  add_eq _ _ := rfl
  sub_eq _ _ := rfl
  mul_eq _ _ := rfl
  div_eq _ _ := rfl
  neg_eq _ := rfl
  abs_eq _ := rfl
  lt_eq _ _ := rfl
  le_eq _ _ := rfl
  floor_spec a := ⟨⌊a⌋, rfl, Int.floor_le a, Int.lt_floor_add_one a⟩
  pi_pos := Real.pi_pos
  degrees_eq _ := rfl
  fmod_spec a b hb := fmodReal_spec a b hb

/-- `atan2` on axis-parallel rational vectors (in terms of `piRat`), `0` elsewhere. -/
def atan2Rat (y x : ℚ) : ℚ :=
  if y = 0 then (if x < 0 then piRat else 0)
  else if x = 0 then (if 0 < y then piRat / 2 else -piRat / 2)
  else 0

/-- Quarter turns contained in `a`, when `a` is an exact multiple of `piRat / 2`. -/
def quarter (a : ℚ) : Option ℤ :=
  let q := a * 2 / piRat
  if (⌊q⌋ : ℚ) = q then some (⌊q⌋ % 4) else none

/-- Cosine at exact quarter turns, `0` elsewhere. -/
def cosRat (a : ℚ) : ℚ := if quarter a = some 0 then 1 else if quarter a = some 2 then -1 else 0
/-- Sine at exact quarter turns, `0` elsewhere. -/
def sinRat (a : ℚ) : ℚ := if quarter a = some 1 then 1 else if quarter a = some 3 then -1 else 0

/-- Integer square root of a rational when it is a perfect square (else truncated). -/
def sqrtRat (q : ℚ) : ℚ := (Nat.sqrt q.num.toNat : ℚ) / Nat.sqrt q.den

/-- Exact rational arithmetic, for evaluating concrete cases only: the trigonometric functions are right at
quarter turns and axis directions, `sqrt` at perfect squares, `hypot` at axis-parallel vectors.  No theorem about all
inputs uses this instance. -/
instance instPyTrigRat : PyTrig ℚ where
  toPyFloat := instPyFloatRat
  beq a b := decide (a = b)
  sqrt := sqrtRat
  sin := sinRat
  cos := cosRat
  tan a := sinRat a / cosRat a
  atan2 := atan2Rat
  lit n d := n / 10 ^ d

/-- IEEE doubles. -/
noncomputable instance instPyTrigFloat : PyTrig Float where
  toPyFloat := instPyFloatFloat
  beq a b := a == b
  sqrt := Float.sqrt
  sin := Float.sin
  cos := Float.cos
  tan := Float.tan
  atan2 := Float.atan2
  lit n d := Float.ofInt n / Float.ofInt (10 ^ d)

/-- Rewrite the law-free operations into ordinary notation for exact arithmetic. -/
macro "py" loc:(Lean.Parser.Tactic.location)? : tactic =>
  `(tactic| simp only [ExactFloat.ofInt_eq, ExactFloat.add_eq, ExactFloat.sub_eq, ExactFloat.mul_eq,
      ExactFloat.div_eq, ExactFloat.neg_eq, ExactFloat.abs_eq, ExactFloat.lt_eq, ExactFloat.le_eq,
      ExactFloat.degrees_eq, PyFloat.zero, PyFloat.one, Int.cast_zero, Int.cast_one, Int.cast_ofNat, Int.cast_neg,
      decide_eq_true_eq, decide_eq_false_iff_not, Bool.and_eq_true, Bool.or_eq_true, Bool.not_eq_true',
      Bool.not_eq_true, Bool.not_eq_false] $[$loc]?)

@[simp] theorem real_hypot (a b : ℝ) : (PyFloat.hypot a b : ℝ) = Real.sqrt (a ^ 2 + b ^ 2) := rfl
@[simp] theorem real_pi : (PyFloat.pi : ℝ) = Real.pi := rfl
@[simp] theorem real_sqrt (a : ℝ) : PyTrig.sqrt a = Real.sqrt a := rfl
@[simp] theorem real_sin (a : ℝ) : PyTrig.sin a = Real.sin a := rfl
@[simp] theorem real_cos (a : ℝ) : PyTrig.cos a = Real.cos a := rfl
@[simp] theorem real_tan (a : ℝ) : PyTrig.tan a = Real.tan a := rfl
@[simp] theorem real_atan2 (y x : ℝ) : PyTrig.atan2 y x = Complex.arg ⟨x, y⟩ := rfl
@[simp] theorem real_beq (a b : ℝ) : PyTrig.beq a b = decide (a = b) := rfl
@[simp] theorem real_lit (n : Int) (d : Nat) : (PyTrig.lit n d : ℝ) = n / 10 ^ d := rfl
@[simp] theorem real_add (a b : ℝ) : PyFloat.add a b = a + b := rfl
@[simp] theorem real_sub (a b : ℝ) : PyFloat.sub a b = a - b := rfl
@[simp] theorem real_mul (a b : ℝ) : PyFloat.mul a b = a * b := rfl
@[simp] theorem real_div (a b : ℝ) : PyFloat.div a b = a / b := rfl
@[simp] theorem real_neg (a : ℝ) : PyFloat.neg a = -a := rfl
@[simp] theorem real_abs (a : ℝ) : PyFloat.abs a = |a| := rfl
@[simp] theorem real_lt (a b : ℝ) : PyFloat.lt a b = decide (a < b) := rfl
@[simp] theorem real_le (a b : ℝ) : PyFloat.le a b = decide (a ≤ b) := rfl
@[simp] theorem real_floor (a : ℝ) : PyFloat.floor a = ((⌊a⌋ : ℤ) : ℝ) := rfl
@[simp] theorem real_ofInt (n : Int) : (PyFloat.ofInt n : ℝ) = (n : ℝ) := rfl
@[simp] theorem real_zero : (PyFloat.zero : ℝ) = 0 := by simp [PyFloat.zero]
@[simp] theorem real_one : (PyFloat.one : ℝ) = 1 := by simp [PyFloat.one]

end Verif
