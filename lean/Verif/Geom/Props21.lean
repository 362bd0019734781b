import Verif.Geom.Grid
import Verif.Geom.Props20
import Mathlib.Analysis.SpecialFunctions.Log.Base

/-!
# C169: the tolerance and its rounding precision
-/

set_option linter.unusedSectionVars false
set_option linter.unusedVariables false

namespace Verif.Geom
open Verif PyFloat PyTrig

/-! ## Specification -/

/-- Specification: of all the powers of ten, `10⁻ⁿ` is the one nearest to `v` in proportion: `v` is at most `√10` times it, and more than `1/√10` times it. -/
def NearestPower (v : ℝ) (n : ℕ) : Prop := (v * 10 ^ n) ^ 2 ≤ 10 ∧ 1 / 10 < (v * 10 ^ n) ^ 2

/-- Specification: `math.log(_, 10)`. -/
noncomputable def decLog (x : ℝ) : ℝ := Real.logb 10 x

/-! ## Rounding -/

theorem roundAway_pos {x : ℝ} (h : 0 ≤ x) : roundAway x = ⌊x + 1 / 2⌋ := by
  unfold roundAway
  simp only [real_lt, real_zero, real_add, real_lit]
  rw [if_neg (by simpa using h)]
  show (if 0 ≤ _ then _ else _) = _
  norm_num
  intro h'
  linarith

theorem roundAway_neg {x : ℝ} (h : x < 0) : roundAway x = ⌈x - 1 / 2⌉ := by
  unfold roundAway
  simp only [real_lt, real_zero, real_sub, real_lit]
  rw [if_pos (by simpa using h)]
  show (if 0 ≤ _ then _ else _) = _
  norm_num
  intro h'
  linarith

theorem roundAway_symm (x : ℝ) : roundAway (-x) = -roundAway x := by
  rcases lt_trichotomy x 0 with h | h | h
  · rw [roundAway_pos (by linarith), roundAway_neg h, ← Int.floor_neg]
    congr 1
    ring
  · subst h
    rw [neg_zero, roundAway_pos le_rfl]
    norm_num
  · rw [roundAway_neg (by linarith), roundAway_pos h.le, ← Int.ceil_neg]
    congr 1
    ring

theorem roundAway_near (x : ℝ) : |(roundAway x : ℝ) - x| ≤ 1 / 2 := by
  rw [abs_le]
  rcases lt_or_ge x 0 with h | h
  · rw [roundAway_neg h]
    have h1 := Int.le_ceil (x - 1 / 2)
    have h2 := Int.ceil_lt_add_one (x - 1 / 2)
    constructor <;> linarith
  · rw [roundAway_pos h]
    have h1 := Int.floor_le (x + 1 / 2)
    have h2 := Int.lt_floor_add_one (x + 1 / 2)
    constructor <;> linarith

theorem gridMult_real (n : ℕ) : (gridMult n : ℝ) = 10 ^ n := by simp [gridMult]

theorem floatRound_real (t : Tol ℝ) (v : ℝ) : floatRound t v = (roundAway (v * 10 ^ t.prec) : ℝ) / 10 ^ t.prec := by
  simp only [floatRound, gridMult_real, real_div, real_mul, real_ofInt]

/-! ## The precision -/

theorem setEpsilon_pos (t : Tol ℝ) {v : ℝ} (h : 0 < v) :
    setEpsilon decLog t v = (⟨v, v * v, ⌊|decLog v| + 1 / 2⌋.toNat, floatFmt ⌊|decLog v| + 1 / 2⌋.toNat⟩, none) := by
  unfold setEpsilon
  simp only [real_le, real_zero, real_mul, real_abs]
  rw [if_neg (by simpa using h), roundAway_pos (abs_nonneg _), max_eq_right (Int.floor_nonneg.mpr (by positivity))]

theorem decLog_pow (v : ℝ) (h : 0 < v) : (10 : ℝ) ^ decLog v = v := Real.rpow_logb (by norm_num) (by norm_num) h

theorem nearest_of_log {v : ℝ} (h : 0 < v) (h1 : v ≤ 1) : NearestPower v ⌊|decLog v| + 1 / 2⌋.toNat := by
  have hl : decLog v ≤ 0 := Real.logb_nonpos (by norm_num) h.le h1
  have h0 : 0 ≤ ⌊|decLog v| + 1 / 2⌋ := Int.floor_nonneg.mpr (by positivity)
  have hf1 := Int.floor_le (|decLog v| + 1 / 2)
  have hf2 := Int.lt_floor_add_one (|decLog v| + 1 / 2)
  have hn : ((⌊|decLog v| + 1 / 2⌋.toNat : ℕ) : ℝ) = (⌊|decLog v| + 1 / 2⌋ : ℝ) := by exact_mod_cast Int.toNat_of_nonneg h0
  rw [← hn] at hf1 hf2
  generalize ⌊|decLog v| + 1 / 2⌋.toNat = n at *
  rw [abs_of_nonpos hl] at hf1 hf2
  have e : (v * 10 ^ n) ^ 2 = (10 : ℝ) ^ (2 * (decLog v + n)) := by
    conv_lhs => rw [← decLog_pow v h]
    rw [← Real.rpow_natCast 10 n, ← Real.rpow_add (by norm_num), ← Real.rpow_natCast _ 2, ← Real.rpow_mul (by norm_num)]
    congr 1
    push_cast
    ring
  unfold NearestPower
  rw [e]
  constructor
  · calc (10 : ℝ) ^ (2 * (decLog v + n)) ≤ (10 : ℝ) ^ (1 : ℝ) := Real.rpow_le_rpow_of_exponent_le (by norm_num) (by linarith)
      _ = 10 := Real.rpow_one 10
  · calc (1 / 10 : ℝ) = (10 : ℝ) ^ (-1 : ℝ) := by rw [Real.rpow_neg_one]; norm_num
      _ < (10 : ℝ) ^ (2 * (decLog v + n)) := Real.rpow_lt_rpow_of_exponent_lt (by norm_num) (by linarith)

theorem nearest_unique {v : ℝ} {m n : ℕ} (hm : NearestPower v m) (hn : NearestPower v n) : m = n := by
  have key : ∀ m n : ℕ, NearestPower v m → NearestPower v n → ¬ m < n := by
    intro m n hm hn h
    obtain ⟨k, rfl⟩ := Nat.exists_eq_add_of_lt h
    have e : (v * 10 ^ (m + k + 1)) ^ 2 = (v * 10 ^ m) ^ 2 * (100 * (10 ^ k) ^ 2) := by ring
    have hk : (1 : ℝ) ≤ (10 ^ k) ^ 2 := one_le_pow₀ (one_le_pow₀ (by norm_num))
    have := hn.1
    have := hm.2
    rw [e] at *
    nlinarith
  exact le_antisymm (not_lt.mp (key n m hn hm)) (not_lt.mp (key m n hm hn))

/-- **C169** (tolerances up to 1).  `set_epsilon(v)` raises no exception for every `v` above 0 and not above 1, whatever was set before; afterwards the tolerance is `v`, its square
`v²`, and the rounding precision the number of digits of the power of ten nearest to `v` in proportion, which is also the one of the format. -/
theorem C169_precision_partial (t : Tol ℝ) {v : ℝ} (h : 0 < v) (h1 : v ≤ 1) :
    ∃ t', setEpsilon decLog t v = (t', none) ∧ t'.eps = v ∧ t'.eps2 = v ^ 2 ∧ (∀ n, t'.prec = n ↔ NearestPower v n) ∧
      t'.fmt = "%.".toList ++ natDigits t'.prec ++ "f".toList := by
  refine ⟨_, setEpsilon_pos t h, rfl, by ring, fun n => ⟨?_, fun hn => nearest_unique (nearest_of_log h h1) hn⟩, rfl⟩
  rintro rfl
  exact nearest_of_log h h1

/-- **C169** (negative powers of ten): `set_epsilon(10⁻ⁿ)` sets a precision of `n` digits. -/
theorem C169_powers (t : Tol ℝ) (n : ℕ) : (setEpsilon decLog t (1 / 10 ^ n)).1.prec = n := by
  obtain ⟨t', e, -, -, hp, -⟩ := C169_precision_partial t (v := 1 / 10 ^ n) (by positivity) (by
    rw [div_le_one (by positivity)]; exact one_le_pow₀ (by norm_num))
  rw [e]
  refine (hp n).mpr ?_
  have : (1 / 10 ^ n * 10 ^ n : ℝ) = 1 := by field_simp
  unfold NearestPower
  rw [this]
  norm_num

/-- A tolerance of 0.00003 has 5 digits: it is 3 times `10⁻⁵` and 3/10 of `10⁻⁴`. -/
example (t : Tol ℝ) : (setEpsilon decLog t (3 / 10 ^ 5)).1.prec = 5 := by
  obtain ⟨t', e, -, -, hp, -⟩ := C169_precision_partial t (v := 3 / 10 ^ 5) (by norm_num) (by norm_num)
  rw [e]
  refine (hp 5).mpr ?_
  unfold NearestPower
  norm_num

/-- **C169, refuted (tolerances above 1).**  A tolerance of `10ᵐ` sets a precision of `m` digits *after* the decimal point, as its inverse does: with a tolerance of 100
`float_round` keeps hundredths. -/
theorem C169_refuted_large (t : Tol ℝ) : (∀ m : ℕ, (setEpsilon decLog t (10 ^ m)).1.prec = m) ∧
    ∃ t', setEpsilon decLog t 100 = (t', none) ∧ floatRound t' (1 / 4) = 1 / 4 ∧ floatEq t'.eps (1 / 4 : ℝ) 0 = true := by
  have key : ∀ m : ℕ, (setEpsilon decLog t (10 ^ m)).1.prec = m := by
    intro m
    rw [setEpsilon_pos t (by positivity)]
    have e : decLog (10 ^ m) = m := by
      unfold decLog
      rw [← Real.rpow_natCast, Real.logb_rpow (by norm_num) (by norm_num)]
    dsimp only
    rw [e, abs_of_nonneg (by positivity), show ((m : ℝ) + 1 / 2) = ((m : ℤ) : ℝ) + 1 / 2 by push_cast; ring, Int.floor_intCast_add]
    norm_num
  refine ⟨key, _, setEpsilon_pos t (by norm_num), ?_, ?_⟩
  · have h2 := key 2
    rw [show ((10 : ℝ) ^ 2) = 100 by norm_num, setEpsilon_pos t (by norm_num)] at h2
    rw [floatRound_real]
    dsimp only at h2 ⊢
    rw [h2, roundAway_pos (by norm_num)]
    norm_num
  · unfold floatEq
    norm_num

/-- **C169, refuted (exceptions).**  A tolerance that is not positive is refused with a `ValueError`, but only after it has been set: the precision and the format remain those of the tolerance
before, and from then on no number is equal to itself. -/
theorem C169_refuted_error (t : Tol ℝ) {v : ℝ} (h : v ≤ 0) :
    ∃ t', setEpsilon decLog t v = (t', some .valueError) ∧ t'.eps = v ∧ t'.prec = t.prec ∧ t'.fmt = t.fmt ∧ ∀ x : ℝ, floatEq t'.eps x x = false := by
  refine ⟨{ t with eps := v, eps2 := v * v }, ?_, rfl, rfl, rfl, fun x => ?_⟩
  · unfold setEpsilon
    simp only [real_le, real_zero, real_mul]
    rw [if_pos (by simpa using h)]
  · unfold floatEq
    simpa using h

/-- **C169**, rounding: `float_round(x)` is a multiple of `10⁻ⁿ`, for the precision `n`, at most half that far from `x`, and `float_round(-x)` is `-float_round(x)`. -/
theorem C169_round (t : Tol ℝ) (x : ℝ) :
    |floatRound t x - x| ≤ 1 / 2 / 10 ^ t.prec ∧ (∃ k : ℤ, floatRound t x = k / 10 ^ t.prec) ∧ floatRound t (-x) = -floatRound t x := by
  have hp : (0 : ℝ) < 10 ^ t.prec := by positivity
  refine ⟨?_, ⟨_, floatRound_real t x⟩, ?_⟩
  · rw [floatRound_real]
    have e : (roundAway (x * 10 ^ t.prec) : ℝ) / 10 ^ t.prec - x = ((roundAway (x * 10 ^ t.prec) : ℝ) - x * 10 ^ t.prec) / 10 ^ t.prec := by field_simp
    rw [e, abs_div, abs_of_pos hp]
    exact div_le_div_of_nonneg_right (roundAway_near _) hp.le
  · rw [floatRound_real, floatRound_real, neg_mul, roundAway_symm]
    push_cast
    ring

/-- **C169** (rounding with a negative power of ten as the tolerance): a number and its `float_round` are equal within the tolerance, so `float_round` moves numbers that are equal to each other
less than twice the tolerance apart. -/
theorem C169_round_equal_partial (t : Tol ℝ) (n : ℕ) :
    ∃ t', setEpsilon decLog t (1 / 10 ^ n) = (t', none) ∧ (∀ x, floatEq t'.eps (floatRound t' x) x = true) ∧
      ∀ x y, floatEq t'.eps x y = true → |floatRound t' x - floatRound t' y| < 2 * t'.eps := by
  obtain ⟨t', e, he, -, -, -⟩ := C169_precision_partial t (v := 1 / 10 ^ n) (by positivity) (by
    rw [div_le_one (by positivity)]; exact one_le_pow₀ (by norm_num))
  have hp : t'.prec = n := by have := C169_powers t n; rw [e] at this; exact this
  have hd : (0 : ℝ) < 1 / 10 ^ n := by positivity
  have hr : ∀ x, |floatRound t' x - x| ≤ 1 / 2 * (1 / 10 ^ n) := by
    intro x
    have := (C169_round t' x).1
    rw [hp] at this
    calc _ ≤ _ := this
      _ = _ := by ring
  refine ⟨t', e, fun x => ?_, fun x y hxy => ?_⟩
  · unfold floatEq
    simp only [real_lt, real_sub, real_abs, decide_eq_true_eq]
    rw [he]
    have := hr x
    linarith
  · unfold floatEq at hxy
    simp only [real_lt, real_sub, real_abs, decide_eq_true_eq] at hxy
    rw [he] at hxy ⊢
    have h1 := abs_le.mp (hr x)
    have h2 := abs_le.mp (hr y)
    have h3 := abs_lt.mp hxy
    rw [abs_lt]
    constructor <;> linarith

/-- **C169, refuted (rounding).**  With a tolerance of 0.04, which has a precision of one digit, 0.05 and its `float_round` are not equal within the tolerance; and with a tolerance of 0.01 there are two numbers
equal within the tolerance, 0.004 and 0.005, that `float_round` tells apart. -/
theorem C169_refuted_round (t : Tol ℝ) :
    (∃ t', setEpsilon decLog t (4 / 100) = (t', none) ∧ floatEq t'.eps (floatRound t' (5 / 100)) (5 / 100) = false) ∧
    ∃ t', setEpsilon decLog t (1 / 100) = (t', none) ∧ floatEq t'.eps (4 / 1000 : ℝ) (5 / 1000) = true ∧ floatRound t' (4 / 1000) ≠ floatRound t' (5 / 1000) := by
  constructor
  · obtain ⟨t', e, he, -, hp, -⟩ := C169_precision_partial t (v := 4 / 100) (by norm_num) (by norm_num)
    refine ⟨t', e, ?_⟩
    have h1 : t'.prec = 1 := (hp 1).mpr (by unfold NearestPower; norm_num)
    rw [floatRound_real, h1, he, roundAway_pos (by norm_num)]
    unfold floatEq
    norm_num
  · obtain ⟨t', e, he, -, hp, -⟩ := C169_precision_partial t (v := 1 / 100) (by norm_num) (by norm_num)
    refine ⟨t', e, ?_, ?_⟩
    · rw [he]
      unfold floatEq
      norm_num [abs_lt]
    · have h1 : t'.prec = 2 := (hp 2).mpr (by unfold NearestPower; norm_num)
      rw [floatRound_real, floatRound_real, h1, roundAway_pos (by norm_num), roundAway_pos (by norm_num)]
      norm_num

end Verif.Geom
