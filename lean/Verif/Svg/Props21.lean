import Verif.Svg.NewDoc
import Verif.Svg.Layer
import Verif.Svg.Props19
import Verif.Cam.Props22
import Mathlib.Data.List.TakeWhile

/-!
# C131, C132: new documents and fresh identifiers
-/

set_option linter.unusedSectionVars false

namespace Verif.Svg
open Verif PyFloat PyTrig Geom Css Cam

/-! ## Specification -/

/-- Specification: exact decimal numbers. -/
noncomputable def exactR : NumEnv ℝ := ⟨fun neg m e => (if neg then -(m : ℝ) else m) * (10 : ℝ) ^ e⟩

/-- Specification: a number in its shortest form: no point without digits after it, no trailing zeros after a point, no exponent. -/
def Short (num : Numeral) : Prop := num.exp = none ∧ ∀ ds, num.frac = some ds → ∃ c, ds.getLast? = some c ∧ c ≠ '0'

/-- Specification: `num` is the number `v` to `n` decimals. -/
def Stands (n : Nat) (num : Numeral) (v : ℝ) : Prop :=
  num.Valid ∧ |num.value exactR - v| ≤ 1 / 2 / 10 ^ n ∧ ∀ k : ℤ, v = k / 10 ^ n → num.value exactR = v

/-! ## Lemmas -/

theorem rstripC_last (c : Char) (s : Str) {d : Char} (h : d ≠ c) : rstripC c (s ++ [d]) = s ++ [d] := by
  unfold rstripC
  rw [List.reverse_append, List.reverse_singleton, List.singleton_append, List.dropWhile_cons_of_neg (by simpa using h)]
  simp

theorem rstripC_split (c : Char) (s : Str) : ∃ k, s = rstripC c s ++ List.replicate k c := by
  refine ⟨(s.reverse.takeWhile (· == c)).length, ?_⟩
  unfold rstripC
  have h : s.reverse.takeWhile (· == c) = List.replicate (s.reverse.takeWhile (· == c)).length c := by
    rw [List.eq_replicate_iff]
    refine ⟨rfl, fun b hb => ?_⟩
    have := List.mem_takeWhile_imp hb
    simpa using this
  have h2 := List.takeWhile_append_dropWhile (p := (· == c)) (l := s.reverse)
  have h3 := congrArg List.reverse h2
  rw [List.reverse_append, List.reverse_reverse, h, List.reverse_replicate] at h3
  simpa using h3.symm

theorem rstripC_end (c : Char) (s : Str) : rstripC c s = [] ∨ ∃ t d, rstripC c s = t ++ [d] ∧ d ≠ c := by
  unfold rstripC
  cases h : s.reverse.dropWhile (· == c) with
  | nil => left; rfl
  | cons d t =>
    right
    refine ⟨t.reverse, d, by simp, ?_⟩
    have := List.head?_dropWhile_not (· == c) s.reverse
    rw [h] at this
    simpa using this

theorem rstripC_mid (c : Char) (s : Str) {d : Char} (h : d ≠ c) (t : Str) : rstripC c (s ++ d :: t) = s ++ d :: rstripC c t := by
  unfold rstripC
  rw [List.reverse_append, List.reverse_cons, List.append_assoc, List.singleton_append, List.dropWhile_append]
  split
  · rename_i h0
    have h0 : t.reverse.dropWhile (· == c) = [] := by simpa using h0
    rw [h0, List.dropWhile_cons_of_neg (by simpa using h)]
    simp
  · simp

theorem natOf_zeros (s : Str) (k : Nat) : natOf (s ++ List.replicate k '0') = natOf s * 10 ^ k := by
  rw [natOf_append, List.length_replicate]
  have : natOf (List.replicate k '0') = 0 := by
    rw [natOf_eq, GCode.digitsVal_eq, ← List.append_nil (List.replicate k '0'), Nat.ofDigitChars_append, Nat.ofDigitChars_replicate_zero]
    rfl
  rw [this, add_zero]

/-- The natural number that `%.nf` prints. -/
noncomputable def roundNat (s : ℝ) : Nat :=
  if s - (⌊s⌋.toNat : ℝ) < 1/2 then ⌊s⌋.toNat else if 1/2 < s - (⌊s⌋.toNat : ℝ) then ⌊s⌋.toNat + 1
  else if ⌊s⌋.toNat % 2 = 0 then ⌊s⌋.toNat else ⌊s⌋.toNat + 1

theorem roundNat_near (s : ℝ) (hs : 0 ≤ s) : |(roundNat s : ℝ) - s| ≤ 1/2 := by
  have hf0 : 0 ≤ ⌊s⌋ := Int.floor_nonneg.mpr hs
  have hcast : ((⌊s⌋.toNat : ℕ) : ℝ) = (⌊s⌋ : ℝ) := by
    rw [← Int.cast_natCast, Int.toNat_of_nonneg hf0]
  have h1 := Int.floor_le s
  have h2 := Int.lt_floor_add_one s
  unfold roundNat
  rw [hcast]
  split
  · rw [hcast, abs_le]; constructor <;> linarith
  · split
    · push_cast; rw [hcast, abs_le]; constructor <;> linarith
    · split
      · rw [hcast, abs_le]; constructor <;> linarith
      · push_cast; rw [hcast, abs_le]; constructor <;> linarith

theorem roundNat_nat (m : ℕ) : roundNat (m : ℝ) = m := by
  unfold roundNat
  simp

theorem fmtReal_eq (n : Nat) (v : ℝ) : fmtReal n v = (if v < 0 then ['-'] else []) ++ natDigits (roundNat (|v| * 10 ^ n) / 10 ^ n) ++
    (if n = 0 then [] else '.' :: padZero n (natDigits (roundNat (|v| * 10 ^ n) % 10 ^ n))) := rfl

/-- The value that is printed. -/
noncomputable def printedR (n : Nat) (v : ℝ) : ℝ := (if v < 0 then -(roundNat (|v| * 10 ^ n) : ℝ) else roundNat (|v| * 10 ^ n)) / 10 ^ n

theorem printedR_near (n : Nat) (v : ℝ) : |printedR n v - v| ≤ 1 / 2 / 10 ^ n := by
  have hpos : (0 : ℝ) < 10 ^ n := by positivity
  have h := roundNat_near (|v| * 10 ^ n) (by positivity)
  unfold printedR
  have e : ∀ m : ℝ, m / 10 ^ n - |v| = (m - |v| * 10 ^ n) / 10 ^ n := by intro m; field_simp
  have k : ∀ m : ℝ, |m - |v| * 10 ^ n| ≤ 1 / 2 → |m / 10 ^ n - (|v|)| ≤ 1 / 2 / 10 ^ n := by
    intro m hm
    rw [e, abs_div, abs_of_pos hpos]
    exact div_le_div_of_nonneg_right hm hpos.le
  have := k _ h
  by_cases hq : v < 0
  · rw [if_pos hq]
    rw [abs_of_neg hq] at this ⊢
    rw [← abs_neg, neg_sub, neg_div]
    rw [show v - -((roundNat (-v * 10 ^ n) : ℝ) / 10 ^ n) = (roundNat (-v * 10 ^ n) : ℝ) / 10 ^ n - -v by ring]
    exact this
  · rw [if_neg hq]
    rw [abs_of_nonneg (not_lt.1 hq)] at this ⊢
    exact this

theorem printedR_exact (n : Nat) (k : ℤ) : printedR n (k / 10 ^ n) = k / 10 ^ n := by
  have hpos : (0 : ℝ) < 10 ^ n := by positivity
  have ha : |(k : ℝ) / 10 ^ n| * 10 ^ n = (k.natAbs : ℕ) := by
    rw [abs_div, abs_of_pos hpos, div_mul_cancel₀ _ hpos.ne', Nat.cast_natAbs, Int.cast_abs]
  unfold printedR
  rw [ha, roundNat_nat]
  congr 1
  have hk : (k : ℝ) / 10 ^ n < 0 ↔ k < 0 := by
    rw [div_lt_iff₀ hpos, zero_mul]
    exact_mod_cast Iff.rfl
  by_cases h : k < 0
  · rw [if_pos (hk.2 h), Nat.cast_natAbs, abs_of_neg h]; push_cast; ring
  · rw [if_neg (fun g => h (hk.1 g)), Nat.cast_natAbs, abs_of_nonneg (not_lt.1 h)]

/-- The numeral that `floatystr` prints. -/
noncomputable def floatyNum (v : ℝ) : Numeral :=
  ⟨if v < 0 then some true else none, natDigits (roundNat (|v| * 10 ^ 6) / 10 ^ 6),
    if rstripC '0' (padZero 6 (natDigits (roundNat (|v| * 10 ^ 6) % 10 ^ 6))) = [] then none
    else some (rstripC '0' (padZero 6 (natDigits (roundNat (|v| * 10 ^ 6) % 10 ^ 6)))), none⟩

theorem floatyNum_text (v : ℝ) : floatyStr v = (floatyNum v).text := by
  unfold floatyStr
  show rstripC '.' (rstripC '0' (fmtReal 6 v)) = _
  rw [fmtReal_eq, if_neg (show ¬ (6 : ℕ) = 0 by norm_num), rstripC_mid '0' _ (by decide)]
  set ip := natDigits (roundNat (|v| * 10 ^ 6) / 10 ^ 6) with hip
  set fp := padZero 6 (natDigits (roundNat (|v| * 10 ^ 6) % 10 ^ 6)) with hfp
  have hfd : ∀ c ∈ fp, c.isDigit = true := GCode.padZero_digit _ _
  have hsign : signText (if v < 0 then some true else none) = if v < 0 then ['-'] else [] := by
    by_cases h : v < 0 <;> simp [h, signText]
  unfold Numeral.text floatyNum
  dsimp only
  rw [← hip, ← hfp, hsign]
  rcases rstripC_end '0' fp with h | ⟨t, d, h, hd⟩
  · rw [h, if_pos rfl]
    have hne := GCode.natDigits_ne (roundNat (|v| * 10 ^ 6) / 10 ^ 6)
    rw [← hip] at hne
    obtain ⟨t, d, htd⟩ : ∃ t d, ip = t ++ [d] := ⟨ip.dropLast, ip.getLast hne, (List.dropLast_append_getLast hne).symm⟩
    have hdd : d ≠ '.' := by
      have := GCode.natDigits_digit (roundNat (|v| * 10 ^ 6) / 10 ^ 6) d (by rw [← hip, htd]; simp)
      exact (GCode.digit_ne_dot this).1
    have e1 : (if v < 0 then ['-'] else []) ++ ip ++ ['.'] = ((if v < 0 then ['-'] else []) ++ t) ++ d :: ['.'] := by rw [htd]; simp
    rw [e1, rstripC_mid '.' _ hdd, htd]
    simp [fracText, expText, rstripC]
  · have hne : rstripC '0' fp ≠ [] := by rw [h]; simp
    rw [if_neg hne, h]
    have hdd : d ≠ '.' := by
      obtain ⟨k, hk⟩ := rstripC_split '0' fp
      have : d ∈ fp := by rw [hk, h]; simp
      exact (GCode.digit_ne_dot (hfd d this)).1
    have e1 : (if v < 0 then ['-'] else []) ++ ip ++ '.' :: (t ++ [d]) = ((if v < 0 then ['-'] else []) ++ ip ++ '.' :: t) ++ [d] := by simp
    rw [e1, rstripC_last '.' _ hdd]
    simp [fracText, expText]

theorem strip_digits (n m : Nat) : ∀ c ∈ rstripC '0' (padZero n (natDigits m)), c.isDigit = true := by
  intro c hc
  obtain ⟨k, hk⟩ := rstripC_split '0' (padZero n (natDigits m))
  exact GCode.padZero_digit n m c (by rw [hk]; simp [hc])

theorem floatyNum_short (v : ℝ) : Short (floatyNum v) := by
  refine ⟨rfl, ?_⟩
  intro ds h
  unfold floatyNum at h
  dsimp only at h
  split at h
  · cases h
  · rename_i hne
    injection h with h
    rcases rstripC_end '0' (padZero 6 (natDigits (roundNat (|v| * 10 ^ 6) % 10 ^ 6))) with h' | ⟨t, d, h', hd⟩
    · exact absurd h' hne
    · exact ⟨d, by rw [← h, h']; simp, hd⟩

theorem floatyNum_valid (v : ℝ) : (floatyNum v).Valid := by
  refine ⟨all_isDig (GCode.natDigits_digit _), ?_, ?_, ?_⟩
  · intro ds h
    unfold floatyNum at h
    dsimp only at h
    split at h
    · cases h
    · injection h with h
      rw [← h]
      exact all_isDig (strip_digits _ _)
  · intro h
    exact GCode.natDigits_ne _ (List.append_eq_nil_iff.1 h).1
  · intro u s ds h; cases h

theorem floatyNum_value (v : ℝ) : (floatyNum v).value exactR = printedR 6 v := by
  set m := roundNat (|v| * 10 ^ 6) with hm
  have hneg : (floatyNum v).negative = decide (v < 0) := by
    unfold Numeral.negative floatyNum
    by_cases hq : v < 0 <;> simp [hq]
  have key : ((natOf ((floatyNum v).ip ++ (floatyNum v).frac.getD []) : ℕ) : ℝ) * (10 : ℝ) ^ (floatyNum v).exponent = m / 10 ^ 6 := by
    unfold Numeral.exponent floatyNum
    dsimp only
    rw [← hm]
    have hlen := GCode.padZero_length 6 (m % 10 ^ 6) (by norm_num) (Nat.mod_lt _ (by positivity))
    obtain ⟨k, hk⟩ := rstripC_split '0' (padZero 6 (natDigits (m % 10 ^ 6)))
    set f := rstripC '0' (padZero 6 (natDigits (m % 10 ^ 6))) with hf
    have hfl : f.length + k = 6 := by
      have := congrArg List.length hk
      rw [hlen] at this
      simpa using this.symm
    have hval : natOf (natDigits (m / 10 ^ 6) ++ f) * 10 ^ k = m := by
      rw [← natOf_zeros, List.append_assoc, ← hk, natOf_append, natOf_eq, natOf_eq, GCode.digitsVal_natDigits, GCode.digitsVal_pad, hlen, Nat.div_add_mod']
    have hgetD : (if f = [] then none else some f : Option (List Char)).getD [] = f := by
      by_cases h : f = [] <;> simp [h]
    rw [hgetD]
    simp only [expValue, zero_sub]
    rw [zpow_neg, zpow_natCast, ← div_eq_mul_inv, div_eq_div_iff (by positivity) (by positivity)]
    have hval' : ((natOf (natDigits (m / 10 ^ 6) ++ f) : ℕ) : ℝ) * 10 ^ k = m := by exact_mod_cast hval
    rw [← hval', ← hfl, pow_add]
    ring
  unfold Numeral.value
  rw [hneg]
  unfold printedR
  rw [← hm]
  show (if decide (v < 0) = true then -((natOf _ : ℕ) : ℝ) else ((natOf _ : ℕ) : ℝ)) * (10 : ℝ) ^ _ = _
  by_cases hq : v < 0
  · simp only [hq, decide_true, if_true]
    rw [neg_mul, key, neg_div]
  · simp only [hq, decide_false, if_false, Bool.false_eq_true]
    exact key

/-! ## C131 -/

/-- **C131** (numbers): the width and height are written as plain numbers in their shortest form, to six decimals. -/
theorem C131_number (v : ℝ) : ∃ num : Numeral, floatyStr v = num.text ∧ Stands 6 num v ∧ Short num := by
  refine ⟨floatyNum v, floatyNum_text v, ⟨floatyNum_valid v, ?_, ?_⟩, floatyNum_short v⟩
  · rw [floatyNum_value]; exact printedR_near 6 v
  · rintro k rfl
    rw [floatyNum_value]; exact printedR_exact 6 k

/-- Non-vacuity: trailing zeros and the point go, other zeros stay. -/
example : String.ofList (rstripC '.' (rstripC '0' "100.000000".toList)) = "100" ∧ String.ofList (rstripC '.' (rstripC '0' "0.000000".toList)) = "0" ∧
    String.ofList (rstripC '.' (rstripC '0' "20.050000".toList)) = "20.05" := by decide +kernel

theorem new_sheet {c : Conv ℝ} (hc : c.Positive) (d : NewDoc ℝ) (u : LenUnit) (hu : d.units = u.name) (hw : 0 < printedR 6 d.width) (hh : 0 < printedR 6 d.height) :
    Sheet exactR c (newInkscape d) (printedR 6 d.width * u.size c.em c.em) (printedR 6 d.height * u.size c.em c.em)
      (printedR 6 d.width * u.size c.em c.em) (printedR 6 d.height * u.size c.em c.em) := by
  have hp : (⟨c.em, c.em⟩ : Conv ℝ).Positive := ⟨hc.1, hc.1⟩
  have hs := Svg.size_pos hp u
  constructor
  · refine ⟨⟨floatyNum d.width, [], some u⟩, ⟨floatyNum_valid _, by simp⟩, ?_, ?_, ?_⟩
    · show some (floatyStr d.width ++ d.units) = _
      rw [floatyNum_text, hu]; simp [Length.text]
    · rw [floatyNum_value]; exact hw
    · rw [floatyNum_value]; rfl
  · refine ⟨⟨floatyNum d.height, [], some u⟩, ⟨floatyNum_valid _, by simp⟩, ?_, ?_, ?_⟩
    · show some (floatyStr d.height ++ d.units) = _
      rw [floatyNum_text, hu]; simp [Length.text]
    · rw [floatyNum_value]; exact hh
    · rw [floatyNum_value]; rfl
  · left
    refine ⟨?_, rfl, rfl⟩
    show List.lookup _ _ = none
    unfold rootAttrs NewDoc.nameAttr
    cases given d.docName <;> simp [List.lookup]
  · exact mul_pos hw hs
  · have h1 : printedR 6 d.width * u.size c.em c.em ≠ 0 := (mul_pos hw hs).ne'
    have h2 : printedR 6 d.height * u.size c.em c.em ≠ 0 := (mul_pos hh hs).ne'
    rw [div_self h1, div_self h2]

theorem new_open {c : Conv ℝ} (hc : c.Positive) {eps : ℝ} (heps : 0 < eps) (d : NewDoc ℝ) (u : LenUnit) (hu : d.units = u.name) (hw : 0 < printedR 6 d.width)
    (hh : 0 < printedR 6 d.height) :
    openDoc exactR c eps (newInkscape d) =
      .ok ⟨⟨d.units, ⟨c.em, c.em⟩, 1⟩, printedR 6 d.width * u.size c.em c.em, printedR 6 d.height * u.size c.em c.em⟩ := by
  have hp : (⟨c.em, c.em⟩ : Conv ℝ).Positive := ⟨hc.1, hc.1⟩
  have hs := Svg.size_pos hp u
  have hnv : namedView (newInkscape d) = some d.view := by
    unfold namedView newInkscape NewDoc.view
    simp only [XNode.places, placesList, List.findSome?_cons]
    rfl
  have h := openDoc_sheet hc heps (new_sheet hc d u hu hw hh) hnv
  rw [h]
  have hun : unitsOf d.view = d.units := by
    unfold unitsOf NewDoc.view
    simp [XNode.get, List.lookup]
  rw [hun, div_self (mul_pos hw hs).ne']

/-- **C131** (opening), the part that holds: a document created with a width and a height in pixels (at least a millionth) opens as a page of
that width and height (to six decimals), with a scale of one user unit to the pixel and pixels as its units.  Missing: other units. -/
theorem C131_opens_partial {c : Conv ℝ} (hc : c.Positive) {eps : ℝ} (heps : 0 < eps) (d : NewDoc ℝ) (hu : d.units = "px".toList)
    (hw : 1 / 10 ^ 6 ≤ d.width) (hh : 1 / 10 ^ 6 ≤ d.height) :
    ∃ W H, openDoc exactR c eps (newInkscape d) = .ok ⟨⟨"px".toList, ⟨c.em, c.em⟩, 1⟩, W, H⟩ ∧
      |W - d.width| ≤ 1 / 2 / 10 ^ 6 ∧ |H - d.height| ≤ 1 / 2 / 10 ^ 6 := by
  have near := printedR_near 6
  have pos : ∀ v : ℝ, 1 / 10 ^ 6 ≤ v → 0 < printedR 6 v := by
    intro v hv
    have := near v
    rw [abs_le] at this
    norm_num at this hv ⊢
    linarith [this.1]
  refine ⟨printedR 6 d.width, printedR 6 d.height, ?_, near _, near _⟩
  rw [new_open hc heps d .px hu (pos _ hw) (pos _ hh), hu]
  simp [LenUnit.size]

/-- The part of **C131** that fails: for every other unit the width of the page in user units is the size of the unit in pixels times the
width asked for, instead of the width asked for: the attribute that would set the user unit is misspelled. -/
theorem C131_refuted_units {c : Conv ℝ} (hc : c.Positive) {eps : ℝ} (heps : 0 < eps) (d : NewDoc ℝ) (u : LenUnit) (hu : d.units = u.name) (k l : ℤ)
    (hk : 0 < k) (hl : 0 < l) (hw : d.width = k / 10 ^ 6) (hh : d.height = l / 10 ^ 6) :
    openDoc exactR c eps (newInkscape d) = .ok ⟨⟨d.units, ⟨c.em, c.em⟩, 1⟩, d.width * u.size c.em c.em, d.height * u.size c.em c.em⟩ ∧
    (u.size c.em c.em ≠ 1 → d.width * u.size c.em c.em ≠ d.width) := by
  have e1 : printedR 6 d.width = d.width := by rw [hw, printedR_exact]
  have e2 : printedR 6 d.height = d.height := by rw [hh, printedR_exact]
  have hk' : (0 : ℝ) < k := by exact_mod_cast hk
  have hl' : (0 : ℝ) < l := by exact_mod_cast hl
  have p1 : 0 < d.width := by rw [hw]; positivity
  have p2 : 0 < d.height := by rw [hh]; positivity
  refine ⟨?_, ?_⟩
  · have := new_open hc heps d u hu (by rw [e1]; exact p1) (by rw [e2]; exact p2)
    rwa [e1, e2] at this
  · intro h1 h2
    apply h1
    have : d.width * (u.size c.em c.em - 1) = 0 := by linarith
    have := (mul_eq_zero.1 this).resolve_left p1.ne'
    linarith

/-- Non-vacuity: a page of 8.5 by 11 inches is 765 user units wide. -/
example : ∃ d : NewDoc ℝ, d.units = LenUnit.inch.name ∧ d.width = ((8500000 : ℤ) : ℝ) / 10 ^ 6 ∧ d.height = ((11000000 : ℤ) : ℝ) / 10 ^ 6 ∧
    d.width * LenUnit.inch.size 12 12 = 765 :=
  ⟨⟨8.5, 11, LenUnit.inch.name, [], none, none, []⟩, rfl, by norm_num, by norm_num, by norm_num [LenUnit.size]⟩

/-- **C131** (layer): a new document has a layer exactly if a name that is not empty is asked for, and then `find_layer` finds it under
that name and under no other. -/
theorem C131_layer (d : NewDoc ℝ) (name : Str) : (∃ a, findLayer (newInkscape d) name = some a) ↔ (d.layerName = some name ∧ name ≠ []) := by
  have hroot : ∀ t a k, t ≠ "g".toList → (XNode.elem .svg t a k).named name = false := by
    intro t a k h
    unfold XNode.named
    dsimp only
    rw [decide_eq_false h, Bool.false_and]
  have hnv : ∀ t a k, (XNode.elem .other t a k).named name = false := fun _ _ _ => rfl
  have hg : ∀ i s : Str, (XNode.elem .svg "g".toList [("id".toList, i), ("inkscape:groupmode".toList, "layer".toList), ("inkscape:label".toList, s)] []).named name =
      decide (some s = some name) := by
    intro i s
    unfold XNode.named
    dsimp only
    rw [decide_eq_true rfl, Bool.true_and]
    rfl
  unfold findLayer newInkscape NewDoc.view NewDoc.layers
  rw [← Option.isSome_iff_exists, List.find?_isSome]
  cases hl : given d.layerName with
  | none =>
    constructor
    · rintro ⟨a, ha, hn⟩
      simp only [XNode.places, placesList, List.append_nil, List.mem_cons, List.not_mem_nil, or_false] at ha
      rcases ha with rfl | rfl
      · rw [hroot _ _ _ (by decide)] at hn; cases hn
      · rw [hnv] at hn; cases hn
    · rintro ⟨h1, h2⟩
      rw [h1] at hl
      unfold given at hl
      simp [h2] at hl
  | some s =>
    have hs : d.layerName = some s ∧ s ≠ [] := by
      unfold given at hl
      split at hl
      · rename_i s' h'
        split at hl
        · cases hl
        · rename_i hne
          injection hl with hl
          subst hl
          exact ⟨h', by simpa using hne⟩
      · cases hl
    constructor
    · rintro ⟨a, ha, hn⟩
      simp only [XNode.places, placesList, List.append_nil, List.cons_append, List.nil_append, List.mem_cons, List.not_mem_nil, or_false] at ha
      rcases ha with rfl | rfl | rfl
      · rw [hroot _ _ _ (by decide)] at hn; cases hn
      · rw [hnv] at hn; cases hn
      · rw [hg] at hn
        simp only [Option.some.injEq, decide_eq_true_eq] at hn
        subst hn
        exact hs
    · rintro ⟨h1, h2⟩
      have : s = name := by have := hs.1.symm.trans h1; injection this
      subst this
      simp only [XNode.places, placesList, List.append_nil, List.cons_append, List.nil_append, List.mem_cons, List.not_mem_nil, or_false]
      exact ⟨_, Or.inr (Or.inr rfl), (hg d.layerId s).trans (decide_eq_true rfl)⟩

/-- Non-vacuity: a document with a layer, and one without. -/
example : (∃ a, findLayer (newInkscape (⟨100, 50, "px".toList, "doc".toList, none, some "Plan".toList, "l1".toList⟩ : NewDoc ℝ)) "Plan".toList = some a) ∧
    ¬ ∃ a, findLayer (newInkscape (⟨100, 50, "px".toList, "doc".toList, none, some [], "l1".toList⟩ : NewDoc ℝ)) [] = some a :=
  ⟨(C131_layer _ _).2 ⟨rfl, by decide⟩, fun h => ((C131_layer _ _).1 h).2 rfl⟩

/-! ## C132 -/

/-- **C132**, the part that holds: whatever the random number is, `random_id` returns the prefix followed by that number in decimal, so that different
numbers give different identifiers. -/
theorem C132_distinct_partial (pre : Str) (r r' : Nat) : randomId pre r = randomId pre r' ↔ r = r' := by
  unfold randomId
  constructor
  · intro h
    have := List.append_cancel_left h
    have := congrArg GCode.digitsVal this
    rwa [GCode.digitsVal_natDigits, GCode.digitsVal_natDigits] at this
  · rintro rfl; rfl

/-- **C132** is refuted: for every document (that has no element with the peculiar id for which the search looks), every prefix and every random number,
the identifier is returned at once, also if an element of the document has it. -/
theorem C132_refuted (doc : XNode) (h : byId doc "<built-in function id>".toList = none) (pre : Str) (rs : Nat → Nat) (fuel : Nat) :
    randomIdIn doc pre rs (fuel + 1) 0 = some (pre ++ natDigits (rs 0)) := by
  unfold randomIdIn
  rw [h]
  rfl

/-- The hypothesis is met by a document in which the identifier is taken. -/
example : (byId (.elem .svg "svg".toList [] [.elem .svg "g".toList [("id".toList, "_svg7".toList)] []]) "_svg7".toList).isSome = true ∧
    randomIdIn (.elem .svg "svg".toList [] [.elem .svg "g".toList [("id".toList, "_svg7".toList)] []]) "_svg".toList (fun _ => 7) 5 0 = some "_svg7".toList := by
  decide +kernel

end Verif.Svg
