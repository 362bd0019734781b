import Verif.Svg.Props3

/-!
# C72, C83, C84: the text of path data
-/

set_option linter.unusedSectionVars false

namespace Verif.Svg
open Verif PyFloat PyTrig Geom

/-! ## Specification: numbers and path text (SVG 1.1, 8.3.9) -/

/-- Specification: a written number: sign, digits, fraction digits (`none`: no point), exponent. -/
structure Numeral where
  sign : Option Bool                 -- `some true`: `-`, `some false`: `+`
  ip : List Char
  frac : Option (List Char)
  exp : Option (Bool × Option Bool × List Char)      -- upper case `E`?, sign, digits

/-- Specification: text of a sign. -/
def signText : Option Bool → Str
  | none => []
  | some true => ['-']
  | some false => ['+']

/-- Specification: text of the fraction. -/
def fracText : Option (List Char) → Str
  | none => []
  | some ds => '.' :: ds

/-- Specification: text of the exponent. -/
def expText : Option (Bool × Option Bool × List Char) → Str
  | none => []
  | some (u, s, ds) => (if u then 'E' else 'e') :: signText s ++ ds

/-- Specification: text of a number. -/
def Numeral.text (n : Numeral) : Str := signText n.sign ++ n.ip ++ fracText n.frac ++ expText n.exp

/-- Specification: it is a number: digits, at least one in the mantissa and at least one in the exponent. -/
structure Numeral.Valid (n : Numeral) : Prop where
  ip : n.ip.all isDig = true
  frac : ∀ ds, n.frac = some ds → ds.all isDig = true
  some_digit : n.ip ++ n.frac.getD [] ≠ []
  exp : ∀ u s ds, n.exp = some (u, s, ds) → ds.all isDig = true ∧ ds ≠ []

/-- Specification: sign of the value. -/
def Numeral.negative (n : Numeral) : Bool := n.sign == some true

/-- Specification: the written exponent. -/
def expValue : Option (Bool × Option Bool × List Char) → Int
  | none => 0
  | some (_, s, ds) => if s = some true then -(natOf ds : Int) else natOf ds

/-- Specification: the decimal exponent. -/
def Numeral.exponent (n : Numeral) : Int := expValue n.exp - (n.frac.getD []).length

/-- Specification: the value of a number is `±(all mantissa digits) · 10^exponent`, rounded as `float()` does. -/
def Numeral.value {K : Type} (env : NumEnv K) (n : Numeral) : K :=
  env.ofDec n.negative (natOf (n.ip ++ n.frac.getD [])) n.exponent

/-- Specification: an integer: no point, no exponent. -/
def Numeral.IsInt (n : Numeral) : Prop := n.frac = none ∧ n.exp = none

/-- Specification: the value of an integer. -/
def Numeral.intValue {K : Type} [PyFloat K] (n : Numeral) : K :=
  ofInt (if n.negative then -(natOf n.ip : Int) else natOf n.ip)

/-- Specification: where a number may end without a separator: at the end, at a blank or comma, at a command letter, at a
sign, or at a point if the number already has a point or an exponent. -/
def GrammarBoundary (n : Numeral) (rest : Str) : Prop :=
  rest = [] ∨ ∃ c r, rest = c :: r ∧ (c ∈ separators ∨ c ∈ cmdLetters ∨ c = '+' ∨ c = '-' ∨ (c = '.' ∧ (n.frac ≠ none ∨ n.exp ≠ none)))

/-- Specification: the same without a point directly after the exponent of a number that has no point (`1e3.5`). -/
def Boundary (n : Numeral) (rest : Str) : Prop :=
  rest = [] ∨ ∃ c r, rest = c :: r ∧ (c ∈ separators ∨ c ∈ cmdLetters ∨ c = '+' ∨ c = '-' ∨ (c = '.' ∧ n.frac ≠ none))

/-- Specification: a lexical item of path data. -/
inductive Lex
  | cmd (c : Char)
  | num (n : Numeral)

/-- Specification: the text spells the items: items with any blanks and commas between them, which may be left out where the
next item cannot be taken for a part of the number before. -/
inductive Spells : Str → List Lex → Prop
  | nil : Spells [] []
  | sep (c : Char) (s : Str) (l : List Lex) : c ∈ separators → Spells s l → Spells (c :: s) l
  | cmd (c : Char) (s : Str) (l : List Lex) : c ∈ cmdLetters → Spells s l → Spells (c :: s) (Lex.cmd c :: l)
  | num (n : Numeral) (s : Str) (l : List Lex) : n.Valid → Boundary n s → Spells s l → Spells (n.text ++ s) (Lex.num n :: l)

/-- Specification: the token of an item. -/
def Lex.tok : Lex → Tok
  | .cmd c => ([c], true)
  | .num n => (n.text, false)

/-! ## Reading a number back -/

theorem isDig_props {c : Char} (h : isDig c = true) : c ∈ digitExp ∧ c ≠ '-' ∧ c ≠ '+' ∧ c ≠ '.' ∧ c ≠ 'e' ∧ c ≠ 'E' := by
  unfold isDig at h
  simp only [Bool.and_eq_true, decide_eq_true_eq] at h
  have hb : ∀ n : Nat, n < 58 → 48 ≤ n → (Char.ofNat n ∈ digitExp ∧ Char.ofNat n ≠ '-' ∧ Char.ofNat n ≠ '+' ∧ Char.ofNat n ≠ '.' ∧
    Char.ofNat n ≠ 'e' ∧ Char.ofNat n ≠ 'E') := by decide +kernel
  have := hb c.toNat (Nat.lt_succ_of_le h.2) h.1
  rwa [Char.ofNat_toNat] at this

theorem takeWhile_dig (ds rest : Str) (h : ds.all isDig = true) (hr : ∀ c r, rest = c :: r → isDig c = false) :
    (ds ++ rest).takeWhile isDig = ds ∧ (ds ++ rest).dropWhile isDig = rest := by
  induction ds with
  | nil =>
    cases rest with
    | nil => exact ⟨rfl, rfl⟩
    | cons c r => simp [List.takeWhile, List.dropWhile, hr c r rfl]
  | cons d ds ih =>
    simp only [List.all_cons, Bool.and_eq_true] at h
    simp [List.takeWhile, List.dropWhile, h.1, ih h.2]

theorem takeSign_text (s : Option Bool) (rest : Str) (hr : ∀ c r, rest = c :: r → c ≠ '-' ∧ c ≠ '+') :
    takeSign (signText s ++ rest) = (s == some true, rest) := by
  cases s with
  | none =>
    cases rest with
    | nil => rfl
    | cons c r =>
      obtain ⟨h1, h2⟩ := hr c r rfl
      unfold takeSign signText
      simp only [List.nil_append]
      split
      · rename_i heq; simp only [List.cons.injEq] at heq; exact absurd heq.1 h1
      · rename_i heq; simp only [List.cons.injEq] at heq; exact absurd heq.1 h2
      · simp
  | some b => cases b <;> simp [takeSign, signText]

theorem expText_head {e : Option (Bool × Option Bool × List Char)} {c : Char} {r : Str} (h : expText e = c :: r) : c = 'e' ∨ c = 'E' := by
  cases e with
  | none => cases h
  | some x =>
    obtain ⟨u, s, ds⟩ := x
    simp only [expText, List.cons_append, List.cons.injEq] at h
    rw [← h.1]
    cases u <;> simp

theorem readExp_text (e : Option (Bool × Option Bool × List Char)) (h : ∀ u s ds, e = some (u, s, ds) → ds.all isDig = true ∧ ds ≠ []) :
    readExp (expText e) = some (expValue e) := by
  cases e with
  | none => rfl
  | some x =>
    obtain ⟨u, s, ds⟩ := x
    obtain ⟨hd, hne⟩ := h u s ds rfl
    have ht := takeSign_text s ds (by
      rintro c r rfl
      simp only [List.all_cons, Bool.and_eq_true] at hd
      have := isDig_props hd.1
      exact ⟨this.2.1, this.2.2.1⟩)
    have hu : (if u = true then 'E' else 'e') = 'e' ∨ (if u = true then 'E' else 'e') = 'E' := by cases u <;> simp
    simp only [expText, List.cons_append, readExp, if_pos hu, ht, hd]
    have : ds.isEmpty = false := by simpa using hne
    rw [this]
    simp [expValue]

theorem readDec_text (n : Numeral) (h : n.Valid) :
    readDec n.text = some (n.negative, natOf (n.ip ++ n.frac.getD []), n.exponent) := by
  have hne : ∀ c : Char, isDig c = true → c ≠ '-' ∧ c ≠ '+' := fun c hc => ⟨(isDig_props hc).2.1, (isDig_props hc).2.2.1⟩
  have hef : ∀ c r, expText n.exp = c :: r → isDig c = false := by
    intro c r hc; rcases expText_head hc with rfl | rfl <;> rfl
  have hff : ∀ c r, fracText n.frac ++ expText n.exp = c :: r → isDig c = false ∧ c ≠ '-' ∧ c ≠ '+' := by
    intro c r hc
    cases hf : n.frac with
    | none => rw [hf] at hc; rcases expText_head hc with rfl | rfl <;> decide
    | some ds =>
      rw [hf] at hc
      simp only [fracText, List.cons_append, List.cons.injEq] at hc
      rw [← hc.1]; decide
  have hsign : takeSign n.text = (n.sign == some true, n.ip ++ (fracText n.frac ++ expText n.exp)) := by
    unfold Numeral.text
    rw [List.append_assoc, List.append_assoc]
    apply takeSign_text
    intro c r hc
    cases hip : n.ip with
    | nil => rw [hip] at hc; exact (hff c r hc).2
    | cons d ds =>
      rw [hip] at hc
      simp only [List.cons_append, List.cons.injEq] at hc
      have := h.ip
      rw [hip, List.all_cons, Bool.and_eq_true] at this
      rw [← hc.1]; exact hne d this.1
  obtain ⟨ht1, ht2⟩ := takeWhile_dig n.ip (fracText n.frac ++ expText n.exp) h.ip (fun c r hc => (hff c r hc).1)
  have htf : takeFrac (fracText n.frac ++ expText n.exp) = (n.frac.getD [], expText n.exp) := by
    cases hf : n.frac with
    | none =>
      simp only [fracText, List.nil_append, Option.getD_none]
      unfold takeFrac
      split
      · rename_i heq; rcases expText_head heq with h | h <;> cases h
      · rfl
    | some ds =>
      obtain ⟨h1, h2⟩ := takeWhile_dig ds (expText n.exp) (h.frac ds hf) hef
      simp only [fracText, List.cons_append, takeFrac, h1, h2, Option.getD_some]
  unfold readDec
  simp only [hsign, ht1, ht2, htf]
  have : (n.ip ++ n.frac.getD []).isEmpty = false := by simpa using h.some_digit
  rw [this]
  simp only [Bool.false_eq_true, if_false]
  rw [readExp_text n.exp h.exp]
  rfl

theorem readInt_text (n : Numeral) (h : n.Valid) (hi : n.IsInt) :
    readInt n.text = some (if n.negative then -(natOf n.ip : Int) else natOf n.ip) := by
  have hip := h.some_digit
  rw [hi.1, Option.getD_none, List.append_nil] at hip
  have htext : n.text = signText n.sign ++ n.ip := by
    unfold Numeral.text; rw [hi.1, hi.2]; simp [fracText, expText]
  have hs := takeSign_text n.sign n.ip (by
    intro c r hc
    have := h.ip
    rw [hc, List.all_cons, Bool.and_eq_true] at this
    have := isDig_props this.1
    exact ⟨this.2.1, this.2.2.1⟩)
  unfold readInt
  rw [htext, hs]
  have : n.ip.isEmpty = false := by simpa using hip
  simp only [this, h.ip]
  rfl

/-! ## Tokenising -/

theorem tok_digits (ds : Str) (h : ∀ c ∈ ds, c ∈ digitExp) (f : Bool) (e rest : Str) :
    tokLoop f e (ds ++ rest) = tokLoop f (e ++ ds) rest := by
  induction ds generalizing e with
  | nil => simp
  | cons d ds ih =>
    rw [List.cons_append, tokLoop, if_pos (h d (by simp)), ih (fun c hc => h c (by simp [hc]))]
    simp

theorem all_dig {ds : Str} (h : ds.all isDig = true) : ∀ c ∈ ds, c ∈ digitExp := by
  intro c hc
  rw [List.all_eq_true] at h
  exact (isDig_props (h c hc)).1

theorem sign_char {c : Char} (h : c = '+' ∨ c = '-') :
    c ∉ digitExp ∧ c ∉ commaWsp ∧ c ∉ drawto ∧ c ≠ '.' := by
  rcases h with rfl | rfl <;> decide +kernel

theorem tok_sign {c : Char} (h : c = '+' ∨ c = '-') (f : Bool) (e rest : Str) :
    tokLoop f e (c :: rest) = if !e.isEmpty && !(e.getLast? = some 'e' ∨ e.getLast? = some 'E') then
        (e, false) :: tokLoop false [c] rest
      else tokLoop f (e ++ [c]) rest := by
  obtain ⟨h1, h2, h3, h4⟩ := sign_char h
  rw [tokLoop, if_neg h1, if_neg (by simp [h2]), if_neg h3, if_neg h4, if_pos h]

theorem tok_signText (s : Option Bool) (e rest : Str) (f : Bool) (he : e = [] ∨ (e.getLast? = some 'e' ∨ e.getLast? = some 'E')) :
    tokLoop f e (signText s ++ rest) = tokLoop f (e ++ signText s) rest := by
  have hcond : (!e.isEmpty && !decide (e.getLast? = some 'e' ∨ e.getLast? = some 'E')) = false := by
    rcases he with rfl | he
    · rfl
    · simp [he]
  cases s with
  | none => simp [signText]
  | some b =>
    cases b with
    | true =>
      show tokLoop f e ('-' :: rest) = _
      rw [tok_sign (Or.inr rfl), hcond]; rfl
    | false =>
      show tokLoop f e ('+' :: rest) = _
      rw [tok_sign (Or.inl rfl), hcond]; rfl

theorem tok_numeral (n : Numeral) (h : n.Valid) (rest : Str) :
    tokLoop false [] (n.text ++ rest) = tokLoop n.frac.isSome n.text rest := by
  unfold Numeral.text
  rw [List.append_assoc, List.append_assoc, List.append_assoc, tok_signText _ _ _ _ (Or.inl rfl), tok_digits _ (all_dig h.ip)]
  have hfrac : ∀ e : Str, tokLoop false e (fracText n.frac ++ (expText n.exp ++ rest))
      = tokLoop n.frac.isSome (e ++ fracText n.frac) (expText n.exp ++ rest) := by
    intro e
    cases hf : n.frac with
    | none => simp [fracText]
    | some ds =>
      show tokLoop false e ('.' :: (ds ++ _)) = _
      have h1 : '.' ∉ digitExp := by decide +kernel
      have h2 : '.' ∉ commaWsp := by decide +kernel
      have h3 : '.' ∉ drawto := by decide +kernel
      rw [tokLoop, if_neg h1, if_neg (by simp [h2]), if_neg h3, if_pos rfl]
      simp only [Bool.false_eq_true, if_false]
      rw [tok_digits _ (all_dig (h.frac ds hf))]
      simp [fracText]
  rw [hfrac]
  have hexp : ∀ e : Str, ∀ f, tokLoop f e (expText n.exp ++ rest) = tokLoop f (e ++ expText n.exp) rest := by
    intro e f
    cases he : n.exp with
    | none => simp [expText]
    | some x =>
      obtain ⟨u, s, ds⟩ := x
      show tokLoop f e ((if u then 'E' else 'e') :: (signText s ++ ds ++ rest)) = _
      have h1 : (if u then 'E' else 'e') ∈ digitExp := by cases u <;> decide +kernel
      rw [tokLoop, if_pos h1, List.append_assoc, tok_signText s (e ++ [if u then 'E' else 'e']) _ f
        (Or.inr (by cases u <;> simp)), tok_digits _ (all_dig (h.exp u s ds he).1)]
      simp [expText]
  rw [hexp]
  simp

theorem getLast?_mem' {l : Str} {c : Char} (h : l.getLast? = some c) : c ∈ l := List.mem_of_getLast? h

/-- The last character of a number is a digit or a point. -/
theorem text_last (n : Numeral) (h : n.Valid) : n.text ≠ [] ∧ n.text.getLast? ≠ some 'e' ∧ n.text.getLast? ≠ some 'E' := by
  have hd : ∀ ds : Str, ds.all isDig = true → ds ≠ [] → ∀ l : Str, (l ++ ds).getLast? ≠ some 'e' ∧ (l ++ ds).getLast? ≠ some 'E' := by
    intro ds ha hne l
    rw [List.getLast?_append_of_ne_nil _ hne]
    rw [List.all_eq_true] at ha
    constructor
    · intro hx; exact (isDig_props (ha _ (List.mem_of_getLast? hx))).2.2.2.2.1 rfl
    · intro hx; exact (isDig_props (ha _ (List.mem_of_getLast? hx))).2.2.2.2.2 rfl
  constructor
  · intro h0
    unfold Numeral.text at h0
    simp only [List.append_eq_nil_iff] at h0
    obtain ⟨⟨⟨-, h1⟩, h2⟩, -⟩ := h0
    have := h.some_digit
    rw [h1] at this
    cases hf : n.frac with
    | none => rw [hf] at this; exact this rfl
    | some ds => rw [hf] at h2; cases h2
  · unfold Numeral.text
    cases he : n.exp with
    | some x =>
      obtain ⟨u, s, ds⟩ := x
      obtain ⟨h1, h2⟩ := h.exp u s ds he
      have := hd ds h1 h2 (signText n.sign ++ n.ip ++ fracText n.frac ++ ((if u then 'E' else 'e') :: signText s))
      simpa [expText] using this
    | none =>
      simp only [expText, List.append_nil]
      cases hf : n.frac with
      | some ds =>
        cases ds with
        | nil => simp [fracText]
        | cons d ds =>
          have := hd (d :: ds) (h.frac _ hf) (by simp) (signText n.sign ++ n.ip ++ ['.'])
          simpa [fracText] using this
      | none =>
        have h1 := h.some_digit
        rw [hf] at h1
        simp only [Option.getD_none, List.append_nil] at h1
        have := hd n.ip h.ip h1 (signText n.sign)
        simpa [fracText] using this

theorem drawto_char {c : Char} (h : c ∈ cmdLetters) : c ∉ digitExp ∧ c ∉ commaWsp ∧ c ∈ drawto := by
  have h' : ∀ c ∈ cmdLetters, c ∉ digitExp ∧ c ∉ commaWsp ∧ c ∈ drawto := by decide +kernel
  exact h' c h

theorem sep_char {c : Char} (h : c ∈ separators) : c ∉ digitExp ∧ c ∉ drawto ∧ c ≠ '.' ∧ ¬ (c = '+' ∨ c = '-') := by
  have h' : ∀ c ∈ separators, c ∉ digitExp ∧ c ∉ drawto ∧ c ≠ '.' ∧ ¬ (c = '+' ∨ c = '-') := by decide +kernel
  exact h' c h

theorem tokenize_sep {c : Char} (h : c ∈ separators) (s : Str) : tokenize (c :: s) = tokenize s := by
  obtain ⟨h1, h2, h3, h4⟩ := sep_char h
  unfold tokenize
  rw [tokLoop, if_neg h1, if_neg (by simp), if_neg h2, if_neg h3, if_neg h4]

theorem tokenize_cmd {c : Char} (h : c ∈ cmdLetters) (s : Str) : tokenize (c :: s) = ([c], true) :: tokenize s := by
  obtain ⟨h1, h2, hd⟩ := drawto_char h
  unfold tokenize
  rw [tokLoop, if_neg h1, if_neg (by simp), if_pos hd]
  rfl

theorem tokenize_num (n : Numeral) (h : n.Valid) {rest : Str} (hb : Boundary n rest) :
    tokenize (n.text ++ rest) = (n.text, false) :: tokenize rest := by
  obtain ⟨hne, hl1, hl2⟩ := text_last n h
  have hemp : n.text.isEmpty = false := by simpa using hne
  have hfl : flush n.text = [(n.text, false)] := by unfold flush; rw [hemp]; rfl
  unfold tokenize
  rw [tok_numeral n h]
  rcases hb with rfl | ⟨c, r, rfl, hc | hc | hc | hc | ⟨rfl, hc⟩⟩
  · rw [tokLoop, hfl]; rfl
  · have := tokenize_sep hc r
    unfold tokenize at this
    rw [this]
    obtain ⟨h1, h2, h3, h4⟩ := sep_char hc
    rw [tokLoop, if_neg h1, if_pos (by simp [sep_wsp hc, hemp])]
  · have := tokenize_cmd hc r
    unfold tokenize at this
    rw [this]
    obtain ⟨h1, h2, hd⟩ := drawto_char hc
    rw [tokLoop, if_neg h1, if_neg (by simp [h2]), if_pos hd, hfl, hemp, Bool.and_false]
    rfl
  · rw [tok_sign (Or.inl hc), tok_sign (Or.inl hc)]
    simp [hemp, hl1, hl2]
  · rw [tok_sign (Or.inr hc), tok_sign (Or.inr hc)]
    simp [hemp, hl1, hl2]
  · have h1 : '.' ∉ digitExp := by decide +kernel
    have h2 : '.' ∉ commaWsp := by decide +kernel
    have h3 : '.' ∉ drawto := by decide +kernel
    have hs : n.frac.isSome = true := Option.isSome_iff_ne_none.2 hc
    rw [hs, tokLoop, if_neg h1, if_neg (by simp [h2]), if_neg h3, if_pos rfl, if_pos rfl]
    conv_rhs => rw [tokLoop, if_neg h1, if_neg (by simp), if_neg h3, if_pos rfl]
    rfl

/-- **C83**: path data is split into commands and numbers as written, whatever blanks and commas stand between them and
wherever they are left out as the SVG grammar allows (`1-2`, `.5.5`, `L1 2`).  Missing: a point directly after an exponent
(`1e3.5`, `C83_refuted`). -/
theorem C83_separators_partial {s : Str} {l : List Lex} (h : Spells s l) : tokenize s = l.map Lex.tok := by
  induction h with
  | nil => rfl
  | sep c s l hc _ ih => rw [tokenize_sep hc, ih]
  | cmd c s l hc _ ih => rw [tokenize_cmd hc, ih]; rfl
  | num n s l hn hb _ ih => rw [tokenize_num n hn hb, ih]; rfl

/-- Two texts that spell the same items are parsed alike. -/
theorem C83_same_parse_partial {K : Type} [PyFloat K] (env : NumEnv K) {s s' : Str} {l : List Lex} (h : Spells s l) (h' : Spells s' l) :
    parsePath env s = parsePath env s' := by
  unfold parsePath; rw [C83_separators_partial h, C83_separators_partial h']

/-- **C83** is refuted for `1e3.5`, which the SVG grammar reads as `1e3` and `.5`: the tokenizer makes one token of it, which is
not a number. -/
theorem C83_refuted :
    GrammarBoundary ⟨none, ['1'], none, some (false, none, ['3'])⟩ ".5".toList ∧ tokenize "1e3.5".toList = [("1e3.5".toList, false)] ∧
    readDec "1e3.5".toList = none := by
  refine ⟨Or.inr ⟨'.', ['5'], rfl, ?_⟩, rfl, rfl⟩
  right; right; right; right
  exact ⟨rfl, Or.inr (by simp)⟩

/-! ## C72: round trip -/

section
variable {K : Type} [PyFloat K]

/-- Specification: the value of the parameters of a command: the two flags of an arc are integers, everything else is a
decimal number. -/
def argValues (env : NumEnv K) (c : Char) (a : List Numeral) : List K :=
  match c, a with
  | 'A', [rx, ry, rot, large, sweep, x, y] =>
    [rx.value env, ry.value env, rot.value env, large.intValue, sweep.intValue, x.value env, y.value env]
  | _, a => a.map (Numeral.value env)

/-- Specification: a written canonical command: the right number of valid numbers, integers for the flags. -/
structure WrittenCmd (x : Char × List Numeral) : Prop where
  arity : canonArity x.1 = some x.2.length
  valid : ∀ n ∈ x.2, n.Valid
  flags : x.1 = 'A' → ∀ i n, x.2[i]? = some n → (i = 3 ∨ i = 4) → n.IsInt

/-- Specification: the items of a command. -/
def lexOf (x : Char × List Numeral) : List Lex := Lex.cmd x.1 :: x.2.map Lex.num

theorem readAs_dec (env : NumEnv K) {n : Numeral} (h : n.Valid) : ReadAs env false n.text (n.value env) := by
  show env.float n.text = _
  unfold NumEnv.float
  rw [readDec_text n h]
  rfl

theorem readAs_int (env : NumEnv K) {n : Numeral} (h : n.Valid) (hi : n.IsInt) : ReadAs env true n.text (n.intValue : K) := by
  show intVal n.text = _
  unfold intVal
  rw [readInt_text n h hi]
  rfl

theorem readArgs_dec (env : NumEnv K) (ns : List Numeral) (h : ∀ n ∈ ns, n.Valid) :
    ReadArgs env (ns.map fun _ => false) (ns.map Numeral.text) (ns.map (Numeral.value env)) := by
  induction ns with
  | nil => trivial
  | cons n ns ih => exact ⟨readAs_dec env (h n (by simp)), ih fun m hm => h m (by simp [hm])⟩

theorem written_reads (env : NumEnv K) {x : Char × List Numeral} (h : WrittenCmd x) :
    x.1 ∈ cmdLetters ∧ upperC x.1 = x.1 ∧ isRel x.1 = false ∧
    ReadArgs env (paramKinds (upperC x.1)) (x.2.map Numeral.text) (argValues env x.1 x.2) ∧
    ∀ tr : Track K, canon tr (upperC x.1) (argValues env x.1 x.2) = some (x.1, argValues env x.1 x.2) := by
  obtain ⟨c, ns⟩ := x
  have har := h.arity
  have hv := h.valid
  have hfl := h.flags
  simp only at har hv hfl ⊢
  unfold canonArity at har
  split at har <;> simp only [Option.some.injEq, reduceCtorEq] at har
  · match ns, har with
    | [x, y], _ => exact ⟨by decide +kernel, by decide +kernel, by decide +kernel, readArgs_dec env [x, y] hv, fun tr => rfl⟩
  · match ns, har with
    | [x, y], _ => exact ⟨by decide +kernel, by decide +kernel, by decide +kernel, readArgs_dec env [x, y] hv, fun tr => rfl⟩
  · match ns, har with
    | [x1, x2, x3, x4, x5, x6], _ =>
      exact ⟨by decide +kernel, by decide +kernel, by decide +kernel, readArgs_dec env [x1, x2, x3, x4, x5, x6] hv, fun tr => rfl⟩
  · match ns, har with
    | [x1, x2, x3, x4], _ =>
      exact ⟨by decide +kernel, by decide +kernel, by decide +kernel, readArgs_dec env [x1, x2, x3, x4] hv, fun tr => rfl⟩
  · match ns, har with
    | [x1, x2, x3, x4, x5, x6, x7], _ =>
      refine ⟨by decide +kernel, by decide +kernel, by decide +kernel, ?_, fun tr => rfl⟩
      have d : ∀ n ∈ [x1, x2, x3, x4, x5, x6, x7], ReadAs env false n.text (n.value env) := fun n hn => readAs_dec env (hv n hn)
      exact ⟨d x1 (by simp), d x2 (by simp), d x3 (by simp),
        readAs_int env (hv x4 (by simp)) (hfl rfl 3 x4 rfl (Or.inl rfl)),
        readAs_int env (hv x5 (by simp)) (hfl rfl 4 x5 rfl (Or.inr rfl)), d x6 (by simp), d x7 (by simp), trivial⟩

theorem canonical_reads (env : NumEnv K) (cs : List (Char × List Numeral)) (h : ∀ x ∈ cs, WrittenCmd x) : ∀ p,
    Reads env p ((cs.flatMap lexOf).map Lex.tok) (cs.map fun x => (x.1, argValues env x.1 x.2)) := by
  induction cs with
  | nil => intro p; exact Reads.nil p
  | cons x cs ih =>
    intro p
    obtain ⟨h1, -, -, h4, -⟩ := written_reads env (h x (by simp))
    have := Reads.explicit p x.1 (x.2.map Numeral.text) (argValues env x.1 x.2) _ _ h1 h4
      (ih (fun y hy => h y (by simp [hy])) (some x.1))
    simpa [lexOf, Lex.tok, Function.comp_def, List.map_flatMap] using this

theorem canonical_meaning (env : NumEnv K) (rule : CtlRule K) (cs : List (Char × List Numeral)) (h : ∀ x ∈ cs, WrittenCmd x) :
    ∀ tr : Track K, meaning rule tr (cs.map fun x => (x.1, argValues env x.1 x.2)) = cs.map fun x => (x.1, argValues env x.1 x.2) := by
  induction cs with
  | nil => intro tr; rfl
  | cons x cs ih =>
    intro tr
    obtain ⟨-, h2, h3, -, h5⟩ := written_reads env (h x (by simp))
    have habs : absArgs tr x.1 (argValues env x.1 x.2) = argValues env x.1 x.2 := by
      unfold absArgs; rw [h3]; rfl
    simp only [List.map_cons, meaning, habs, h5 tr]
    rw [ih fun y hy => h y (by simp [hy])]

/-- **C72**: for every list of canonical absolute commands that begins with `M`, and every text that spells it (any
separators, any notation of the numbers), `parse_path` yields exactly these commands with the values of the numbers, and raises
nothing. -/
theorem C72_round_trip (env : NumEnv K) (cs : List (Char × List Numeral)) (h : ∀ x ∈ cs, WrittenCmd x)
    (hM : ∀ x, cs.head? = some x → x.1 = 'M') {s : Str} (hs : Spells s (cs.flatMap lexOf)) :
    parsePath env s = (cs.map fun x => (x.1, argValues env x.1 x.2), none) := by
  have hr := canonical_reads env cs h none
  rw [← C83_separators_partial hs] at hr
  rw [parse_text env hr, canonical_meaning env codeRule cs h]
  intro c a hh
  rw [List.head?_map] at hh
  cases hcs : cs.head? with
  | none => rw [hcs] at hh; cases hh
  | some x =>
    rw [hcs] at hh
    simp only [Option.map_some, Option.some.injEq, Prod.mk.injEq] at hh
    rw [← hh.1, hM x hcs]; decide +kernel

end
end Verif.Svg
