import Verif.Svg.Props8

/-!
# C75, C85, C86: units and the view scale
-/

set_option linter.unusedSectionVars false

namespace Verif.Svg
open Verif PyFloat PyTrig Geom Css

/-! ## Specification -/

/-- Specification: units of length. -/
inductive LenUnit
  | em | ex | px | pt | pc | mm | cm | inch | m | ft | yd
  deriving DecidableEq

/-- Specification: how a unit is written. -/
def LenUnit.name : LenUnit → Str
  | em => ['e', 'm'] | ex => ['e', 'x'] | px => ['p', 'x'] | pt => ['p', 't'] | pc => ['p', 'c'] | mm => ['m', 'm'] | cm => ['c', 'm']
  | inch => ['i', 'n'] | m => ['m'] | ft => ['f', 't'] | yd => ['y', 'd']

/-- Specification: the size of a unit in pixels at 90 pixels per inch, for a given font size and x-height. -/
noncomputable def LenUnit.size (em ex : ℝ) : LenUnit → ℝ
  | .em => em | .ex => ex | px => 1 | pt => 1.25 | pc => 15 | mm => 3.543307 | cm => 35.43307
  | inch => 90 | m => 3543.307 | ft => 1080 | yd => 3240

/-- Specification: font size and x-height are positive. -/
def Conv.Positive (c : Conv ℝ) : Prop := 0 < c.em ∧ 0 < c.ex

/-- Specification: a length: a number, blanks and possibly a unit. -/
structure Length where
  num : Numeral
  blanks : Str
  unit : Option LenUnit

/-- Specification: the text of a length. -/
def Length.text (l : Length) : Str := l.num.text ++ (l.blanks ++ (l.unit.map LenUnit.name).getD [])

/-- Specification: a proper length. -/
def Length.Valid (l : Length) : Prop := l.num.Valid ∧ ∀ c ∈ l.blanks, Blank c

/-- Specification: a plain number as text. -/
def plain (n : Numeral) : Length := ⟨n, [], none⟩

/-! ## Lemmas -/

theorem factor_eq (c : Conv ℝ) (u : LenUnit) : c.factor u.name = .ok (u.size c.em c.ex) := by
  cases u <;> simp [Conv.factor, Conv.get, fixedUnits, LenUnit.name, LenUnit.size, List.lookup] <;> norm_num

theorem get_eq (c : Conv ℝ) (u : LenUnit) : c.get u.name = some (u.size c.em c.ex) := by
  cases u <;> simp [Conv.get, fixedUnits, LenUnit.name, LenUnit.size, List.lookup] <;> norm_num

theorem size_pos {c : Conv ℝ} (h : c.Positive) (u : LenUnit) : 0 < u.size c.em c.ex := by
  cases u <;> simp only [LenUnit.size] <;> first | exact h.1 | exact h.2 | norm_num

theorem isZeroF_false {x : ℝ} (h : x ≠ 0) : isZeroF x = false := by
  unfold isZeroF
  rcases lt_or_gt_of_ne h with h | h <;> simp [h]

/-- What may follow the number. -/
def TailOk (r : Str) : Prop :=
  matchExp r = [] ∧ ∀ c s, r = c :: s → isDig c = false ∧ c ≠ '.'

theorem blank_dig {c : Char} (h : Blank c) : isDig c = false ∧ c ≠ '.' ∧ c ≠ 'e' ∧ c ≠ 'E' := by
  rcases h with rfl | rfl | rfl | rfl <;> decide

theorem tailOk (w : Str) (u : Option LenUnit) (hw : ∀ c ∈ w, Blank c) : TailOk (w ++ (u.map LenUnit.name).getD []) := by
  cases w with
  | nil =>
    cases u with
    | none => exact ⟨rfl, by intro c s h; cases h⟩
    | some u =>
      constructor
      · cases u <;> decide
      · intro c s h
        cases u <;> simp only [LenUnit.name, List.nil_append, Option.map_some, Option.getD_some, List.cons.injEq] at h <;>
          rw [← h.1] <;> decide
  | cons c w =>
    obtain ⟨h1, h2, h3, h4⟩ := blank_dig (hw c (by simp))
    refine ⟨?_, ?_⟩
    · rw [List.cons_append]
      simp only [matchExp, h3, h4, or_self, if_false]
    · intro d s h
      simp only [List.cons_append, List.cons.injEq] at h
      rw [← h.1]; exact ⟨h1, h2⟩

theorem matchExp_text (e : Option (Bool × Option Bool × List Char)) (h : ∀ u s ds, e = some (u, s, ds) → ds.all isDig = true ∧ ds ≠ [])
    {r : Str} (hr : TailOk r) : matchExp (expText e ++ r) = expText e := by
  cases e with
  | none => exact hr.1
  | some x =>
    obtain ⟨u, s, ds⟩ := x
    obtain ⟨hd, hne⟩ := h u s ds rfl
    have ht := (takeWhile_dig ds r hd fun c s hc => (hr.2 c s hc).1).1
    have he : (ds.isEmpty = true) ↔ False := by simp [hne]
    have hu : ((if u then 'E' else 'e') = 'e' ∨ (if u then 'E' else 'e') = 'E') := by cases u <;> simp
    obtain ⟨d, ds', rfl⟩ := List.exists_cons_of_ne_nil hne
    have hd1 : isDig d = true := (List.all_eq_true.1 hd) d (by simp)
    have hp := isDig_props hd1
    simp only [expText, List.cons_append, matchExp]
    rw [if_pos hu]
    match s with
    | none =>
      simp only [signText, List.nil_append, List.cons_append]
      rw [if_neg (by rintro (h | h); exacts [hp.2.1 h, hp.2.2.1 h])]
      rw [List.cons_append] at ht
      simp only [ht, he, if_false]
    | some true =>
      simp only [signText, List.cons_append, List.nil_append, true_or, if_true]
      rw [List.cons_append] at ht
      simp only [ht, he, if_false]
    | some false =>
      simp only [signText, List.cons_append, List.nil_append, or_true, if_true]
      rw [List.cons_append] at ht
      simp only [ht, he, if_false]

theorem matchMant_text (ip : Str) (frac : Option (List Char)) (hip : ip.all isDig = true) (hf : ∀ ds, frac = some ds → ds.all isDig = true)
    (hne : ip ++ frac.getD [] ≠ []) {r : Str} (hr : ∀ c s, r = c :: s → isDig c = false ∧ c ≠ '.') :
    matchMant (ip ++ (fracText frac ++ r)) = some (ip ++ fracText frac, r) := by
  unfold matchMant
  cases frac with
  | none =>
    have hne' : ip ≠ [] := by simpa using hne
    have ht := takeWhile_dig ip r hip fun c s hc => (hr c s hc).1
    simp only [fracText, List.nil_append, ht.1, ht.2, List.append_nil]
    rw [if_neg (by simpa using hne')]
    split
    · rename_i t; exact absurd rfl (hr _ _ rfl).2
    · rfl
  | some ds =>
    have ht := takeWhile_dig ip ('.' :: (ds ++ r)) hip (by intro c s h; simp only [List.cons.injEq] at h; rw [← h.1]; rfl)
    have ht2 := takeWhile_dig ds r (hf ds rfl) fun c s hc => (hr c s hc).1
    simp only [fracText, List.cons_append, ht.1, ht.2]
    by_cases hi : ip = []
    · subst hi
      have : ds ≠ [] := by simpa using hne
      simp only [List.isEmpty_nil, if_true, List.nil_append, ht2.1, ht2.2]
      rw [if_neg (by simpa using this)]
    · rw [if_neg (by simpa using hi)]
      simp only [ht2.1, ht2.2]

theorem mant_head {n : Numeral} (hv : n.Valid) (x : Str) : ∃ c r, n.ip ++ (fracText n.frac ++ x) = c :: r ∧ c ≠ '-' ∧ c ≠ '+' := by
  cases hi : n.ip with
  | cons c ip =>
    have hd : isDig c = true := List.all_eq_true.1 hv.ip c (by rw [hi]; simp)
    exact ⟨c, _, rfl, (isDig_props hd).2.1, (isDig_props hd).2.2.1⟩
  | nil =>
    cases hf : n.frac with
    | none => exact absurd (by rw [hi, hf]; rfl) hv.some_digit
    | some ds => exact ⟨'.', _, rfl, by decide, by decide⟩

theorem matchFloat_text {n : Numeral} (hv : n.Valid) {r : Str} (hr : TailOk r) : matchFloat (n.text ++ r) = some n.text := by
  have hx : ∀ c s, expText n.exp ++ r = c :: s → isDig c = false ∧ c ≠ '.' := by
    intro c s h
    cases he : n.exp with
    | none => rw [he] at h; exact hr.2 c s h
    | some x =>
      rw [he] at h
      obtain ⟨u, sg, ds⟩ := x
      simp only [expText, List.cons_append, List.cons.injEq] at h
      rw [← h.1]; cases u <;> decide
  have hm := matchMant_text n.ip n.frac hv.ip hv.frac hv.some_digit hx
  have he := matchExp_text n.exp hv.exp hr
  have ht : n.text ++ r = signText n.sign ++ (n.ip ++ (fracText n.frac ++ (expText n.exp ++ r))) := by
    unfold Numeral.text; simp only [List.append_assoc]
  have hg : n.text = signText n.sign ++ (n.ip ++ fracText n.frac) ++ expText n.exp := by unfold Numeral.text; simp only [List.append_assoc]
  rw [ht, hg]
  unfold matchFloat
  cases hs : n.sign with
  | some b => cases b <;> simp only [signText, List.cons_append, List.nil_append, hm, Option.map_some, he]
  | none =>
    obtain ⟨c, s, hc, h1, h2⟩ := mant_head hv (expText n.exp ++ r)
    simp only [signText, List.nil_append, hc] at hm ⊢
    split
    · rename_i heq; simp only [List.cons.injEq] at heq; exact absurd heq.1 h1
    · rename_i heq; simp only [List.cons.injEq] at heq; exact absurd heq.1 h2
    · simp only [hm, Option.map_some, he, List.nil_append]

/-- Unit names consist of letters. -/
theorem names_letters : ∀ u ∈ unitNames, ∀ c ∈ u, 97 ≤ c.toNat := by decide +kernel

theorem unitOf_prefix (c : Char) (hq : c.toNat < 97) (p : Str) (u : Str) : unitOf (p ++ c :: u) = unitOf u := by
  induction p with
  | nil =>
    rw [List.nil_append, unitOf, if_neg]
    intro h
    have := names_letters _ h c (by simp)
    omega
  | cons d p ih =>
    rw [List.cons_append, unitOf, if_neg]
    · exact ih
    · intro h
      have := names_letters _ h c (by simp)
      omega

theorem unitOf_name (u : LenUnit) : unitOf u.name = some u.name := by cases u <;> decide +kernel

theorem numeral_last {n : Numeral} (hv : n.Valid) : ∃ p c, n.text = p ++ [c] ∧ c.toNat < 97 := by
  have hdig : ∀ ds : Str, ds.all isDig = true → ds ≠ [] → ∃ p c, ds = p ++ [c] ∧ c.toNat < 97 := by
    intro ds hd hne
    refine ⟨ds.dropLast, ds.getLast hne, (List.dropLast_append_getLast hne).symm, ?_⟩
    have := List.all_eq_true.1 hd _ (List.getLast_mem hne)
    unfold isDig at this
    simp only [Bool.and_eq_true, decide_eq_true_eq] at this
    have h2 : (ds.getLast hne).toNat ≤ '9'.toNat := this.2
    have h3 : '9'.toNat = 57 := rfl
    omega
  unfold Numeral.text
  cases he : n.exp with
  | some x =>
    obtain ⟨u, s, ds⟩ := x
    obtain ⟨p, c, hp, hc⟩ := hdig ds (hv.exp u s ds he).1 (hv.exp u s ds he).2
    refine ⟨signText n.sign ++ n.ip ++ fracText n.frac ++ ((if u then 'E' else 'e') :: signText s ++ p), c, ?_, hc⟩
    simp only [expText, hp, List.append_assoc, List.cons_append]
  | none =>
    simp only [expText, List.append_nil]
    cases hf : n.frac with
    | none =>
      have hne : n.ip ≠ [] := by have := hv.some_digit; rw [hf] at this; simpa using this
      obtain ⟨p, c, hp, hc⟩ := hdig n.ip hv.ip hne
      exact ⟨signText n.sign ++ p, c, by simp only [fracText, List.append_nil, hp, List.append_assoc], hc⟩
    | some ds =>
      by_cases hd : ds = []
      · subst hd; exact ⟨signText n.sign ++ n.ip, '.', rfl, by decide⟩
      · obtain ⟨p, c, hp, hc⟩ := hdig ds (hv.frac ds hf) hd
        exact ⟨signText n.sign ++ n.ip ++ '.' :: p, c, by simp only [fracText, hp, List.append_assoc, List.cons_append], hc⟩

theorem length_last {l : Length} (hv : l.Valid) : ∃ p c, l.num.text ++ l.blanks = p ++ [c] ∧ c.toNat < 97 := by
  rcases List.eq_nil_or_concat l.blanks with h | ⟨b, c, h⟩
  · rw [h, List.append_nil]; exact numeral_last hv.1
  · rw [List.concat_eq_append] at h
    refine ⟨l.num.text ++ b, c, by rw [h, List.append_assoc], ?_⟩
    have := hv.2 c (by rw [h]; simp)
    rcases this with rfl | rfl | rfl | rfl <;> decide

theorem unitOf_length {l : Length} (hv : l.Valid) : unitOf l.text = l.unit.map LenUnit.name := by
  obtain ⟨p, c, h, hc⟩ := length_last hv
  unfold Length.text
  rw [← List.append_assoc, h, List.append_assoc, List.singleton_append, unitOf_prefix c hc]
  cases l.unit with
  | none => rfl
  | some u => exact unitOf_name u

/-- **C75**, conversion of text: for every length and every two units, the number is multiplied by the quotient of the sizes of its
unit (or of `from_unit` if it has none) and of the unit asked for. -/
theorem C75_convert (env : NumEnv ℝ) {c : Conv ℝ} (hc : c.Positive) {l : Length} (hv : l.Valid) (dst from' : LenUnit) :
    unitConvert env c l.text dst.name from'.name =
      .ok (l.num.value env * ((l.unit.getD from').size c.em c.ex / dst.size c.em c.ex)) := by
  have hm := matchFloat_text hv.1 (tailOk l.blanks l.unit hv.2)
  have hu := unitOf_length hv
  unfold unitConvert
  rw [show matchFloat l.text = some l.num.text from hm, hu]
  simp only [NumEnv.float, readDec_text l.num hv.1]
  have hg : (l.unit.map LenUnit.name).getD from'.name = (l.unit.getD from').name := by cases l.unit <;> rfl
  rw [hg]
  simp only [factor_eq, bind, Except.bind, isZeroF_false (size_pos hc dst).ne']
  rfl

/-- **C75**, conversion of text to user units: number and text arguments agree, and the view scale is applied. -/
theorem C75_to_user_units (env : NumEnv ℝ) {c : Conv ℝ} (hc : c.Positive) (scale : ℝ) {l : Length} (hv : l.Valid) (u : LenUnit) (x : ℝ) :
    unit2uu env c scale (.text l.text) u.name = .ok (l.num.value env * (l.unit.getD u).size c.em c.ex * scale) ∧
    unit2uu env c scale (.num x) u.name = .ok (x * u.size c.em c.ex * scale) := by
  constructor
  · have := C75_convert env hc hv .px u
    simp only [unit2uu]
    rw [show "px".toList = LenUnit.px.name from rfl, this]
    simp [bind, Except.bind, LenUnit.size, pure, Except.pure]
  · simp [unit2uu, get_eq]

/-- **C75**, there and back, for values given as text (see `C75_refuted` for numbers): for every written number of user units, unit and
view scale, `uu2unit` gives a number that `unit2uu` turns back into the number of user units; and what `unit2uu` gives, written as
text, is turned back by `uu2unit`. -/
theorem C75_round_trip_partial (env : NumEnv ℝ) {c : Conv ℝ} (hc : c.Positive) {scale : ℝ} (hs : scale ≠ 0) {n : Numeral} (hn : n.Valid) (u : LenUnit) :
    (∃ y, uu2unit env c scale (.text n.text) u.name = .ok y ∧ unit2uu env c scale (.num y) u.name = .ok (n.value env)) ∧
    (∀ x : ℝ, unit2uu env c scale (.num x) u.name = .ok (n.value env) → uu2unit env c scale (.text n.text) u.name = .ok x) := by
  have hp := (size_pos hc u).ne'
  have hv : (plain n).Valid := ⟨hn, by simp [plain]⟩
  have h1 : uu2unit env c scale (.text n.text) u.name = .ok (n.value env / u.size c.em c.ex / scale) := by
    have := C75_convert env hc hv u .px
    simp only [plain, Length.text, Option.map_none, Option.getD_none, List.append_nil] at this
    simp only [uu2unit]
    rw [show "px".toList = LenUnit.px.name from rfl, this]
    simp [bind, Except.bind, LenUnit.size, isZeroF_false hs, pure, Except.pure, div_eq_mul_inv]
  refine ⟨⟨_, h1, ?_⟩, ?_⟩
  · rw [(C75_to_user_units env hc scale hv u _).2]
    congr 1; field_simp
  · intro x hx
    rw [(C75_to_user_units env hc scale hv u _).2] at hx
    have hx' : x * u.size c.em c.ex * scale = n.value env := by injection hx
    rw [h1, ← hx']
    congr 1; field_simp

/-- **C75**, conversion factors are multiplicative: converting from one unit to a second and the (written) result to a third is
converting directly. -/
theorem C75_multiplicative (env : NumEnv ℝ) {c : Conv ℝ} (hc : c.Positive) {n m : Numeral} (hn : n.Valid) (hm : m.Valid) (a b d : LenUnit)
    (h : unitConvert env c n.text b.name a.name = .ok (m.value env)) :
    unitConvert env c m.text d.name b.name = unitConvert env c n.text d.name a.name := by
  have e : ∀ {k : Numeral}, k.Valid → ∀ (dst from' : LenUnit), unitConvert env c k.text dst.name from'.name = _ := fun {k} hk dst from' => by
    have := C75_convert env hc (l := plain k) ⟨hk, by simp [plain]⟩ dst from'
    simp only [plain, Length.text, Option.map_none, Option.getD_none, List.append_nil] at this
    exact this
  rw [e hn] at h
  have h' : n.value env * (a.size c.em c.ex / b.size c.em c.ex) = m.value env := by injection h
  rw [e hm, e hn, ← h']
  have := (size_pos hc b).ne'
  congr 1; field_simp

/-- The part of **C75** that fails: `uu2unit` takes "a float value in user units" according to its documentation, but for every
number it raises `TypeError`; so no value can be converted back. -/
theorem C75_refuted {K : Type} [PyTrig K] (env : NumEnv K) (c : Conv K) (scale x : K) (u : Str) :
    uu2unit env c scale (.num x) u = .error .typeError := rfl

/-- Non-vacuity: `-2.5 mm`. -/
example : (Length.mk ⟨some true, ['2'], some ['5'], none⟩ [' '] (some .mm)).Valid ∧
    (Length.mk ⟨some true, ['2'], some ['5'], none⟩ [' '] (some .mm)).text = "-2.5 mm".toList ∧ (Conv.default : Conv ℝ).Positive :=
  ⟨⟨⟨rfl, by simp; decide, by simp, by simp⟩, by simp [Blank]⟩, rfl, by norm_num [Conv.Positive, Conv.default]⟩

/-! ## C85: contexts -/

/-- **C85**, what holds: whatever contexts are created in whatever order, the size of every unit other than `em` and `ex` stays; and if
no font size and no x-height is ever given, the sizes of all units stay as they are at the start. -/
theorem C85_contexts_partial (inits : List (Option ℝ × Option ℝ)) (c : Conv ℝ) (u : LenUnit) :
    (u ≠ .em → u ≠ .ex → (convAfter c inits).get u.name = c.get u.name) ∧
    ((∀ i ∈ inits, i = (none, none)) → (convAfter (Conv.default : Conv ℝ) inits).get u.name = (Conv.default : Conv ℝ).get u.name) := by
  constructor
  · intro h1 h2
    rw [get_eq, get_eq]
    cases u <;> first | exact absurd rfl h1 | exact absurd rfl h2 | rfl
  · intro h
    have : convAfter (Conv.default : Conv ℝ) inits = Conv.default := by
      induction inits with
      | nil => rfl
      | cons i r ih =>
        rw [convAfter, List.foldl_cons, h i (by simp)]
        exact ih fun j hj => h j (by simp [hj])
    rw [this]

/-- The part of **C85** that fails: a context is created with font size 20; then another one, for another document, with font size
10.  The first context then converts `1em` to 10 instead of 20 user units, and a third context, without a font size, too. -/
theorem C85_refuted :
    unit2uu exactQ (convAfter Conv.default [(some 20, none)]) 1 (.text "1em".toList) "px".toList = .ok (20 : ℚ) ∧
    unit2uu exactQ (convAfter Conv.default [(some 20, none), (some 10, none)]) 1 (.text "1em".toList) "px".toList = .ok (10 : ℚ) ∧
    unit2uu exactQ (convAfter Conv.default [(some 20, none), (some 10, none), (none, none)]) 1 (.text "1em".toList) "px".toList = .ok (10 : ℚ) := by
  refine ⟨?_, ?_, ?_⟩ <;> decide +kernel

/-! ## C86: the view scale -/

/-- **C86**, for a `viewBox` with origin 0,0 (see `C86_refuted` for others): for all positive widths and heights with units, the context is
created exactly if the two scales agree to the tolerance; then the width attribute, converted to user units, is the width of the
`viewBox`. -/
theorem C86_scale_partial (env : NumEnv ℝ) {c : Conv ℝ} (hc : c.Positive) (eps : ℝ) {w h : Length} (hw : w.Valid) (hh : h.Valid)
    (pw : 0 < w.num.value env) (ph : 0 < h.num.value env) (bw bh : ℝ) :
    let vw := w.num.value env * (w.unit.getD .px).size c.em c.ex
    let vh := h.num.value env * (h.unit.getD .px).size c.em c.ex
    (|bw / vw - bh / vh| < eps → ∃ ctx, viewOf env c eps w.text h.text (some [0, 0, bw, bh]) = .ok ctx ∧ ctx.viewWidth = bw ∧ ctx.viewHeight = bh ∧
      unit2uu env c ctx.viewScale (.text w.text) "px".toList = .ok bw) ∧
    (¬ |bw / vw - bh / vh| < eps → viewOf env c eps w.text h.text (some [0, 0, bw, bh]) = .error .runtime) := by
  intro vw vh
  have e1 : ∀ {l : Length}, l.Valid → unitConvert env c l.text "px".toList "px".toList = .ok (l.num.value env * (l.unit.getD .px).size c.em c.ex) := by
    intro l hl
    have := C75_convert env hc hl .px .px
    rw [show "px".toList = LenUnit.px.name from rfl, this]
    simp [LenUnit.size]
  have hvw : vw ≠ 0 := (mul_pos pw (size_pos hc _)).ne'
  have hvh : vh ≠ 0 := (mul_pos ph (size_pos hc _)).ne'
  have key : viewOf env c eps w.text h.text (some [0, 0, bw, bh]) =
      if |bw / vw - bh / vh| < eps then .ok ⟨bw, bh, bw / vw⟩ else .error .runtime := by
    unfold viewOf
    rw [e1 hw, e1 hh]
    show (if isZeroF vw || isZeroF vh then _ else _) = _
    rw [isZeroF_false hvw, isZeroF_false hvh]
    simp only [Bool.or_self, Bool.false_eq_true, if_false, real_sub, real_div, real_abs, real_lt, sub_zero, decide_eq_true_eq]
    rfl
  constructor
  · intro hlt
    refine ⟨_, by rw [key, if_pos hlt], rfl, rfl, ?_⟩
    have := (C75_to_user_units env hc (bw / vw) hw .px 0).1
    rw [show "px".toList = LenUnit.px.name from rfl, this]
    congr 1
    show vw * (bw / vw) = bw
    field_simp
  · intro hlt
    rw [key, if_neg hlt]

/-- The part of **C86** that fails: the third and fourth number of a `viewBox` are its width and height, but the code takes them for the
far corner.  With `width="100" height="100" viewBox="10 10 100 100"` the width is 90 user units instead of 100, and with
`viewBox="10 0 100 100"` the document is rejected. -/
theorem C86_refuted :
    viewOf exactQ Conv.default (1 / 100000) "100".toList "100".toList (some [(10 : ℚ), 10, 100, 100]) = .ok ⟨90, 90, 9 / 10⟩ ∧
    viewOf exactQ Conv.default (1 / 100000) "100".toList "100".toList (some [(10 : ℚ), 0, 100, 100]) = .error .runtime := by
  refine ⟨?_, ?_⟩ <;> decide +kernel

/-- Non-vacuity: an A4 page in millimetres. -/
example : viewOf exactQ Conv.default (1 / 100000) "210mm".toList "297mm".toList (some [(0 : ℚ), 0, 210, 297]) =
    .ok ⟨210, 297, 1000000 / 3543307⟩ := by decide +kernel

end Verif.Svg
