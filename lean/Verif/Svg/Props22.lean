import Verif.Svg.Templates
import Verif.Svg.Props9
import Verif.Svg.Props12

/-!
# C160: styles from templates
-/

set_option linter.unusedSectionVars false

namespace Verif.Svg
open Verif PyFloat PyTrig Geom Css

/-! ## Specification -/

/-- Specification: a piece of a style template. -/
inductive Piece
  | lit (s : Str)
  | slot (braced : Bool) (name : Str)
  | dollar
  deriving DecidableEq, Repr

/-- Specification: how a piece is written in a template. -/
def Piece.text : Piece → Str
  | .lit s => s
  | .slot true n => '$' :: '{' :: n ++ ['}']
  | .slot false n => '$' :: n
  | .dollar => ['$', '$']

/-- Specification: the text of a template. -/
def render (ps : List Piece) : Str := ps.flatMap Piece.text

/-- Specification: the text of a template with its slots filled. -/
def filledIn (value : Str → Str) (ps : List Piece) : Str := ps.flatMap fun p => match p with
  | .lit s => s
  | .slot _ n => value n
  | .dollar => ['$']

/-- Specification: an identifier. -/
def Ident (n : Str) : Prop := ∃ c s, n = c :: s ∧ isIdStart c = true ∧ ∀ d ∈ s, isIdChar d = true

instance (n : Str) : Decidable (Ident n) :=
  match n with
  | [] => .isFalse (by rintro ⟨c, s, h, -⟩; simp at h)
  | c :: s => decidable_of_iff (isIdStart c = true ∧ ∀ d ∈ s, isIdChar d = true) (by
      constructor
      · rintro ⟨h1, h2⟩; exact ⟨c, s, rfl, h1, h2⟩
      · rintro ⟨c', s', h, h1, h2⟩; cases h; exact ⟨h1, h2⟩)

/-- Specification: the text is not continued by what follows in a way that changes the name before it. -/
def Ends (s : Str) : Prop := ∀ c ∈ s.head?, isIdChar c = false

instance (s : Str) : Decidable (Ends s) := inferInstanceAs (Decidable (∀ c ∈ s.head?, isIdChar c = false))

/-- Specification: literal text has no dollar sign, names are identifiers, and a name without braces is followed by something else than a letter or digit. -/
def WellFormed : List Piece → Prop
  | [] => True
  | .lit s :: ps => '$' ∉ s ∧ WellFormed ps
  | .slot true n :: ps => Ident n ∧ WellFormed ps
  | .slot false n :: ps => Ident n ∧ Ends (render ps) ∧ WellFormed ps
  | .dollar :: ps => WellFormed ps

instance decWellFormed : (ps : List Piece) → Decidable (WellFormed ps)
  | [] => .isTrue trivial
  | .lit s :: ps => @instDecidableAnd _ _ (inferInstance) (decWellFormed ps)
  | .slot true n :: ps => @instDecidableAnd _ _ (inferInstance) (decWellFormed ps)
  | .slot false n :: ps => @instDecidableAnd _ _ (inferInstance) (@instDecidableAnd _ _ (inferInstance) (decWellFormed ps))
  | .dollar :: ps => decWellFormed ps

/-- Specification: the names of the slots. -/
def slotNames (ps : List Piece) : List Str := ps.filterMap fun p => match p with
  | .slot _ n => some n
  | _ => none

/-! ## Substitution -/

section
variable {K : Type}

theorem subst_end (look : Str → Except PyErr Str) : subst look .plain [] = .ok [] := rfl

theorem subst_sign (look : Str → Except PyErr Str) (t : Str) : subst look .plain ('$' :: t) = subst look .dollar t := by
  conv_lhs => unfold subst
  rw [if_pos rfl]

theorem subst_char (look : Str → Except PyErr Str) {c : Char} (hc : c ≠ '$') (t : Str) :
    subst look .plain (c :: t) = (subst look .plain t).map (c :: ·) := by
  conv_lhs => unfold subst
  rw [if_neg hc]
  cases subst look .plain t <;> rfl

theorem subst_plain (look : Str → Except PyErr Str) : ∀ (s t : Str), '$' ∉ s → subst look .plain (s ++ t) = (subst look .plain t).map (s ++ ·) := by
  intro s
  induction s with
  | nil => intro t _; rw [List.nil_append]; cases subst look .plain t <;> rfl
  | cons c s ih =>
    intro t h
    rw [List.cons_append]
    conv_lhs => unfold subst
    rw [if_neg (by rintro rfl; simp at h), ih t (fun hm => h (by simp [hm]))]
    cases subst look .plain t <;> rfl

theorem subst_braced (look : Str → Except PyErr Str) : ∀ (s acc t : Str), (∀ d ∈ s, isIdChar d = true) →
    subst look (.braced acc) (s ++ '}' :: t) = (look (acc ++ s)).bind fun v => (subst look .plain t).map (v ++ ·) := by
  intro s
  induction s with
  | nil =>
    intro acc t _
    rw [List.nil_append, List.append_nil]
    conv_lhs => unfold subst
    rw [if_neg (by decide), if_pos rfl]
    cases look acc <;> [rfl; skip]
    cases subst look .plain t <;> rfl
  | cons c s ih =>
    intro acc t h
    rw [List.cons_append]
    conv_lhs => unfold subst
    rw [if_pos (h c (by simp)), ih (acc ++ [c]) t (fun d hd => h d (by simp [hd]))]
    simp

theorem subst_named (look : Str → Except PyErr Str) : ∀ (s acc t : Str), (∀ d ∈ s, isIdChar d = true) → Ends t →
    subst look (.named acc) (s ++ t) = (look (acc ++ s)).bind fun v => (subst look .plain t).map (v ++ ·) := by
  intro s
  induction s with
  | nil =>
    intro acc t _ ht
    rw [List.nil_append, List.append_nil]
    cases t with
    | nil =>
      conv_lhs => unfold subst
      cases look acc <;> simp [subst_end, Except.bind, Except.map]
    | cons c t =>
      have hc := ht c (by simp)
      conv_lhs => unfold subst
      rw [if_neg (by simp [hc])]
      cases look acc with
      | error e => rfl
      | ok v =>
        by_cases hd : c = '$'
        · simp only [hd, if_true, bind, Except.bind, subst_sign]
          cases subst look .dollar t <;> rfl
        · simp only [hd, if_false, bind, Except.bind, subst_char look hd]
          cases subst look .plain t <;> rfl
  | cons c s ih =>
    intro acc t h ht
    rw [List.cons_append]
    conv_lhs => unfold subst
    rw [if_pos (h c (by simp)), ih (acc ++ [c]) t (fun d hd => h d (by simp [hd])) ht]
    simp

theorem isIdStart_ne {c : Char} (h : isIdStart c = true) : c ≠ '$' ∧ c ≠ '{' := by
  constructor <;> (rintro rfl; revert h; decide)

/-- **C160 (one template).**  The text of a template with its slots filled is what `Template.substitute` returns, whatever the values are. -/
theorem C160_fill (look : Str → Except PyErr Str) (value : Str → Str) : ∀ ps : List Piece, WellFormed ps → (∀ n ∈ slotNames ps, look n = .ok (value n)) →
    subst look .plain (render ps) = .ok (filledIn value ps) := by
  intro ps
  induction ps with
  | nil => intro _ _; rfl
  | cons p ps ih =>
    intro hw hl
    cases p with
    | lit s =>
      obtain ⟨h1, h2⟩ := hw
      have := ih h2 hl
      show subst look .plain (s ++ render ps) = _
      rw [subst_plain look s _ h1, this]
      rfl
    | dollar =>
      have := ih hw hl
      show subst look .plain ('$' :: '$' :: render ps) = _
      unfold subst
      rw [if_pos rfl]
      unfold subst
      rw [if_pos rfl, this]
      rfl
    | slot b n =>
      have hn : look n = .ok (value n) := hl n (by simp [slotNames])
      have hl' : ∀ m ∈ slotNames ps, look m = .ok (value m) := fun m hm => hl m (by
        simp only [slotNames, List.filterMap_cons, List.mem_cons] at hm ⊢
        exact Or.inr hm)
      cases b with
      | true =>
        obtain ⟨⟨c, s, rfl, h1, h2⟩, h3⟩ := hw
        show subst look .plain ('$' :: '{' :: (c :: s ++ ['}']) ++ render ps) = _
        have e : '$' :: '{' :: (c :: s ++ ['}']) ++ render ps = '$' :: '{' :: c :: (s ++ '}' :: render ps) := by simp
        rw [e]
        unfold subst
        rw [if_pos rfl]
        unfold subst
        rw [if_neg (by decide), if_pos rfl]
        unfold subst
        rw [if_pos h1, subst_braced look s [c] _ h2, List.singleton_append, hn, ih h3 hl']
        rfl
      | false =>
        obtain ⟨⟨c, s, rfl, h1, h2⟩, h3, h4⟩ := hw
        show subst look .plain ('$' :: c :: s ++ render ps) = _
        have e : '$' :: c :: s ++ render ps = '$' :: c :: (s ++ render ps) := by simp
        rw [e]
        unfold subst
        rw [if_pos rfl]
        unfold subst
        rw [if_neg (isIdStart_ne h1).1, if_neg (isIdStart_ne h1).2, if_pos h1, subst_named look s [c] _ h2 h3, List.singleton_append, hn, ih h4 hl']
        rfl

/-- **C160 (nothing is guessed).**  A template with a name that is in no table raises an exception; a template without a dollar sign is left as it is. -/
theorem C160_missing (look : Str → Except PyErr Str) (s : Str) : ('$' ∉ s → subst look .plain s = .ok s) ∧
    ∀ ps n b, WellFormed (.slot b n :: ps) → ∀ e, look n = .error e → subst look .plain (render (.slot b n :: ps)) = .error e := by
  refine ⟨?_, ?_⟩
  · intro h
    have := subst_plain look s [] h
    rw [List.append_nil] at this
    rw [this]
    simp [subst, Except.map]
  · intro ps n b hw e he
    cases b with
    | true =>
      obtain ⟨⟨c, s, rfl, h1, h2⟩, h3⟩ := hw
      show subst look .plain ('$' :: '{' :: (c :: s ++ ['}']) ++ render ps) = _
      have e' : '$' :: '{' :: (c :: s ++ ['}']) ++ render ps = '$' :: '{' :: c :: (s ++ '}' :: render ps) := by simp
      rw [e']
      unfold subst
      rw [if_pos rfl]
      unfold subst
      rw [if_neg (by decide), if_pos rfl]
      unfold subst
      rw [if_pos h1, subst_braced look s [c] _ h2, List.singleton_append, he]
      rfl
    | false =>
      obtain ⟨⟨c, s, rfl, h1, h2⟩, h3, h4⟩ := hw
      show subst look .plain ('$' :: c :: s ++ render ps) = _
      have e' : '$' :: c :: s ++ render ps = '$' :: c :: (s ++ render ps) := by simp
      rw [e']
      unfold subst
      rw [if_pos rfl]
      unfold subst
      rw [if_neg (isIdStart_ne h1).1, if_neg (isIdStart_ne h1).2, if_pos h1, subst_named look s [c] _ h2 h3, List.singleton_append, he]
      rfl

end

/-! ## Styles -/

/-- Specification: the names whose values are lengths. -/
def IsLengthName (k : Str) : Prop := ∃ p, k = p ++ "width".toList ∨ k = p ++ "height".toList ∨ k = p ++ "size".toList

theorem isSizeKey_iff (k : Str) : isSizeKey k = true ↔ IsLengthName k := by
  unfold isSizeKey IsLengthName
  simp only [Bool.or_eq_true, List.isSuffixOf_iff_suffix, List.IsSuffix]
  constructor
  · rintro ((⟨p, h⟩ | ⟨p, h⟩) | ⟨p, h⟩)
    · exact ⟨p, Or.inl h.symm⟩
    · exact ⟨p, Or.inr (Or.inl h.symm)⟩
    · exact ⟨p, Or.inr (Or.inr h.symm)⟩
  · rintro ⟨p, h | h | h⟩
    · exact Or.inl (Or.inl ⟨p, h.symm⟩)
    · exact Or.inl (Or.inr ⟨p, h.symm⟩)
    · exact Or.inr ⟨p, h.symm⟩

/-- Specification: a setting: a number, a length with or without unit, or a text. -/
inductive Setting
  | number (x : ℝ)
  | length (l : Length)
  | word (s : Str)

/-- Specification: the value that is in the settings. -/
def Setting.val : Setting → Val ℝ
  | .number x => .num x
  | .length l => .text l.text
  | .word s => .text s

/-- Specification: how the setting for a name is written in a style: numbers as they are, lengths in user units (a length without unit is in pixels), texts as they are. -/
noncomputable def Setting.written (env : NumEnv ℝ) (c : Conv ℝ) (scale : ℝ) (fmt : ℝ → Str) : Setting → Str
  | .number x => fmt x
  | .length l => fmt (l.num.value env * (l.unit.getD .px).size c.em c.ex * scale)
  | .word s => s

/-- Specification: the setting suits the name: a length (or a number) for a length name, no length otherwise. -/
def Setting.Suits (k : Str) : Setting → Prop
  | .number _ => True
  | .length l => l.Valid ∧ IsLengthName k
  | .word _ => ¬ IsLengthName k

theorem mapEntry_spec (env : NumEnv ℝ) {c : Conv ℝ} (hc : c.Positive) (scale : ℝ) (fmt : ℝ → Str) (k : Str) (s : Setting) (hs : s.Suits k) :
    ∃ v, mapEntry (fun t => unit2uu env c scale (.text t) "px".toList) k (some s.val) = .ok (some v) ∧ showVal fmt v = s.written env c scale fmt := by
  cases s with
  | number x => exact ⟨.num x, rfl, rfl⟩
  | length l =>
    have h := (C75_to_user_units env hc scale hs.1 .px 0).1
    refine ⟨.num (l.num.value env * (l.unit.getD .px).size c.em c.ex * scale), ?_, rfl⟩
    simp only [Setting.val, mapEntry]
    rw [if_pos ((isSizeKey_iff k).2 hs.2), show "px".toList = LenUnit.px.name from rfl, h]
    rfl
  | word s =>
    refine ⟨.text s, ?_, rfl⟩
    simp only [Setting.val, mapEntry]
    rw [if_neg (fun h => hs ((isSizeKey_iff k).1 h))]

/-- Specification: the setting used for a name: the user's if there is one, otherwise the default. -/
def used (opts : Str → Option Setting) (dflt : Str → Setting) (k : Str) : Setting := (opts k).getD (dflt k)

theorem templateMap_spec (env : NumEnv ℝ) {c : Conv ℝ} (hc : c.Positive) (scale : ℝ) (fmt : ℝ → Str) (opts : Str → Option Setting) (dflt : Str → Setting) : ∀ (keys : List Str),
    (∀ k ∈ keys, (used opts dflt k).Suits k) →
    ∃ m, templateMap (fun t => unit2uu env c scale (.text t) "px".toList) (some fun k => (opts k).map Setting.val) (keys.map fun k => (k, some (dflt k).val)) = .ok m ∧
      ∀ k ∈ keys, lookVal fmt m k = .ok ((used opts dflt k).written env c scale fmt) := by
  intro keys
  induction keys with
  | nil => intro _; exact ⟨[], rfl, by simp⟩
  | cons k keys ih =>
    intro hs
    obtain ⟨m, h1, h2⟩ := ih (fun k hk => hs k (by simp [hk]))
    have hch : chosen (some fun k => (opts k).map Setting.val) k (some (dflt k).val) = some (used opts dflt k).val := by
      unfold chosen used
      cases h : opts k <;> simp [h]
    obtain ⟨v, h3, h4⟩ := mapEntry_spec env hc scale fmt k _ (hs k (by simp))
    refine ⟨(k, v) :: m, ?_, ?_⟩
    · rw [List.map_cons]
      unfold templateMap
      simp only [bind, Except.bind, hch, h3, h1, pure, Except.pure]
    · intro k' hk'
      unfold lookVal
      by_cases he : k' = k
      · subst he
        simp [List.lookup, h4]
      · rcases List.mem_cons.1 hk' with rfl | hk'
        · exact absurd rfl he
        · have := h2 k' hk'
          unfold lookVal at this
          rw [List.lookup_cons, show (k' == k) = false from by simpa using he]
          exact this

theorem fillAll_spec (look : Str → Except PyErr Str) (value : Str → Str) : ∀ ts : List (Str × List Piece),
    (∀ t ∈ ts, WellFormed t.2 ∧ ∀ n ∈ slotNames t.2, look n = .ok (value n)) →
    fillAll look (ts.map fun t => (t.1, render t.2)) = .ok (ts.map fun t => (t.1, filledIn value t.2)) := by
  intro ts
  induction ts with
  | nil => intro _; rfl
  | cons t ts ih =>
    intro h
    obtain ⟨h1, h2⟩ := h t (by simp)
    rw [List.map_cons]
    unfold fillAll
    rw [C160_fill look value t.2 h1 h2, ih (fun t ht => h t (by simp [ht]))]
    rfl

/-- **C160.**  For every set of templates, defaults and settings (every name in a template has a default): the styles are the templates with every name replaced by the
user's setting, or by the default if there is none; lengths are written in user units of the document. -/
theorem C160_styles (env : NumEnv ℝ) {c : Conv ℝ} (hc : c.Positive) (scale : ℝ) (fmt : ℝ → Str) (opts : Str → Option Setting) (dflt : Str → Setting) (keys : List Str)
    (hs : ∀ k ∈ keys, (used opts dflt k).Suits k) (ts : List (Str × List Piece)) (hw : ∀ t ∈ ts, WellFormed t.2) (hk : ∀ t ∈ ts, ∀ n ∈ slotNames t.2, n ∈ keys) :
    stylesFromTemplates (fun t => unit2uu env c scale (.text t) "px".toList) fmt (ts.map fun t => (t.1, render t.2)) (keys.map fun k => (k, some (dflt k).val))
      (some fun k => (opts k).map Setting.val) = .ok (ts.map fun t => (t.1, filledIn (fun n => (used opts dflt n).written env c scale fmt) t.2)) := by
  obtain ⟨m, h1, h2⟩ := templateMap_spec env hc scale fmt opts dflt keys hs
  unfold stylesFromTemplates
  rw [h1]
  exact fillAll_spec _ _ ts fun t ht => ⟨hw t ht, fun n hn => h2 n (hk t ht n hn)⟩

/-- Non-vacuity: a template with a braced name, a name without braces before a semicolon and a dollar sign; the value of a name may have dollar signs of its own. -/
example : WellFormed [.lit "w:".toList, .slot true "a_width".toList, .lit "px;c:".toList, .slot false "b".toList, .lit ";".toList, .dollar] ∧
    render [.lit "w:".toList, .slot true "a_width".toList, .lit "px;c:".toList, .slot false "b".toList, .lit ";".toList, .dollar] = "w:${a_width}px;c:$b;$$".toList ∧
    subst (fun n => if n = "b".toList then .ok "$c".toList else .ok "3".toList) .plain "w:${a_width}px;c:$b;$$".toList = .ok "w:3px;c:$c;$".toList := by decide +kernel

/-- Non-vacuity: a width of two millimetres in the settings, a default colour. -/
example : ∀ k ∈ ["stroke_width".toList, "stroke".toList],
    (used (fun k => if k = "stroke_width".toList then some (.length ⟨⟨none, ['2'], none, none⟩, [], some .mm⟩) else none) (fun _ => .word "red".toList) k).Suits k := by
  intro k hk
  simp only [List.mem_cons, List.not_mem_nil, or_false] at hk
  rcases hk with rfl | rfl
  · refine ⟨⟨⟨by decide, by simp, by simp, by simp⟩, by simp⟩, (isSizeKey_iff _).1 (by decide)⟩
  · show ¬ IsLengthName _
    rw [← isSizeKey_iff]
    decide

/-! ## `scale_inline_style` -/

/-- Specification: how a property is written after scaling. -/
noncomputable def scaledValue (env : NumEnv ℝ) (c : Conv ℝ) (scale : ℝ) (fmt : ℝ → Str) : Str × Setting → Str × Str := fun p => (p.1, p.2.written env c scale fmt)

/-- The text of a setting in a style. -/
def Setting.inStyle (fmt : ℝ → Str) : Setting → Str
  | .number x => fmt x
  | .length l => l.text
  | .word s => s

/-- **C160 (inline styles).**  `scale_inline_style` keeps all properties of a style; those whose name ends in `width`, `height` or `size` are written in user units, the others are
left as they are.  (Missing: names and values with `:` or `;`, which styles do not survive, see C74.) -/
theorem C160_scale_partial (env : NumEnv ℝ) {c : Conv ℝ} (hc : c.Positive) (scale : ℝ) (fmt : ℝ → Str) (d : List (Str × Setting)) (hnd : (d.map Prod.fst).Nodup)
    (hp : ∀ p ∈ d, Css.Plain p.1 ∧ Css.Plain (p.2.inStyle fmt)) (hs : ∀ p ∈ d, (∀ x, p.2 ≠ .number x) ∧ p.2.Suits p.1) :
    scaleInlineStyle (fun t => unit2uu env c scale (.text t) "px".toList) fmt (dictToInlineStyle (d.map fun p => (p.1, p.2.inStyle fmt))) =
      .ok (dictToInlineStyle (d.map (scaledValue env c scale fmt))) := by
  have h1 := Css.C74_round_trip_partial (d.map fun p => (p.1, p.2.inStyle fmt)) (by simpa [Function.comp_def] using hnd) (by
    intro x hx
    obtain ⟨p, hp', rfl⟩ := List.mem_map.1 hx
    exact hp p hp')
  have h2 : ∀ l : List (Str × Setting), (∀ p ∈ l, (∀ x, p.2 ≠ .number x) ∧ p.2.Suits p.1) →
      scaleProps (fun t => unit2uu env c scale (.text t) "px".toList) fmt (l.map fun p => (p.1, p.2.inStyle fmt)) = .ok (l.map (scaledValue env c scale fmt)) := by
    intro l
    induction l with
    | nil => intro _; rfl
    | cons p l ih =>
      intro h
      obtain ⟨n, s⟩ := p
      obtain ⟨a1, a2⟩ := h (n, s) (by simp)
      rw [List.map_cons]
      unfold scaleProps
      rw [ih (fun p hp => h p (by simp [hp]))]
      cases s with
      | number x => exact absurd rfl (a1 x)
      | length l' =>
        have hu := (C75_to_user_units env hc scale a2.1 .px 0).1
        simp only [if_pos ((isSizeKey_iff n).2 a2.2), Setting.inStyle]
        rw [show "px".toList = LenUnit.px.name from rfl, hu]
        rfl
      | word s =>
        have a2 : ¬ IsLengthName n := a2
        simp only [if_neg (fun hh => a2 ((isSizeKey_iff n).1 hh)), Setting.inStyle]
        rfl
  unfold scaleInlineStyle
  rw [h1]
  simp only [bind, Except.bind]
  rw [h2 d hs]
  rfl

/-- Non-vacuity: the style of the debugging lines of the sine wave. -/
example (fmt : ℝ → Str) : let d : List (Str × Setting) := [("fill".toList, .word "none".toList), ("stroke-width".toList, .length ⟨⟨none, ['1'], none, none⟩, [], some .px⟩)]
    dictToInlineStyle (d.map fun p => (p.1, p.2.inStyle fmt)) = "fill:none;stroke-width:1px".toList ∧ (∀ p ∈ d, (∀ x, p.2 ≠ .number x) ∧ p.2.Suits p.1) ∧
      ∀ p ∈ d, Css.Plain p.1 ∧ Css.Plain (p.2.inStyle fmt) := by
  refine ⟨by rfl, ?_, ?_⟩
  · intro p hp
    simp only [List.mem_cons, List.not_mem_nil, or_false] at hp
    rcases hp with rfl | rfl
    · refine ⟨by simp, ?_⟩
      show ¬ IsLengthName _
      rw [← isSizeKey_iff]
      decide
    · exact ⟨by simp, ⟨⟨by decide, by simp, by simp, by simp⟩, by simp⟩, (isSizeKey_iff _).1 (by decide)⟩
  · intro p hp
    simp only [List.mem_cons, List.not_mem_nil, or_false] at hp
    have h : Css.Plain "fill".toList ∧ Css.Plain "none".toList ∧ Css.Plain "stroke-width".toList ∧ Css.Plain "1px".toList := by unfold Css.Plain; decide
    rcases hp with rfl | rfl
    · exact ⟨h.1, h.2.1⟩
    · exact ⟨h.2.2.1, h.2.2.2⟩

end Verif.Svg
