import Verif.Svg.Props7

/-!
# C77: the text of transform lists, and the transforms of ancestors
-/

set_option linter.unusedSectionVars false

namespace Verif.Svg
open Verif PyFloat PyTrig Geom Css

/-! ## Specification -/

/-- Specification: white space or a comma. -/
def Sep (c : Char) : Prop := c = ' ' ∨ c = '\t' ∨ c = '\n' ∨ c = '\r' ∨ c = ','

/-- Specification: white space. -/
def Blank (c : Char) : Prop := c = ' ' ∨ c = '\t' ∨ c = '\n' ∨ c = '\r'

/-- Specification: a text of numbers, with at least one blank or comma between two numbers. -/
inductive ArgText : Str → List Numeral → Prop
  | nil : ArgText [] []
  | sep (c : Char) (s : Str) (l : List Numeral) : Sep c → ArgText s l → ArgText (c :: s) l
  | last (n : Numeral) : n.Valid → ArgText n.text [n]
  | num (n : Numeral) (c : Char) (s : Str) (l : List Numeral) : n.Valid → Sep c → ArgText s l → ArgText (n.text ++ c :: s) (n :: l)

/-- Specification: a written transform: its name and its numbers. -/
structure Item where
  name : String
  args : List Numeral

/-- Specification: a text that is a list of transforms, such as `translate(1,2) scale (3)`, with any blanks and commas
between them. -/
inductive ListText : Str → List Item → Prop
  | nil : ListText [] []
  | sep (c : Char) (s : Str) (l : List Item) : Sep c → ListText s l → ListText (c :: s) l
  | item (i : Item) (w a s : Str) (l : List Item) : OkTransform i.name i.args.length → (∀ c ∈ w, Blank c) → ArgText a i.args →
      ListText s l → ListText (i.name.toList ++ (w ++ '(' :: (a ++ ')' :: s))) (i :: l)

/-- Specification: what a list of transforms does to a point: as if every transform were a group of its own around what follows;
the last one is applied first. -/
noncomputable def applyList (env : NumEnv ℝ) (l : List Item) (p : P ℝ) : P ℝ :=
  l.foldr (fun i q => svgApply i.name (i.args.map (Numeral.value env)) q) p

/-- Specification: a `transform` attribute (or its absence) means a list of transforms. -/
inductive Writes : Option Str → List Item → Prop
  | none : Writes none []
  | some (s : Str) (l : List Item) : ListText s l → Writes (some s) l

/-! ## Arguments -/

theorem isDig_clean {c : Char} (h : isDig c = true) : (isWs c || c = ',') = false ∧ c ≠ ')' := by
  unfold isDig at h
  simp only [Bool.and_eq_true, decide_eq_true_eq] at h
  have hb : ∀ n : Nat, n < 58 → 48 ≤ n → ((isWs (Char.ofNat n) || Char.ofNat n = ',') = false ∧ Char.ofNat n ≠ ')') := by decide +kernel
  have := hb c.toNat (Nat.lt_succ_of_le h.2) h.1
  rwa [Char.ofNat_toNat] at this

theorem signText_clean {s : Option Bool} {c : Char} (h : c ∈ signText s) : (isWs c || c = ',') = false ∧ c ≠ ')' := by
  match s, h with
  | some true, h => simp only [signText, List.mem_singleton] at h; subst h; exact ⟨rfl, by decide⟩
  | some false, h => simp only [signText, List.mem_singleton] at h; subst h; exact ⟨rfl, by decide⟩

theorem numeral_clean {n : Numeral} (hv : n.Valid) : ∀ c ∈ n.text, (isWs c || c = ',') = false ∧ c ≠ ')' := by
  intro c hc
  unfold Numeral.text at hc
  rw [List.mem_append, List.mem_append, List.mem_append] at hc
  rcases hc with ((h | h) | h) | h
  · exact signText_clean h
  · exact isDig_clean (List.all_eq_true.1 hv.ip c h)
  · cases hf : n.frac with
    | none => rw [hf] at h; cases h
    | some ds =>
      rw [hf] at h
      rcases List.mem_cons.1 h with rfl | h
      · exact ⟨rfl, by decide⟩
      · exact isDig_clean (List.all_eq_true.1 (hv.frac ds hf) c h)
  · cases he : n.exp with
    | none => rw [he] at h; cases h
    | some x =>
      obtain ⟨u, s, ds⟩ := x
      rw [he] at h
      simp only [expText, List.cons_append] at h
      rcases List.mem_cons.1 h with rfl | h
      · cases u <;> exact ⟨rfl, by decide⟩
      · rcases List.mem_append.1 h with h | h
        · exact signText_clean h
        · exact isDig_clean (List.all_eq_true.1 (hv.exp u s ds he).1 c h)

theorem numeral_ne {n : Numeral} (hv : n.Valid) : n.text ≠ [] := by
  intro h
  apply hv.some_digit
  unfold Numeral.text at h
  simp only [List.append_eq_nil_iff] at h
  obtain ⟨⟨⟨_, h1⟩, h2⟩, _⟩ := h
  cases hf : n.frac with
  | none => simp [h1]
  | some ds => rw [hf] at h2; cases h2

theorem splitArgs_run (w : Str) : ∀ (cur rest : Str), (∀ c ∈ w, (isWs c || c = ',') = false) →
    splitArgs cur (w ++ rest) = splitArgs (cur ++ w) rest := by
  induction w with
  | nil => intro cur rest _; simp
  | cons c w ih =>
    intro cur rest h
    rw [List.cons_append, splitArgs, if_neg (by rw [h c (by simp)]; simp), ih _ _ fun d hd => h d (by simp [hd])]
    simp

theorem sep_split {c : Char} (h : Sep c) : (isWs c || c = ',') = true := by
  rcases h with rfl | rfl | rfl | rfl | rfl <;> rfl

theorem splitArgs_text {s : Str} {l : List Numeral} (h : ArgText s l) : splitArgs [] s = l.map Numeral.text := by
  induction h with
  | nil => rfl
  | sep c s l hc _ ih => rw [splitArgs, if_pos (sep_split hc)]; exact ih
  | last n hv =>
    have := splitArgs_run n.text [] [] fun c hc => (numeral_clean hv c hc).1
    rw [List.append_nil, List.nil_append] at this
    rw [this, splitArgs, if_neg (by simp [numeral_ne hv])]; rfl
  | num n c s l hv hc _ ih =>
    rw [splitArgs_run n.text [] _ fun c hc => (numeral_clean hv c hc).1, List.nil_append, splitArgs, if_pos (sep_split hc),
      if_neg (by simp [numeral_ne hv]), ih]; rfl

theorem argText_clean {s : Str} {l : List Numeral} (h : ArgText s l) : ∀ c ∈ s, c ≠ ')' := by
  induction h with
  | nil => intro c h; cases h
  | sep c s l hc _ ih =>
    intro d hd
    rcases List.mem_cons.1 hd with rfl | hd
    · rcases hc with rfl | rfl | rfl | rfl | rfl <;> decide
    · exact ih d hd
  | last n hv => intro c hc; exact (numeral_clean hv c hc).2
  | num n c s l hv hc _ ih =>
    intro d hd
    rcases List.mem_append.1 hd with hd | hd
    · exact (numeral_clean hv d hd).2
    · rcases List.mem_cons.1 hd with rfl | hd
      · rcases hc with rfl | rfl | rfl | rfl | rfl <;> decide
      · exact ih d hd

theorem argText_valid {s : Str} {l : List Numeral} (h : ArgText s l) : ∀ n ∈ l, n.Valid := by
  induction h with
  | nil => intro c h; cases h
  | sep c s l hc _ ih => exact ih
  | last n hv => intro m hm; rw [List.mem_singleton] at hm; exact hm ▸ hv
  | num n c s l hv hc _ ih => intro m hm; rcases List.mem_cons.1 hm with rfl | hm; exacts [hv, ih m hm]

theorem floats_text {K : Type} [PyTrig K] (env : NumEnv K) (l : List Numeral) (h : ∀ n ∈ l, n.Valid) :
    floats env (l.map Numeral.text) = .ok (l.map (Numeral.value env)) := by
  induction l with
  | nil => rfl
  | cons n l ih =>
    rw [List.map_cons, floats, NumEnv.float, readDec_text n (h n (by simp)), ih fun m hm => h m (by simp [hm])]; rfl

/-! ## Finding the transforms -/

/-- Text after a match. -/
def skipSep (s : Str) : Str :=
  match s.dropWhile isReWs with
  | ',' :: u => u
  | u => u

theorem blank_re {c : Char} (h : Blank c) : isReWs c = true := by rcases h with rfl | rfl | rfl | rfl <;> rfl

theorem dropWhile_all {p : Char → Bool} (w rest : Str) (h : ∀ c ∈ w, p c = true) : (w ++ rest).dropWhile p = rest.dropWhile p := by
  induction w with
  | nil => rfl
  | cons c w ih => rw [List.cons_append, List.dropWhile_cons_of_pos (h c (by simp)), ih fun d hd => h d (by simp [hd])]

theorem takeWhile_all {p : Char → Bool} (w rest : Str) (h : ∀ c ∈ w, p c = true) : (w ++ rest).takeWhile p = w ++ rest.takeWhile p := by
  induction w with
  | nil => rfl
  | cons c w ih => rw [List.cons_append, List.takeWhile_cons_of_pos (h c (by simp)), ih fun d hd => h d (by simp [hd])]; rfl

theorem matchArgs_text {w a s : Str} (hw : ∀ c ∈ w, Blank c) (ha : ∀ c ∈ a, c ≠ ')') :
    matchArgs (w ++ '(' :: (a ++ ')' :: s)) = some (a, skipSep s) := by
  have h1 : (w ++ '(' :: (a ++ ')' :: s)).dropWhile isReWs = '(' :: (a ++ ')' :: s) := by
    rw [dropWhile_all w _ fun c hc => blank_re (hw c hc), List.dropWhile_cons_of_neg (by decide)]
  have ha' : ∀ c ∈ a, (decide (c ≠ ')')) = true := fun c hc => decide_eq_true (ha c hc)
  have h2 : (a ++ ')' :: s).dropWhile (fun c => decide (c ≠ ')')) = ')' :: s := by
    rw [dropWhile_all a _ ha', List.dropWhile_cons_of_neg (by decide)]
  have h3 : (a ++ ')' :: s).takeWhile (fun c => decide (c ≠ ')')) = a := by
    rw [takeWhile_all a _ ha', List.takeWhile_cons_of_neg (by decide), List.append_nil]
  unfold matchArgs
  rw [h1]
  simp only [h2, h3]
  unfold skipSep
  split
  · rename_i heq; simp only [heq]
  · split
    · rename_i h4 _ _ heq; exact absurd heq (h4 _)
    · rfl

theorem okName {name : String} {n : Nat} (h : OkTransform name n) :
    name ∈ ["matrix", "translate", "scale", "rotate", "skewX", "skewY"] := by
  rcases h with ⟨rfl, _⟩ | ⟨rfl, _⟩ | ⟨rfl, _⟩ | ⟨rfl, _⟩ | ⟨rfl, _⟩ | ⟨rfl, _⟩ <;> simp

theorem matchTransform_name {name : String} (h : name ∈ ["matrix", "translate", "scale", "rotate", "skewX", "skewY"]) {rest a u : Str}
    (hm : matchArgs rest = some (a, u)) : matchTransform (name.toList ++ rest) = some (name.toList, a, u) := by
  simp only [List.mem_cons, List.not_mem_nil, or_false] at h
  rcases h with rfl | rfl | rfl | rfl | rfl | rfl <;>
    simp [matchTransform, transformNames, List.findSome?, lowerS, lowerC, hm]

theorem sep_noMatch {c : Char} (h : Sep c) (s : Str) : matchTransform (c :: s) = none := by
  rcases h with rfl | rfl | rfl | rfl | rfl <;>
    simp [matchTransform, transformNames, List.findSome?, lowerS, lowerC]

theorem item_head {name : String} {n : Nat} (h : OkTransform name n) : ∃ c r, name.toList = c :: r ∧ ¬ Sep c ∧ isReWs c = false ∧ c ≠ ',' ∧ isWs c = false := by
  rcases h with ⟨rfl, _⟩ | ⟨rfl, _⟩ | ⟨rfl, _⟩ | ⟨rfl, _⟩ | ⟨rfl, _⟩ | ⟨rfl, _⟩
  · exact ⟨'t', "ranslate".toList, rfl, by simp [Sep], rfl, by decide, rfl⟩
  · exact ⟨'s', "cale".toList, rfl, by simp [Sep], rfl, by decide, rfl⟩
  · exact ⟨'r', "otate".toList, rfl, by simp [Sep], rfl, by decide, rfl⟩
  · exact ⟨'s', "kewX".toList, rfl, by simp [Sep], rfl, by decide, rfl⟩
  · exact ⟨'s', "kewY".toList, rfl, by simp [Sep], rfl, by decide, rfl⟩
  · exact ⟨'m', "atrix".toList, rfl, by simp [Sep], rfl, by decide, rfl⟩

theorem listText_tail {t : Str} {l : List Item} (h : ListText t l) : ∀ c s, t = c :: s → Sep c → ListText s l := by
  induction h with
  | nil => intro c s h _; cases h
  | sep c s l hc hs ih => intro c' s' h _; cases h; exact hs
  | item i w a s l hok hw ha hs ih =>
    intro c' s' h hc
    obtain ⟨c, r, he, hn, _⟩ := item_head hok
    rw [he] at h
    simp only [List.cons_append, List.cons.injEq] at h
    exact absurd (h.1 ▸ hc) hn

theorem listText_head {c : Char} {s : Str} {l : List Item} (h : ListText (c :: s) l) : Sep c ∨ (isReWs c = false ∧ c ≠ ',' ∧ isWs c = false) := by
  generalize ht : c :: s = t at h
  induction h with
  | nil => cases ht
  | sep c' s' l hc hs ih => cases ht; exact Or.inl hc
  | item i w a s' l hok hw ha hs ih =>
    obtain ⟨d, r, he, _, h1⟩ := item_head hok
    rw [he] at ht
    simp only [List.cons_append, List.cons.injEq] at ht
    exact Or.inr (ht.1 ▸ h1)

theorem listText_drop {p : Char → Bool} (hp : ∀ c, (isReWs c = false ∧ c ≠ ',' ∧ isWs c = false) → p c = false) (s : Str) :
    ∀ l, ListText s l → ListText (s.dropWhile p) l := by
  induction s with
  | nil => intro l h; exact h
  | cons c s ih =>
    intro l h
    rcases listText_head h with hc | hc
    · rw [List.dropWhile_cons]
      split
      · exact ih l (listText_tail h c s rfl hc)
      · exact h
    · rw [List.dropWhile_cons_of_neg (by rw [hp c hc]; simp)]; exact h

theorem listText_skip {s : Str} {l : List Item} (h : ListText s l) : ListText (skipSep s) l := by
  have h1 := listText_drop (p := isReWs) (fun c hc => hc.1) s l h
  unfold skipSep
  split
  · rename_i u heq
    rw [heq] at h1
    exact listText_tail h1 _ _ rfl (by simp [Sep])
  · exact h1

theorem skipSep_len (s : Str) : (skipSep s).length ≤ s.length := by
  have h1 := (List.dropWhile_suffix isReWs (l := s)).length_le
  unfold skipSep
  split
  · rename_i u heq; rw [heq] at h1; simp only [List.length_cons] at h1; omega
  · exact h1

/-- A written list together with its arguments. -/
theorem find_text : ∀ (n : Nat) (s : Str) (l : List Item), s.length ≤ n → ListText s l →
    ∃ as : List Str, findTransforms n s = (l.zip as).map (fun x => (x.1.name.toList, x.2)) ∧ List.Forall₂ (fun i a => ArgText a i.args) l as := by
  intro n
  induction n with
  | zero =>
    intro s l hn h
    have : s = [] := List.length_eq_zero_iff.1 (by omega)
    subst this
    generalize ht : ([] : Str) = t at h
    cases h with
    | nil => exact ⟨[], rfl, .nil⟩
    | sep c s l hc hs => cases ht
    | item i w a s l hok hw ha hs =>
      obtain ⟨c, r, he, _⟩ := item_head hok
      rw [he] at ht; cases ht
  | succ n ih =>
    intro s l hn h
    cases h with
    | nil => exact ⟨[], rfl, .nil⟩
    | sep c s l hc hs =>
      obtain ⟨as, h1, h2⟩ := ih s l (by simp only [List.length_cons] at hn; omega) hs
      refine ⟨as, ?_, h2⟩
      rw [← h1]
      simp only [findTransforms, sep_noMatch hc]
    | item i w a s l hok hw ha hs =>
      obtain ⟨as, h1, h2⟩ := ih (skipSep s) l (by
        have := skipSep_len s
        simp only [List.length_append, List.length_cons] at hn
        omega) (listText_skip hs)
      refine ⟨a :: as, ?_, .cons ha h2⟩
      have hm := matchTransform_name (okName hok) (matchArgs_text (s := s) hw (argText_clean ha))
      obtain ⟨c, r, he, _⟩ := item_head hok
      rw [List.zip_cons_cons, List.map_cons, ← h1]
      rw [he, List.cons_append] at hm ⊢
      simp only [findTransforms, hm]

theorem okAll {s : Str} {l : List Item} (h : ListText s l) : ∀ i ∈ l, OkTransform i.name i.args.length := by
  induction h with
  | nil => intro i h; cases h
  | sep c s l hc _ ih => exact ih
  | item i w a s l hok hw ha hs ih => intro j hj; rcases List.mem_cons.1 hj with rfl | hj; exacts [hok, ih j hj]

theorem transformList_text (env : NumEnv ℝ) (l : List Item) : ∀ (as : List Str), List.Forall₂ (fun i a => ArgText a i.args) l as →
    (∀ i ∈ l, OkTransform i.name i.args.length) →
    ∃ ms, transformList env ((l.zip as).map fun x => (x.1.name.toList, x.2)) = .ok ms ∧ ∀ p, ms.foldr Mat.apply p = applyList env l p := by
  induction l with
  | nil => intro as h _; cases h; exact ⟨[], rfl, fun p => rfl⟩
  | cons i l ih =>
    intro as h hok
    cases h with
    | cons ha hr =>
      rename_i a as
      obtain ⟨ms, h1, h2⟩ := ih as hr fun j hj => hok j (by simp [hj])
      obtain ⟨m, h3, h4⟩ := transformMatrix_apply (name := i.name) (v := i.args.map (Numeral.value env)) (by
        rw [List.length_map]; exact hok i (by simp))
      refine ⟨m :: ms, ?_, fun p => ?_⟩
      · rw [List.zip_cons_cons, List.map_cons, transformList, splitArgs_text ha, floats_text env _ (argText_valid ha)]
        simp only [bind, Except.bind, h3, h1]; rfl
      · rw [List.foldr_cons, h2, h4]; rfl

theorem foldl_compose (ms : List (Mat ℝ)) : ∀ (m : Mat ℝ) (p : P ℝ), (ms.foldl Mat.compose m).apply p = m.apply (ms.foldr Mat.apply p) := by
  induction ms with
  | nil => intro m p; rfl
  | cons a ms ih => intro m p; rw [List.foldl_cons, ih, (C41_compose m a m _).1]; rfl

theorem listText_init {t : Str} {l : List Item} (h : ListText t l) : ∀ s c, t = s ++ [c] → Sep c → ListText s l := by
  induction h with
  | nil => intro s c h _; simp at h
  | sep c s l hc hs ih =>
    intro s' c' h hc'
    cases s' with
    | nil => simp only [List.nil_append, List.cons.injEq] at h; rw [h.2] at hs; exact hs
    | cons d s' =>
      simp only [List.cons_append, List.cons.injEq] at h
      rw [← h.1]; exact .sep _ _ _ hc (ih s' c' h.2 hc')
  | item i w a s l hok hw ha hs ih =>
    intro s' c' h hc'
    rcases List.eq_nil_or_concat s with rfl | ⟨s2, c2, rfl⟩
    · have h' : (i.name.toList ++ (w ++ '(' :: a)) ++ [')'] = s' ++ [c'] := by rw [← h]; simp
      have h2 := (List.append_inj' h' rfl).2
      simp only [List.cons.injEq, and_true] at h2
      rw [← h2] at hc'
      simp [Sep] at hc'
    · rw [List.concat_eq_append] at h hs ih
      have h' : (i.name.toList ++ (w ++ '(' :: (a ++ ')' :: s2))) ++ [c2] = s' ++ [c'] := by rw [← h]; simp
      have h2 := List.append_inj' h' rfl
      obtain ⟨rfl, h3⟩ := h2
      simp only [List.cons.injEq, and_true] at h3
      subst h3
      exact .item i w a s2 l hok hw ha (ih s2 c2 rfl hc')

theorem listText_last {t : Str} {l : List Item} (h : ListText t l) : ∀ s c, t = s ++ [c] → Sep c ∨ c = ')' := by
  induction h with
  | nil => intro s c h; simp at h
  | sep c s l hc hs ih =>
    intro s' c' h
    cases s' with
    | nil => simp only [List.nil_append, List.cons.injEq] at h; rw [← h.1]; exact Or.inl hc
    | cons d s' => simp only [List.cons_append, List.cons.injEq] at h; exact ih s' c' h.2
  | item i w a s l hok hw ha hs ih =>
    intro s' c' h
    rcases List.eq_nil_or_concat s with rfl | ⟨s2, c2, rfl⟩
    · have h' : (i.name.toList ++ (w ++ '(' :: a)) ++ [')'] = s' ++ [c'] := by rw [← h]; simp
      have h2 := (List.append_inj' h' rfl).2
      simp only [List.cons.injEq, and_true] at h2
      exact Or.inr h2.symm
    · rw [List.concat_eq_append] at h ih
      have h' : (i.name.toList ++ (w ++ '(' :: (a ++ ')' :: s2))) ++ [c2] = s' ++ [c'] := by rw [← h]; simp
      have h2 := (List.append_inj' h' rfl).2
      simp only [List.cons.injEq, and_true] at h2
      exact h2 ▸ ih s2 c2 rfl

theorem listText_strip {s : Str} {l : List Item} (h : ListText s l) : ListText (strip s) l := by
  unfold strip stripBy
  have h1 := listText_drop (p := isWs) (fun c hc => hc.2.2) s l h
  generalize s.dropWhile isWs = t at h1
  clear h
  generalize hr : t.reverse = r
  have ht : t = r.reverse := by rw [← hr, List.reverse_reverse]
  rw [ht] at h1
  clear hr ht
  induction r with
  | nil => exact h1
  | cons c r ih =>
    rw [List.dropWhile_cons]
    split
    · rename_i hc
      rw [List.reverse_cons] at h1
      rcases listText_last h1 _ _ rfl with h2 | h2
      · exact ih (listText_init h1 _ _ rfl h2)
      · subst h2; exact absurd hc (by decide)
    · exact h1

theorem parseTransform_text (env : NumEnv ℝ) {s : Str} {l : List Item} (h : ListText s l) :
    ∃ m, parseTransform env (some s) = .ok m ∧ ∀ p, m.apply p = applyList env l p := by
  have hs := listText_strip h
  obtain ⟨as, h1, h2⟩ := find_text _ _ l le_rfl hs
  obtain ⟨ms, h3, h4⟩ := transformList_text env l as h2 (okAll h)
  refine ⟨ms.foldl Mat.compose Mat.ident, ?_, fun p => ?_⟩
  · show (do let ms ← transformList env (findTransforms (strip s).length (strip s)); pure (ms.foldl Mat.compose Mat.ident)) = _
    rw [h1, h3]; rfl
  · rw [foldl_compose, (C41_compose Mat.ident Mat.ident Mat.ident _).2.2.2.2, h4]

/-- **C77**, one attribute (values spelled with separators; see `C77_refuted`): for every `transform` attribute that is a list of
transforms with the numbers of values SVG allows, parsing succeeds and the matrix moves every point as the list of
transforms does, the last one first. -/
theorem C77_transform_list_partial (env : NumEnv ℝ) {attr : Option Str} {l : List Item} (h : Writes attr l) :
    ∃ m, parseTransform env attr = .ok m ∧ ∀ p, m.apply p = applyList env l p := by
  cases h with
  | none => exact ⟨Mat.ident, rfl, fun p => (C41_compose Mat.ident Mat.ident Mat.ident p).2.2.2.2⟩
  | some s l h => exact parseTransform_text env h

theorem parentLoop_text (env : NumEnv ℝ) (as : List (Option Str)) : ∀ (ls : List (List Item)) (m : Mat ℝ), List.Forall₂ Writes as ls →
    ∃ r, parentLoop env m as = .ok r ∧ ∀ p, r.apply p = ls.foldl (fun q l => applyList env l q) (m.apply p) := by
  induction as with
  | nil => intro ls m h; cases h; exact ⟨m, rfl, fun p => rfl⟩
  | cons a as ih =>
    intro ls m h
    cases h with
    | cons ha hr =>
      rename_i l ls
      cases ha with
      | none =>
        obtain ⟨r, h1, h2⟩ := ih ls m hr
        exact ⟨r, h1, fun p => h2 p⟩
      | some s l hs =>
        obtain ⟨pm, h3, h4⟩ := parseTransform_text env hs
        obtain ⟨r, h1, h2⟩ := ih ls (pm.compose m) hr
        refine ⟨r, ?_, fun p => ?_⟩
        · rw [parentLoop, h3]; exact h1
        · rw [h2, (C41_compose pm m m p).1, h4]; rfl

/-- **C77**, ancestors: for every element and every chain of ancestors, nearest first, the transform of the element moves a point by its own
list first, then by that of the nearest ancestor, and so on up to the outermost. -/
theorem C77_element_transform_partial (env : NumEnv ℝ) {attr : Option Str} {own : List Item} {ancestors : List (Option Str)} {ls : List (List Item)}
    (h : Writes attr own) (ha : List.Forall₂ Writes ancestors ls) :
    ∃ m, elementTransform env attr ancestors = .ok m ∧
      ∀ p, m.apply p = ls.foldl (fun q l => applyList env l q) (applyList env own p) := by
  obtain ⟨r, h1, h2⟩ := parentLoop_text env ancestors ls Mat.ident ha
  have hi : ∀ p : P ℝ, (Mat.ident : Mat ℝ).apply p = p := fun p => (C41_compose Mat.ident Mat.ident Mat.ident p).2.2.2.2
  simp only [hi] at h2
  cases h with
  | none =>
    refine ⟨r, ?_, fun p => h2 p⟩
    unfold elementTransform parentTransform
    rw [h1]; rfl
  | some s l hs =>
    by_cases he : s = []
    · subst he
      have : own = [] := by
        generalize ht : ([] : Str) = t at hs
        cases hs with
        | nil => rfl
        | sep c s l hc hs => cases ht
        | item i w a s l hok hw ha hs =>
          obtain ⟨c, r, he, _⟩ := item_head hok
          rw [he] at ht; cases ht
      subst this
      refine ⟨r, ?_, fun p => h2 p⟩
      unfold elementTransform parentTransform
      rw [h1]; rfl
    · obtain ⟨nm, h3, h4⟩ := parseTransform_text env hs
      refine ⟨r.compose nm, ?_, fun p => ?_⟩
      · unfold elementTransform parentTransform
        rw [h1]
        show (if s.isEmpty = true then _ else _) = _
        rw [if_neg (by simpa using he), h3]; rfl
      · rw [(C41_compose r nm nm p).1, h2, h4]

/-- The part of **C77** that fails: SVG allows leaving out the blank before a sign, but `translate(10-20)` raises `ValueError`. -/
theorem C77_refuted {K : Type} [PyTrig K] (env : NumEnv K) : parseTransform env (some "translate(10-20)".toList) = .error .valueError := rfl

/-- Non-vacuity: a list of two transforms. -/
example : ListText "rotate(90), scale (2 -3)".toList [⟨"rotate", [⟨none, ['9', '0'], none, none⟩]⟩,
    ⟨"scale", [⟨none, ['2'], none, none⟩, ⟨some true, ['3'], none, none⟩]⟩] := by
  have v1 : Numeral.Valid ⟨none, ['9', '0'], none, none⟩ := ⟨rfl, by simp, by simp, by simp⟩
  have v2 : Numeral.Valid ⟨none, ['2'], none, none⟩ := ⟨rfl, by simp, by simp, by simp⟩
  have v3 : Numeral.Valid ⟨some true, ['3'], none, none⟩ := ⟨rfl, by simp, by simp, by simp⟩
  exact .item ⟨"rotate", _⟩ [] "90".toList ", scale (2 -3)".toList _ (by simp [OkTransform]) (by simp) (.last _ v1)
    (.sep ',' _ _ (by simp [Sep]) (.sep ' ' _ _ (by simp [Sep])
      (.item ⟨"scale", _⟩ [' '] "2 -3".toList [] _ (by simp [OkTransform]) (by simp [Blank])
        (.num _ ' ' _ _ v2 (by simp [Sep]) (.last _ v3)) .nil)))

end Verif.Svg
