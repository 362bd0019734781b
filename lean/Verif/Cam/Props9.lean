import Verif.Cam.Output
import Verif.Svg.Props6
import Mathlib.Tactic.Ring

/-!
# C79: names of output files
-/

set_option linter.unusedSectionVars false

namespace Verif.Output
open Verif Css Svg

/-! ## Specification -/

/-- Specification: the file is number `n` of the series `root_dddd.ext`. -/
def NumberedFile (root ext f : Str) (n : Nat) : Prop :=
  ∃ s : Str, s.length = 4 ∧ s.all isDig = true ∧ natOf s = n ∧ f = root ++ '_' :: (s ++ ext)

/-- Specification: the name is the root, an underscore, a digit, any text and the extension. -/
def LooksNumbered (root ext f : Str) : Prop := ∃ d more, isDig d = true ∧ f = root ++ '_' :: d :: (more ++ ext)

/-- Specification: an ordinary root and extension: the root is not made of points only, the extension is a point and text without
a point. -/
def Ordinary (root ext : Str) : Prop := (∃ c ∈ root, c ≠ '.') ∧ ∃ e, ext = '.' :: e ∧ '.' ∉ e

/-! ## Lemmas -/

theorem splitext_ok {root ext : Str} (h : Ordinary root ext) : splitext (root ++ ext) = (root, ext) := by
  obtain ⟨⟨c, hc, hcd⟩, e, rfl, he⟩ := h
  have he' : ∀ c ∈ e.reverse, (decide (c ≠ '.')) = true := by
    intro c hc
    rw [List.mem_reverse] at hc
    apply decide_eq_true
    rintro rfl; exact he hc
  have hr : (root ++ '.' :: e).reverse = e.reverse ++ '.' :: root.reverse := by simp
  have h1 : ∀ w rest : Str, (∀ c ∈ w, (decide (c ≠ '.')) = true) → (w ++ '.' :: rest).dropWhile (· ≠ '.') = '.' :: rest ∧
      (w ++ '.' :: rest).takeWhile (· ≠ '.') = w := by
    intro w rest hw
    induction w with
    | nil => simp
    | cons d w ih =>
      have hd := hw d (by simp)
      have := ih fun c hc => hw c (by simp [hc])
      rw [List.cons_append, List.dropWhile_cons_of_pos (p := fun x => decide (x ≠ '.')) hd,
        List.takeWhile_cons_of_pos (p := fun x => decide (x ≠ '.')) hd, this.1, this.2]
      exact ⟨rfl, rfl⟩
  unfold splitext
  simp only [hr, (h1 _ root.reverse he').1, (h1 _ root.reverse he').2]
  rw [if_neg]
  · simp
  · simp only [List.all_eq_true, List.mem_reverse, decide_eq_true_eq]
    intro hall; exact hcd (hall c hc)

theorem afterPrefix_iff (p s t : Str) : afterPrefix p s = some t ↔ s = p ++ t := by
  induction p generalizing s with
  | nil => simp [afterPrefix]
  | cons a p ih =>
    cases s with
    | nil => simp [afterPrefix]
    | cons c s =>
      rw [afterPrefix]
      split
      · rename_i h; subst h; rw [ih]; simp
      · rename_i h
        constructor
        · intro h'; cases h'
        · intro h'; simp only [List.cons_append, List.cons.injEq] at h'; exact absurd h'.1.symm h

theorem isNumbered_iff (root ext f : Str) : isNumbered root ext f = true ↔ LooksNumbered root ext f := by
  unfold isNumbered LooksNumbered
  constructor
  · intro h
    split at h
    · rename_i d more heq
      rw [afterPrefix_iff] at heq
      rw [Bool.and_eq_true, List.isSuffixOf_iff_suffix] at h
      obtain ⟨w, hw⟩ := h.2
      exact ⟨d, w, h.1, by rw [heq, ← hw]; simp⟩
    · cases h
  · rintro ⟨d, more, hd, rfl⟩
    have : afterPrefix (root ++ ['_']) (root ++ '_' :: d :: (more ++ ext)) = some (d :: (more ++ ext)) := by
      rw [afterPrefix_iff]; simp
    rw [this]
    simp only [Bool.and_eq_true, List.isSuffixOf_iff_suffix]
    exact ⟨hd, List.suffix_append _ _⟩

theorem looks_of_numbered {root ext f : Str} {n : Nat} (h : NumberedFile root ext f n) : LooksNumbered root ext f := by
  obtain ⟨s, hl, hd, _, rfl⟩ := h
  match s, hl with
  | a :: s, _ =>
    rw [List.all_cons, Bool.and_eq_true] at hd
    exact ⟨a, s, hd.1, rfl⟩

theorem natOf_eq (s : Str) : natOf s = Nat.ofDigitChars 10 s 0 := by
  rw [Nat.ofDigitChars_eq_foldl]
  rfl

theorem natOf_pad4 (n : Nat) : natOf (pad4 n) = n := by
  show natOf (List.replicate _ '0' ++ natDigits n) = n
  rw [natOf_eq, Nat.ofDigitChars_append, Nat.ofDigitChars_replicate_zero]
  simp only [Nat.mul_zero]
  exact Nat.ofDigitChars_ten_toDigits

theorem isDigit_isDig {c : Char} (h : c.isDigit = true) : isDig c = true := by
  unfold Char.isDigit at h
  unfold isDig
  simp only [Bool.and_eq_true, decide_eq_true_eq] at h ⊢
  exact h

theorem pad4_digits (n : Nat) : (pad4 n).all isDig = true := by
  show (List.replicate _ '0' ++ natDigits n).all isDig = true
  rw [List.all_append, Bool.and_eq_true]
  constructor
  · rw [List.all_eq_true]; intro c hc; rw [(List.mem_replicate.1 hc).2]; rfl
  · rw [List.all_eq_true]; intro c hc
    exact isDigit_isDig (Nat.isDigit_of_mem_toDigits (by decide) (by decide) hc)

theorem pad4_ne (n : Nat) : pad4 n ≠ [] := by
  show List.replicate _ '0' ++ natDigits n ≠ []
  intro h
  exact (Nat.toDigits_ne_nil : Nat.toDigits 10 n ≠ []) (List.append_eq_nil_iff.1 h).2

theorem isDig_notWs {c : Char} (h : isDig c = true) : isWs c = false ∧ c ≠ '-' ∧ c ≠ '+' := by
  unfold isDig at h
  simp only [Bool.and_eq_true, decide_eq_true_eq] at h
  have hb : ∀ n : Nat, n < 58 → 48 ≤ n → (isWs (Char.ofNat n) = false ∧ Char.ofNat n ≠ '-' ∧ Char.ofNat n ≠ '+') := by decide +kernel
  have := hb c.toNat (Nat.lt_succ_of_le h.2) h.1
  rwa [Char.ofNat_toNat] at this

theorem readInt_digits {s : Str} (hd : s.all isDig = true) (hne : s ≠ []) : readInt (strip s) = some (natOf s : Int) := by
  have h1 : ∀ c ∈ s, isWs c = false ∧ c ≠ '-' ∧ c ≠ '+' := fun c hc => isDig_notWs (List.all_eq_true.1 hd c hc)
  have hs : strip s = s := stripBy_id (fun c hc => (h1 c (List.mem_of_head? hc)).1) (fun c hc => (h1 c (List.mem_of_getLast? hc)).1)
  rw [hs]
  have ht : takeSign s = (false, s) := by
    match s, hne with
    | c :: s, _ =>
      have := h1 c (by simp)
      unfold takeSign
      split
      · rename_i heq; simp only [List.cons.injEq] at heq; exact absurd heq.1 this.2.1
      · rename_i heq; simp only [List.cons.injEq] at heq; exact absurd heq.1 this.2.2
      · rfl
  unfold readInt
  rw [ht]
  simp [hne, hd]

theorem numbered_unique {root ext s t : Str} (h : root ++ '_' :: (s ++ ext) = root ++ '_' :: (t ++ ext)) : s = t := by
  have := List.append_cancel_left h
  simp only [List.cons.injEq, true_and] at this
  exact List.append_cancel_right this

theorem create_root {root ext : Str} (h : Ordinary root ext) (files : List Str) (b : Bool) :
    createBasename (root ++ ext) b files =
      if b then withSuffix root ext files
      else .ok (root ++ ext) := by
  unfold createBasename
  have h1 : root.isEmpty = false := by obtain ⟨⟨c, hc, _⟩, _⟩ := h; cases root with | nil => cases hc | cons => rfl
  have h2 : ext.isEmpty = false := by obtain ⟨_, e, rfl, _⟩ := h; rfl
  simp only [splitext_ok h, h1, h2, Bool.false_eq_true, if_false]

/-- **C79**, for a directory that lists the files of the series in ascending order and has only numbers of four digits in it (see
`C79_refuted`): the returned name is not in the directory, and its number is larger than those of all files of the series. -/
theorem C79_new_name_partial {root ext : Str} (h : Ordinary root ext) (files : List Str)
    (hfour : ∀ f ∈ files, LooksNumbered root ext f → ∃ n, NumberedFile root ext f n)
    (hsorted : files.Pairwise fun f g => ∀ n m, NumberedFile root ext f n → NumberedFile root ext g m → n < m) :
    ∃ r, createBasename (root ++ ext) true files = .ok r ∧ r ∉ files ∧
      ∀ f ∈ files, ∀ n m, NumberedFile root ext f n → NumberedFile root ext r m → n < m := by
  rw [create_root h, if_pos rfl]
  unfold withSuffix
  cases hl : (files.filter (isNumbered root ext)).getLast? with
  | none =>
    have hnil : files.filter (isNumbered root ext) = [] := List.getLast?_eq_none_iff.1 hl
    have hno : ∀ f ∈ files, ¬ LooksNumbered root ext f := by
      intro f hf hlk
      have : f ∈ files.filter (isNumbered root ext) := List.mem_filter.2 ⟨hf, (isNumbered_iff _ _ _).2 hlk⟩
      rw [hnil] at this; cases this
    refine ⟨_, rfl, ?_, ?_⟩
    · intro hf
      refine hno _ hf ⟨'0', ['0', '0', '0'], rfl, ?_⟩
      rw [show "_0000".toList = ['_', '0', '0', '0', '0'] from rfl]; simp
    · intro f hf n m hn _
      exact absurd (looks_of_numbered hn) (hno f hf)
  | some last =>
    have hmem := List.mem_filter.1 (List.mem_of_getLast? hl)
    obtain ⟨n, s, hlen, hdig, hn, rfl⟩ := hfour last hmem.1 ((isNumbered_iff _ _ _).1 hmem.2)
    have hso : Ordinary (root ++ '_' :: s) ext := ⟨⟨'_', by simp, by decide⟩, h.2⟩
    have hsp : splitext (root ++ '_' :: (s ++ ext)) = (root ++ '_' :: s, ext) := by
      have := splitext_ok hso
      rwa [List.append_assoc, List.cons_append] at this
    have hne : s ≠ [] := by rintro rfl; cases hlen
    have hlen2 : (root ++ '_' :: s).length - 4 = (root ++ ['_']).length := by simp; omega
    have heq : root ++ '_' :: s = (root ++ ['_']) ++ s := by simp
    have hlt : 4 < (root ++ '_' :: s).length := by simp; omega
    have hres : nameAfter (root ++ '_' :: (s ++ ext)) = .ok (root ++ '_' :: (pad4 ((n + 1 : Nat) : Int) ++ ext)) := by
      unfold nameAfter nextSuffix
      simp only [hsp]
      rw [if_pos hlt]
      simp only [hlen2]
      rw [heq, List.drop_left, List.take_left]
      simp only [readInt_digits hdig hne, hn]
      simp
    refine ⟨_, hres, ?_, ?_⟩
    · intro hf
      have hlook : LooksNumbered root ext (root ++ '_' :: (pad4 ((n + 1 : Nat) : Int) ++ ext)) := by
        have := pad4_digits (n + 1)
        match hp : pad4 ((n + 1 : Nat) : Int), pad4_ne (n + 1) with
        | d :: w, _ =>
          rw [hp, List.all_cons, Bool.and_eq_true] at this
          exact ⟨d, w, this.1, rfl⟩
      obtain ⟨m, t, ht1, ht2, ht3, ht4⟩ := hfour _ hf hlook
      have hpt := numbered_unique ht4
      have hm : m = n + 1 := by rw [← ht3, ← hpt, natOf_pad4]
      have hfil : (files.filter (isNumbered root ext)).Pairwise fun f g => ∀ n m, NumberedFile root ext f n → NumberedFile root ext g m → n < m :=
        hsorted.sublist List.filter_sublist
      have hin : root ++ '_' :: (pad4 ((n + 1 : Nat) : Int) ++ ext) ∈ files.filter (isNumbered root ext) :=
        List.mem_filter.2 ⟨hf, (isNumbered_iff _ _ _).2 hlook⟩
      obtain ⟨init, hinit⟩ := List.getLast?_eq_some_iff.1 hl
      rw [hinit] at hfil hin
      rcases List.mem_append.1 hin with hin | hin
      · have := (List.pairwise_append.1 hfil).2.2 _ hin _ (List.mem_singleton.2 rfl) m n ⟨t, ht1, ht2, ht3, ht4⟩ ⟨s, hlen, hdig, hn, rfl⟩
        omega
      · rw [List.mem_singleton] at hin
        have := numbered_unique hin
        have h2 := natOf_pad4 (n + 1)
        rw [this, hn] at h2; omega
    · rintro f hf k m hk ⟨t, ht1, ht2, ht3, ht4⟩
      have hm : m = n + 1 := by rw [← ht3, ← numbered_unique ht4, natOf_pad4]
      have hfil : (files.filter (isNumbered root ext)).Pairwise fun f g => ∀ n m, NumberedFile root ext f n → NumberedFile root ext g m → n < m :=
        hsorted.sublist List.filter_sublist
      have hin : f ∈ files.filter (isNumbered root ext) := List.mem_filter.2 ⟨hf, (isNumbered_iff _ _ _).2 (looks_of_numbered hk)⟩
      obtain ⟨init, hinit⟩ := List.getLast?_eq_some_iff.1 hl
      rw [hinit] at hfil hin
      rcases List.mem_append.1 hin with hin | hin
      · have := (List.pairwise_append.1 hfil).2.2 _ hin _ (List.mem_singleton.2 rfl) k n hk ⟨s, hlen, hdig, hn, rfl⟩
        omega
      · rw [List.mem_singleton] at hin
        obtain ⟨u, hu1, hu2, hu3, hu4⟩ := hk
        rw [hin] at hu4
        have := numbered_unique hu4
        rw [← hu3, ← this, hn]; omega

/-- **C79**, without the suffix the name is the requested one. -/
theorem C79_plain_name {root ext : Str} (h : Ordinary root ext) (files : List Str) : createBasename (root ++ ext) false files = .ok (root ++ ext) := by
  rw [create_root h]; rfl

/-- **C79**, defaults: a name without extension gets `.ngc`, and an empty name becomes `output.ngc`, with and without numbering. -/
theorem C79_defaults (name : Str) (h : '.' ∉ name) (b : Bool) (files : List Str) :
    (name ≠ [] → createBasename name b files = createBasename (name ++ ".ngc".toList) b files) ∧
    createBasename [] b files = createBasename "output.ngc".toList b files := by
  refine ⟨?_, rfl⟩
  intro hne
  have hd : name.reverse.dropWhile (fun c => decide (c ≠ '.')) = [] := by
    have : ∀ l : Str, '.' ∉ l → l.dropWhile (fun c => decide (c ≠ '.')) = [] := by
      intro l hl
      induction l with
      | nil => rfl
      | cons c l ih =>
        have hc : c ≠ '.' := by rintro rfl; exact hl (by simp)
        rw [List.dropWhile_cons, if_pos (by simpa using hc)]
        exact ih fun hm => hl (by simp [hm])
    exact this _ fun hm => h (List.mem_reverse.1 hm)
  have h1 : splitext name = (name, []) := by
    unfold splitext
    dsimp only
    rw [hd]
  have ho : Ordinary name ".ngc".toList := by
    obtain ⟨c, r, rfl⟩ := List.exists_cons_of_ne_nil hne
    exact ⟨⟨c, by simp, by rintro rfl; exact h (by simp)⟩, ['n', 'g', 'c'], rfl, by decide⟩
  unfold createBasename
  rw [h1, splitext_ok ho]
  rfl

/-- Non-vacuity: `drawing` becomes `drawing.ngc`. -/
example : createBasename "drawing".toList false [] = .ok "drawing.ngc".toList := by decide +kernel

/-- The part of **C79** that fails: `os.listdir` returns names in arbitrary order, and then the newest file may be overwritten; a file of the
series whose number has fewer digits makes the name collide with another file or leads to an unbound variable. -/
theorem C79_refuted :
    createBasename "output.ngc".toList true ["output_0001.ngc".toList, "output_0000.ngc".toList] = .ok "output_0001.ngc".toList ∧
    createBasename "output.ngc".toList true ["outp0000.ngc".toList, "output_1.ngc".toList] = .ok "outp0000.ngc".toList ∧
    createBasename "a.ngc".toList true ["a_1.ngc".toList] = .error .unboundLocal := by
  refine ⟨?_, ?_, ?_⟩ <;> decide +kernel

/-- Non-vacuity: a directory with two files of the series and others. -/
example : createBasename "output.ngc".toList true ["a".toList, "output_0008.ngc".toList, "output.ngc".toList, "output_0009.ngc".toList] =
    .ok "output_0010.ngc".toList ∧ Ordinary "output".toList ".ngc".toList ∧ NumberedFile "output".toList ".ngc".toList "output_0009.ngc".toList 9 :=
  ⟨by decide +kernel, ⟨⟨'o', by decide, by decide⟩, "ngc".toList, rfl, by decide⟩, "0009".toList, rfl, rfl, rfl, rfl⟩

end Verif.Output
