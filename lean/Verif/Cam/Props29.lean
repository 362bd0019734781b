import Verif.Cam.Dialogs
import Verif.Cam.Props27

/-!
# C181: what is entered in a dialog is what the extension works with
-/

set_option linter.unusedSectionVars false
set_option linter.unusedVariables false

namespace Verif.Cam
open Verif PyFloat PyTrig GCode

/-! ## Specification -/

/-- Specification: the texts a field of a dialog can give. -/
def Field.Gives (rd : Reader ℝ) (f : Field) (t : Str) : Prop :=
  match f with
  | .float => (rd.float t).isSome
  | .int => (rd.int t).isSome ∧ (rd.float t).isSome
  | .flag => t = "true".toList ∨ t = "false".toList
  | .choice texts => ∃ s ∈ texts, t = s.toList
  | .free => True

/-- Specification: one argument of the program comes from the dialog. -/
def Dialog.Gives (rd : Reader ℝ) (d : Dialog) (g : Str × Str) : Prop := ∃ f ∈ d.fields, g.1 = f.1.toList ∧ f.2.Gives rd g.2

/-- Specification: the reader of numbers understands the digits. -/
def ReadsDigits (rd : Reader ℝ) : Prop := ∀ n < 10, rd.int (natDigits n) = some (n : ℤ) ∧ rd.float (natDigits n) = some (n : ℝ)

/-- Specification: well-formed XML has no two hyphens next to each other in a comment, and none at its end (XML 1.0, production 15). -/
def XmlCommentOk (s : Str) : Prop := ¬ ∃ a b, s ++ ['-'] = a ++ '-' :: '-' :: b

/-! ## Lemmas -/

/-- Kinds of fields and types of options that fit. -/
def fits (f : Field) (t : OptType) : Bool :=
  match f, t with
  | _, .string => true
  | .float, .float | .float, .degrees | .float, .docunits => true
  | .int, .int | .int, .float | .int, .degrees | .int, .docunits => true
  | .flag, .inkbool => true
  | .choice l, .int => l.all fun s => decide (s ∈ ["0", "1", "2", "3", "4", "5", "6", "7", "8", "9"])
  | _, _ => false

/-- The names and types of some options. -/
def namesTypes (l : List (OptSpec ℝ)) : List (Str × OptType) := l.map fun o => (o.name, o.type)

/-- Every field of a dialog has an option that fits. -/
def dialogFits (d : Dialog) (l : List (Str × OptType)) : Bool :=
  d.fields.all fun f => l.any fun o => decide (o.1 = f.1.toList) && fits f.2 o.2

theorem upper_true : upperS "true".toList = "TRUE".toList ∧ upperS "false".toList = "FALSE".toList := by decide +kernel

theorem fits_understood (rd : Reader ℝ) (hd : ReadsDigits rd) (o : OptSpec ℝ) (f : Field) (h : fits f o.type = true) (t : Str) (ht : f.Gives rd t) :
    Understood rd o t := by
  have flt : ∀ t, (rd.float t).isSome = true → ∃ x, rd.float t = some x := fun t h => Option.isSome_iff_exists.1 h
  have it : ∀ t, (rd.int t).isSome = true → ∃ x, rd.int t = some x := fun t h => Option.isSome_iff_exists.1 h
  unfold Understood
  cases hty : o.type with
  | string => exact ⟨.text t, rfl⟩
  | int =>
    rw [hty] at h
    cases f with
    | int => obtain ⟨n, hn⟩ := it t ht.1; exact ⟨.int n, n, hn, rfl⟩
    | choice l =>
      obtain ⟨s, hs, rfl⟩ := ht
      have := List.all_eq_true.1 h s hs
      have hs : s ∈ ["0", "1", "2", "3", "4", "5", "6", "7", "8", "9"] := by simpa using this
      have key : ∃ n < 10, s.toList = natDigits n := by
        simp only [List.mem_cons, List.not_mem_nil, or_false] at hs
        rcases hs with rfl | rfl | rfl | rfl | rfl | rfl | rfl | rfl | rfl | rfl
        exacts [⟨0, by omega, by decide +kernel⟩, ⟨1, by omega, by decide +kernel⟩, ⟨2, by omega, by decide +kernel⟩, ⟨3, by omega, by decide +kernel⟩,
          ⟨4, by omega, by decide +kernel⟩, ⟨5, by omega, by decide +kernel⟩, ⟨6, by omega, by decide +kernel⟩, ⟨7, by omega, by decide +kernel⟩,
          ⟨8, by omega, by decide +kernel⟩, ⟨9, by omega, by decide +kernel⟩]
      obtain ⟨n, hn, e⟩ := key
      rw [e]
      exact ⟨.int n, n, (hd n hn).1, rfl⟩
    | float => cases h
    | flag => cases h
    | free => cases h
  | float =>
    rw [hty] at h
    cases f with
    | int => obtain ⟨n, hn⟩ := flt t ht.2; exact ⟨.num n, n, hn, rfl⟩
    | float => obtain ⟨n, hn⟩ := flt t ht; exact ⟨.num n, n, hn, rfl⟩
    | choice l => cases h
    | flag => cases h
    | free => cases h
  | inkbool =>
    rw [hty] at h
    cases f with
    | flag =>
      rcases ht with rfl | rfl
      · exact ⟨.bool true, .inl ⟨by unfold SaysYes; decide +kernel, rfl⟩⟩
      · exact ⟨.bool false, .inr ⟨by unfold SaysNo; decide +kernel, rfl⟩⟩
    | int => cases h
    | float => cases h
    | choice l => cases h
    | free => cases h
  | degrees =>
    rw [hty] at h
    cases f with
    | int => obtain ⟨n, hn⟩ := flt t ht.2; exact ⟨_, n, hn, rfl⟩
    | float => obtain ⟨n, hn⟩ := flt t ht; exact ⟨_, n, hn, rfl⟩
    | choice l => cases h
    | flag => cases h
    | free => cases h
  | docunits =>
    rw [hty] at h
    cases f with
    | int => obtain ⟨n, hn⟩ := flt t ht.2; exact ⟨_, n, hn, rfl⟩
    | float => obtain ⟨n, hn⟩ := flt t ht; exact ⟨_, n, hn, rfl⟩
    | choice l => cases h
    | flag => cases h
    | free => cases h

theorem dialogs_fit : ∀ p ∈ (dialogOptions : List (Dialog × List (OptSpec ℝ))), dialogFits p.1 (namesTypes p.2) = true := by
  decide +kernel

theorem dialogs_nodup : ∀ p ∈ (dialogOptions : List (Dialog × List (OptSpec ℝ))), ((namesTypes p.2).map Prod.fst).Nodup := by
  decide +kernel

/-- A default that is a text belongs to an option for texts, or is the digit 0. -/
def defaultOk (o : OptSpec ℝ) : Bool :=
  match o.default with
  | .text s => decide (o.type = .string) || (decide (o.type = .float) && decide (s = "0".toList))
  | _ => true

theorem dialogs_defaults : ∀ p ∈ (dialogOptions : List (Dialog × List (OptSpec ℝ))), p.2.all defaultOk = true := by
  decide +kernel

theorem dialogs_specs (rd : Reader ℝ) (hd : ReadsDigits rd) (p : Dialog × List (OptSpec ℝ)) (hp : p ∈ (dialogOptions : List (Dialog × List (OptSpec ℝ)))) :
    SpecsOk rd p.2 := by
  refine ⟨?_, ?_⟩
  · have := dialogs_nodup p hp
    simpa [namesTypes, List.map_map, Function.comp_def] using this
  · intro o ho s hs
    have := List.all_eq_true.1 (dialogs_defaults p hp) o ho
    unfold defaultOk at this
    rw [hs] at this
    simp only [Bool.or_eq_true, Bool.and_eq_true, decide_eq_true_eq] at this
    unfold Understood
    rcases this with h | ⟨h, h0⟩
    · rw [h]
      exact ⟨_, rfl⟩
    · rw [h, h0]
      exact ⟨_, _, (hd 0 (by omega)).2, rfl⟩

theorem dialogs_given (rd : Reader ℝ) (hd : ReadsDigits rd) (p : Dialog × List (OptSpec ℝ)) (hp : p ∈ (dialogOptions : List (Dialog × List (OptSpec ℝ))))
    (given : List (Str × Str)) (hg : ∀ g ∈ given, p.1.Gives rd g) : GivenOk rd p.2 given := by
  intro g hgm
  obtain ⟨f, hf, h1, h2⟩ := hg g hgm
  have := List.all_eq_true.1 (dialogs_fit p hp) f hf
  obtain ⟨o', ho', h3⟩ := List.any_eq_true.1 this
  simp only [Bool.and_eq_true, decide_eq_true_eq] at h3
  obtain ⟨o, ho, rfl⟩ := List.mem_map.1 ho'
  exact ⟨o, ho, h3.1.trans h1.symm, fits_understood rd hd o f.2 h3.2 g.2 h2⟩

/-! ## The claim -/

/-- **C181**, the dialogs whose program exists: whatever is entered in the dialog of an extension, in whatever order the fields are passed on, its program
accepts all of it (in a document with a known unit), and for every field that is passed on - once - the program works with an option of that name
whose value is what the text of the field means for the type of the option (missing: the dialogs without a program, see the refutation). -/
theorem C181_accepted_partial (rd : Reader ℝ) (hd : ReadsDigits rd) (num : Svg.NumEnv ℝ) (doc : DocInfo ℝ) (u : Svg.LenUnit)
    (order : List (Str × ℝ) → List (Str × ℝ)) (hord : ∀ l, (order l).Perm l) (p : Dialog × List (OptSpec ℝ))
    (hp : p ∈ (dialogOptions : List (Dialog × List (OptSpec ℝ)))) (given : List (Str × Str)) (hg : ∀ g ∈ given, p.1.Gives rd g)
    (hone : (given.map (·.1)).Nodup) :
    ∃ vs, optionValues rd num (some doc) u.name order p.2 given = .ok vs ∧
      ∀ g ∈ given, ∃ o ∈ p.2, ∃ v, o.name = g.1 ∧
        Means rd (u.size doc.conv.em doc.conv.ex * doc.viewScale) o.type g.2 v ∧ optLookup vs g.1 = some v := by
  have hs := dialogs_specs rd hd p hp
  have hk := dialogs_given rd hd p hp given hg
  obtain ⟨vs, hv⟩ := C174_accepted rd p.2 num doc u order hord hs given hk
  refine ⟨vs, hv, ?_⟩
  intro g hgm
  obtain ⟨o, ho, hname, _⟩ := hk g hgm
  have hl : lastGiven given o.name = some g.2 := by
    have key : ∀ l : List (Str × Str), (l.map (·.1)).Nodup → g ∈ l → l.filter (fun x => decide (x.1 = o.name)) = [g] := by
      intro l hl hm
      induction l with
      | nil => exact absurd hm (by simp)
      | cons a r ih =>
        rw [List.map_cons, List.nodup_cons] at hl
        rcases List.mem_cons.1 hm with rfl | hm
        · have hr : r.filter (fun x => decide (x.1 = o.name)) = [] := by
            rw [List.filter_eq_nil_iff]
            intro b hb hbe
            simp only [decide_eq_true_eq] at hbe
            exact hl.1 (List.mem_map.2 ⟨b, hb, hbe.trans hname⟩)
          rw [List.filter_cons, hr]
          simp [hname]
        · have ha : a.1 ≠ o.name := by
            intro h
            exact hl.1 (List.mem_map.2 ⟨g, hm, (h.trans hname).symm⟩)
          rw [List.filter_cons, ih hl.2 hm]
          simp [ha]
    unfold lastGiven
    rw [key given hone hgm]
    rfl
  obtain ⟨v, h1, h2⟩ := ((C174_values_partial rd p.2 num doc u order hord hs.1 given vs hv).1 o ho).1 g.2 hl
  exact ⟨o, ho, v, hname, h1, hname ▸ h2⟩

/-- **C181**, the programs: all dialogs but two run a program that exists, and each of these has its options in the table of `C181_accepted_partial`. -/
theorem C181_programs_partial : ∀ d ∈ allDialogs, d.file ≠ "nestrect.inx" → d.file ≠ "inkext_template.inx" →
    d.program ∈ programs ∧ d.file ∈ (dialogOptions : List (Dialog × List (OptSpec ℝ))).map (fun p => p.1.file) := by
  decide +kernel

/-- **C181**, a part that fails: two dialogs run a program that does not exist. -/
theorem C181_refuted_program : ∃ d ∈ allDialogs, ∃ e ∈ allDialogs, d.file = "nestrect.inx" ∧ e.file = "inkext_template.inx" ∧ d.program ∉ programs ∧ e.program ∉ programs := by
  decide +kernel

/-- **C181**, a part that fails: the dialog of tcnc has a comment that well-formed XML cannot have. -/
theorem C181_refuted_xml : ¬ XmlCommentOk tcncComment.toList := by
  intro h
  apply h
  have e : (tcncComment.toList ++ ['-']) = (tcncComment.toList ++ ['-']).take 412 ++ '-' :: '-' :: (tcncComment.toList ++ ['-']).drop 414 := by
    decide +kernel
  exact ⟨_, _, e⟩

/-- The digit a text is. -/
def digitOf (t : Str) : Option ℕ := (List.range 10).find? fun n => decide (natDigits n = t)

/-- There is a reader that understands the digits; the dialog for sine waves gives a number of cycles and an amplitude, and which of its pages was
open. -/
example : ∃ rd : Reader ℝ, ReadsDigits rd ∧
    (∀ g ∈ [("cycles".toList, "3".toList), ("active-tab".toList, "about".toList), ("amplitude".toList, "7".toList)], sinewaveDialog.Gives rd g) ∧
    (sinewaveDialog, sinewaveOptions ++ commonOptions) ∈ (dialogOptions : List (Dialog × List (OptSpec ℝ))) := by
  have h : ∀ n < 10, digitOf (natDigits n) = some n := by decide +kernel
  have h3 : digitOf "3".toList = some 3 := by decide +kernel
  have h7 : digitOf "7".toList = some 7 := by decide +kernel
  refine ⟨⟨fun t => (digitOf t).map fun n => (n : ℝ), fun t => (digitOf t).map fun n => (n : ℤ)⟩, ?_, ?_, by
    simp only [dialogOptions, List.mem_cons, true_or, or_true]⟩
  · intro n hn
    simp [h n hn]
  · intro g hg
    simp only [List.mem_cons, List.not_mem_nil, or_false] at hg
    rcases hg with rfl | rfl | rfl
    · exact ⟨("cycles", .int), by simp [sinewaveDialog], rfl, by simp only [Field.Gives, h3]; simp⟩
    · exact ⟨("active-tab", .choice ["sinewave", "about"]), by simp [sinewaveDialog], rfl, "about", by simp, rfl⟩
    · exact ⟨("amplitude", .float), by simp [sinewaveDialog], rfl, by simp only [Field.Gives, h7]; simp⟩

end Verif.Cam
