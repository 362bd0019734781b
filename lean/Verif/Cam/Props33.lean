import Verif.Cam.Start
import Verif.Cam.Props27
import Verif.Svg.Props21

/-!
# C185: what an extension finds when it is run
-/

set_option linter.unusedSectionVars false
set_option linter.unusedVariables false

namespace Verif.Cam
open Verif PyFloat PyTrig
open Verif.Svg (XNode NumEnv Conv LenUnit exactR printedR)

section
variable (rd : Reader ℝ) (specs : List (OptSpec ℝ))

/-- Specification: the value of an option that is no length: what the text given last means, or its default. -/
def HasValue (given : List (Str × Str)) (o : OptSpec ℝ) (v : OptVal ℝ) : Prop :=
  match lastGiven given o.name with
  | some t => Means rd 1 o.type t v
  | none =>
    match o.default with
    | .text s => Means rd 1 o.type s v
    | d => v = d

/-- Specification: no length is given, and no length has a text as its default. -/
def NoLengths (given : List (Str × Str)) : Prop := ∀ o ∈ specs, o.type = .docunits → lastGiven given o.name = none ∧ ∀ s, o.default ≠ .text s

/-- **C185**, with a file: the document is the file as it is opened, and the value of every option is what the text given last means for its type, with lengths in
the unit of that document, or else its default. -/
theorem C185_file (env : NumEnv ℝ) (c : Conv ℝ) (eps : ℝ) (order : List (Str × ℝ) → List (Str × ℝ)) (hord : ∀ l, (order l).Perm l)
    (hn : (specs.map (·.name)).Nodup) (given : List (Str × Str)) (doc : XNode) (docId : Str) (s : Started ℝ) (u : LenUnit)
    (h : startMain rd env c eps order specs given docId (some doc) = .ok s) (hu : s.opened.info.docUnits = u.name) :
    s.doc = doc ∧ openDoc env c eps doc = .ok s.opened ∧
    ∀ o ∈ specs,
      (∀ t, lastGiven given o.name = some t →
        ∃ v, Means rd (u.size s.opened.info.conv.em s.opened.info.conv.ex * s.opened.info.viewScale) o.type t v ∧ optLookup s.values o.name = some v) ∧
      (lastGiven given o.name = none → (∀ t, o.default ≠ .text t) → optLookup s.values o.name = some o.default) := by
  have h : startFile rd env c eps order specs given doc = .ok s := h
  unfold startFile at h
  cases hp : processOptions rd specs given with
  | error e => rw [hp] at h; cases h
  | ok p =>
    cases hd : openDoc env c eps doc with
    | error e => rw [hp, hd] at h; cases h
    | ok d =>
      rw [hp, hd] at h
      cases hc : convertLengths env (some d.info) d.info.docUnits p.values (order p.lengths) with
      | error e => simp only [bind, Except.bind, raising, hc] at h; cases h
      | ok vs =>
        simp only [bind, Except.bind, raising, hc] at h
        injection h with h
        subst h
        have hov : optionValues rd env (some d.info) u.name order specs given = .ok vs := by
          unfold optionValues
          rw [hp, ← hu]
          exact hc
        obtain ⟨hv, -⟩ := C174_values_partial rd specs env d.info u order hord hn given vs hov
        exact ⟨rfl, rfl, fun o ho => ⟨(hv o ho).1, fun hl => ((hv o ho).2 hl).2⟩⟩

theorem mem_setOpt {α : Type} (l : List (Str × α)) (key : Str) (v : α) (k : Str) (x : α) (h : (k, x) ∈ setOpt l key v) : k = key ∨ (k, x) ∈ l := by
  induction l with
  | nil =>
    simp only [setOpt, List.mem_singleton, Prod.mk.injEq] at h
    exact .inl h.1
  | cons g r ih =>
    obtain ⟨k', w⟩ := g
    unfold setOpt at h
    split at h
    · rcases List.mem_cons.1 h with h | h
      · exact .inl (congrArg Prod.fst h)
      · exact .inr (List.mem_cons_of_mem _ h)
    · rcases List.mem_cons.1 h with h | h
      · exact .inr (h ▸ List.mem_cons_self)
      · rcases ih h with h | h
        · exact .inl h
        · exact .inr (List.mem_cons_of_mem _ h)

/-- The lengths kept for later have names of options. -/
def NamesOk (p : Parsed ℝ) : Prop := ∀ k x, (k, x) ∈ p.lengths → ∃ o ∈ specs, o.name = k

theorem names_store (o : OptSpec ℝ) (ho : o ∈ specs) (t : Str) (p q : Parsed ℝ) (hp : NamesOk specs p) (h : storeText rd o t p = .ok q) : NamesOk specs q := by
  have keep : q.lengths = p.lengths → NamesOk specs q := fun he k x hm => hp k x (he ▸ hm)
  have map_ok : ∀ {α : Type} {r : Except OptFail α} {f : α → Parsed ℝ}, r.map f = .ok q → ∃ a, q = f a := by
    intro α r f hh
    cases r with
    | error e => cases hh
    | ok a => injection hh with hh; exact ⟨a, hh.symm⟩
  unfold storeText at h
  split at h
  · injection h with h; exact keep (by rw [← h])
  · obtain ⟨a, rfl⟩ := map_ok h; exact keep rfl
  · obtain ⟨a, rfl⟩ := map_ok h; exact keep rfl
  · obtain ⟨a, rfl⟩ := map_ok h; exact keep rfl
  · obtain ⟨a, rfl⟩ := map_ok h; exact keep rfl
  · obtain ⟨a, rfl⟩ := map_ok h
    intro k x hm
    rcases mem_setOpt _ _ _ _ _ hm with rfl | hm
    · exact ⟨o, ho, rfl⟩
    · exact hp k x hm

theorem names_default (o : OptSpec ℝ) (ho : o ∈ specs) (p q : Parsed ℝ) (hp : NamesOk specs p) (h : storeDefault rd p o = .ok q) : NamesOk specs q := by
  unfold storeDefault at h
  split at h
  · exact names_store rd specs o ho _ p q hp h
  · injection h with h
    intro k x hm
    exact hp k x (by rw [← h] at hm; exact hm)

theorem names_all {α : Type} (f : Parsed ℝ → α → Except OptFail (Parsed ℝ)) (l : List α)
    (hf : ∀ a ∈ l, ∀ p q, NamesOk specs p → f p a = .ok q → NamesOk specs q) (p q : Parsed ℝ) (hp : NamesOk specs p) (h : readAll f p l = .ok q) : NamesOk specs q := by
  induction l generalizing p with
  | nil => injection h with h; exact h ▸ hp
  | cons a l ih =>
    unfold readAll at h
    split at h
    · next q' hq' => exact ih (fun b hb => hf b (by simp [hb])) q' (hf a (by simp) p q' hp hq') h
    · cases h

theorem names_process (given : List (Str × Str)) (q : Parsed ℝ) (h : processOptions rd specs given = .ok q) : NamesOk specs q := by
  unfold processOptions at h
  split at h
  · next p hp =>
    have h1 : NamesOk specs p := names_all specs _ _ (fun o ho p q => names_default rd specs o ho p q) ⟨[], []⟩ p (by intro k x hm; cases hm) hp
    refine names_all specs _ _ ?_ p q h1 h
    intro g hg p q hp hq
    unfold storeGiven at hq
    split at hq
    · next o ho => exact names_store rd specs o (List.mem_of_find?_eq_some ho) _ p q hp hq
    · cases hq
  · cases h

theorem lengths_nil (hn : (specs.map (·.name)).Nodup) (given : List (Str × Str)) (q : Parsed ℝ) (h : processOptions rd specs given = .ok q)
    (hl : NoLengths specs given) : q.lengths = [] := by
  have hq := names_process rd specs given q h
  obtain ⟨a1, a2, -⟩ := processOptions_known rd specs hn given q h
  cases hq' : q.lengths with
  | nil => rfl
  | cons g r =>
    exfalso
    obtain ⟨k, x⟩ := g
    have hm : (k, x) ∈ q.lengths := by rw [hq']; simp
    obtain ⟨o, ho, rfl⟩ := hq k x hm
    have hlook : optLookup q.lengths o.name = some x := (optLookup_mem _ a1.1 _ _).2 hm
    by_cases hty : o.type = .docunits
    · obtain ⟨h1, h2⟩ := hl o ho hty
      have hk := a2 o ho
      unfold finalSource at hk
      rw [h1] at hk
      have : defaultSource o = .value o.default := by
        unfold defaultSource
        split
        · next s hh => exact absurd hh (h2 s)
        · rfl
      rw [this] at hk
      rw [hk.2] at hlook
      cases hlook
    · rw [a1.2 o ho hty] at hlook
      cases hlook

theorem process_accepts (hs : SpecsOk rd specs) (given : List (Str × Str)) (hg : GivenOk rd specs given) : ∃ q, processOptions rd specs given = .ok q := by
  obtain ⟨p, hp⟩ := defaults_accept rd specs hs.2 ⟨[], []⟩
  obtain ⟨q, hq⟩ := given_accept rd specs hs.1 given [] hg p
  rw [List.append_nil] at hq
  exact ⟨q, by unfold processOptions; rw [hp]; exact hq⟩

theorem value_known (given : List (Str × Str)) (q : Parsed ℝ) (hn : (specs.map (·.name)).Nodup) (h : processOptions rd specs given = .ok q) (o : OptSpec ℝ) (ho : o ∈ specs)
    (hty : o.type ≠ .docunits) : ∃ v, HasValue rd given o v ∧ optLookup q.values o.name = some v := by
  obtain ⟨-, a2, -⟩ := processOptions_known rd specs hn given q h
  have hk := a2 o ho
  unfold HasValue
  unfold finalSource at hk
  cases hl : lastGiven given o.name with
  | some t =>
    rw [hl] at hk
    obtain ⟨v, h1, h2, -⟩ := hk.2 hty
    exact ⟨v, h1, h2⟩
  | none =>
    rw [hl] at hk
    unfold defaultSource at hk
    cases hd : o.default with
    | text s =>
      rw [hd] at hk
      obtain ⟨v, h1, h2, -⟩ := hk.2 hty
      exact ⟨v, h1, h2⟩
    | none => rw [hd] at hk; exact ⟨_, rfl, hk.1⟩
    | int n => rw [hd] at hk; exact ⟨_, rfl, hk.1⟩
    | num n => rw [hd] at hk; exact ⟨_, rfl, hk.1⟩
    | bool n => rw [hd] at hk; exact ⟨_, rfl, hk.1⟩

/-- Specification: the number the option `name`, of type `float` and with the default 500, has. -/
def SizeGiven (given : List (Str × Str)) (name : String) (w : ℝ) : Prop :=
  match lastGiven given name.toList with
  | some t => rd.float t = some w
  | none => w = 500

/-- Specification: the unit that is given, or else pixels. -/
def UnitGiven (given : List (Str × Str)) (u : LenUnit) : Prop :=
  match lastGiven given "doc-units".toList with
  | some t => t = u.name
  | none => u = .px

/-- **C185**, without a file, the part that holds: if everything given is understood and no length is given, the extension is run on a new document that opens as a
page of the width, height and unit given (500 by 500 pixels if none are), and all options have the values given or their defaults.  Missing: lengths, see the
refutation; the page is the size asked for times the size of the unit (see C131). -/
theorem C185_blank_partial {c : Conv ℝ} (hc : c.Positive) {eps : ℝ} (heps : 0 < eps) (order : List (Str × ℝ) → List (Str × ℝ)) (hord : ∀ l, (order l).Perm l)
    (own : List (OptSpec ℝ)) (hs : SpecsOk rd (own ++ commonOptions)) (given : List (Str × Str)) (hg : GivenOk rd (own ++ commonOptions) given)
    (hl : NoLengths (own ++ commonOptions) given) (docId : Str) (w h : ℝ) (u : LenUnit) (hw : SizeGiven rd given "doc-width" w) (hh : SizeGiven rd given "doc-height" h)
    (hu : UnitGiven given u) (hw0 : 1 / 10 ^ 6 ≤ w) (hh0 : 1 / 10 ^ 6 ≤ h) :
    ∃ s W H, startMain rd exactR c eps order (own ++ commonOptions) given docId none = .ok s ∧
      openDoc exactR c eps s.doc = .ok s.opened ∧ s.opened = ⟨⟨u.name, ⟨c.em, c.em⟩, 1⟩, W * u.size c.em c.em, H * u.size c.em c.em⟩ ∧
      |W - w| ≤ 1 / 2 / 10 ^ 6 ∧ |H - h| ≤ 1 / 2 / 10 ^ 6 ∧ (∀ k : ℤ, w = k / 10 ^ 6 → W = w) ∧ (∀ k : ℤ, h = k / 10 ^ 6 → H = h) ∧
      ∀ o ∈ own ++ commonOptions, o.type ≠ .docunits → ∃ v, HasValue rd given o v ∧ optLookup s.values o.name = some v := by
  obtain ⟨q, hq⟩ := process_accepts rd _ hs given hg
  have hnil := lengths_nil rd _ hs.1 given q hq hl
  have hord' : order q.lengths = [] := by
    have := hord q.lengths
    rw [hnil] at this ⊢
    exact this.eq_nil
  have hval := fun o ho hty => value_known rd _ given q hs.1 hq o ho hty
  have mem : ∀ o ∈ (commonOptions : List (OptSpec ℝ)), o ∈ own ++ commonOptions := fun o ho => List.mem_append_right _ ho
  have size : ∀ name : String, ∀ x, optF name (500 : ℝ) ∈ (commonOptions : List (OptSpec ℝ)) → SizeGiven rd given name x → numOf q.values name = x := by
    intro name x hm hx
    obtain ⟨v, h1, h2⟩ := hval _ (mem _ hm) (by simp [optF])
    have h2 : optLookup q.values name.toList = some v := h2
    unfold numOf
    rw [h2]
    unfold HasValue at h1
    unfold SizeGiven at hx
    have e1 : (optF name (500 : ℝ) : OptSpec ℝ).name = name.toList := rfl
    rw [e1] at h1
    split at h1
    · next t ht =>
      rw [ht] at hx
      obtain ⟨y, hy, rfl⟩ := h1
      rw [hx] at hy
      injection hy with hy
      exact hy.symm
    · next ht =>
      rw [ht] at hx
      have h1 : v = .num 500 := h1
      rw [h1, hx]
  have e500 : (ofInt 500 : ℝ) = 500 := by simp
  have sw := size "doc-width" w (by rw [← e500]; unfold commonOptions; simp only [List.mem_cons, true_or, or_true]) hw
  have sh := size "doc-height" h (by rw [← e500]; unfold commonOptions; simp only [List.mem_cons, true_or, or_true]) hh
  have su : textOf q.values "doc-units" = u.name := by
    obtain ⟨v, h1, h2⟩ := hval (optS "doc-units" "px") (mem _ (by unfold commonOptions; simp only [List.mem_cons, true_or, or_true])) (by simp [optS])
    have h2 : optLookup q.values "doc-units".toList = some v := h2
    unfold textOf
    rw [h2]
    unfold HasValue at h1
    unfold UnitGiven at hu
    have e1 : (optS "doc-units" "px" : OptSpec ℝ).name = "doc-units".toList := rfl
    rw [e1] at h1
    split at h1
    · next t ht =>
      rw [ht] at hu
      have h1 : v = .text t := h1
      rw [h1]
      exact hu
    · next ht =>
      rw [ht] at hu
      have h1 : v = .text "px".toList := h1
      rw [h1, hu]
      rfl
  have near := Svg.printedR_near 6
  have pos : ∀ v : ℝ, 1 / 10 ^ 6 ≤ v → 0 < printedR 6 v := by
    intro v hv
    have := near v
    rw [abs_le] at this
    norm_num at this hv ⊢
    linarith [this.1]
  have hopen := Svg.new_open hc heps (blankDoc q.values docId) u su (by show 0 < printedR 6 (numOf q.values "doc-width"); rw [sw]; exact pos _ hw0)
    (by show 0 < printedR 6 (numOf q.values "doc-height"); rw [sh]; exact pos _ hh0)
  have hopen : openDoc exactR c eps (Svg.newInkscape (blankDoc q.values docId)) =
      .ok ⟨⟨u.name, ⟨c.em, c.em⟩, 1⟩, printedR 6 w * u.size c.em c.em, printedR 6 h * u.size c.em c.em⟩ := by
    rw [hopen]
    show Except.ok (Opened.mk ⟨textOf q.values "doc-units", _, _⟩ (printedR 6 (numOf q.values "doc-width") * _) (printedR 6 (numOf q.values "doc-height") * _)) = _
    rw [su, sw, sh]
  refine ⟨⟨q.values, Svg.newInkscape (blankDoc q.values docId), _⟩, printedR 6 w, printedR 6 h, ?_, hopen, rfl, near w, near h, ?_, ?_, hval⟩
  · show startBlank rd exactR c eps order _ given docId = _
    unfold startBlank
    rw [hq]
    simp only [bind, Except.bind, hord', convertLengths, hopen]
    rfl
  · rintro k rfl; exact Svg.printedR_exact 6 k
  · rintro k rfl; exact Svg.printedR_exact 6 k

/-- **C185**, a file that cannot be opened: whatever options are given, if they are read, the exception with which opening the document fails ends the run. -/
theorem C185_bad_file (env : NumEnv ℝ) (c : Conv ℝ) (eps : ℝ) (order : List (Str × ℝ) → List (Str × ℝ)) (hs : SpecsOk rd specs) (given : List (Str × Str))
    (hg : GivenOk rd specs given) (docId : Str) (doc : XNode) (e : PyErr) (h : openDoc env c eps doc = .error e) :
    startMain rd env c eps order specs given docId (some doc) = .error (.raised e) := by
  obtain ⟨q, hq⟩ := process_accepts rd _ hs given hg
  show startFile rd env c eps order specs given doc = _
  unfold startFile
  rw [hq, h]
  rfl

/-- The part of **C185** that fails: if a length is given without a file, the lengths are converted before there is a document, which raises `AttributeError`. -/
theorem C185_refuted_length (env : NumEnv ℝ) (c : Conv ℝ) (eps : ℝ) (order : List (Str × ℝ) → List (Str × ℝ)) (hord : ∀ l, (order l).Perm l)
    (hs : SpecsOk rd specs) (given : List (Str × Str)) (hg : GivenOk rd specs given) (docId : Str) (o : OptSpec ℝ) (ho : o ∈ specs) (hty : o.type = .docunits)
    (hl : lastGiven given o.name ≠ none) :
    startMain rd env c eps order specs given docId none = .error (.raised .attributeError) := by
  obtain ⟨q, hq⟩ := process_accepts rd _ hs given hg
  obtain ⟨a1, a2, -⟩ := processOptions_known rd specs hs.1 given q hq
  have hk := a2 o ho
  unfold finalSource at hk
  cases ht : lastGiven given o.name with
  | none => exact absurd ht hl
  | some t =>
    rw [ht] at hk
    obtain ⟨x, -, hx⟩ := hk.1 hty
    have hne : order q.lengths ≠ [] := by
      intro he
      have := (hord q.lengths).symm
      rw [he] at this
      rw [this.eq_nil] at hx
      cases hx
    show startBlank rd env c eps order _ given docId = _
    unfold startBlank
    rw [hq]
    cases hor : order q.lengths with
    | nil => exact absurd hor hne
    | cons g r => obtain ⟨k, y⟩ := g; simp only [bind, Except.bind, hor, convertLengths, docunitOption]

end

/-- The default of a length is no text. -/
def lengthKind (s : OptSpec ℝ) : Bool :=
  match s.type, s.default with
  | .docunits, .text _ => false
  | _, _ => true

/-- **C185** without a file and without options: a page of 500 by 500 pixels. -/
theorem C185_nothing_given (rd : Reader ℝ) (h0 : rd.float "0".toList = some 0) {c : Conv ℝ} (hc : c.Positive) {eps : ℝ} (heps : 0 < eps)
    (order : List (Str × ℝ) → List (Str × ℝ)) (hord : ∀ l, (order l).Perm l) (docId : Str) :
    ∃ s, startMain rd exactR c eps order (tcncOptions ++ commonOptions) [] docId none = .ok s ∧ s.opened.width = 500 ∧ s.opened.height = 500 ∧
      s.opened.info.docUnits = "px".toList := by
  obtain ⟨s, W, H, h1, -, h2, -, -, h3, h4, -⟩ := C185_blank_partial rd hc heps order hord tcncOptions (tcnc_specs rd h0) [] (by intro g hg; cases hg)
    (by
      intro o ho hty
      refine ⟨rfl, ?_⟩
      intro s hd
      have hall : (tcncOptions ++ commonOptions : List (OptSpec ℝ)).all lengthKind = true := by decide +kernel
      have := List.all_eq_true.1 hall o ho
      unfold lengthKind at this
      rw [hty, hd] at this
      cases this) docId 500 500 .px rfl rfl rfl (by norm_num) (by norm_num)
  have e1 := h3 500000000 (by norm_num)
  have e2 := h4 500000000 (by norm_num)
  refine ⟨s, h1, ?_, ?_, ?_⟩
  · rw [h2, e1]; simp [LenUnit.size]
  · rw [h2, e2]; simp [LenUnit.size]
  · rw [h2]; rfl

/-- The unit, width and height of the page found, or why there is none. -/
def pageFound (r : Except OptFail (Started ℚ)) : Except OptFail (Str × ℚ × ℚ) := r.map fun s => (s.opened.info.docUnits, s.opened.width, s.opened.height)

/-- Why an extension does not get to run. -/
def whyNot {α : Type} : Except OptFail α → Option OptFail
  | .ok _ => none
  | .error e => some e

/-- Non-vacuity: a page of 8 by 10 inches; a length without a document; a switch that is not understood. -/
example :
    let rd : Reader ℚ := ⟨fun s => (Svg.exactQ.float s).toOption, fun _ => none⟩
    let go := fun given : List (String × String) => startMain rd Svg.exactQ Svg.Conv.default (1 / 100000) id (tcncOptions ++ commonOptions)
      (given.map fun g => (g.1.toList, g.2.toList)) "d1".toList none
    (pageFound (go [("doc-width", "8"), ("doc-units", "in"), ("doc-height", "10")])).toOption.map (·.1) = some "in".toList ∧
    (pageFound (go [("doc-width", "8"), ("doc-units", "in"), ("doc-height", "10")])).toOption.map (·.2) = some (720, 900) ∧
    whyNot (go [("tool-width", "1")]) = some (.raised .attributeError) ∧
    whyNot (go [("a-feed-match", "maybe")]) = some (.usage "a-feed-match".toList "maybe".toList) := by
  decide +kernel

end Verif.Cam
