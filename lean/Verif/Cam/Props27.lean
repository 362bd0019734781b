import Verif.Cam.Options
import Verif.Cam.Props19

/-!
# C174: the values of the options
-/

set_option linter.unusedSectionVars false
set_option linter.unusedVariables false

namespace Verif.Cam
open Verif PyFloat PyTrig

/-! ## Specification -/

/-- Specification: texts that mean yes, in small or capital letters. -/
def SaysYes (t : Str) : Prop := t.map Char.toLower ∈ ["true".toList, "t".toList, "yes".toList, "y".toList]

/-- Specification: texts that mean no, in small or capital letters. -/
def SaysNo (t : Str) : Prop := t.map Char.toLower ∈ ["false".toList, "f".toList, "no".toList, "n".toList]

/-- Specification: what a text means for an option of a type; angles are given in degrees and used in radians, lengths are given in a unit that is
`unit` user units long. -/
def Means (rd : Reader ℝ) (unit : ℝ) (ty : OptType) (t : Str) (v : OptVal ℝ) : Prop :=
  match ty with
  | .string => v = .text t
  | .int => ∃ n, rd.int t = some n ∧ v = .int n
  | .float => ∃ x, rd.float t = some x ∧ v = .num x
  | .inkbool => (SaysYes t ∧ v = .bool true) ∨ (SaysNo t ∧ v = .bool false)
  | .degrees => ∃ x, rd.float t = some x ∧ v = .num (x * Real.pi / 180)
  | .docunits => ∃ x, rd.float t = some x ∧ v = .num (x * unit)

/-- Specification: the text given last for an option. -/
def lastGiven (given : List (Str × Str)) (name : Str) : Option Str := ((given.filter (fun g => decide (g.1 = name))).map (·.2)).getLast?

/-- Specification: a text can be understood. -/
def Understood (rd : Reader ℝ) (o : OptSpec ℝ) (t : Str) : Prop := ∃ v, Means rd 1 o.type t v

/-- Specification: the defaults that are texts can be understood, and the names differ. -/
def SpecsOk (rd : Reader ℝ) (specs : List (OptSpec ℝ)) : Prop :=
  (specs.map (·.name)).Nodup ∧ ∀ o ∈ specs, ∀ s, o.default = .text s → Understood rd o s

/-- Specification: everything given is an option and can be understood. -/
def GivenOk (rd : Reader ℝ) (specs : List (OptSpec ℝ)) (given : List (Str × Str)) : Prop :=
  ∀ g ∈ given, ∃ o ∈ specs, o.name = g.1 ∧ Understood rd o g.2

/-! ## Dictionaries -/

theorem optLookup_set {α : Type} (l : List (Str × α)) (k : Str) (v : α) (key : Str) :
    optLookup (setOpt l k v) key = if k = key then some v else optLookup l key := by
  induction l with
  | nil => rfl
  | cons a r ih =>
    obtain ⟨k1, w⟩ := a
    by_cases h : k1 = k
    · subst h
      simp only [setOpt, if_true, optLookup]
      split <;> rfl
    · simp only [setOpt, if_neg h, optLookup, ih]
      by_cases h2 : k1 = key
      · subst h2
        simp [Ne.symm h]
      · simp [h2]

theorem setOpt_keys {α : Type} (l : List (Str × α)) (k : Str) (v : α) (h : (l.map (·.1)).Nodup) : ((setOpt l k v).map (·.1)).Nodup := by
  induction l with
  | nil => simp [setOpt]
  | cons a r ih =>
    obtain ⟨k1, w⟩ := a
    simp only [List.map_cons, List.nodup_cons] at h
    by_cases hk : k1 = k
    · subst hk
      simpa [setOpt] using h
    · simp only [setOpt, if_neg hk, List.map_cons, List.nodup_cons]
      refine ⟨?_, ih h.2⟩
      have : ∀ r : List (Str × α), k1 ∉ r.map (·.1) → k1 ∉ (setOpt r k v).map (·.1) := by
        intro r
        induction r with
        | nil => intro _; simp [setOpt, hk]
        | cons b r ih =>
          obtain ⟨k2, w2⟩ := b
          intro hh
          simp only [List.map_cons, List.mem_cons, not_or] at hh
          by_cases hk2 : k2 = k
          · subst hk2
            simpa [setOpt] using hh
          · simp only [setOpt, if_neg hk2, List.map_cons, List.mem_cons, not_or]
            exact ⟨hh.1, ih hh.2⟩
      exact this r h.1

theorem optLookup_mem {α : Type} (l : List (Str × α)) (h : (l.map (·.1)).Nodup) (k : Str) (v : α) : optLookup l k = some v ↔ (k, v) ∈ l := by
  induction l with
  | nil => simp [optLookup]
  | cons a r ih =>
    obtain ⟨k1, w⟩ := a
    simp only [List.map_cons, List.nodup_cons] at h
    by_cases hk : k1 = k
    · subst hk
      have : (k1, v) ∉ r := fun hm => h.1 (List.mem_map_of_mem (f := (·.1)) hm)
      simp only [optLookup, if_true, List.mem_cons, Prod.mk.injEq, true_and, this, or_false, Option.some.injEq]
      exact eq_comm
    · simp only [optLookup, if_neg hk, ih h.2, List.mem_cons, Prod.mk.injEq, Ne.symm hk, false_and, false_or]

theorem optLookup_none {α : Type} (l : List (Str × α)) (k : Str) : optLookup l k = none ↔ ∀ v, (k, v) ∉ l := by
  induction l with
  | nil => simp [optLookup]
  | cons a r ih =>
    obtain ⟨k1, w⟩ := a
    by_cases hk : k1 = k
    · subst hk
      simp only [optLookup, if_true, List.mem_cons, not_or]
      constructor
      · intro h; exact absurd h (by simp)
      · intro h; exact absurd rfl (h w).1
    · simp only [optLookup, if_neg hk, ih, List.mem_cons, Prod.mk.injEq, Ne.symm hk, false_and, false_or]

/-! ## Yes and no -/

theorem upper_lower (c : Char) : (upperC c = 'T' ↔ c.toLower = 't') ∧ (upperC c = 'R' ↔ c.toLower = 'r') ∧ (upperC c = 'U' ↔ c.toLower = 'u') ∧
    (upperC c = 'E' ↔ c.toLower = 'e') ∧ (upperC c = 'Y' ↔ c.toLower = 'y') ∧ (upperC c = 'S' ↔ c.toLower = 's') ∧ (upperC c = 'F' ↔ c.toLower = 'f') ∧
    (upperC c = 'A' ↔ c.toLower = 'a') ∧ (upperC c = 'L' ↔ c.toLower = 'l') ∧ (upperC c = 'N' ↔ c.toLower = 'n') ∧ (upperC c = 'O' ↔ c.toLower = 'o') := by
  by_cases hc : c.toNat < 128
  · have key : ∀ n : Fin 128, let c := Char.ofNat n
        (upperC c = 'T' ↔ c.toLower = 't') ∧ (upperC c = 'R' ↔ c.toLower = 'r') ∧ (upperC c = 'U' ↔ c.toLower = 'u') ∧
        (upperC c = 'E' ↔ c.toLower = 'e') ∧ (upperC c = 'Y' ↔ c.toLower = 'y') ∧ (upperC c = 'S' ↔ c.toLower = 's') ∧ (upperC c = 'F' ↔ c.toLower = 'f') ∧
        (upperC c = 'A' ↔ c.toLower = 'a') ∧ (upperC c = 'L' ↔ c.toLower = 'l') ∧ (upperC c = 'N' ↔ c.toLower = 'n') ∧ (upperC c = 'O' ↔ c.toLower = 'o') := by
      decide +kernel
    have := key ⟨c.toNat, hc⟩
    simpa [Char.ofNat_toNat] using this
  · have h1 : upperC c = c := by
      unfold upperC
      rw [if_neg]
      rintro ⟨_, h⟩
      have : c.toNat ≤ 'z'.toNat := h
      have hz : 'z'.toNat = 122 := rfl
      omega
    have h2 : c.toLower = c := by
      unfold Char.toLower
      rw [dif_neg]
      rintro ⟨_, h⟩
      have : c.val.toNat ≤ 'Z'.val.toNat := by exact_mod_cast (UInt32.le_iff_toNat_le.mp h)
      have hz : 'Z'.val.toNat = 90 := rfl
      have : c.toNat = c.val.toNat := rfl
      omega
    have ne : ∀ d : Char, d.toNat < 128 → c ≠ d := by
      rintro d hd rfl
      exact hc hd
    rw [h1, h2]
    refine ⟨?_, ?_, ?_, ?_, ?_, ?_, ?_, ?_, ?_, ?_, ?_⟩ <;>
      exact ⟨fun h => absurd h (ne _ (by decide)), fun h => absurd h (ne _ (by decide))⟩

theorem upper_word (t : Str) :
    (upperS t ∈ ["TRUE".toList, "T".toList, "YES".toList, "Y".toList] ↔ SaysYes t) ∧
    (upperS t ∈ ["FALSE".toList, "F".toList, "NO".toList, "N".toList] ↔ SaysNo t) := by
  have e := upper_lower
  have h : ∀ (c : Char), _ := e
  unfold SaysYes SaysNo upperS
  rcases t with _ | ⟨a, _ | ⟨b, _ | ⟨c, _ | ⟨d, _ | ⟨f, _ | ⟨g, r⟩⟩⟩⟩⟩⟩ <;>
    simp [(e _).1, (e _).2.1, (e _).2.2.1, (e _).2.2.2.1, (e _).2.2.2.2.1, (e _).2.2.2.2.2.1, (e _).2.2.2.2.2.2.1, (e _).2.2.2.2.2.2.2.1,
      (e _).2.2.2.2.2.2.2.2.1, (e _).2.2.2.2.2.2.2.2.2.1, (e _).2.2.2.2.2.2.2.2.2.2]

theorem yes_no (t : Str) : SaysYes t → ¬ SaysNo t := by
  unfold SaysYes SaysNo
  intro h
  simp only [List.mem_cons, List.not_mem_nil, or_false] at h
  rcases h with h | h | h | h <;> rw [h] <;> decide

/-! ## Reading -/

section
variable (rd : Reader ℝ) (specs : List (OptSpec ℝ))

/-- Where the value of an option comes from: a text, or a default that is no text. -/
inductive Source
  | nothing
  | text (t : Str)
  | value (v : OptVal ℝ)

/-- What is known about one option while options are read. -/
def KnownAs (p : Parsed ℝ) (o : OptSpec ℝ) (s : Source) : Prop :=
  match s with
  | .nothing => optLookup p.values o.name = none ∧ optLookup p.lengths o.name = none
  | .value v => optLookup p.values o.name = some v ∧ optLookup p.lengths o.name = none
  | .text t => (o.type = .docunits → ∃ x, rd.float t = some x ∧ optLookup p.lengths o.name = some x) ∧
      (o.type ≠ .docunits → ∃ v, Means rd 1 o.type t v ∧ optLookup p.values o.name = some v ∧ optLookup p.lengths o.name = none)

theorem orUsage_ok {α : Type} (name text : Str) (r : Option α) (x : α) : orUsage name text r = .ok x ↔ r = some x := by
  cases r <;> simp [orUsage]

theorem inkbool_ok (name text : Str) (b : Bool) : checkInkbool name text = .ok b ↔ (SaysYes text ∧ b = true) ∨ (SaysNo text ∧ b = false) := by
  unfold checkInkbool
  dsimp only
  have h := upper_word text
  by_cases hy : SaysYes text
  · rw [if_pos (h.1.mpr hy)]
    have := yes_no text hy
    simp [hy, this, eq_comm]
  · rw [if_neg (fun hh => hy (h.1.mp hh))]
    by_cases hn : SaysNo text
    · rw [if_pos (h.2.mpr hn)]
      simp [hy, hn, eq_comm]
    · rw [if_neg (fun hh => hn (h.2.mp hh))]
      simp [hy, hn]

/-- What storing a text does. -/
theorem storeText_spec (o : OptSpec ℝ) (t : Str) (p q : Parsed ℝ) (h : storeText rd o t p = .ok q) :
    (∃ v, q.values = setOpt p.values o.name v ∧ (o.type ≠ .docunits → Means rd 1 o.type t v ∧ q.lengths = p.lengths)) ∧
    (o.type = .docunits → ∃ x, rd.float t = some x ∧ q.lengths = setOpt p.lengths o.name x) := by
  obtain ⟨name, ty, dflt⟩ := o
  cases ty
  · simp only [storeText] at h
    injection h with h
    subst h
    exact ⟨⟨_, rfl, fun _ => ⟨rfl, rfl⟩⟩, fun h => absurd h (by simp)⟩
  · simp only [storeText] at h
    cases hr : rd.int t with
    | none => rw [hr] at h; simp [orUsage, Except.map] at h
    | some n =>
      rw [hr] at h
      simp only [orUsage, Except.map] at h
      injection h with h
      subst h
      exact ⟨⟨_, rfl, fun _ => ⟨⟨n, hr, rfl⟩, rfl⟩⟩, fun h => absurd h (by simp)⟩
  · simp only [storeText] at h
    cases hr : rd.float t with
    | none => rw [hr] at h; simp [orUsage, Except.map] at h
    | some n =>
      rw [hr] at h
      simp only [orUsage, Except.map] at h
      injection h with h
      subst h
      exact ⟨⟨_, rfl, fun _ => ⟨⟨n, hr, rfl⟩, rfl⟩⟩, fun h => absurd h (by simp)⟩
  · simp only [storeText] at h
    cases hr : checkInkbool name t with
    | error e => rw [hr] at h; simp [Except.map] at h
    | ok b =>
      rw [hr] at h
      simp only [Except.map] at h
      injection h with h
      subst h
      refine ⟨⟨_, rfl, fun _ => ⟨?_, rfl⟩⟩, fun h => absurd h (by simp)⟩
      rcases (inkbool_ok _ _ _).mp hr with ⟨h1, h2⟩ | ⟨h1, h2⟩
      · exact .inl ⟨h1, by rw [h2]⟩
      · exact .inr ⟨h1, by rw [h2]⟩
  · simp only [storeText, checkDegrees] at h
    cases hr : rd.float t with
    | none => rw [hr] at h; simp [Except.map] at h
    | some n =>
      rw [hr] at h
      simp only [Except.map] at h
      injection h with h
      subst h
      exact ⟨⟨_, rfl, fun _ => ⟨⟨n, hr, by simp [Svg.radians]⟩, rfl⟩⟩, fun h => absurd h (by simp)⟩
  · simp only [storeText, checkDocunits] at h
    cases hr : rd.float t with
    | none => rw [hr] at h; simp [Except.map] at h
    | some n =>
      rw [hr] at h
      simp only [Except.map] at h
      injection h with h
      subst h
      exact ⟨⟨_, rfl, fun h => absurd rfl h⟩, fun _ => ⟨n, rfl, rfl⟩⟩

/-- Storing the text of an option makes it the source of its value and leaves the others. -/
theorem storeText_known (o : OptSpec ℝ) (t : Str) (p q : Parsed ℝ) (h : storeText rd o t p = .ok q) :
    (optLookup p.lengths o.name = none ∨ o.type = .docunits → KnownAs rd q o (.text t)) ∧
    (∀ o' : OptSpec ℝ, o'.name ≠ o.name → ∀ s, KnownAs rd p o' s → KnownAs rd q o' s) ∧
    ((p.lengths.map (·.1)).Nodup → (q.lengths.map (·.1)).Nodup) := by
  obtain ⟨⟨v, hv, hn⟩, hd⟩ := storeText_spec rd o t p q h
  have hlen : ∀ key, key ≠ o.name → optLookup q.lengths key = optLookup p.lengths key := by
    intro key hk
    by_cases ht : o.type = .docunits
    · obtain ⟨x, _, hx⟩ := hd ht
      rw [hx, optLookup_set, if_neg (Ne.symm hk)]
    · rw [(hn ht).2]
  have hval : ∀ key, key ≠ o.name → optLookup q.values key = optLookup p.values key := by
    intro key hk
    rw [hv, optLookup_set, if_neg (Ne.symm hk)]
  refine ⟨?_, ?_, ?_⟩
  · intro hl
    refine ⟨fun ht => ?_, fun ht => ?_⟩
    · obtain ⟨x, h1, hx⟩ := hd ht
      exact ⟨x, h1, by rw [hx, optLookup_set, if_pos rfl]⟩
    · refine ⟨v, (hn ht).1, by rw [hv, optLookup_set, if_pos rfl], ?_⟩
      rw [(hn ht).2]
      exact hl.resolve_right ht
  · intro o' ho s hs
    cases s <;> simp only [KnownAs, hlen _ ho, hval _ ho] at hs ⊢ <;> exact hs
  · intro hp
    by_cases ht : o.type = .docunits
    · obtain ⟨x, _, hx⟩ := hd ht
      rw [hx]
      exact setOpt_keys _ _ _ hp
    · rw [(hn ht).2]
      exact hp

/-- The lengths read so far belong to length options. -/
def LengthsOk (specs : List (OptSpec ℝ)) (p : Parsed ℝ) : Prop :=
  (p.lengths.map (·.1)).Nodup ∧ ∀ o ∈ specs, o.type ≠ .docunits → optLookup p.lengths o.name = none

/-- The source of the value of an option after the defaults. -/
def defaultSource (o : OptSpec ℝ) : Source :=
  match o.default with
  | .text s => .text s
  | v => .value v

theorem storeDefault_known (hn : (specs.map (·.name)).Nodup) (o : OptSpec ℝ) (ho : o ∈ specs) (p q : Parsed ℝ) (hl : LengthsOk specs p)
    (h0 : optLookup p.lengths o.name = none)
    (h : storeDefault rd p o = .ok q) : LengthsOk specs q ∧ KnownAs rd q o (defaultSource o) ∧
    (∀ o' : OptSpec ℝ, o'.name ≠ o.name → ∀ s, KnownAs rd p o' s → KnownAs rd q o' s) ∧
    (∀ key, key ≠ o.name → optLookup q.lengths key = optLookup p.lengths key) := by
  have inj : ∀ a ∈ specs, a.name = o.name → a = o := fun a ha hh => List.inj_on_of_nodup_map hn ha ho hh
  by_cases hd : ∃ s, o.default = .text s
  · obtain ⟨s, hs⟩ := hd
    have h' : storeText rd o s p = .ok q := by simpa [storeDefault, hs] using h
    obtain ⟨h1, h2, h3⟩ := storeText_known rd o s p q h'
    obtain ⟨⟨v, hv, hn'⟩, hd'⟩ := storeText_spec rd o s p q h'
    have hlen : ∀ key, key ≠ o.name → optLookup q.lengths key = optLookup p.lengths key := by
      intro key hk
      by_cases ht : o.type = .docunits
      · obtain ⟨x, _, hx⟩ := hd' ht
        rw [hx, optLookup_set, if_neg (Ne.symm hk)]
      · rw [(hn' ht).2]
    refine ⟨⟨h3 hl.1, ?_⟩, ?_, h2, hlen⟩
    · intro a ha hat
      by_cases hh : a.name = o.name
      · have := inj a ha hh
        subst this
        rw [(hn' hat).2]
        exact hl.2 a ha hat
      · rw [hlen _ hh]
        exact hl.2 a ha hat
    · have : defaultSource o = .text s := by simp [defaultSource, hs]
      rw [this]
      exact h1 (.inl h0)
  · have h' : q = { p with values := setOpt p.values o.name o.default } := by
      unfold storeDefault at h
      split at h
      · next s hs => exact absurd ⟨s, hs⟩ hd
      · injection h with h
        exact h.symm
    subst h'
    refine ⟨hl, ?_, ?_, fun _ _ => rfl⟩
    · have : defaultSource o = .value o.default := by
        unfold defaultSource
        split
        · next s hs => exact absurd ⟨s, hs⟩ hd
        · rfl
      rw [this]
      exact ⟨by rw [optLookup_set, if_pos rfl], h0⟩
    · intro o' ho' s hs
      cases s <;> simp only [KnownAs, optLookup_set, if_neg (Ne.symm ho')] at hs ⊢ <;> exact hs

theorem defaults_known (hn : (specs.map (·.name)).Nodup) (l : List (OptSpec ℝ)) (hsub : ∀ o ∈ l, o ∈ specs) (hl : (l.map (·.name)).Nodup) (p q : Parsed ℝ)
    (hp : LengthsOk specs p) (h0 : ∀ o ∈ l, optLookup p.lengths o.name = none) (h : readAll (storeDefault rd) p l = .ok q) :
    LengthsOk specs q ∧ (∀ o ∈ l, KnownAs rd q o (defaultSource o)) ∧
    (∀ o' : OptSpec ℝ, o'.name ∉ l.map (·.name) → ∀ s, KnownAs rd p o' s → KnownAs rd q o' s) := by
  induction l generalizing p with
  | nil =>
    simp only [readAll] at h
    injection h with h
    subst h
    exact ⟨hp, by simp, fun _ _ _ hs => hs⟩
  | cons o r ih =>
    cases hs : storeDefault rd p o with
    | error e => simp [readAll, hs] at h
    | ok p1 =>
      simp only [readAll, hs] at h
      simp only [List.map_cons, List.nodup_cons] at hl
      obtain ⟨a1, a2, a3, a4⟩ := storeDefault_known rd specs hn o (hsub o List.mem_cons_self) p p1 hp (h0 o List.mem_cons_self) hs
      have h0' : ∀ o' ∈ r, optLookup p1.lengths o'.name = none := by
        intro o' ho'
        rw [a4 _ (fun hh => hl.1 (hh ▸ List.mem_map_of_mem (f := (·.name)) ho'))]
        exact h0 o' (List.mem_cons_of_mem _ ho')
      obtain ⟨b1, b2, b3⟩ := ih (fun o' ho' => hsub o' (List.mem_cons_of_mem _ ho')) hl.2 p1 a1 h0' h
      refine ⟨b1, ?_, ?_⟩
      · intro o' ho'
        rcases List.mem_cons.mp ho' with rfl | ho'
        · exact b3 _ hl.1 _ a2
        · exact b2 o' ho'
      · intro o' ho' s hs'
        simp only [List.map_cons, List.mem_cons, not_or] at ho'
        exact b3 o' ho'.2 s (a3 o' ho'.1 s hs')

theorem lastGiven_cons (g : Str × Str) (r : List (Str × Str)) (name : Str) :
    lastGiven (g :: r) name = (lastGiven r name).or (if g.1 = name then some g.2 else none) := by
  unfold lastGiven
  by_cases h : g.1 = name
  · rw [List.filter_cons_of_pos (by simpa using h), List.map_cons, if_pos h]
    cases hr : List.map (fun x => x.2) (List.filter (fun g => decide (g.1 = name)) r) with
    | nil => simp
    | cons a b => simp [List.getLast?_cons_cons, List.getLast?_eq_getLast_of_ne_nil]
  · rw [List.filter_cons_of_neg (by simpa using h), if_neg h, Option.or_none]

/-- The source of the value of an option after the texts given. -/
def finalSource (given : List (Str × Str)) (o : OptSpec ℝ) (s : Source) : Source :=
  match lastGiven given o.name with
  | some t => .text t
  | none => s

theorem given_known (hn : (specs.map (·.name)).Nodup) (given : List (Str × Str)) (p q : Parsed ℝ) (hp : LengthsOk specs p)
    (h : readAll (storeGiven rd specs) p given = .ok q) :
    LengthsOk specs q ∧ (∀ o ∈ specs, ∀ s, KnownAs rd p o s → KnownAs rd q o (finalSource given o s)) ∧
    (∀ g ∈ given, ∃ o ∈ specs, o.name = g.1) := by
  induction given generalizing p with
  | nil =>
    simp only [readAll] at h
    injection h with h
    subst h
    exact ⟨hp, fun o _ s hs => hs, by simp⟩
  | cons g r ih =>
    cases hf : specs.find? (fun o => decide (o.name = g.1)) with
    | none => simp [readAll, storeGiven, hf] at h
    | some a =>
      cases hs : storeText rd a g.2 p with
      | error e => simp [readAll, storeGiven, hf, hs] at h
      | ok p1 =>
        simp only [readAll, storeGiven, hf, hs] at h
        have ha : a ∈ specs := List.mem_of_find?_eq_some hf
        have hname : a.name = g.1 := by simpa using List.find?_some hf
        obtain ⟨a1, a2, a3⟩ := storeText_known rd a g.2 p p1 hs
        obtain ⟨⟨v, hv, hn'⟩, hd'⟩ := storeText_spec rd a g.2 p p1 hs
        have hl1 : LengthsOk specs p1 := by
          refine ⟨a3 hp.1, ?_⟩
          intro b hb hbt
          by_cases hh : b.name = a.name
          · have := List.inj_on_of_nodup_map hn hb ha hh
            subst this
            rw [(hn' hbt).2]
            exact hp.2 b hb hbt
          · by_cases ht : a.type = .docunits
            · obtain ⟨x, _, hx⟩ := hd' ht
              rw [hx, optLookup_set, if_neg (Ne.symm hh)]
              exact hp.2 b hb hbt
            · rw [(hn' ht).2]
              exact hp.2 b hb hbt
        obtain ⟨b1, b2, b3⟩ := ih p1 hl1 h
        refine ⟨b1, ?_, ?_⟩
        · intro o ho s hks
          have key : ∀ s1, KnownAs rd p1 o s1 → (s1 = if g.1 = o.name then .text g.2 else s) → KnownAs rd q o (finalSource (g :: r) o s) := by
            intro s1 h1 h2
            have := b2 o ho s1 h1
            unfold finalSource at this ⊢
            rw [lastGiven_cons]
            cases hl : lastGiven r o.name with
            | some t => rw [hl] at this; simpa using this
            | none =>
              rw [hl] at this
              by_cases hg : g.1 = o.name
              · rw [if_pos hg] at h2
                subst h2
                simpa [hg] using this
              · rw [if_neg hg] at h2
                subst h2
                simpa [hg] using this
          by_cases hg : g.1 = o.name
          · have : o = a := List.inj_on_of_nodup_map hn ho ha (by rw [hname, hg])
            subst this
            refine key (.text g.2) (a1 ?_) (by rw [if_pos hg])
            by_cases ht : o.type = .docunits
            · exact .inr ht
            · exact .inl (hp.2 o ho ht)
          · exact key s (a2 o (by rw [hname]; exact fun hh => hg hh.symm) s hks) (by rw [if_neg hg])
        · intro g' hg'
          rcases List.mem_cons.mp hg' with rfl | hg'
          · exact ⟨a, ha, hname⟩
          · exact b3 g' hg'

theorem processOptions_known (hn : (specs.map (·.name)).Nodup) (given : List (Str × Str)) (q : Parsed ℝ) (h : processOptions rd specs given = .ok q) :
    LengthsOk specs q ∧ (∀ o ∈ specs, KnownAs rd q o (finalSource given o (defaultSource o))) ∧ (∀ g ∈ given, ∃ o ∈ specs, o.name = g.1) := by
  unfold processOptions at h
  cases hd : readAll (storeDefault rd) ⟨[], []⟩ specs with
  | error e => simp [hd] at h
  | ok p =>
    simp only [hd] at h
    obtain ⟨a1, a2, _⟩ := defaults_known rd specs hn specs (fun _ h => h) hn ⟨[], []⟩ p ⟨by simp, fun _ _ _ => rfl⟩ (fun _ _ => rfl) hd
    obtain ⟨b1, b2, b3⟩ := given_known rd specs hn given p q a1 h
    exact ⟨b1, fun o ho => b2 o ho _ (a2 o ho), b3⟩

theorem convertLengths_spec (num : Svg.NumEnv ℝ) (svg : Option (DocInfo ℝ)) (docUnits : Str) (unit : ℝ)
    (hu : ∀ x, docunitOption num svg docUnits (some x) x = .ok (x * unit)) (l : List (Str × ℝ)) (hl : (l.map (·.1)).Nodup) (vs : List (Str × OptVal ℝ)) :
    ∃ ws, convertLengths num svg docUnits vs l = .ok ws ∧
      ∀ key, optLookup ws key = match optLookup l key with | some x => some (.num (x * unit)) | none => optLookup vs key := by
  induction l generalizing vs with
  | nil => exact ⟨vs, rfl, fun _ => rfl⟩
  | cons a r ih =>
    obtain ⟨k, x⟩ := a
    simp only [List.map_cons, List.nodup_cons] at hl
    simp only [convertLengths, hu]
    obtain ⟨ws, h1, h2⟩ := ih hl.2 (setOpt vs k (.num (x * unit)))
    refine ⟨ws, h1, fun key => ?_⟩
    rw [h2 key]
    by_cases hk : k = key
    · subst hk
      have : optLookup r k = none := by
        rw [optLookup_none]
        intro v hv
        exact hl.1 (List.mem_map_of_mem (f := (·.1)) hv)
      rw [this]
      simp [optLookup, optLookup_set]
    · simp only [optLookup, if_neg hk, optLookup_set]

/-! ## The theorems -/

/-- A text for a length means the same up to the unit. -/
theorem means_unit (unit : ℝ) (ty : OptType) (h : ty ≠ .docunits) (t : Str) (v : OptVal ℝ) : Means rd 1 ty t v ↔ Means rd unit ty t v := by
  cases ty <;> first | rfl | exact absurd rfl h

/-- **C174**, values: whatever is given, in whatever order dictionaries are run through, if the options are read without failing then the value of
every option is what the text given last means for its type - with lengths in the unit of the document - or else its default: what its text means if
it is a text, and otherwise the default itself; nothing else was given. -/
theorem C174_values_partial (num : Svg.NumEnv ℝ) (doc : DocInfo ℝ) (u : Svg.LenUnit) (order : List (Str × ℝ) → List (Str × ℝ)) (hord : ∀ l, (order l).Perm l)
    (hn : (specs.map (·.name)).Nodup) (given : List (Str × Str)) (vs : List (Str × OptVal ℝ))
    (h : optionValues rd num (some doc) u.name order specs given = .ok vs) :
    (∀ o ∈ specs,
      (∀ t, lastGiven given o.name = some t →
        ∃ v, Means rd (u.size doc.conv.em doc.conv.ex * doc.viewScale) o.type t v ∧ optLookup vs o.name = some v) ∧
      (lastGiven given o.name = none →
        (∀ s, o.default = .text s → ∃ v, Means rd (u.size doc.conv.em doc.conv.ex * doc.viewScale) o.type s v ∧ optLookup vs o.name = some v) ∧
        ((∀ s, o.default ≠ .text s) → optLookup vs o.name = some o.default))) ∧
    ∀ g ∈ given, ∃ o ∈ specs, o.name = g.1 := by
  unfold optionValues at h
  cases hp : processOptions rd specs given with
  | error e => simp [hp] at h
  | ok p =>
    simp only [hp] at h
    obtain ⟨a1, a2, a3⟩ := processOptions_known rd specs hn given p hp
    refine ⟨?_, a3⟩
    set unit := u.size doc.conv.em doc.conv.ex * doc.viewScale with hunit
    have hu : ∀ x, docunitOption num (some doc) u.name (some x) x = .ok (x * unit) := by
      intro x
      rw [(C108_given num doc u x x).1, hunit, mul_assoc]
    have hnd : ((order p.lengths).map (·.1)).Nodup := ((hord p.lengths).map _).nodup_iff.mpr a1.1
    obtain ⟨ws, h1, h2⟩ := convertLengths_spec num (some doc) u.name unit hu (order p.lengths) hnd p.values
    rw [h1] at h
    injection h with h
    subst h
    have hlook : ∀ key, optLookup (order p.lengths) key = optLookup p.lengths key := by
      intro key
      cases hl : optLookup p.lengths key with
      | some x => exact (optLookup_mem _ hnd key x).mpr ((hord _).mem_iff.mpr ((optLookup_mem _ a1.1 key x).mp hl))
      | none =>
        rw [optLookup_none] at hl ⊢
        intro v hv
        exact hl v ((hord _).mem_iff.mp hv)
    have htext : ∀ o ∈ specs, ∀ t, KnownAs rd p o (.text t) → ∃ v, Means rd unit o.type t v ∧ optLookup ws o.name = some v := by
      intro o ho t hk
      by_cases ht : o.type = .docunits
      · obtain ⟨x, hx, hl⟩ := hk.1 ht
        refine ⟨.num (x * unit), ?_, ?_⟩
        · rw [ht]
          exact ⟨x, hx, rfl⟩
        · rw [h2, hlook, hl]
      · obtain ⟨v, hv, hl, hl2⟩ := hk.2 ht
        refine ⟨v, (means_unit rd unit o.type ht t v).mp hv, ?_⟩
        rw [h2, hlook, hl2]
        exact hl
    intro o ho
    have hk := a2 o ho
    constructor
    · intro t ht
      unfold finalSource at hk
      rw [ht] at hk
      exact htext o ho t hk
    · intro ht
      unfold finalSource at hk
      rw [ht] at hk
      constructor
      · intro s hs
        have : defaultSource o = .text s := by simp [defaultSource, hs]
        rw [this] at hk
        exact htext o ho s hk
      · intro hs
        have : defaultSource o = .value o.default := by
          unfold defaultSource
          split
          · next s hh => exact absurd hh (hs s)
          · rfl
        rw [this] at hk
        rw [h2, hlook, hk.2]
        exact hk.1

/-- A text that is understood can be stored. -/
theorem storeText_accepts (o : OptSpec ℝ) (t : Str) (p : Parsed ℝ) (h : Understood rd o t) : ∃ q, storeText rd o t p = .ok q := by
  obtain ⟨v, hv⟩ := h
  obtain ⟨name, ty, dflt⟩ := o
  cases ty
  · exact ⟨_, rfl⟩
  · obtain ⟨n, h, _⟩ := hv
    simp [storeText, h, orUsage, Except.map]
  · obtain ⟨n, h, _⟩ := hv
    simp [storeText, h, orUsage, Except.map]
  · have : ∃ b, checkInkbool name t = .ok b := by
      rcases hv with ⟨h, _⟩ | ⟨h, _⟩
      · exact ⟨true, (inkbool_ok _ _ _).mpr (.inl ⟨h, rfl⟩)⟩
      · exact ⟨false, (inkbool_ok _ _ _).mpr (.inr ⟨h, rfl⟩)⟩
    obtain ⟨b, hb⟩ := this
    simp [storeText, hb, Except.map]
  · obtain ⟨n, h, _⟩ := hv
    simp [storeText, checkDegrees, h, Except.map]
  · obtain ⟨n, h, _⟩ := hv
    simp [storeText, checkDocunits, h, Except.map]

/-- A text that is not understood is reported with the name of the option, unless the option is a length. -/
theorem storeText_rejects (o : OptSpec ℝ) (t : Str) (p : Parsed ℝ) (h : ¬ Understood rd o t) :
    storeText rd o t p = .error (if o.type = .docunits then .raised .valueError else .usage o.name t) := by
  obtain ⟨name, ty, dflt⟩ := o
  cases ty
  · exact absurd ⟨_, rfl⟩ h
  · cases hr : rd.int t with
    | some n => exact absurd ⟨_, n, hr, rfl⟩ h
    | none => simp [storeText, hr, orUsage, Except.map]
  · cases hr : rd.float t with
    | some n => exact absurd ⟨_, n, hr, rfl⟩ h
    | none => simp [storeText, hr, orUsage, Except.map]
  · have h1 : ¬ SaysYes t := fun hy => h ⟨_, .inl ⟨hy, rfl⟩⟩
    have h2 : ¬ SaysNo t := fun hy => h ⟨_, .inr ⟨hy, rfl⟩⟩
    have := upper_word t
    simp only [storeText, checkInkbool]
    rw [if_neg (fun hh => h1 (this.1.mp hh)), if_neg (fun hh => h2 (this.2.mp hh))]
    rfl
  · cases hr : rd.float t with
    | some n => exact absurd ⟨_, n, hr, rfl⟩ h
    | none => simp [storeText, checkDegrees, hr, Except.map]
  · cases hr : rd.float t with
    | some n => exact absurd ⟨_, n, hr, rfl⟩ h
    | none => simp [storeText, checkDocunits, hr, Except.map]

theorem defaults_accept (l : List (OptSpec ℝ)) (hl : ∀ o ∈ l, ∀ s, o.default = .text s → Understood rd o s) (p : Parsed ℝ) :
    ∃ q, readAll (storeDefault rd) p l = .ok q := by
  induction l generalizing p with
  | nil => exact ⟨p, rfl⟩
  | cons o r ih =>
    have : ∃ q, storeDefault rd p o = .ok q := by
      unfold storeDefault
      split
      · next s hs => exact storeText_accepts rd o s p (hl o List.mem_cons_self s hs)
      · exact ⟨_, rfl⟩
    obtain ⟨q, hq⟩ := this
    simp only [readAll, hq]
    exact ih (fun o ho => hl o (List.mem_cons_of_mem _ ho)) q

theorem find_name (hn : (specs.map (·.name)).Nodup) (o : OptSpec ℝ) (ho : o ∈ specs) : specs.find? (fun a => decide (a.name = o.name)) = some o := by
  cases hf : specs.find? (fun a => decide (a.name = o.name)) with
  | none => exact absurd (List.find?_eq_none.mp hf o ho) (by simp)
  | some a =>
    have ha : a ∈ specs := List.mem_of_find?_eq_some hf
    have hname : a.name = o.name := by simpa using List.find?_some hf
    rw [List.inj_on_of_nodup_map hn ha ho hname]

theorem given_accept (hn : (specs.map (·.name)).Nodup) (given rest : List (Str × Str)) (hg : GivenOk rd specs given) (p : Parsed ℝ) :
    ∃ q, readAll (storeGiven rd specs) p (given ++ rest) = readAll (storeGiven rd specs) q rest := by
  induction given generalizing p with
  | nil => exact ⟨p, rfl⟩
  | cons g r ih =>
    obtain ⟨o, ho, hname, hund⟩ := hg g List.mem_cons_self
    obtain ⟨q, hq⟩ := storeText_accepts rd o g.2 p hund
    have : storeGiven rd specs p g = .ok q := by
      simp only [storeGiven, ← hname, find_name specs hn o ho, hq]
    simp only [List.cons_append, readAll, this]
    exact ih (fun g hg' => hg g (List.mem_cons_of_mem _ hg')) q

/-- **C174**, what is understood is accepted: if everything that is given names an option and can be understood, the options are read without failing
(for a document whose unit is known). -/
theorem C174_accepted (num : Svg.NumEnv ℝ) (doc : DocInfo ℝ) (u : Svg.LenUnit) (order : List (Str × ℝ) → List (Str × ℝ)) (hord : ∀ l, (order l).Perm l)
    (hs : SpecsOk rd specs) (given : List (Str × Str)) (hg : GivenOk rd specs given) :
    ∃ vs, optionValues rd num (some doc) u.name order specs given = .ok vs := by
  obtain ⟨p, hp⟩ := defaults_accept rd specs hs.2 ⟨[], []⟩
  obtain ⟨q, hq⟩ := given_accept rd specs hs.1 given [] hg p
  rw [List.append_nil] at hq
  have hproc : processOptions rd specs given = .ok q := by
    unfold processOptions
    rw [hp]
    exact hq
  obtain ⟨a1, _, _⟩ := processOptions_known rd specs hs.1 given q hproc
  have hnd : ((order q.lengths).map (·.1)).Nodup := ((hord q.lengths).map _).nodup_iff.mpr a1.1
  obtain ⟨ws, h1, _⟩ := convertLengths_spec num (some doc) u.name (u.size doc.conv.em doc.conv.ex * doc.viewScale)
    (fun x => by rw [(C108_given num doc u x x).1, mul_assoc]) (order q.lengths) hnd q.values
  exact ⟨ws, by unfold optionValues; rw [hproc]; exact h1⟩

/-- **C174**, what is not understood is reported: the first thing given that names no option, or that is no length and cannot be understood, ends
the program with a message that names it (missing: lengths, see the refutation). -/
theorem C174_rejected_partial (num : Svg.NumEnv ℝ) (svg : Option (DocInfo ℝ)) (docUnits : Str) (order : List (Str × ℝ) → List (Str × ℝ))
    (hs : SpecsOk rd specs) (pre post : List (Str × Str)) (hg : GivenOk rd specs pre) (name t : Str)
    (hbad : (∀ o ∈ specs, o.name ≠ name) ∨ ∃ o ∈ specs, o.name = name ∧ o.type ≠ .docunits ∧ ¬ Understood rd o t) :
    optionValues rd num svg docUnits order specs (pre ++ (name, t) :: post) = .error (.usage name t) := by
  obtain ⟨p, hp⟩ := defaults_accept rd specs hs.2 ⟨[], []⟩
  obtain ⟨q, hq⟩ := given_accept rd specs hs.1 pre ((name, t) :: post) hg p
  have hstep : storeGiven rd specs q (name, t) = .error (.usage name t) := by
    rcases hbad with hb | ⟨o, ho, hname, hty, hb⟩
    · have : specs.find? (fun o => decide (o.name = name)) = none := by
        rw [List.find?_eq_none]
        intro o ho
        simpa using hb o ho
      simp [storeGiven, this]
    · subst hname
      simp only [storeGiven, find_name specs hs.1 o ho]
      rw [storeText_rejects rd o t q hb, if_neg hty]
  unfold optionValues processOptions
  rw [hp]
  simp only [hq, readAll, hstep]

/-- **C174**, a part that fails: a length that cannot be understood ends in a `ValueError` instead. -/
theorem C174_refuted_length (num : Svg.NumEnv ℝ) (svg : Option (DocInfo ℝ)) (docUnits : Str) (order : List (Str × ℝ) → List (Str × ℝ))
    (hs : SpecsOk rd specs) (pre post : List (Str × Str)) (hg : GivenOk rd specs pre) (o : OptSpec ℝ) (ho : o ∈ specs) (hty : o.type = .docunits)
    (t : Str) (hb : rd.float t = none) :
    optionValues rd num svg docUnits order specs (pre ++ (o.name, t) :: post) = .error (.raised .valueError) := by
  obtain ⟨p, hp⟩ := defaults_accept rd specs hs.2 ⟨[], []⟩
  obtain ⟨q, hq⟩ := given_accept rd specs hs.1 pre ((o.name, t) :: post) hg p
  have hnot : ¬ Understood rd o t := by
    rintro ⟨v, hv⟩
    rw [hty] at hv
    obtain ⟨x, hx, _⟩ := hv
    rw [hb] at hx
    exact absurd hx (by simp)
  have hstep : storeGiven rd specs q (o.name, t) = .error (.raised .valueError) := by
    simp only [storeGiven, find_name specs hs.1 o ho]
    rw [storeText_rejects rd o t q hnot, if_pos hty]
  unfold optionValues processOptions
  rw [hp]
  simp only [hq, readAll, hstep]

end

/-! ## The options of tcnc -/

theorem tcnc_names : ((tcncOptions ++ commonOptions : List (OptSpec ℝ)).map (·.name)).Nodup := by
  have h : ((tcncOptions ++ commonOptions : List (OptSpec ℝ)).map (·.name)) = (tcncOptions ++ commonOptions : List (OptSpec ℚ)).map (·.name) := rfl
  rw [h]
  decide +kernel

theorem tcnc_specs (rd : Reader ℝ) (h0 : rd.float "0".toList = some 0) : SpecsOk rd (tcncOptions ++ commonOptions) := by
  refine ⟨tcnc_names, ?_⟩
  intro o ho s hs
  simp only [tcncOptions, commonOptions, List.cons_append, List.nil_append, List.mem_cons, List.not_mem_nil, or_false] at ho
  rcases ho with h | h | h | h | h | h | h | h | h | h | h | h | h | h | h | h | h | h | h | h | h | h | h | h | h | h | h | h | h | h | h | h |
    h | h | h | h | h | h | h | h | h | h | h | h | h | h | h | h | h | h | h | h | h | h | h | h | h | h | h | h | h | h | h | h | h | h | h | h <;>
    subst h <;> first
      | exact ⟨_, rfl⟩
      | (injection hs with hs; subst hs; exact ⟨_, 0, h0, rfl⟩)
      | exact absurd hs (by simp [optL, optI, optD, optF, optB])

/-- **C174**, a part that fails: the reload angle of tcnc is by default not a quarter of a turn: without the option its value is 90 radians, with
`--brush-reload-angle=90` it is a quarter of a turn. -/
theorem C174_refuted_angle (rd : Reader ℝ) (h0 : rd.float "0".toList = some 0) (h90 : rd.float "90".toList = some 90) (num : Svg.NumEnv ℝ)
    (doc : DocInfo ℝ) (u : Svg.LenUnit) (order : List (Str × ℝ) → List (Str × ℝ)) (hord : ∀ l, (order l).Perm l) :
    ∃ vs ws, optionValues rd num (some doc) u.name order (tcncOptions ++ commonOptions) [] = .ok vs ∧
      optionValues rd num (some doc) u.name order (tcncOptions ++ commonOptions) [("brush-reload-angle".toList, "90".toList)] = .ok ws ∧
      optLookup vs "brush-reload-angle".toList = some (.num 90) ∧ optLookup ws "brush-reload-angle".toList = some (.num (Real.pi / 2)) ∧
      (90 : ℝ) ≠ Real.pi / 2 := by
  have hs := tcnc_specs rd h0
  have ho : (optD "brush-reload-angle" 90 : OptSpec ℝ) ∈ (tcncOptions ++ commonOptions : List (OptSpec ℝ)) := by
    have e : (ofInt 90 : ℝ) = 90 := by simp
    have : (optD "brush-reload-angle" (ofInt 90) : OptSpec ℝ) ∈ (tcncOptions ++ commonOptions : List (OptSpec ℝ)) := by
      simp only [tcncOptions, List.cons_append, List.mem_cons, true_or, or_true]
    rwa [e] at this
  have hund : Understood rd (optD "brush-reload-angle" 90) "90".toList := ⟨_, 90, h90, rfl⟩
  obtain ⟨vs, hv⟩ := C174_accepted rd _ num doc u order hord hs [] (by simp [GivenOk])
  obtain ⟨ws, hw⟩ := C174_accepted rd _ num doc u order hord hs [("brush-reload-angle".toList, "90".toList)] (by
    intro g hg
    simp only [List.mem_singleton] at hg
    subst hg
    exact ⟨_, ho, rfl, hund⟩)
  refine ⟨vs, ws, hv, hw, ?_, ?_, ?_⟩
  · have := ((C174_values_partial rd _ num doc u order hord hs.1 [] vs hv).1 _ ho).2 rfl
    exact this.2 (by intro s; simp [optD])
  · obtain ⟨v, hm, hl⟩ := ((C174_values_partial rd _ num doc u order hord hs.1 _ ws hw).1 _ ho).1 "90".toList (by
      show lastGiven [("brush-reload-angle".toList, "90".toList)] "brush-reload-angle".toList = _
      decide +kernel)
    obtain ⟨x, hx, hvx⟩ := hm
    rw [h90] at hx
    injection hx with hx
    subst hx
    have : (90 : ℝ) * Real.pi / 180 = Real.pi / 2 := by ring
    rw [hvx, this] at hl
    exact hl
  · have := Real.pi_le_four
    intro h
    linarith

/-- One value after reading options, or why there is none. -/
def valueAfter (r : Except OptFail (List (Str × OptVal ℚ))) (name : String) : Except OptFail (Option (OptVal ℚ)) := r.map fun vs => optLookup vs name.toList

/-- Options of tcnc in a document in inches, 90 user units each: the last width counts, a switch is turned on with `Yes`, the others keep their
defaults; a wrong switch is reported, a wrong length raises `ValueError`. -/
example :
    let rd : Reader ℚ := ⟨fun s => (Svg.exactQ.float s).toOption, fun _ => none⟩
    let run := fun given : List (String × String) => optionValues rd Svg.exactQ (some ⟨"in".toList, Svg.Conv.default, 1⟩) "in".toList List.reverse
      (tcncOptions ++ commonOptions) (given.map fun g => (g.1.toList, g.2.toList))
    let ok := run [("tool-width", "3"), ("a-feed-match", "Yes"), ("z-depth", "-2.5"), ("tool-width", "0.5"), ("preview-scale", "large")]
    valueAfter ok "tool-width" = .ok (some (.num 45)) ∧ valueAfter ok "a-feed-match" = .ok (some (.bool true)) ∧
    valueAfter ok "z-depth" = .ok (some (.num (-5 / 2))) ∧ valueAfter ok "preview-scale" = .ok (some (.text "large".toList)) ∧
    valueAfter ok "tool-trail-offset" = .ok (some (.num (1 / 4))) ∧ valueAfter ok "blend-tolerance" = .ok (some (.num 0)) ∧
    valueAfter ok "brush-reload-angle" = .ok (some (.num 90)) ∧
    valueAfter (run [("z-depth", "1"), ("a-feed-match", "on"), ("z-step", "1")]) "z-depth" = .error (.usage "a-feed-match".toList "on".toList) ∧
    valueAfter (run [("z-depth", "1"), ("tool-width", "wide"), ("a-feed-match", "on")]) "z-depth" = .error (.raised .valueError) := by
  decide +kernel

end Verif.Cam
