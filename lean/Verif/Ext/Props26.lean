import Verif.Ext.Colors
import Verif.Ext.Props24
import Verif.Geom.Props2
import Verif.GCode.Props4

/-!
# C164: counting the fill colours
-/

set_option linter.unusedSectionVars false

namespace Verif.Ext
open Verif PyFloat PyTrig Geom Css

section
variable {K : Type} [PyFloat K] [PyTrig K]

/-! ## Specification -/

/-- Specification: the `style` attribute of the element gives it this fill. -/
def HasFill (e : ColorElem K) (c : Str) : Prop :=
  ∃ s d, e.style = some s ∧ inlineStyleToDict (some s) = .ok d ∧ Style.get d "fill".toList = some c

open Classical in
/-- Specification: how many of the elements have this fill. -/
noncomputable def numberFilled (elems : List (ColorElem K)) (c : Str) : Nat := elems.countP fun e => decide (HasFill e c)

open Classical in
/-- Specification: how many of the elements have a fill. -/
noncomputable def numberAnyFill (elems : List (ColorElem K)) : Nat := elems.countP fun e => decide (∃ c, HasFill e c)

/-- Specification: the text under a colour of the key. -/
def legend (n : Nat) (c : Str) : Str := "count: ".toList ++ natDigits n ++ ", color: ".toList ++ c

/-- Specification: the first path of the first element with this fill. -/
def IsFirstPath (elems : List (ColorElem K)) (c : Str) (path : List (Shape K)) : Prop :=
  ∃ before e after more, elems = before ++ e :: after ∧ (∀ b ∈ before, ¬ HasFill b c) ∧ HasFill e c ∧ e.paths = path :: more

/-- Specification: the paths of the filled elements with their colours. -/
inductive FilledPaths : List (ColorElem K) → List (List (Shape K) × Str) → Prop
  | nil : FilledPaths [] []
  | filled {e r c l} : HasFill e c → FilledPaths r l → FilledPaths (e :: r) (e.paths.map (fun p => (p, c)) ++ l)
  | skip {e r l} : (∀ c, ¬ HasFill e c) → FilledPaths r l → FilledPaths (e :: r) l

theorem fillOf_iff {e : ColorElem K} {c : Str} : fillOf e = .ok (some c) ↔ HasFill e c := by
  unfold fillOf HasFill
  cases hs : e.style with
  | none => simp
  | some s =>
    cases hd : inlineStyleToDict (some s) with
    | error x => simp [bind, Except.bind, hd]
    | ok d => simp [bind, Except.bind, pure, Except.pure, hd]

theorem fillOf_none {e : ColorElem K} (h : fillOf e = .ok none) (c : Str) : ¬ HasFill e c := by
  rw [← fillOf_iff, h]
  simp

theorem hasFill_unique {e : ColorElem K} {c c' : Str} (h : HasFill e c) (h' : HasFill e c') : c = c' := by
  rw [← fillOf_iff] at h h'
  rw [h] at h'
  simpa using h'

/-! ## The loop -/

theorem lookup_addOne (counts : List (Str × Nat)) (c c' : Str) :
    (addOne counts c).lookup c' = if c' = c then (counts.lookup c').map (· + 1) else counts.lookup c' := by
  induction counts with
  | nil => simp [addOne]
  | cons a r ih =>
    obtain ⟨k, n⟩ := a
    unfold addOne at ih ⊢
    rw [List.map_cons]
    by_cases hk : k = c
    · subst hk
      rw [if_pos rfl]
      by_cases hc : c' = k
      · subst hc; simp [List.lookup]
      · rw [if_neg hc]
        rw [if_neg hc] at ih
        have : (c' == k) = false := by simpa using hc
        simp [List.lookup, this, ih]
    · rw [if_neg hk]
      by_cases hc : c' = k
      · subst hc
        rw [if_neg hk]; simp [List.lookup]
      · have : (c' == k) = false := by simpa using hc
        simp [List.lookup, this, ih]

theorem keys_addOne (counts : List (Str × Nat)) (c : Str) : (addOne counts c).map Prod.fst = counts.map Prod.fst := by
  unfold addOne
  rw [List.map_map]
  apply List.map_congr_left
  intro a _
  simp only [Function.comp]
  split <;> rfl

theorem total_addOne (counts : List (Str × Nat)) (c : Str) (hn : (counts.map Prod.fst).Nodup) (hc : c ∈ counts.map Prod.fst) :
    ((addOne counts c).map Prod.snd).sum = (counts.map Prod.snd).sum + 1 := by
  induction counts with
  | nil => simp at hc
  | cons a r ih =>
    obtain ⟨k, n⟩ := a
    rw [List.map_cons, List.nodup_cons] at hn
    have hcons : addOne ((k, n) :: r) c = (if k = c then (k, n + 1) else (k, n)) :: addOne r c := rfl
    rw [hcons]
    by_cases hk : k = c
    · subst hk
      rw [if_pos rfl]
      have : addOne r k = r := by
        unfold addOne
        conv_rhs => rw [← List.map_id r]
        apply List.map_congr_left
        intro b hb
        have hb' : b.1 ≠ k := fun e => hn.1 (List.mem_map.2 ⟨b, hb, e⟩)
        rw [if_neg hb']
        rfl
      rw [this]
      simp only [List.map_cons, List.sum_cons]
      omega
    · rw [if_neg hk]
      have hc' : c ∈ r.map Prod.fst := by
        simp only [List.map_cons, List.mem_cons] at hc
        rcases hc with h | h
        · exact absurd h.symm hk
        · exact h
      simp only [List.map_cons, List.sum_cons, ih hn.2 hc']
      omega

theorem lookup_isSome_iff {β : Type} (l : List (Str × β)) (c : Str) : (l.lookup c).isSome = true ↔ c ∈ l.map Prod.fst := by
  induction l with
  | nil => simp
  | cons a r ih =>
    obtain ⟨k, n⟩ := a
    by_cases hc : c = k
    · subst hc; simp [List.lookup]
    · have : (c == k) = false := by simpa using hc
      simp [List.lookup, this, ih, hc]

theorem lookup_append {β : Type} (l m : List (Str × β)) (c : Str) : (l ++ m).lookup c = (l.lookup c).or (m.lookup c) := by
  induction l with
  | nil => simp
  | cons a r ih =>
    obtain ⟨k, n⟩ := a
    by_cases hc : c = k
    · subst hc; simp [List.lookup]
    · have : (c == k) = false := by simpa using hc
      simp [List.lookup, this, ih]

/-- What has been counted after some of the elements. -/
structure Counted (elems : List (ColorElem K)) (st : ColorState K) : Prop where
  nodup : (st.counts.map Prod.fst).Nodup
  count : ∀ c, (st.counts.lookup c).getD 0 = numberFilled elems c
  mem : ∀ c, c ∈ st.counts.map Prod.fst ↔ ∃ e ∈ elems, HasFill e c
  total : (st.counts.map Prod.snd).sum = numberAnyFill elems
  paths : FilledPaths elems st.pathlist
  shapes : ∀ c path, st.shapes.lookup c = some path → IsFirstPath elems c path
  shape : ∀ c ∈ st.counts.map Prod.fst, (st.shapes.lookup c).isSome
  shape' : ∀ c, (st.shapes.lookup c).isSome → c ∈ st.counts.map Prod.fst

theorem FilledPaths.append {a b : List (ColorElem K)} {l m : List (List (Shape K) × Str)} (h : FilledPaths a l) (h' : FilledPaths b m) : FilledPaths (a ++ b) (l ++ m) := by
  induction h with
  | nil => exact h'
  | filled hc _ ih =>
    rw [List.cons_append, List.append_assoc]
    exact .filled hc ih
  | skip hc _ ih => exact .skip hc ih

theorem IsFirstPath.append {a : List (ColorElem K)} {c : Str} {p : List (Shape K)} (h : IsFirstPath a c p) (b : List (ColorElem K)) : IsFirstPath (a ++ b) c p := by
  obtain ⟨x, e, y, m, h1, h2, h3, h4⟩ := h
  exact ⟨x, e, y ++ b, m, by rw [h1]; simp, h2, h3, h4⟩

theorem addColorLayer_counted {st st' : ColorState K} {e : ColorElem K} {c : Str} (h : addColorLayer st e c = .ok st') :
    st'.counts = st.counts ∧ st'.pathlist = st.pathlist ∧ st'.shapes = st.shapes := by
  unfold addColorLayer at h
  split at h
  · simp at h
  · simp only [Except.ok.injEq] at h
    subst h
    exact ⟨rfl, rfl, rfl⟩

theorem copyToLayer_counted {st st' : ColorState K} {e : ColorElem K} {c : Str} (h : copyToLayer st e c = .ok st') :
    st'.counts = st.counts ∧ st'.pathlist = st.pathlist ∧ st'.shapes = st.shapes := by
  unfold copyToLayer at h
  have fin : ∀ s : ColorState K, (match s.colorLayers.lookup c with
      | none => (Except.error PyErr.attributeError : Except PyErr (ColorState K))
      | some i => pure { s with layers := s.layers.modify i fun l => { l with copies := l.copies ++ [e] } }) = .ok st' →
      st'.counts = s.counts ∧ st'.pathlist = s.pathlist ∧ st'.shapes = s.shapes := by
    intro s hs
    split at hs
    · simp at hs
    · simp only [pure, Except.pure, Except.ok.injEq] at hs
      subst hs
      exact ⟨rfl, rfl, rfl⟩
  split at h
  · cases ha : addColorLayer st e c with
    | error x => simp [bind, Except.bind, ha] at h
    | ok s =>
      simp only [bind, Except.bind, ha] at h
      obtain ⟨a1, a2, a3⟩ := addColorLayer_counted ha
      obtain ⟨b1, b2, b3⟩ := fin s h
      exact ⟨b1.trans a1, b2.trans a2, b3.trans a3⟩
  · exact fin st h

open Classical in
theorem numberFilled_append (a : List (ColorElem K)) (e : ColorElem K) (c : Str) :
    numberFilled (a ++ [e]) c = numberFilled a c + if HasFill e c then 1 else 0 := by
  unfold numberFilled
  rw [List.countP_append, List.countP_singleton]
  simp

open Classical in
theorem numberAnyFill_append (a : List (ColorElem K)) (e : ColorElem K) :
    numberAnyFill (a ++ [e]) = numberAnyFill a + if ∃ c, HasFill e c then 1 else 0 := by
  unfold numberAnyFill
  rw [List.countP_append, List.countP_singleton]
  simp

theorem Counted.congr {elems : List (ColorElem K)} {st st' : ColorState K} (h : Counted elems st) (h1 : st'.counts = st.counts) (h2 : st'.pathlist = st.pathlist)
    (h3 : st'.shapes = st.shapes) : Counted elems st' := by
  obtain ⟨a, b, c, d, e, f, g, g'⟩ := h
  constructor
  · rw [h1]; exact a
  · rw [h1]; exact b
  · rw [h1]; exact c
  · rw [h1]; exact d
  · rw [h2]; exact e
  · rw [h3]; exact f
  · rw [h1, h3]; exact g
  · rw [h1, h3]; exact g'

/-- The state after an element with a new colour, before its layer is made. -/
theorem counted_new {done : List (ColorElem K)} {st : ColorState K} {e : ColorElem K} {c : Str} (hI : Counted done st) (hc : HasFill e c) (hold : ¬ (st.counts.lookup c).isSome)
    (path : List (Shape K)) (more : List (List (Shape K))) (he : e.paths = path :: more) (layers : List (ColorLayer K)) (cl : List (Str × Nat)) :
    Counted (done ++ [e]) ⟨st.pathlist ++ e.paths.map (fun p => (p, c)), st.counts ++ [(c, 1)], st.shapes ++ [(c, path)], layers, cl⟩ := by
  have hno : c ∉ st.counts.map Prod.fst := fun h => hold ((lookup_isSome_iff _ _).2 h)
  have hno' : ¬ ∃ e ∈ done, HasFill e c := fun h => hno ((hI.mem c).2 h)
  have hlc : st.counts.lookup c = none := by
    rw [Option.not_isSome_iff_eq_none] at hold; exact hold
  have hls : st.shapes.lookup c = none := by
    cases h : st.shapes.lookup c with
    | none => rfl
    | some p => exact absurd (hI.shape' c (by rw [h]; rfl)) hno
  have huniq : ∀ c', HasFill e c' ↔ c' = c := fun c' => ⟨fun h => hasFill_unique h hc, fun h => h ▸ hc⟩
  constructor
  · simp only [List.map_append, List.map_cons, List.map_nil]
    rw [List.nodup_append]
    refine ⟨hI.nodup, by simp, ?_⟩
    intro a ha b hb
    simp only [List.mem_singleton] at hb
    subst hb
    exact fun h => hno (h ▸ ha)
  · intro c'
    rw [numberFilled_append, ← hI.count]
    simp only [lookup_append]
    by_cases h : c' = c
    · subst h
      rw [if_pos hc, hlc]
      simp [List.lookup]
    · rw [if_neg (fun h' => h ((huniq c').1 h'))]
      have : (c' == c) = false := by simpa using h
      simp [List.lookup, this]
  · intro c'
    simp only [List.map_append, List.map_cons, List.map_nil, List.mem_append, List.mem_singleton, hI.mem]
    constructor
    · rintro (⟨x, h1, h2⟩ | h)
      · exact ⟨x, Or.inl h1, h2⟩
      · exact ⟨e, Or.inr rfl, (huniq c').2 h⟩
    · rintro ⟨x, h1 | h1, h2⟩
      · exact Or.inl ⟨x, h1, h2⟩
      · subst h1; exact Or.inr ((huniq c').1 h2)
  · simp only [List.map_append, List.map_cons, List.map_nil, List.sum_append, List.sum_cons, List.sum_nil, hI.total]
    rw [numberAnyFill_append, if_pos ⟨c, hc⟩]
    rfl
  · have := FilledPaths.append hI.paths (.filled hc .nil)
    simpa using this
  · intro c' p hp
    simp only [lookup_append] at hp
    by_cases h : c' = c
    · subst h
      rw [hls] at hp
      simp only [Option.none_or, List.lookup, beq_self_eq_true, Option.some.injEq] at hp
      subst hp
      exact ⟨done, e, [], more, rfl, fun b hb hf => hno' ⟨b, hb, hf⟩, hc, he⟩
    · have h' : (c' == c) = false := by simpa using h
      simp only [List.lookup, h', Option.or_none] at hp
      exact (hI.shapes c' p hp).append _
  · intro c' h
    simp only [List.map_append, List.map_cons, List.map_nil, List.mem_append, List.mem_singleton] at h
    simp only [lookup_append, Option.isSome_or, Bool.or_eq_true]
    rcases h with h | h
    · exact Or.inl (hI.shape c' h)
    · right; subst h; simp [List.lookup]
  · intro c' h
    simp only [lookup_append, Option.isSome_or, Bool.or_eq_true] at h
    simp only [List.map_append, List.map_cons, List.map_nil, List.mem_append, List.mem_singleton]
    rcases h with h | h
    · exact Or.inl (hI.shape' c' h)
    · right
      by_contra hcc
      have h' : (c' == c) = false := by simpa using hcc
      simp [List.lookup, h'] at h

theorem counted_old {done : List (ColorElem K)} {st : ColorState K} {e : ColorElem K} {c : Str} (hI : Counted done st) (hc : HasFill e c) (hold : (st.counts.lookup c).isSome)
    (layers : List (ColorLayer K)) (cl : List (Str × Nat)) :
    Counted (done ++ [e]) ⟨st.pathlist ++ e.paths.map (fun p => (p, c)), addOne st.counts c, st.shapes, layers, cl⟩ := by
  have hin : c ∈ st.counts.map Prod.fst := (lookup_isSome_iff _ _).1 hold
  have huniq : ∀ c', HasFill e c' ↔ c' = c := fun c' => ⟨fun h => hasFill_unique h hc, fun h => h ▸ hc⟩
  constructor
  · simp only [keys_addOne]; exact hI.nodup
  · intro c'
    simp only [lookup_addOne]
    rw [numberFilled_append, ← hI.count]
    by_cases h : c' = c
    · subst h
      rw [if_pos rfl, if_pos hc]
      obtain ⟨n, hn⟩ := Option.isSome_iff_exists.1 hold
      rw [hn]; rfl
    · rw [if_neg h, if_neg (fun h' => h ((huniq c').1 h'))]
      rfl
  · intro c'
    simp only [keys_addOne, hI.mem, List.mem_append, List.mem_singleton]
    constructor
    · rintro ⟨x, h1, h2⟩; exact ⟨x, Or.inl h1, h2⟩
    · rintro ⟨x, h1 | h1, h2⟩
      · exact ⟨x, h1, h2⟩
      · subst h1
        rw [(huniq c').1 h2]
        exact (hI.mem c).1 hin
  · simp only
    rw [total_addOne _ _ hI.nodup hin, hI.total, numberAnyFill_append, if_pos ⟨c, hc⟩]
  · have := FilledPaths.append hI.paths (.filled hc .nil)
    simpa using this
  · intro c' p hp
    exact (hI.shapes c' p hp).append _
  · intro c' h
    simp only [keys_addOne] at h
    exact hI.shape c' h
  · intro c' h
    simp only [keys_addOne]
    exact hI.shape' c' h

theorem countElement_counted {sep : Bool} {done : List (ColorElem K)} {st st' : ColorState K} {e : ColorElem K} (hI : Counted done st) (h : countElement sep st e = .ok st') :
    Counted (done ++ [e]) st' := by
  unfold countElement at h
  cases hf : fillOf e with
  | error x => simp [bind, Except.bind, hf] at h
  | ok f =>
    simp only [bind, Except.bind, hf] at h
    cases f with
    | none =>
      simp only [pure, Except.pure, Except.ok.injEq] at h
      subst h
      have hno := fun c => fillOf_none hf c
      constructor
      · exact hI.nodup
      · intro c
        rw [numberFilled_append, if_neg (hno c)]
        exact hI.count c
      · intro c
        rw [hI.mem c]
        simp only [List.mem_append, List.mem_singleton]
        exact ⟨fun ⟨x, h1, h2⟩ => ⟨x, Or.inl h1, h2⟩, fun ⟨x, h1, h2⟩ => by
          rcases h1 with h1 | h1
          · exact ⟨x, h1, h2⟩
          · subst h1; exact absurd h2 (hno c)⟩
      · rw [numberAnyFill_append, if_neg (fun ⟨c, hc⟩ => hno c hc)]
        exact hI.total
      · have := FilledPaths.append hI.paths (.skip hno .nil)
        simpa using this
      · intro c p hp
        exact (hI.shapes c p hp).append _
      · exact hI.shape
      · exact hI.shape'
    | some c =>
      have hc := fillOf_iff.1 hf
      simp only at h
      cases hm : countColor sep { st with pathlist := st.pathlist ++ e.paths.map fun p => (p, c) } e c with
      | error x => simp [hm] at h
      | ok s =>
        simp only [hm] at h
        have hs : Counted (done ++ [e]) s := by
          unfold countColor at hm
          simp only at hm
          split at hm
          · rename_i hold
            simp only [Except.ok.injEq] at hm
            subst hm
            exact counted_old hI hc hold _ _
          · rename_i hold
            split at hm
            · simp at hm
            · rename_i path more he
              split at hm
              · obtain ⟨a1, a2, a3⟩ := addColorLayer_counted hm
                exact (counted_new hI hc hold path more he st.layers st.colorLayers).congr a1 a2 a3
              · simp only [Except.ok.injEq] at hm
                subst hm
                exact counted_new hI hc hold path more he _ _
        split at h
        · obtain ⟨b1, b2, b3⟩ := copyToLayer_counted h
          exact hs.congr b1 b2 b3
        · simp only [pure, Except.pure, Except.ok.injEq] at h
          subst h
          exact hs

theorem countElements_counted {sep : Bool} {todo : List (ColorElem K)} : ∀ {done : List (ColorElem K)} {st st' : ColorState K}, Counted done st →
    countElements sep st todo = .ok st' → Counted (done ++ todo) st' := by
  induction todo with
  | nil =>
    intro done st st' hI h
    simp only [countElements, Except.ok.injEq] at h
    subst h
    simpa using hI
  | cons e r ih =>
    intro done st st' hI h
    rw [countElements] at h
    cases he : countElement sep st e with
    | error x => simp [bind, Except.bind, he] at h
    | ok s =>
      simp only [bind, Except.bind, he] at h
      have := ih (countElement_counted hI he) h
      simpa using this

theorem counted_start (layers : List (ColorLayer K)) : Counted [] (colorStart layers) := by
  constructor
  · simp [colorStart]
  · intro c; simp [colorStart, numberFilled]
  · intro c; simp [colorStart]
  · simp [colorStart, numberAnyFill]
  · exact .nil
  · intro c p h; simp [colorStart] at h
  · intro c h; simp [colorStart] at h
  · intro c h; simp [colorStart] at h


theorem colorRun_ok {o : ColorOpts K} {fmax fmin : K} {order : List Str → List Str} {layers : List (ColorLayer K)} {elems : List (ColorElem K)} {r : ColorDrawn K}
    (h : colorRun o fmax fmin order layers elems = .ok r) :
    ∃ st, countElements o.separate (colorStart layers) elems = .ok st ∧ Counted elems st ∧
      (st.counts = [] ∧ r = ⟨st.layers, [], none⟩ ∨ st.counts ≠ [] ∧ drawColorKey o fmax fmin order st = .ok r) := by
  unfold colorRun at h
  cases hc : countElements o.separate (colorStart layers) elems with
  | error x => simp [bind, Except.bind, hc] at h
  | ok st =>
    simp only [bind, Except.bind, hc] at h
    refine ⟨st, rfl, by simpa using countElements_counted (counted_start layers) hc, ?_⟩
    split at h
    · rename_i he
      simp only [pure, Except.pure, Except.ok.injEq] at h
      exact Or.inl ⟨by simpa using he, h.symm⟩
    · rename_i he
      exact Or.inr ⟨by simpa using he, h⟩

theorem drawColorKey_ok {o : ColorOpts K} {fmax fmin : K} {order : List Str → List Str} {st : ColorState K} {r : ColorDrawn K} (h : drawColorKey o fmax fmin order st = .ok r) :
    colorKey o fmax fmin (order (st.counts.map Prod.fst)) st = .ok r.key ∧ r.layers = keyLayers o st.layers ∧
    (o.tagShapes = true → ∃ tags, r.tags = some tags ∧ tagPaths o (order (st.counts.map Prod.fst)) st.pathlist = .ok tags) ∧ (o.tagShapes = false → r.tags = none) := by
  unfold drawColorKey at h
  cases hk : colorKey o fmax fmin (order (st.counts.map Prod.fst)) st with
  | error x => simp only [bind, Except.bind, hk] at h; cases h
  | ok key =>
    cases ht : colorTags o (order (st.counts.map Prod.fst)) st with
    | error x => simp only [bind, Except.bind, hk, ht] at h; cases h
    | ok tags =>
      simp only [bind, Except.bind, hk, ht, pure, Except.pure, Except.ok.injEq] at h
      subst h
      refine ⟨rfl, rfl, ?_, ?_⟩
      · intro hq
        unfold colorTags at ht
        rw [if_pos hq] at ht
        cases hg : tagPaths o (order (st.counts.map Prod.fst)) st.pathlist with
        | error x => rw [hg] at ht; cases ht
        | ok t =>
          rw [hg] at ht
          simp only [Except.map, Except.ok.injEq] at ht
          exact ⟨t, ht.symm, rfl⟩
      · intro hq
        unfold colorTags at ht
        rw [hq] at ht
        simpa using ht.symm

end

/-! ## The key -/

/-- Specification: a colour of a key of boxes: the box, and the legend one and a half lines below it. -/
noncomputable def boxRow (o : ColorOpts ℝ) (n : Nat) (y : ℝ) (c : Str) : List (ColorMark ℝ) :=
  [.rect o.left y o.boxWidth o.boxHeight c, .text (legend n c) o.left (y + o.boxHeight + 3 / 2 * o.keyFont)]

theorem gap_real (o : ColorOpts ℝ) : o.gap = 3 / 2 * o.keyFont := by
  unfold ColorOpts.gap
  rw [lit_real]
  simp
  ring

theorem keyBoxes_eq (o : ColorOpts ℝ) (n : Str → Nat) (colors : List Str) (k : Nat) (y : ℝ) (total : Nat) (hy : y = o.top + k * (o.boxHeight + 3 * o.keyFont)) :
    keyBoxes o (colors.map fun c => (c, n c)) y total =
      (colors.zipIdx k).flatMap (fun ci => boxRow o (n ci.1) (o.top + ci.2 * (o.boxHeight + 3 * o.keyFont)) ci.1) ++
        [.text ("Total: ".toList ++ natDigits (total + (colors.map n).sum)) o.left (o.top + (k + colors.length : ℕ) * (o.boxHeight + 3 * o.keyFont) + 3 / 2 * o.keyFont)] := by
  induction colors generalizing k y total with
  | nil => simp [keyBoxes, keyTotal, gap_real, hy]
  | cons c r ih =>
    have hy' : y + (o.boxHeight + 3 / 2 * o.keyFont) + 3 / 2 * o.keyFont = o.top + (k + 1 : ℕ) * (o.boxHeight + 3 * o.keyFont) := by
      rw [hy]; push_cast; ring
    rw [List.map_cons, keyBoxes]
    simp only [gap_real, real_add]
    rw [ih (k + 1) _ (total + n c) hy']
    simp only [List.zipIdx_cons, List.flatMap_cons, boxRow, List.cons_append, List.nil_append, List.map_cons, List.sum_cons, List.length_cons]
    rw [hy]
    congr 2
    · show ColorMark.text (legend (n c) c) o.left _ = _
      congr 1
      ring
    · rw [show k + 1 + r.length = k + (r.length + 1) by omega, show total + n c + (r.map n).sum = total + (n c + (r.map n).sum) by omega]

theorem sum_lookup (counts : List (Str × Nat)) (hn : (counts.map Prod.fst).Nodup) : ((counts.map Prod.fst).map fun c => (counts.lookup c).getD 0).sum = (counts.map Prod.snd).sum := by
  induction counts with
  | nil => rfl
  | cons a r ih =>
    obtain ⟨k, n⟩ := a
    rw [List.map_cons, List.nodup_cons] at hn
    simp only [List.map_cons, List.sum_cons]
    rw [← ih hn.2]
    congr 1
    · simp [List.lookup]
    · congr 1
      apply List.map_congr_left
      intro c hc
      have : (c == k) = false := by
        have : c ≠ k := fun e => hn.1 (e ▸ hc)
        simpa using this
      simp [List.lookup, this]

/-- **C164** (counts).  A key of boxes shows each fill colour of the drawing exactly once, in rows of equal height from the top, with the number of elements that have this fill; the total under the rows is
the number of elements with a fill.  Without any, nothing is drawn. -/
theorem C164_counts (o : ColorOpts ℝ) (fmax fmin : ℝ) (order : List Str → List Str) (horder : ∀ l, (order l).Perm l) (layers : List (ColorLayer ℝ)) (elems : List (ColorElem ℝ)) (r : ColorDrawn ℝ)
    (h : colorRun o fmax fmin order layers elems = .ok r) (hk : o.shapeKey = false) :
    ∃ colors : List Str, colors.Nodup ∧ (∀ c, c ∈ colors ↔ ∃ e ∈ elems, HasFill e c) ∧
      (colors ≠ [] → r.key = colors.zipIdx.flatMap (fun ci => boxRow o (numberFilled elems ci.1) (o.top + ci.2 * (o.boxHeight + 3 * o.keyFont)) ci.1) ++
        [.text ("Total: ".toList ++ natDigits (numberAnyFill elems)) o.left (o.top + colors.length * (o.boxHeight + 3 * o.keyFont) + 3 / 2 * o.keyFont)]) ∧
      (colors = [] → r.key = [] ∧ r.tags = none ∧ r.layers = layers) := by
  obtain ⟨st, hst, hI, hr⟩ := colorRun_ok h
  refine ⟨order (st.counts.map Prod.fst), (horder _).nodup_iff.2 hI.nodup, fun c => ((horder _).mem_iff).trans (hI.mem c), ?_, ?_⟩
  · intro hne
    rcases hr with ⟨h1, h2⟩ | ⟨h1, h2⟩
    · exact absurd (by rw [h1]; exact List.perm_nil.1 (horder [])) hne
    · obtain ⟨g1, -, -, -⟩ := drawColorKey_ok h2
      unfold colorKey at g1
      rw [hk] at g1
      simp only [Bool.false_eq_true, if_false, Except.ok.injEq] at g1
      rw [← g1]
      have e1 : (fun c => (c, (st.counts.lookup c).getD 0)) = fun c => (c, numberFilled elems c) := by
        funext c; rw [hI.count]
      rw [e1, keyBoxes_eq o (numberFilled elems) _ 0 o.top 0 (by simp)]
      have e2 : ((order (st.counts.map Prod.fst)).map (numberFilled elems)).sum = numberAnyFill elems := by
        rw [((horder _).map _).sum_eq, ← hI.total, ← sum_lookup _ hI.nodup]
        congr 1
        apply List.map_congr_left
        intro c _
        rw [hI.count]
      rw [e2]
      simp
  · intro he
    have hnil : st.counts = [] := by
      have := horder (st.counts.map Prod.fst)
      rw [he] at this
      simpa using List.nil_perm.1 this
    rcases hr with ⟨h1, h2⟩ | ⟨h1, h2⟩
    · refine ⟨by rw [h2], by rw [h2], ?_⟩
      rw [h2]
      have hno : ∀ e ∈ elems, ∀ c, ¬ HasFill e c := by
        intro e he c hc
        have := (hI.mem c).2 ⟨e, he, hc⟩
        rw [h1] at this
        simp at this
      have key : ∀ (l : List (ColorElem ℝ)) (s s' : ColorState ℝ), (∀ e ∈ l, ∀ c, ¬ HasFill e c) → countElements o.separate s l = .ok s' → s' = s := by
        intro l
        induction l with
        | nil =>
          intro s s' _ h
          simp only [countElements, Except.ok.injEq] at h
          exact h.symm
        | cons e l ih =>
          intro s s' hl h
          rw [countElements] at h
          unfold countElement at h
          cases hf : fillOf e with
          | error x => simp [bind, Except.bind, hf] at h
          | ok f =>
            cases f with
            | some c => exact absurd (fillOf_iff.1 hf) (hl e (List.mem_cons_self) c)
            | none =>
              simp only [bind, Except.bind, hf, pure, Except.pure] at h
              exact ih s s' (fun e' he' => hl e' (List.mem_cons_of_mem _ he')) h
      rw [key elems _ st hno hst]
      rfl
    · exact absurd hnil h1

/-! ## Tags -/

theorem natDigits_inj {a b : Nat} (h : natDigits a = natDigits b) : a = b := by
  rw [← GCode.digitsVal_natDigits a, ← GCode.digitsVal_natDigits b, h]

theorem intDigits_inj {a b : Int} (h : intDigits a = intDigits b) : a = b := by
  have hd : ∀ n m : Nat, natDigits n ≠ '-' :: natDigits m := by
    intro n m e
    have := GCode.natDigits_digit n '-' (by rw [e]; simp)
    revert this; decide
  cases a with
  | ofNat n =>
    cases b with
    | ofNat m => rw [natDigits_inj h]
    | negSucc m => exact absurd h (hd n (m + 1))
  | negSucc n =>
    cases b with
    | ofNat m => exact absurd h.symm (hd m (n + 1))
    | negSucc m =>
      have := natDigits_inj (List.cons.inj h).2
      rw [Nat.succ.inj this]

/-- Specification: the ends of the segments of a path. -/
def EndsOf (path : List (Shape ℝ)) (poly : List (P ℝ)) : Prop := ∃ s r, path = s :: r ∧ poly = s.p1 :: s.p2 :: r.map Shape.p2

/-- Specification: a tag on a path: its text and its place next to the centroid of the ends of the segments. -/
def TagAt (o : ColorOpts ℝ) (txt : Str) (path : List (Shape ℝ)) (m : ColorMark ℝ) : Prop :=
  ∃ poly c, EndsOf path poly ∧ polyCentroid poly = .ok c ∧ m = .text txt (c.x - o.tagFont / 2) (c.y + o.tagFont / 2)

theorem tagPaths_ok (o : ColorOpts ℝ) (colors : List Str) (l : List (List (Shape ℝ) × Str)) (tags : List (ColorMark ℝ)) (h : tagPaths o colors l = .ok tags) :
    List.Forall₂ (fun pc m => TagAt o (o.prefix' ++ intDigits (colors.idxOf pc.2 + o.enumStart)) pc.1 m) l tags := by
  induction l generalizing tags with
  | nil =>
    simp only [tagPaths, Except.ok.injEq] at h
    subst h
    exact .nil
  | cons pc r ih =>
    obtain ⟨path, c⟩ := pc
    rw [tagPaths] at h
    cases hp : pathToPoly path with
    | error x => simp [bind, Except.bind, hp] at h
    | ok poly =>
      cases hc : polyCentroid poly with
      | error x => simp [bind, Except.bind, hp, hc] at h
      | ok cen =>
        cases hr : tagPaths o colors r with
        | error x => simp [bind, Except.bind, hp, hc, hr] at h
        | ok rest =>
          simp only [bind, Except.bind, hp, hc, hr, pure, Except.pure, Except.ok.injEq] at h
          subst h
          refine .cons ⟨poly, cen, ?_, hc, ?_⟩ (ih rest hr)
          · unfold pathToPoly at hp
            split at hp
            · simp at hp
            · rename_i s t
              simp only [Except.ok.injEq] at hp
              exact ⟨s, t, rfl, by rw [← hp]; rfl⟩
          · unfold colorTag
            simp [sub_eq_add_neg]

/-- **C164** (tags).  Every path of every filled element gets exactly one tag, in the order of the elements, next to the centroid of the ends of its segments; the tags of the colours are the prefix
with consecutive numbers from the start chosen, so that two paths have the same tag exactly if their elements have the same fill. -/
theorem C164_tags (o : ColorOpts ℝ) (fmax fmin : ℝ) (order : List Str → List Str) (horder : ∀ l, (order l).Perm l) (layers : List (ColorLayer ℝ)) (elems : List (ColorElem ℝ)) (r : ColorDrawn ℝ)
    (h : colorRun o fmax fmin order layers elems = .ok r) (ht : o.tagShapes = true) (hne : ∃ e ∈ elems, ∃ c, HasFill e c) :
    ∃ (tag : Str → Str) (colors : List Str) (paths : List (List (Shape ℝ) × Str)) (tags : List (ColorMark ℝ)),
      r.tags = some tags ∧ FilledPaths elems paths ∧ List.Forall₂ (fun pc m => TagAt o (tag pc.2) pc.1 m) paths tags ∧
      (∀ c, c ∈ colors ↔ ∃ e ∈ elems, HasFill e c) ∧ (∀ (i : Nat) c, colors[i]? = some c → tag c = o.prefix' ++ intDigits (i + o.enumStart)) ∧
      ∀ c ∈ colors, ∀ c' ∈ colors, tag c = tag c' ↔ c = c' := by
  obtain ⟨st, -, hI, hr⟩ := colorRun_ok h
  have hmem : ∀ c, c ∈ order (st.counts.map Prod.fst) ↔ ∃ e ∈ elems, HasFill e c := fun c => ((horder _).mem_iff).trans (hI.mem c)
  have hnd : (order (st.counts.map Prod.fst)).Nodup := (horder _).nodup_iff.2 hI.nodup
  rcases hr with ⟨h1, h2⟩ | ⟨h1, h2⟩
  · obtain ⟨e, he, c, hc⟩ := hne
    have := (hI.mem c).2 ⟨e, he, hc⟩
    rw [h1] at this
    simp at this
  · obtain ⟨-, -, g3, -⟩ := drawColorKey_ok h2
    obtain ⟨tags, g4, g5⟩ := g3 ht
    refine ⟨fun c => o.prefix' ++ intDigits ((order (st.counts.map Prod.fst)).idxOf c + o.enumStart), order (st.counts.map Prod.fst), st.pathlist, tags, g4, hI.paths, tagPaths_ok o _ _ _ g5, hmem, ?_, ?_⟩
    · intro i c hi
      obtain ⟨hlt, hi'⟩ := List.getElem?_eq_some_iff.1 hi
      simp only
      rw [← hi', hnd.idxOf_getElem i hlt]
    · intro c hc c' hc'
      constructor
      · intro e
        have := intDigits_inj (List.append_cancel_left e)
        have hidx : (order (st.counts.map Prod.fst)).idxOf c = (order (st.counts.map Prod.fst)).idxOf c' := by omega
        exact (List.idxOf_inj hc).1 hidx
      · rintro rfl; rfl

/-! ## A key of shapes -/

/-- Specification: a colour of a key of shapes. -/
structure ShapeRow where
  color : Str
  points : List (P ℝ)
  centroid : P ℝ
  top : ℝ
  bottom : ℝ

/-- Specification: the tag, the shape and the legend one and a half lines below it. -/
noncomputable def ShapeRow.marks (o : ColorOpts ℝ) (n : Nat) (i : Nat) (w : ShapeRow) : List (ColorMark ℝ) :=
  [.text (o.prefix' ++ intDigits (i + o.enumStart)) (w.centroid.x - o.tagFont / 2) (w.centroid.y + o.tagFont / 2), .polygon w.points,
    .text (legend n w.color) o.left (w.bottom + 3 / 2 * o.keyFont)]

/-- Specification: the rows follow each other from a height, each three lines below the one before; the height after the last. -/
def Stacked (font : ℝ) : ℝ → List ShapeRow → ℝ → Prop
  | y, [], z => z = y
  | y, w :: r, z => w.top = y ∧ Stacked font (w.bottom + 3 * font) r z

/-- Specification: the row shows the first path of the first element with the colour, moved so that its upper left corner is at the left margin and the top of the row, and it is not lower than the
bottom of the row; it reaches the bottom unless all of it is above the upper edge of the document (its heights are less than the smallest positive number). -/
def ShowsFirst (o : ColorOpts ℝ) (fmin : ℝ) (elems : List (ColorElem ℝ)) (w : ShapeRow) : Prop :=
  ∃ path poly v, IsFirstPath elems w.color path ∧ EndsOf path poly ∧ w.points = poly.map (shiftP v) ∧ polyCentroid w.points = .ok w.centroid ∧
    (∀ p ∈ w.points, o.left ≤ p.x ∧ w.top ≤ p.y ∧ p.y ≤ w.bottom) ∧ (∃ p ∈ w.points, p.x = o.left) ∧ (∃ p ∈ w.points, p.y = w.top) ∧
    ((∃ p ∈ poly, fmin ≤ p.y) → ∃ p ∈ w.points, p.y = w.bottom)

theorem pathToPoly_ok {path : List (Shape ℝ)} {poly : List (P ℝ)} : pathToPoly path = .ok poly ↔ EndsOf path poly := by
  unfold pathToPoly EndsOf
  cases path with
  | nil => simp
  | cons s r => simp [eq_comm]

theorem pointsBox_spec (fmax fmin : ℝ) (ps : List (P ℝ)) (hne : ps ≠ []) (hmax : ∀ p ∈ ps, p.x ≤ fmax ∧ p.y ≤ fmax) :
    (∀ p ∈ ps, (pointsBox fmax fmin ps).p1.x ≤ p.x ∧ (pointsBox fmax fmin ps).p1.y ≤ p.y ∧ p.y ≤ (pointsBox fmax fmin ps).p2.y) ∧
      (∃ p ∈ ps, p.x = (pointsBox fmax fmin ps).p1.x) ∧ (∃ p ∈ ps, p.y = (pointsBox fmax fmin ps).p1.y) ∧
      ((∃ p ∈ ps, fmin ≤ p.y) → ∃ p ∈ ps, p.y = (pointsBox fmax fmin ps).p2.y) := by
  obtain ⟨p0, hp0⟩ := List.exists_mem_of_ne_nil ps hne
  have hb : pointsBox fmax fmin ps = Box.mk' ⟨Box.minL (ps.map P.x) fmax, Box.minL (ps.map P.y) fmax⟩
      ⟨Box.maxL (ps.map P.x) fmin, Box.maxL (ps.map P.y) fmin⟩ := by
    unfold pointsBox
    rw [foldl_pmin_eq P.x, foldl_pmin_eq P.y, foldl_pmax_eq P.x, foldl_pmax_eq P.y]
  obtain ⟨a1, a2, a3⟩ := minL_spec (ps.map P.x) fmax
  obtain ⟨b1, b2, b3⟩ := minL_spec (ps.map P.y) fmax
  obtain ⟨c1, c2, c3⟩ := maxL_spec (ps.map P.x) fmin
  obtain ⟨d1, d2, d3⟩ := maxL_spec (ps.map P.y) fmin
  have hc : ∀ p ∈ ps, Box.minL (ps.map P.x) fmax ≤ p.x ∧ p.x ≤ Box.maxL (ps.map P.x) fmin ∧
      Box.minL (ps.map P.y) fmax ≤ p.y ∧ p.y ≤ Box.maxL (ps.map P.y) fmin := fun p hp =>
    ⟨a2 _ (List.mem_map_of_mem hp), c2 _ (List.mem_map_of_mem hp), b2 _ (List.mem_map_of_mem hp),
      d2 _ (List.mem_map_of_mem hp)⟩
  have hv : (Box.mk ⟨Box.minL (ps.map P.x) fmax, Box.minL (ps.map P.y) fmax⟩
      ⟨Box.maxL (ps.map P.x) fmin, Box.maxL (ps.map P.y) fmin⟩ : Box ℝ).Valid :=
    ⟨le_trans (hc p0 hp0).1 (hc p0 hp0).2.1, le_trans (hc p0 hp0).2.2.1 (hc p0 hp0).2.2.2⟩
  rw [hb, mk'_valid hv]
  have tmin : ∀ (f : P ℝ → ℝ), (∀ r ∈ ps, f r ≤ fmax) →
      (Box.minL (ps.map f) fmax = fmax ∨ Box.minL (ps.map f) fmax ∈ ps.map f) →
      ∃ r ∈ ps, f r = Box.minL (ps.map f) fmax := by
    intro f hf h
    rcases h with h | h
    · have := (minL_spec (ps.map f) fmax).2.1 _ (List.mem_map_of_mem hp0)
      exact ⟨p0, hp0, le_antisymm (by rw [h]; exact hf p0 hp0) this⟩
    · obtain ⟨r, hr, e⟩ := List.mem_map.1 h
      exact ⟨r, hr, e⟩
  refine ⟨fun p hp => ⟨(hc p hp).1, (hc p hp).2.2.1, (hc p hp).2.2.2⟩, tmin P.x (fun p hp => (hmax p hp).1) a3, tmin P.y (fun p hp => (hmax p hp).2) b3, ?_⟩
  rintro ⟨r, hr, hf⟩
  rcases d3 with h | h
  · exact ⟨r, hr, le_antisymm (d2 _ (List.mem_map_of_mem hr)) (by simp only; rw [h]; exact hf)⟩
  · obtain ⟨r, hr, e⟩ := List.mem_map.1 h
    exact ⟨r, hr, e⟩

theorem stacked_append {font : ℝ} {y z : ℝ} {rows : List ShapeRow} (h : Stacked font y rows z) (hf : 0 ≤ font) (hb : ∀ w ∈ rows, w.top ≤ w.bottom) :
    (∀ w ∈ rows, y ≤ w.top) ∧ rows.Pairwise (fun a b => a.bottom + 3 * font ≤ b.top) := by
  induction rows generalizing y with
  | nil => simp
  | cons w r ih =>
    obtain ⟨h1, h2⟩ := h
    obtain ⟨i1, i2⟩ := ih h2 (fun w' hw' => hb w' (List.mem_cons_of_mem _ hw'))
    have hw := hb w List.mem_cons_self
    refine ⟨?_, List.pairwise_cons.2 ⟨i1, i2⟩⟩
    intro w' hw'
    rcases List.mem_cons.1 hw' with rfl | hw'
    · exact h1.ge
    · have := i1 w' hw'
      linarith

theorem keyShapes_ok (o : ColorOpts ℝ) (fmax fmin : ℝ) (elems : List (ColorElem ℝ)) (counts : List (Str × Nat)) (shapes : List (Str × List (Shape ℝ)))
    (hshape : ∀ c path, shapes.lookup c = some path → IsFirstPath elems c path)
    (hcount : ∀ c n, counts.lookup c = some n → n = numberFilled elems c)
    (hin : ∀ c path poly, IsFirstPath elems c path → EndsOf path poly → ∀ p ∈ poly, p.x ≤ fmax ∧ p.y ≤ fmax)
    (colors done rest : List Str) (hnd : colors.Nodup) (hsplit : colors = done ++ rest) (y : ℝ) (total : Nat) (marks : List (ColorMark ℝ))
    (h : keyShapes o fmax fmin colors counts shapes rest y total = .ok marks) :
    ∃ (rows : List ShapeRow) (z : ℝ), rows.map ShapeRow.color = rest ∧ Stacked o.keyFont y rows z ∧ (∀ w ∈ rows, ShowsFirst o fmin elems w) ∧
      marks = (rows.zipIdx done.length).flatMap (fun wi => wi.1.marks o (numberFilled elems wi.1.color) wi.2) ++
        [.text ("Total: ".toList ++ natDigits (total + (rest.map (numberFilled elems)).sum)) o.left (z + 3 / 2 * o.keyFont)] := by
  induction rest generalizing done y total marks with
  | nil =>
    simp only [keyShapes, Except.ok.injEq] at h
    refine ⟨[], y, rfl, rfl, by simp, ?_⟩
    rw [← h]
    simp only [List.zipIdx_nil, List.flatMap_nil, List.nil_append, List.map_nil, List.sum_nil, Nat.add_zero, keyTotal, gap_real, real_add]
  | cons c rest ih =>
    rw [keyShapes] at h
    cases hc : counts.lookup c with
    | none => simp only [hc] at h; cases h
    | some n =>
      cases hs : shapes.lookup c with
      | none => simp only [hc, hs] at h; cases h
      | some path =>
        simp only [hc, hs] at h
        cases hp : pathToPoly path with
        | error x => simp only [bind, Except.bind, hp] at h; cases h
        | ok poly =>
          simp only [bind, Except.bind, hp] at h
          cases hd : drawKeyShape o poly (pointsBox fmax fmin poly) y (colors.idxOf c) with
          | error x => simp only [hd] at h; cases h
          | ok ms =>
            simp only [hd] at h
            cases hr : keyShapes o fmax fmin colors counts shapes rest (y +. ((pointsBox fmax fmin poly).p2.y -. (pointsBox fmax fmin poly).p1.y +. o.gap) +. o.gap) (total + n) with
            | error x => simp only [hr] at h; cases h
            | ok ms' =>
              simp only [hr, pure, Except.pure, Except.ok.injEq] at h
              have hends := pathToPoly_ok.1 hp
              have hfirst := hshape c path hs
              have hne : poly ≠ [] := by
                obtain ⟨s, t, -, e⟩ := hends
                rw [e]; simp
              have hbounds := hin c path poly hfirst hends
              have hbox := pointsBox_spec fmax fmin poly hne hbounds
              unfold drawKeyShape at hd
              cases hcen : polyCentroid (poly.map fun p => p.add ⟨o.left -. (pointsBox fmax fmin poly).p1.x, y -. (pointsBox fmax fmin poly).p1.y⟩) with
              | error x => simp only [bind, Except.bind, hcen] at hd; cases hd
              | ok cen =>
                simp only [bind, Except.bind, hcen, pure, Except.pure, Except.ok.injEq] at hd
                obtain ⟨rows, z, r1, r2, r3, r4⟩ := ih (done ++ [c]) (by simp [hsplit]) _ _ ms' hr
                have hidx : colors.idxOf c = done.length := by
                  have hcd : c ∉ done := by
                    rw [hsplit, List.nodup_append] at hnd
                    exact fun hm => hnd.2.2 c hm c List.mem_cons_self rfl
                  rw [hsplit, List.idxOf_append_of_notMem hcd]
                  simp
                set b := pointsBox fmax fmin poly with hb
                set v : P ℝ := ⟨o.left - b.p1.x, y - b.p1.y⟩ with hv
                have hmap : (poly.map fun p => p.add ⟨o.left -. b.p1.x, y -. b.p1.y⟩) = poly.map (shiftP v) := by
                  apply List.map_congr_left
                  intro p _
                  simp [P.add, shiftP, hv]
                rw [hmap] at hcen hd
                have hn := hcount c n hc
                refine ⟨⟨c, poly.map (shiftP v), cen, y, y + (b.p2.y - b.p1.y)⟩ :: rows, z, by rw [List.map_cons, r1], ⟨rfl, ?_⟩, ?_, ?_⟩
                · have e : y + (b.p2.y - b.p1.y) + 3 * o.keyFont = y +. (b.p2.y -. b.p1.y +. o.gap) +. o.gap := by
                    simp only [gap_real, real_add, real_sub]; ring
                  simp only
                  rw [e]
                  exact r2
                · intro w hw
                  rcases List.mem_cons.1 hw with rfl | hw
                  · obtain ⟨q1, ⟨p2, m2, q2⟩, ⟨p3, m3, q3⟩, q4⟩ := hbox
                    refine ⟨path, poly, v, hfirst, hends, rfl, hcen, ?_, ⟨_, List.mem_map_of_mem m2, ?_⟩, ⟨_, List.mem_map_of_mem m3, ?_⟩, ?_⟩
                    · intro p hp
                      obtain ⟨q, hq, rfl⟩ := List.mem_map.1 hp
                      obtain ⟨u1, u2, u3⟩ := q1 q hq
                      simp only [shiftP, hv]
                      exact ⟨by linarith, by linarith, by linarith⟩
                    · simp only [shiftP, hv, q2]; ring
                    · simp only [shiftP, hv, q3]; ring
                    · intro hq
                      obtain ⟨p4, m4, q4⟩ := q4 hq
                      exact ⟨_, List.mem_map_of_mem m4, by simp only [shiftP, hv, q4]; ring⟩
                  · exact r3 w hw
                · rw [← h, ← hd, r4, hidx, hn]
                  simp only [List.zipIdx_cons, List.flatMap_cons, List.length_append, List.length_cons, List.length_nil, ShapeRow.marks, List.cons_append, List.nil_append, colorTag,
                    keyItemText, gap_real, real_add, real_sub, real_neg, real_div, real_ofInt, List.map_cons, List.sum_cons]
                  refine congrArg₂ List.cons ?_ (congrArg₂ List.cons rfl (congrArg₂ List.cons ?_ ?_))
                  · congr 1
                  · show ColorMark.text (legend _ _) _ _ = _
                    congr 1
                    ring
                  · rw [show total + numberFilled elems c + (rest.map (numberFilled elems)).sum = total + (numberFilled elems c + (rest.map (numberFilled elems)).sum) by omega]

/-- **C164** (key of shapes).  A key of shapes shows each fill colour once, in rows from the top that do not overlap; a row has the outline of the first path of the first element of the colour moved to the
left margin, the tag of the colour at its centroid, and the legend below it with the number of elements of the colour.
The legend is right below the outline unless the outline lies above the document (C50). -/
theorem C164_shape_key (o : ColorOpts ℝ) (fmax fmin : ℝ) (order : List Str → List Str) (horder : ∀ l, (order l).Perm l) (layers : List (ColorLayer ℝ)) (elems : List (ColorElem ℝ))
    (r : ColorDrawn ℝ) (h : colorRun o fmax fmin order layers elems = .ok r) (hk : o.shapeKey = true) (hne : ∃ e ∈ elems, ∃ c, HasFill e c)
    (hin : ∀ c path poly, IsFirstPath elems c path → EndsOf path poly → ∀ p ∈ poly, p.x ≤ fmax ∧ p.y ≤ fmax) :
    ∃ (rows : List ShapeRow) (z : ℝ), (rows.map ShapeRow.color).Nodup ∧ (∀ c, c ∈ rows.map ShapeRow.color ↔ ∃ e ∈ elems, HasFill e c) ∧
      r.key = rows.zipIdx.flatMap (fun wi => wi.1.marks o (numberFilled elems wi.1.color) wi.2) ++
        [.text ("Total: ".toList ++ natDigits (numberAnyFill elems)) o.left (z + 3 / 2 * o.keyFont)] ∧
      (∀ w ∈ rows, ShowsFirst o fmin elems w) ∧ Stacked o.keyFont o.top rows z ∧ (0 < o.keyFont → rows.Pairwise fun a b => a.bottom + 3 * o.keyFont ≤ b.top) := by
  obtain ⟨st, hst, hI, hr⟩ := colorRun_ok h
  have hmem : ∀ c, c ∈ order (st.counts.map Prod.fst) ↔ ∃ e ∈ elems, HasFill e c := fun c => ((horder _).mem_iff).trans (hI.mem c)
  have hnd : (order (st.counts.map Prod.fst)).Nodup := (horder _).nodup_iff.2 hI.nodup
  rcases hr with ⟨h1, h2⟩ | ⟨h1, h2⟩
  · obtain ⟨e, he, c, hc⟩ := hne
    have := (hI.mem c).2 ⟨e, he, hc⟩
    rw [h1] at this
    simp at this
  · obtain ⟨g1, -, -, -⟩ := drawColorKey_ok h2
    unfold colorKey at g1
    rw [if_pos hk] at g1
    obtain ⟨rows, z, r1, r2, r3, r4⟩ := keyShapes_ok o fmax fmin elems st.counts st.shapes hI.shapes (fun c n hn => by rw [← hI.count, hn]; rfl) hin _ [] _ hnd rfl _ _ _ g1
    refine ⟨rows, z, by rw [r1]; exact hnd, fun c => by rw [r1]; exact hmem c, ?_, r3, r2, ?_⟩
    · have e2 : ((order (st.counts.map Prod.fst)).map (numberFilled elems)).sum = numberAnyFill elems := by
        rw [((horder _).map _).sum_eq, ← hI.total, ← sum_lookup _ hI.nodup]
        congr 1
        apply List.map_congr_left
        intro c _
        rw [hI.count]
      rw [r4, e2, Nat.zero_add]
      rfl
    · intro hf
      refine (stacked_append r2 hf.le ?_).2
      intro w hw
      obtain ⟨path, poly, v, -, -, -, -, hb, ⟨p, hp, -⟩, -⟩ := r3 w hw
      obtain ⟨-, b, c⟩ := hb p hp
      linarith

end Verif.Ext
