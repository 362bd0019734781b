import Verif.Ext.Props26

/-!
# C164: the layers of the colours, and when the extension succeeds
-/

set_option linter.unusedSectionVars false

namespace Verif.Ext
open Verif PyFloat PyTrig Geom Css

section
variable {K : Type} [PyFloat K] [PyTrig K]

/-! ## Specification -/

/-- Specification: the layer that has the first element with this fill. -/
def FirstIn (layers : List (ColorLayer K)) (elems : List (ColorElem K)) (c : Str) (parent : ColorLayer K) : Prop :=
  ∃ before e after i, elems = before ++ e :: after ∧ (∀ b ∈ before, ¬ HasFill b c) ∧ HasFill e c ∧ e.layer = some i ∧ layers[i]? = some parent

/-- Specification: the name of the layer of a colour: the name of the layer of the first element, an underscore, and the colour without the leading `#`. -/
def NamedFor (parent : ColorLayer K) (c : Str) (name : Str) : Prop :=
  ∃ k t, c = List.replicate k '#' ++ t ∧ t.head? ≠ some '#' ∧ name = parent.label.getD "None".toList ++ '_' :: t

open Classical in
/-- Specification: the elements with this fill, in order. -/
noncomputable def allWith (elems : List (ColorElem K)) (c : Str) : List (ColorElem K) := elems.filter fun e => decide (HasFill e c)

/-! ## Names -/

theorem lstripHash_spec (c : Str) : ∃ k, c = List.replicate k '#' ++ lstripHash c ∧ (lstripHash c).head? ≠ some '#' := by
  induction c with
  | nil => exact ⟨0, rfl, by simp [lstripHash]⟩
  | cons x r ih =>
    by_cases hx : x = '#'
    · subst hx
      obtain ⟨k, h1, h2⟩ := ih
      refine ⟨k + 1, ?_, h2⟩
      show '#' :: r = '#' :: (List.replicate k '#' ++ lstripHash r)
      rw [← h1]
    · have : lstripHash (x :: r) = x :: r := by
        unfold lstripHash
        split
        · rename_i h; exact absurd (List.cons.inj h).1 hx
        · rfl
      rw [this]
      exact ⟨0, rfl, by simpa using hx⟩

/-- The name given by the program. -/
def nameFor (parent : ColorLayer K) (c : Str) : Str := labelText parent.label ++ '_' :: lstripHash c

theorem namedFor_iff (parent : ColorLayer K) (c name : Str) : NamedFor parent c name ↔ name = nameFor parent c := by
  have hl : labelText parent.label = parent.label.getD "None".toList := by
    cases h : parent.label <;> rfl
  obtain ⟨k, h1, h2⟩ := lstripHash_spec c
  unfold nameFor
  rw [hl]
  constructor
  · rintro ⟨k', t, e1, e2, e3⟩
    have key : ∀ (k k' : Nat) (s t : Str), s.head? ≠ some '#' → t.head? ≠ some '#' → List.replicate k '#' ++ s = List.replicate k' '#' ++ t → s = t := by
      intro k
      induction k with
      | zero =>
        intro k' s t hs ht e
        cases k' with
        | zero => simpa using e
        | succ k' =>
          exfalso
          apply hs
          have : s = '#' :: (List.replicate k' '#' ++ t) := by simpa [List.replicate_succ] using e
          rw [this]; rfl
      | succ k ih =>
        intro k' s t hs ht e
        cases k' with
        | zero =>
          exfalso
          apply ht
          have : t = '#' :: (List.replicate k '#' ++ s) := by simpa [List.replicate_succ] using e.symm
          rw [this]; rfl
        | succ k' =>
          simp only [List.replicate_succ, List.cons_append, List.cons.injEq, true_and] at e
          exact ih k' s t hs ht e
    rw [e3, key k' k t (lstripHash c) e2 h2 (by rw [← e1, ← h1])]
  · intro e
    exact ⟨k, lstripHash c, h1, h2, e⟩

theorem nameFor_ne (parent : ColorLayer K) (c : Str) (s : Str) (hs : '_' ∉ s) : nameFor parent c ≠ s := by
  rintro rfl
  exact hs (by unfold nameFor; simp)

/-! ## `create_layer` -/

theorem modify_at {α : Type} {L : List α} {j : Nat} {l : α} (f : α → α) (h : L[j]? = some l) : (L.modify j f)[j]? = some (f l) := by
  rw [List.getElem?_modify, h]; simp

theorem modify_off {α : Type} (L : List α) {j i : Nat} (f : α → α) (h : j ≠ i) : (L.modify j f)[i]? = L[i]? := by
  rw [List.getElem?_modify]
  simp [h]

theorem openLayer_spec (L : List (ColorLayer K)) (name : Str) :
    (∀ (i : Nat) (l : ColorLayer K), L[i]? = some l → l.label ≠ some name → (openLayer L name).1[i]? = some l) ∧
    (∃ l, (openLayer L name).1[(openLayer L name).2]? = some l ∧ l.label = some name ∧ l.copies = [] ∧ (L.length ≤ (openLayer L name).2 ∨ l.kept = false)) ∧
    (∀ (i : Nat) (l : ColorLayer K), L[i]? = some l → ∃ l', (openLayer L name).1[i]? = some l' ∧ l'.label = l.label ∧ (l' = l ∨ l'.kept = false ∧ l.label = some name)) ∧
    L.length ≤ (openLayer L name).1.length ∧ (∀ l, L[(openLayer L name).2]? = some l → l.label = some name) := by
  unfold openLayer
  cases hf : L.findIdx? (fun l => l.label = some name) with
  | none =>
    simp only
    have hno : ∀ l ∈ L, l.label ≠ some name := by
      intro l hl
      have := List.findIdx?_eq_none_iff.1 hf l hl
      simpa using this
    refine ⟨?_, ⟨⟨some name, none, none, true, []⟩, by simp, rfl, rfl, Or.inl (by simp)⟩, ?_, by simp, ?_⟩
    · intro i l hi _
      rw [List.getElem?_append_left (List.getElem?_eq_some_iff.1 hi).1]
      exact hi
    · intro i l hi
      refine ⟨l, ?_, rfl, Or.inl rfl⟩
      rw [List.getElem?_append_left (List.getElem?_eq_some_iff.1 hi).1]
      exact hi
    · intro l hl
      simp at hl
  | some j =>
    simp only
    obtain ⟨hj, hlab, -⟩ := List.findIdx?_eq_some_iff_getElem.1 hf
    have hlab' : L[j].label = some name := by simpa using hlab
    refine ⟨?_, ⟨{ L[j] with kept := false, copies := [] }, by simp [hj], hlab', rfl, Or.inr rfl⟩, ?_, by simp, ?_⟩
    · intro i l hi hl
      have hij : j ≠ i := by
        rintro rfl
        rw [List.getElem?_eq_getElem hj] at hi
        simp only [Option.some.injEq] at hi
        exact hl (hi ▸ hlab')
      rw [modify_off _ _ hij]
      exact hi
    · intro i l hi
      by_cases hij : j = i
      · subst hij
        rw [List.getElem?_eq_getElem hj] at hi
        simp only [Option.some.injEq] at hi
        subst hi
        refine ⟨{ L[j] with kept := false, copies := [] }, by simp [hj], rfl, Or.inr ⟨rfl, hlab'⟩⟩
      · rw [modify_off _ _ hij]
        exact ⟨l, hi, rfl, Or.inl rfl⟩
    · intro l hl
      rw [List.getElem?_eq_getElem hj] at hl
      simp only [Option.some.injEq] at hl
      exact hl ▸ hlab'

/-! ## The loop -/

theorem FirstIn.append {layers : List (ColorLayer K)} {a : List (ColorElem K)} {c : Str} {p : ColorLayer K} (h : FirstIn layers a c p) (b : List (ColorElem K)) : FirstIn layers (a ++ b) c p := by
  obtain ⟨x, e, y, i, h1, h2, h3, h4, h5⟩ := h
  exact ⟨x, e, y ++ b, i, by rw [h1]; simp, h2, h3, h4, h5⟩

/-- The layers after some of the elements; `cp` are the copies of each colour. -/
structure LayersOk (layers : List (ColorLayer K)) (done : List (ColorElem K)) (cp : Str → List (ColorElem K)) (st : ColorState K) : Prop where
  color : ∀ c, (∃ e ∈ done, HasFill e c) → ∃ i l parent, st.colorLayers.lookup c = some i ∧ st.layers[i]? = some l ∧ FirstIn layers done c parent ∧ l.label = some (nameFor parent c) ∧
    l.copies = cp c ∧ (parent.style.isSome → l.style = parent.style) ∧ (parent.transform.isSome → l.transform = parent.transform) ∧ (layers.length ≤ i ∨ l.kept = false)
  old : ∀ (i : Nat) (l : ColorLayer K), layers[i]? = some l → ∃ l', st.layers[i]? = some l' ∧ l'.label = l.label ∧ (l' = l ∨ l'.kept = false ∧ ∃ c parent, FirstIn layers done c parent ∧ l.label = some (nameFor parent c))
  length : layers.length ≤ st.layers.length
  known : ∀ c i, st.colorLayers.lookup c = some i → ∃ e ∈ done, HasFill e c

/-- Hypothesis: layers of different colours have different names. -/
def NamesApart (layers : List (ColorLayer K)) (elems : List (ColorElem K)) : Prop :=
  ∀ c c' p p' name, FirstIn layers elems c p → FirstIn layers elems c' p' → NamedFor p c name → NamedFor p' c' name → c = c'

theorem NamesApart.prefix {layers : List (ColorLayer K)} {a b : List (ColorElem K)} (h : NamesApart layers (a ++ b)) : NamesApart layers a :=
  fun c c' p p' n h1 h2 => h c c' p p' n (h1.append b) (h2.append b)

theorem parentLayer_some {L : List (ColorLayer K)} {e : ColorElem K} {p : ColorLayer K} (h : parentLayer L e = some p) : ∃ i, e.layer = some i ∧ L[i]? = some p ∧ p.kept = true := by
  unfold parentLayer at h
  split at h
  · simp at h
  · rename_i i hi
    split at h
    · simp at h
    · rename_i l hl
      split at h
      · rename_i hk
        simp only [Option.some.injEq] at h
        subst h
        exact ⟨i, hi, hl, hk⟩
      · simp at h

/-- A layer is made for a new colour. -/
theorem layers_new {layers : List (ColorLayer K)} {done : List (ColorElem K)} {cp : Str → List (ColorElem K)} {st st' : ColorState K} {e : ColorElem K} {c : Str}
    (hI : LayersOk layers done cp st) (hkept : ∀ l ∈ layers, l.kept = true) (hlay : ∀ i, e.layer = some i → i < layers.length) (hc : HasFill e c) (hnew : ∀ b ∈ done, ¬ HasFill b c) (hcp : cp c = [])
    (hap : NamesApart layers (done ++ [e])) (h : addColorLayer st e c = .ok st') : LayersOk layers (done ++ [e]) cp st' := by
  unfold addColorLayer at h
  split at h
  · simp at h
  rename_i p0 hp0
  simp only [Except.ok.injEq] at h
  obtain ⟨i0, hi0, hl0, hk0⟩ := parentLayer_some hp0
  have hlt := hlay i0 hi0
  have hp : layers[i0]? = some p0 := by
    obtain ⟨l', h1, -, h3⟩ := hI.old i0 _ (List.getElem?_eq_getElem hlt)
    rw [hl0] at h1
    simp only [Option.some.injEq] at h1
    subst h1
    rcases h3 with h3 | h3
    · rw [h3]; exact List.getElem?_eq_getElem hlt
    · rw [hk0] at h3; simp at h3
  have hfirst : FirstIn layers (done ++ [e]) c p0 := ⟨done, e, [], i0, rfl, hnew, hc, hi0, hp⟩
  change (⟨_, _, _, List.modify (openLayer st.layers (nameFor p0 c)).1 (openLayer st.layers (nameFor p0 c)).2 p0.like, _⟩ : ColorState K) = st' at h
  obtain ⟨o1, ⟨l1, o2, o3, o4, o5⟩, o6, o7, o8⟩ := openLayer_spec st.layers (nameFor p0 c)
  set O := openLayer st.layers (nameFor p0 c) with hO
  subst h
  constructor
  · intro c' hc'
    by_cases hcc : c' = c
    · subst hcc
      refine ⟨O.2, p0.like l1, p0, ?_, ?_, hfirst, ?_, ?_, ?_, ?_, ?_⟩
      · show List.lookup c' ((c', O.2) :: st.colorLayers) = _
        simp [List.lookup]
      · show (List.modify O.1 O.2 p0.like)[O.2]? = _
        exact modify_at _ o2
      · exact o3
      · rw [hcp]; exact o4
      · intro hs; show (if p0.style.isSome then _ else _) = _; rw [if_pos hs]
      · intro hs; show (if p0.transform.isSome then _ else _) = _; rw [if_pos hs]
      · rcases o5 with o5 | o5
        · exact Or.inl (le_trans hI.length o5)
        · exact Or.inr o5
    · have hd : ∃ e ∈ done, HasFill e c' := by
        obtain ⟨x, hx, hf⟩ := hc'
        rcases List.mem_append.1 hx with hx | hx
        · exact ⟨x, hx, hf⟩
        · rw [List.mem_singleton] at hx
          subst hx
          exact absurd (hasFill_unique hf hc) hcc
      obtain ⟨i, l, p, a1, a2, a3, a4, a5, a6, a7, a8⟩ := hI.color c' hd
      have hname : l.label ≠ some (nameFor p0 c) := by
        rw [a4]
        intro e1
        simp only [Option.some.injEq] at e1
        exact hcc (hap c' c p p0 (nameFor p c') (a3.append [e]) hfirst ((namedFor_iff _ _ _).2 rfl) ((namedFor_iff _ _ _).2 e1))
      refine ⟨i, l, p, ?_, ?_, a3.append [e], a4, a5, a6, a7, a8⟩
      · show List.lookup c' ((c, O.2) :: st.colorLayers) = _
        have : (c' == c) = false := by simpa using hcc
        simp only [List.lookup, this]
        exact a1
      · show (List.modify O.1 O.2 p0.like)[i]? = _
        have hne : O.2 ≠ i := by
          rintro rfl
          exact hname (o8 l a2)
        rw [modify_off _ _ hne, o1 i l a2 hname]
  · intro i l hi
    obtain ⟨l', h1, h2, h3⟩ := hI.old i l hi
    obtain ⟨l'', g1, g2, g3⟩ := o6 i l' h1
    by_cases hio : O.2 = i
    · have hlab := o8 l' (hio ▸ h1)
      have hkf : l''.kept = false := by
        have : l1 = l'' := by
          rw [hio, g1] at o2
          simpa using o2.symm
        subst this
        rcases o5 with o5 | o5
        · have := (List.getElem?_eq_some_iff.1 h1).1
          omega
        · exact o5
      refine ⟨p0.like l'', ?_, ?_, Or.inr ⟨hkf, c, p0, hfirst, ?_⟩⟩
      · show (List.modify O.1 O.2 p0.like)[i]? = _
        subst hio; exact modify_at _ g1
      · exact g2.trans h2
      · rw [← h2]; exact hlab
    · refine ⟨l'', ?_, g2.trans h2, ?_⟩
      · show (List.modify O.1 O.2 p0.like)[i]? = _
        rw [modify_off _ _ hio, g1]
      · rcases g3 with rfl | ⟨g3, g4⟩
        · rcases h3 with h3 | ⟨h3, c', p', h4, h5⟩
          · exact Or.inl h3
          · exact Or.inr ⟨h3, c', p', h4.append [e], h5⟩
        · exact Or.inr ⟨g3, c, p0, hfirst, by rw [← h2]; exact g4⟩
  · show layers.length ≤ (List.modify O.1 O.2 p0.like).length
    rw [List.length_modify]
    exact le_trans hI.length o7
  · intro c' i hl
    change List.lookup c' ((c, O.2) :: st.colorLayers) = some i at hl
    by_cases hcc : c' = c
    · subst hcc
      exact ⟨e, by simp, hc⟩
    · have : (c' == c) = false := by simpa using hcc
      simp only [List.lookup, this] at hl
      obtain ⟨x, hx, hf⟩ := hI.known c' i hl
      exact ⟨x, List.mem_append_left _ hx, hf⟩

/-- An element is copied to the layer of its colour. -/
theorem layers_copy {layers : List (ColorLayer K)} {done : List (ColorElem K)} {cp : Str → List (ColorElem K)} {st st' : ColorState K} {e : ColorElem K} {c : Str}
    (hI : LayersOk layers done cp st) (hkept : ∀ l ∈ layers, l.kept = true) (hin : ∃ b ∈ done, HasFill b c) (hap : NamesApart layers done) (h : copyToLayer st e c = .ok st') :
    LayersOk layers done (fun c' => if c' = c then cp c ++ [e] else cp c') st' := by
  obtain ⟨i, l, p, a1, a2, a3, a4, a5, a6, a7, a8⟩ := hI.color c hin
  unfold copyToLayer at h
  rw [a1] at h
  simp only [Option.isNone_some, Bool.false_eq_true, if_false, bind, Except.bind, pure, Except.pure, a1, Except.ok.injEq] at h
  subst h
  constructor
  · intro c' hc'
    obtain ⟨i', l', p', b1, b2, b3, b4, b5, b6, b7, b8⟩ := hI.color c' hc'
    by_cases hcc : c' = c
    · subst hcc
      rw [a1] at b1
      simp only [Option.some.injEq] at b1
      subst b1
      rw [a2] at b2
      simp only [Option.some.injEq] at b2
      subst b2
      refine ⟨i, { l with copies := l.copies ++ [e] }, p', a1, ?_, b3, b4, ?_, b6, b7, b8⟩
      · show (List.modify st.layers i _)[i]? = _
        exact modify_at _ a2
      · rw [if_pos rfl, b5]
    · refine ⟨i', l', p', b1, ?_, b3, b4, ?_, b6, b7, b8⟩
      · show (List.modify st.layers i _)[i']? = _
        have hne : i ≠ i' := by
          rintro rfl
          rw [a2] at b2
          simp only [Option.some.injEq] at b2
          subst b2
          rw [a4] at b4
          simp only [Option.some.injEq] at b4
          exact hcc (hap c' c p' p (nameFor p' c') b3 a3 ((namedFor_iff _ _ _).2 rfl) ((namedFor_iff _ _ _).2 b4.symm))
        rw [modify_off _ _ hne, b2]
      · rw [if_neg hcc, b5]
  · intro i' l0 hi
    obtain ⟨l', h1, h2, h3⟩ := hI.old i' l0 hi
    by_cases hii : i = i'
    · subst hii
      rw [a2] at h1
      simp only [Option.some.injEq] at h1
      subst h1
      refine ⟨{ l with copies := l.copies ++ [e] }, ?_, h2, Or.inr ⟨?_, c, p, a3, ?_⟩⟩
      · show (List.modify st.layers i _)[i]? = _
        exact modify_at _ a2
      · rcases a8 with a8 | a8
        · have := (List.getElem?_eq_some_iff.1 hi).1
          omega
        · exact a8
      · rw [← h2]; exact a4
    · refine ⟨l', ?_, h2, h3⟩
      show (List.modify st.layers i _)[i']? = _
      rw [modify_off _ _ hii, h1]
  · show layers.length ≤ (List.modify st.layers i _).length
    rw [List.length_modify]
    exact hI.length
  · exact hI.known

theorem LayersOk.congr {layers : List (ColorLayer K)} {done : List (ColorElem K)} {cp : Str → List (ColorElem K)} {st st' : ColorState K} (hI : LayersOk layers done cp st)
    (h1 : st'.layers = st.layers) (h2 : st'.colorLayers = st.colorLayers) : LayersOk layers done cp st' := by
  obtain ⟨a, b, c, d⟩ := hI
  constructor
  · rw [h1, h2]; exact a
  · rw [h1]; exact b
  · rw [h1]; exact c
  · rw [h2]; exact d

theorem LayersOk.more {layers : List (ColorLayer K)} {done : List (ColorElem K)} {cp : Str → List (ColorElem K)} {st : ColorState K} (hI : LayersOk layers done cp st)
    (e : ColorElem K) (he : ∀ c, HasFill e c → ∃ b ∈ done, HasFill b c) : LayersOk layers (done ++ [e]) cp st := by
  constructor
  · intro c hc
    have hd : ∃ e ∈ done, HasFill e c := by
      obtain ⟨x, hx, hf⟩ := hc
      rcases List.mem_append.1 hx with hx | hx
      · exact ⟨x, hx, hf⟩
      · rw [List.mem_singleton] at hx
        subst hx
        exact he c hf
    obtain ⟨i, l, p, a1, a2, a3, a4⟩ := hI.color c hd
    exact ⟨i, l, p, a1, a2, a3.append [e], a4⟩
  · intro i l hi
    obtain ⟨l', h1, h2, h3⟩ := hI.old i l hi
    refine ⟨l', h1, h2, ?_⟩
    rcases h3 with h3 | ⟨h3, c', p', h4, h5⟩
    · exact Or.inl h3
    · exact Or.inr ⟨h3, c', p', h4.append [e], h5⟩
  · exact hI.length
  · intro c i h
    obtain ⟨x, hx, hf⟩ := hI.known c i h
    exact ⟨x, List.mem_append_left _ hx, hf⟩

theorem LayersOk.same {layers : List (ColorLayer K)} {done : List (ColorElem K)} {cp cp' : Str → List (ColorElem K)} {st : ColorState K} (hI : LayersOk layers done cp st)
    (h : ∀ c, (∃ e ∈ done, HasFill e c) → cp c = cp' c) : LayersOk layers done cp' st := by
  constructor
  · intro c hc
    obtain ⟨i, l, p, a1, a2, a3, a4, a5, a6⟩ := hI.color c hc
    exact ⟨i, l, p, a1, a2, a3, a4, by rw [← h c hc]; exact a5, a6⟩
  · exact hI.old
  · exact hI.length
  · exact hI.known

open Classical in
theorem allWith_append (a : List (ColorElem K)) (e : ColorElem K) (c : Str) : allWith (a ++ [e]) c = allWith a c ++ if HasFill e c then [e] else [] := by
  unfold allWith
  rw [List.filter_append]
  congr 1
  by_cases h : HasFill e c <;> simp [h]

theorem countElement_layers {layers : List (ColorLayer K)} {done : List (ColorElem K)} {st st' : ColorState K} {e : ColorElem K} (hC : Counted done st)
    (hI : LayersOk layers done (allWith done) st) (hkept : ∀ l ∈ layers, l.kept = true) (hlay : ∀ i, e.layer = some i → i < layers.length)
    (hap : NamesApart layers (done ++ [e])) (h : countElement true st e = .ok st') : LayersOk layers (done ++ [e]) (allWith (done ++ [e])) st' := by
  unfold countElement at h
  cases hf : fillOf e with
  | error x => simp [bind, Except.bind, hf] at h
  | ok f =>
    simp only [bind, Except.bind, hf] at h
    cases f with
    | none =>
      simp only [pure, Except.pure, Except.ok.injEq] at h
      subst h
      have hno := fun c => fillOf_none hf c
      refine (hI.more e (fun c hc => absurd hc (hno c))).same ?_
      intro c _
      rw [allWith_append, if_neg (hno c), List.append_nil]
    | some c =>
      have hc := fillOf_iff.1 hf
      have huniq : ∀ c', HasFill e c' ↔ c' = c := fun c' => ⟨fun h => hasFill_unique h hc, fun h => h ▸ hc⟩
      simp only [if_true] at h
      cases hm : countColor true { st with pathlist := st.pathlist ++ e.paths.map fun p => (p, c) } e c with
      | error x => simp [hm] at h
      | ok s =>
        simp only [hm] at h
        have hs : LayersOk layers (done ++ [e]) (allWith done) s := by
          unfold countColor at hm
          simp only at hm
          split at hm
          · rename_i hold
            simp only [Except.ok.injEq] at hm
            subst hm
            have hin := (hC.mem c).1 ((lookup_isSome_iff _ _).1 hold)
            exact LayersOk.congr (hI.more e (fun c' hc' => (huniq c').1 hc' ▸ hin)) rfl rfl
          · rename_i hold
            have hnew : ∀ b ∈ done, ¬ HasFill b c := fun b hb hf => hold ((lookup_isSome_iff _ _).2 ((hC.mem c).2 ⟨b, hb, hf⟩))
            split at hm
            · simp at hm
            · simp only [if_true] at hm
              refine layers_new (hI.congr (st' := _) ?_ ?_) hkept hlay hc hnew ?_ hap hm
              · rfl
              · rfl
              · unfold allWith
                rw [List.filter_eq_nil_iff]
                intro b hb
                simpa using hnew b hb
        refine (layers_copy hs hkept ⟨e, by simp, hc⟩ hap h).same ?_
        intro c' _
        rw [allWith_append]
        by_cases hcc : c' = c
        · subst hcc
          rw [if_pos rfl, if_pos hc]
        · rw [if_neg hcc, if_neg (fun h => hcc ((huniq c').1 h)), List.append_nil]

theorem countElements_layers {layers : List (ColorLayer K)} {todo : List (ColorElem K)} : ∀ {done : List (ColorElem K)} {st st' : ColorState K}, Counted done st →
    LayersOk layers done (allWith done) st → (∀ l ∈ layers, l.kept = true) → (∀ e ∈ todo, ∀ i, e.layer = some i → i < layers.length) →
    NamesApart layers (done ++ todo) → countElements true st todo = .ok st' → LayersOk layers (done ++ todo) (allWith (done ++ todo)) st' := by
  induction todo with
  | nil =>
    intro done st st' _ hI _ _ _ h
    simp only [countElements, Except.ok.injEq] at h
    subst h
    simpa using hI
  | cons e r ih =>
    intro done st st' hC hI hk hlay hap h
    rw [countElements] at h
    cases he : countElement true st e with
    | error x => simp [bind, Except.bind, he] at h
    | ok s =>
      simp only [bind, Except.bind, he] at h
      have hap' : NamesApart layers (done ++ [e] ++ r) := by simpa using hap
      have := ih (countElement_counted hC he) (countElement_layers hC hI hk (hlay e List.mem_cons_self) hap'.prefix he) hk (fun x hx => hlay x (List.mem_cons_of_mem _ hx)) hap' h
      simpa using this

theorem layers_start (layers : List (ColorLayer K)) : LayersOk layers [] (allWith []) (colorStart layers) := by
  constructor
  · intro c h; simp at h
  · intro i l hi; exact ⟨l, hi, rfl, Or.inl rfl⟩
  · exact le_refl _
  · intro c i h; simp [colorStart] at h

theorem keyLayers_other (o : ColorOpts K) (L : List (ColorLayer K)) (i : Nat) (l : ColorLayer K) (h : L[i]? = some l) (h1 : l.label ≠ some "colorkey".toList)
    (h2 : l.label ≠ some "colortags".toList) : (keyLayers o L)[i]? = some l := by
  have e1 := (openLayer_spec L "colorkey".toList).1 i l h h1
  unfold keyLayers
  dsimp only
  split
  · exact (openLayer_spec _ "colortags".toList).1 i l e1 h2
  · exact e1

/-- **C164** (layers).  Every fill colour has a layer named after it and the layer of its first element, with the style and the transform of that layer, and with copies of exactly the elements of this fill in
their order; a layer of the document that does not have such a name stays as it was.
Missing: two colours whose layers have the same name, and elements of other layers (refuted below). -/
theorem C164_layers_partial (o : ColorOpts K) (fmax fmin : K) (order : List Str → List Str) (horder : ∀ l, (order l).Perm l) (layers : List (ColorLayer K)) (elems : List (ColorElem K))
    (r : ColorDrawn K) (hkept : ∀ l ∈ layers, l.kept = true) (hlay : ∀ e ∈ elems, ∀ i, e.layer = some i → i < layers.length) (hap : NamesApart layers elems) (hs : o.separate = true)
    (h : colorRun o fmax fmin order layers elems = .ok r) :
    (∀ c, (∃ e ∈ elems, HasFill e c) → ∃ parent l name, FirstIn layers elems c parent ∧ l ∈ r.layers ∧ NamedFor parent c name ∧ l.label = some name ∧ l.copies = allWith elems c ∧
      (parent.style.isSome → l.style = parent.style) ∧ (parent.transform.isSome → l.transform = parent.transform)) ∧
    (∀ (i : Nat) l, layers[i]? = some l → l.label ≠ some "colorkey".toList → l.label ≠ some "colortags".toList →
      (∀ c parent name, FirstIn layers elems c parent → NamedFor parent c name → l.label ≠ some name) → r.layers[i]? = some l) := by
  obtain ⟨st, hst, hI, hr⟩ := colorRun_ok h
  rw [hs] at hst
  have hL : LayersOk layers elems (allWith elems) st := by
    simpa using countElements_layers (counted_start layers) (layers_start layers) hkept hlay (by simpa using hap) hst
  have hkeep : ∀ (i : Nat) l, st.layers[i]? = some l → l.label ≠ some "colorkey".toList → l.label ≠ some "colortags".toList → r.layers[i]? = some l := by
    intro i l hi h1 h2
    rcases hr with ⟨-, e⟩ | ⟨-, e⟩
    · rw [e]; exact hi
    · obtain ⟨-, g2, -⟩ := drawColorKey_ok e
      rw [g2]
      exact keyLayers_other o _ i l hi h1 h2
  constructor
  · intro c hc
    obtain ⟨i, l, p, a1, a2, a3, a4, a5, a6, a7, a8⟩ := hL.color c hc
    refine ⟨p, l, nameFor p c, a3, ?_, (namedFor_iff _ _ _).2 rfl, a4, a5, a6, a7⟩
    apply List.mem_of_getElem? (i := i)
    apply hkeep i l a2
    · rw [a4]
      intro e
      exact nameFor_ne p c "colorkey".toList (by decide) (Option.some.inj e)
    · rw [a4]
      intro e
      exact nameFor_ne p c "colortags".toList (by decide) (Option.some.inj e)
  · intro i l hi h1 h2 h3
    obtain ⟨l', b1, b2, b3⟩ := hL.old i l hi
    rcases b3 with b3 | ⟨-, c, p, b4, b5⟩
    · subst b3
      exact hkeep i l' b1 h1 h2
    · exact absurd b5 (h3 c p _ b4 ((namedFor_iff _ _ _).2 rfl))

end

/-! ## When it succeeds -/

/-- Specification: a path that has a centroid: one segment, or the ends of its segments make a polygon with an area. -/
def HasCentre (path : List (Shape ℝ)) : Prop := ∃ poly, EndsOf path poly ∧ (path.length = 1 ∨ polyArea poly ≠ 0)

theorem hasCentre_ok {path : List (Shape ℝ)} (h : HasCentre path) : ∃ poly, pathToPoly path = .ok poly ∧ ∀ v, ∃ c, polyCentroid (poly.map (shiftP v)) = .ok c := by
  obtain ⟨poly, h1, h2⟩ := h
  refine ⟨poly, pathToPoly_ok.2 h1, fun v => ?_⟩
  obtain ⟨s, t, e1, e2⟩ := h1
  match t, e1, e2 with
  | [], e1, e2 =>
    rw [e2]
    exact ⟨_, (C52_centroid_small _ _).2⟩
  | u :: t, e1, e2 =>
    have ha : polyArea poly ≠ 0 := by
      rcases h2 with h2 | h2
      · rw [e1] at h2; simp at h2
      · exact h2
    obtain ⟨c, -, hc, -⟩ := C52_centroid poly (by rw [e2]; simp) ha v 0
    exact ⟨_, hc⟩

theorem shiftP_zero (poly : List (P ℝ)) : poly.map (shiftP ⟨0, 0⟩) = poly := by
  conv_rhs => rw [← List.map_id poly]
  apply List.map_congr_left
  intro p _
  simp [shiftP]

theorem tagPaths_succeeds (o : ColorOpts ℝ) (colors : List Str) (l : List (List (Shape ℝ) × Str)) (h : ∀ pc ∈ l, HasCentre pc.1) : ∃ t, tagPaths o colors l = .ok t := by
  induction l with
  | nil => exact ⟨[], rfl⟩
  | cons pc r ih =>
    obtain ⟨path, c⟩ := pc
    obtain ⟨poly, h1, h2⟩ := hasCentre_ok (h (path, c) List.mem_cons_self)
    obtain ⟨cen, h3⟩ := h2 ⟨0, 0⟩
    rw [shiftP_zero] at h3
    obtain ⟨t, h4⟩ := ih fun pc hpc => h pc (List.mem_cons_of_mem _ hpc)
    rw [tagPaths]
    simp only [bind, Except.bind, h1, h3, h4, pure, Except.pure]
    exact ⟨_, rfl⟩

theorem keyShapes_succeeds (o : ColorOpts ℝ) (fmax fmin : ℝ) (colors : List Str) (counts : List (Str × Nat)) (shapes : List (Str × List (Shape ℝ))) (rest : List Str)
    (h : ∀ c ∈ rest, (counts.lookup c).isSome ∧ ∃ path, shapes.lookup c = some path ∧ HasCentre path) (y : ℝ) (total : Nat) :
    ∃ t, keyShapes o fmax fmin colors counts shapes rest y total = .ok t := by
  induction rest generalizing y total with
  | nil => exact ⟨_, rfl⟩
  | cons c r ih =>
    obtain ⟨h1, path, h2, h3⟩ := h c List.mem_cons_self
    obtain ⟨n, h1⟩ := Option.isSome_iff_exists.1 h1
    obtain ⟨poly, h4, h5⟩ := hasCentre_ok h3
    have hmap : (poly.map fun p => p.add ⟨o.left -. (pointsBox fmax fmin poly).p1.x, y -. (pointsBox fmax fmin poly).p1.y⟩) =
        poly.map (shiftP ⟨o.left - (pointsBox fmax fmin poly).p1.x, y - (pointsBox fmax fmin poly).p1.y⟩) := by
      apply List.map_congr_left
      intro p _
      simp [P.add, shiftP]
    obtain ⟨cen, h6⟩ := h5 ⟨o.left - (pointsBox fmax fmin poly).p1.x, y - (pointsBox fmax fmin poly).p1.y⟩
    rw [← hmap] at h6
    have hd : ∃ m, drawKeyShape o poly (pointsBox fmax fmin poly) y (colors.idxOf c) = .ok m := by
      unfold drawKeyShape
      simp only [bind, Except.bind, h6, pure, Except.pure]
      exact ⟨_, rfl⟩
    obtain ⟨m, hd⟩ := hd
    obtain ⟨t, ht⟩ := ih (fun c hc => h c (List.mem_cons_of_mem _ hc)) (y +. ((pointsBox fmax fmin poly).p2.y -. (pointsBox fmax fmin poly).p1.y +. o.gap) +. o.gap) (total + n)
    rw [keyShapes]
    simp only [h1, h2, bind, Except.bind, h4, hd, ht, pure, Except.pure]
    exact ⟨_, rfl⟩

theorem filledPaths_mem {elems : List (ColorElem ℝ)} {l : List (List (Shape ℝ) × Str)} (h : FilledPaths elems l) : ∀ pc ∈ l, ∃ e ∈ elems, HasFill e pc.2 ∧ pc.1 ∈ e.paths := by
  induction h with
  | nil => simp
  | @filled e r c l hc _ ih =>
    intro pc hpc
    rcases List.mem_append.1 hpc with hpc | hpc
    · obtain ⟨p, hp, rfl⟩ := List.mem_map.1 hpc
      exact ⟨e, List.mem_cons_self, hc, hp⟩
    · obtain ⟨e', h1, h2⟩ := ih pc hpc
      exact ⟨e', List.mem_cons_of_mem _ h1, h2⟩
  | @skip e r l _ _ ih =>
    intro pc hpc
    obtain ⟨e', h1, h2⟩ := ih pc hpc
    exact ⟨e', List.mem_cons_of_mem _ h1, h2⟩

/-- Specification: the elements can be put on layers: each filled one is in a layer of the document, and no layer of the document has the name of a layer of a colour. -/
structure Separable (layers : List (ColorLayer ℝ)) (elems : List (ColorElem ℝ)) : Prop where
  kept : ∀ l ∈ layers, l.kept = true
  placed : ∀ e ∈ elems, ∃ i, e.layer = some i ∧ i < layers.length
  apart : NamesApart layers elems
  free : ∀ l ∈ layers, ∀ c parent name, FirstIn layers elems c parent → NamedFor parent c name → l.label ≠ some name

theorem addColorLayer_succeeds {layers : List (ColorLayer ℝ)} {done : List (ColorElem ℝ)} {cp : Str → List (ColorElem ℝ)} {st : ColorState ℝ} {e : ColorElem ℝ} (c : Str)
    (hI : LayersOk layers done cp st) (hkept : ∀ l ∈ layers, l.kept = true) (hp : ∃ i, e.layer = some i ∧ i < layers.length)
    (hfree : ∀ l ∈ layers, ∀ c parent name, FirstIn layers done c parent → NamedFor parent c name → l.label ≠ some name) :
    ∃ st', addColorLayer st e c = .ok st' ∧ (st'.colorLayers.lookup c).isSome := by
  obtain ⟨i, h1, h2⟩ := hp
  obtain ⟨l', g1, -, g3⟩ := hI.old i layers[i] (List.getElem?_eq_getElem h2)
  have hl : l' = layers[i] := by
    rcases g3 with g3 | ⟨-, c', p', h4, h5⟩
    · exact g3
    · exact absurd h5 (hfree layers[i] (List.getElem_mem h2) c' p' _ h4 ((namedFor_iff _ _ _).2 rfl))
  have hpar : parentLayer st.layers e = some layers[i] := by
    unfold parentLayer
    rw [h1]
    simp only [g1, hl, hkept _ (List.getElem_mem h2), if_true]
  unfold addColorLayer
  rw [hpar]
  exact ⟨_, rfl, by simp [List.lookup]⟩

theorem copyToLayer_succeeds {st : ColorState ℝ} (e : ColorElem ℝ) {c : Str} (h : (st.colorLayers.lookup c).isSome) : ∃ st', copyToLayer st e c = .ok st' := by
  obtain ⟨i, hi⟩ := Option.isSome_iff_exists.1 h
  unfold copyToLayer
  simp only [hi, Option.isNone_some, Bool.false_eq_true, if_false, bind, Except.bind, pure, Except.pure]
  exact ⟨_, rfl⟩

theorem countElements_succeeds (sep : Bool) (layers : List (ColorLayer ℝ)) (todo : List (ColorElem ℝ)) : ∀ (done : List (ColorElem ℝ)) (st : ColorState ℝ), Counted done st →
    (sep = true → LayersOk layers done (allWith done) st) → (sep = true → Separable layers (done ++ todo)) →
    (∀ e ∈ todo, ∀ s, e.style = some s → ∃ d, inlineStyleToDict (some s) = .ok d) → (∀ e ∈ todo, ∀ c, HasFill e c → e.paths ≠ []) →
    ∃ st', countElements sep st todo = .ok st' := by
  induction todo with
  | nil => intro done st _ _ _ _ _; exact ⟨st, rfl⟩
  | cons e r ih =>
    intro done st hC hL hS hstyle hpaths
    have hS' : sep = true → Separable layers (done ++ [e] ++ r) := by simpa using hS
    have hone : ∃ s, countElement sep st e = .ok s := by
      unfold countElement
      have hf : ∃ f, fillOf e = .ok f := by
        unfold fillOf
        cases hs : e.style with
        | none => exact ⟨_, rfl⟩
        | some s =>
          obtain ⟨d, hd⟩ := hstyle e List.mem_cons_self s hs
          simp only [hd, bind, Except.bind, pure, Except.pure]
          exact ⟨_, rfl⟩
      obtain ⟨f, hf⟩ := hf
      simp only [bind, Except.bind, hf]
      cases f with
      | none => exact ⟨_, rfl⟩
      | some c =>
        have hc := fillOf_iff.1 hf
        simp only
        set st1 : ColorState ℝ := { st with pathlist := st.pathlist ++ e.paths.map fun p => (p, c) } with hst1
        have hm : ∃ s, countColor sep st1 e c = .ok s ∧ (sep = true → (s.colorLayers.lookup c).isSome) := by
          unfold countColor
          split
          · rename_i hold
            refine ⟨_, rfl, fun hsep => ?_⟩
            have hin := (hC.mem c).1 ((lookup_isSome_iff _ _).1 hold)
            obtain ⟨i, l, p, a1, -⟩ := (hL hsep).color c hin
            show (st.colorLayers.lookup c).isSome = true
            rw [a1]; rfl
          · have hne := hpaths e List.mem_cons_self c hc
            cases hp : e.paths with
            | nil => exact absurd hp hne
            | cons path more =>
              simp only
              cases sep with
              | false => exact ⟨_, rfl, by simp⟩
              | true =>
                simp only [if_true]
                obtain ⟨k1, k2, k3, k4⟩ := hS rfl
                have hfree : ∀ l ∈ layers, ∀ c parent name, FirstIn layers done c parent → NamedFor parent c name → l.label ≠ some name :=
                  fun l hl c p n hf hn => k4 l hl c p n (hf.append _) hn
                obtain ⟨s, q1, q2⟩ := addColorLayer_succeeds (st := { st1 with counts := st1.counts ++ [(c, 1)], shapes := st1.shapes ++ [(c, path)] }) c
                  (LayersOk.congr (hL rfl) rfl rfl) k1 (k2 e (by simp)) hfree
                exact ⟨s, q1, fun _ => q2⟩
        obtain ⟨s, hm, hs⟩ := hm
        simp only [hm]
        cases sep with
        | false => exact ⟨_, rfl⟩
        | true => exact copyToLayer_succeeds e (hs rfl)
    obtain ⟨s, hs⟩ := hone
    obtain ⟨st', h'⟩ := ih (done ++ [e]) s (countElement_counted hC hs) (fun hsep => by
        subst hsep
        obtain ⟨k1, k2, k3, k4⟩ := hS' rfl
        exact countElement_layers hC (hL rfl) k1 (fun i hi => by
          obtain ⟨j, hj, hlt⟩ := k2 e (by simp)
          rw [hi] at hj
          simp only [Option.some.injEq] at hj
          rw [hj]; exact hlt) k3.prefix hs) hS'
      (fun x hx => hstyle x (List.mem_cons_of_mem _ hx)) (fun x hx => hpaths x (List.mem_cons_of_mem _ hx))
    rw [countElements]
    simp only [bind, Except.bind, hs]
    exact ⟨st', h'⟩

/-- **C164** (no exceptions).  The extension finishes if the styles are well formed, the filled elements have paths that have a centroid, and, to put them on layers, all elements are in layers and no layer has the name of a layer
of a colour.  Missing: paths without an area (refuted below), and elements outside layers. -/
theorem C164_succeeds_partial (o : ColorOpts ℝ) (fmax fmin : ℝ) (order : List Str → List Str) (horder : ∀ l, (order l).Perm l) (layers : List (ColorLayer ℝ)) (elems : List (ColorElem ℝ))
    (hstyle : ∀ e ∈ elems, ∀ s, e.style = some s → ∃ d, inlineStyleToDict (some s) = .ok d)
    (hpaths : ∀ e ∈ elems, ∀ c, HasFill e c → e.paths ≠ [] ∧ ∀ p ∈ e.paths, HasCentre p) (hsep : o.separate = true → Separable layers elems) :
    ∃ r, colorRun o fmax fmin order layers elems = .ok r := by
  obtain ⟨st, hst⟩ := countElements_succeeds o.separate layers elems [] (colorStart layers) (counted_start layers) (fun _ => layers_start layers) (by simpa using hsep) hstyle
    (fun e he c hc => (hpaths e he c hc).1)
  have hI : Counted elems st := by simpa using countElements_counted (counted_start layers) hst
  have hk : ∃ k, colorKey o fmax fmin (order (st.counts.map Prod.fst)) st = .ok k := by
    unfold colorKey
    split
    · apply keyShapes_succeeds
      intro c hc
      have hc' := (horder _).mem_iff.1 hc
      refine ⟨(lookup_isSome_iff _ _).2 hc', ?_⟩
      obtain ⟨path, hpath⟩ := Option.isSome_iff_exists.1 (hI.shape c hc')
      obtain ⟨b, e, a, m, h1, -, h3, h4⟩ := hI.shapes c path hpath
      exact ⟨path, hpath, (hpaths e (by rw [h1]; simp) c h3).2 path (by rw [h4]; simp)⟩
    · exact ⟨_, rfl⟩
  have ht : ∃ t, colorTags o (order (st.counts.map Prod.fst)) st = .ok t := by
    unfold colorTags
    split
    · obtain ⟨t, ht⟩ := tagPaths_succeeds o (order (st.counts.map Prod.fst)) st.pathlist (fun pc hpc => by
        obtain ⟨e, h1, h2, h3⟩ := filledPaths_mem hI.paths pc hpc
        exact (hpaths e h1 _ h2).2 _ h3)
      rw [ht]
      exact ⟨_, rfl⟩
    · exact ⟨_, rfl⟩
  obtain ⟨k, hk⟩ := hk
  obtain ⟨t, ht⟩ := ht
  unfold colorRun
  simp only [bind, Except.bind, hst]
  split
  · exact ⟨_, rfl⟩
  · unfold drawColorKey
    simp only [bind, Except.bind, hk, ht]
    exact ⟨_, rfl⟩

/-! ## What does not hold -/

/-- A path of two segments that returns to its start has no area. -/
theorem twoSegments_centroid (a b : P ℝ) : polyCentroid [a, b, a] = .error .zeroDivision := by
  have hz : (centroidSums [a, b, a]).2.2 = 0 := by
    rw [centroidSums_eq]
    simp [cycPairs, pairsFrom]
  unfold polyCentroid
  simp only [hz, bind, Except.bind]
  have : ((0 : ℝ) *. ofInt 3) = 0 := by simp
  rw [this, pdiv_zero]

/-- **C164** is false for circles drawn with two arcs, which is what Inkscape saves for a circle that is turned into a path: the extension stops with `ZeroDivisionError` at the first one that is to be tagged, whatever the circle and
the other options are. -/
theorem C164_two_arcs_refuted (o : ColorOpts ℝ) (fmax fmin : ℝ) (layers : List (ColorLayer ℝ)) (s t : Arc ℝ) (hclosed : s.p2 = t.p1 ∧ t.p2 = s.p1) (hs : o.separate = false)
    (ht : o.tagShapes = true) (hk : o.shapeKey = false) :
    colorRun o fmax fmin id layers [⟨some "fill:#ff0000".toList, [[.arc s, .arc t]], none⟩] = .error .zeroDivision := by
  have hf : fillOf (⟨some "fill:#ff0000".toList, [[.arc s, .arc t]], none⟩ : ColorElem ℝ) = .ok (some "#ff0000".toList) := by
    unfold fillOf
    have : inlineStyleToDict (some "fill:#ff0000".toList) = .ok [("fill".toList, "#ff0000".toList)] := by decide +kernel
    simp only [this, bind, Except.bind, pure, Except.pure]
    rfl
  have hc : countElements o.separate (colorStart layers) [⟨some "fill:#ff0000".toList, [[.arc s, .arc t]], none⟩] =
      .ok ⟨[([.arc s, .arc t], "#ff0000".toList)], [("#ff0000".toList, 1)], [("#ff0000".toList, [.arc s, .arc t])], layers, []⟩ := by
    rw [countElements, countElement]
    simp only [bind, Except.bind, hf, hs]
    rfl
  unfold colorRun
  simp only [bind, Except.bind, hc, List.isEmpty_cons, Bool.false_eq_true, if_false]
  unfold drawColorKey colorKey colorTags
  simp only [hk, ht, Bool.false_eq_true, if_false, if_true, bind, Except.bind]
  rw [tagPaths]
  have hp : pathToPoly [Shape.arc s, Shape.arc t] = .ok [s.p1, s.p2, s.p1] := by
    unfold pathToPoly
    simp [Shape.p1, Shape.p2, hclosed.2]
  simp only [hp, bind, Except.bind, twoSegments_centroid]
  rfl

/-- An element of the examples: a triangle with a corner at `(x, 0)`. -/
def triangleAt (style : String) (x : ℚ) (layer : Option Nat) : ColorElem ℚ :=
  ⟨some style.toList, [[.line ⟨⟨x, 0⟩, ⟨x + 3, 0⟩⟩, .line ⟨⟨x + 3, 0⟩, ⟨x, 3⟩⟩, .line ⟨⟨x, 3⟩, ⟨x, 0⟩⟩]], layer⟩

/-- The options of the examples. -/
def colorOptsQ (separate shapeKey tagShapes : Bool) : ColorOpts ℚ := ⟨separate, shapeKey, tagShapes, "C".toList, 1, 2, 2, 10, 30, 50, 20⟩

/-- A layer of the examples. -/
def layerQ (name : String) (transform : Option Str) : ColorLayer ℚ := ⟨some name.toList, none, transform, true, []⟩

/-- Specification: the texts of a key. -/
def textsOf {K : Type} : List (ColorMark K) → List Str
  | [] => []
  | .text s _ _ :: r => s :: textsOf r
  | _ :: r => textsOf r

/-- **C164** is false for elements without a fill: `fill:none` is counted as a colour. -/
theorem C164_none_refuted : (colorRun (colorOptsQ false false false) 1000 0 id [] [triangleAt "fill:none;stroke:#000000" 0 none]).toOption.map (fun r => textsOf r.key) =
    some ["count: 1, color: none".toList, "Total: 1".toList] := by decide +kernel

/-- **C164** is false for the colours that are seen: one colour written in two ways is counted as two. -/
theorem C164_spelling_refuted : csshexToRgb (lowerS "#f00".toList) = csshexToRgb (lowerS "#FF0000".toList) ∧
    (colorRun (colorOptsQ false false false) 1000 0 id [] [triangleAt "fill:#f00" 0 none, triangleAt "fill:#FF0000" 5 none]).toOption.map (fun r => textsOf r.key) =
      some ["count: 1, color: #f00".toList, "count: 1, color: #FF0000".toList, "Total: 2".toList] := by decide +kernel

/-- **C164** is false for elements of different layers: the copy of the second red element is put under the transform of the layer of the first one, not of its own. -/
theorem C164_other_layer_refuted :
    (colorRun (colorOptsQ true false false) 1000 0 id [layerQ "a" none, layerQ "b" (some "translate(100,0)".toList)]
        [triangleAt "fill:red" 0 (some 0), triangleAt "fill:red" 5 (some 1)]).toOption.map (fun r => r.layers[2]?) =
      some (some ⟨some "a_red".toList, none, none, true, [triangleAt "fill:red" 0 (some 0), triangleAt "fill:red" 5 (some 1)]⟩) := by decide +kernel

/-- **C164** is false for elements outside layers: with copies on layers asked for the extension stops. -/
theorem C164_no_layer_refuted : colorRun (colorOptsQ true false false) 1000 0 id [] [triangleAt "fill:red" 0 none] = .error .attributeError := by decide +kernel

/-- **C164** is false for a second run: the copies made by the first run are counted as well (even if the key is deleted before). -/
theorem C164_again_refuted :
    (colorRun (colorOptsQ true false false) 1000 0 id [layerQ "a" none] [triangleAt "fill:red" 0 (some 0)]).toOption.map (fun r => (textsOf r.key, (r.layers[1]?).map fun l => (l.label, l.copies))) =
      some (["count: 1, color: red".toList, "Total: 1".toList], some (some "a_red".toList, [triangleAt "fill:red" 0 (some 0)])) ∧
    (colorRun (colorOptsQ true false false) 1000 0 id [layerQ "a" none, layerQ "a_red" none] [triangleAt "fill:red" 0 (some 0), triangleAt "fill:red" 0 (some 1)]).toOption.map
        (fun r => textsOf r.key) = some ["count: 2, color: red".toList, "Total: 2".toList] := by decide +kernel

/-- An example: three triangles of two colours in one layer, tags, a key of shapes and copies on layers. -/
example : (colorRun (colorOptsQ true true true) 1000 0 List.reverse [layerQ "a" (some "scale(2)".toList)]
      [triangleAt "fill:#ff0000" 0 (some 0), triangleAt "stroke:none; fill:blue" 5 (some 0), triangleAt "fill:#ff0000" 10 (some 0), triangleAt "stroke:none" 20 (some 0)]).toOption.map
      (fun r => (r.key, r.tags)) =
    some ([.text "C1".toList 10 32, .polygon [⟨10, 30⟩, ⟨13, 30⟩, ⟨10, 33⟩, ⟨10, 30⟩], .text "count: 1, color: blue".toList 10 36,
        .text "C2".toList 10 41, .polygon [⟨10, 39⟩, ⟨13, 39⟩, ⟨10, 42⟩, ⟨10, 39⟩], .text "count: 2, color: #ff0000".toList 10 45, .text "Total: 3".toList 10 51],
      some [.text "C2".toList 0 2, .text "C1".toList 5 2, .text "C2".toList 10 2]) := by decide +kernel

example : (colorRun (colorOptsQ true true true) 1000 0 List.reverse [layerQ "a" (some "scale(2)".toList)]
      [triangleAt "fill:#ff0000" 0 (some 0), triangleAt "stroke:none; fill:blue" 5 (some 0), triangleAt "fill:#ff0000" 10 (some 0), triangleAt "stroke:none" 20 (some 0)]).toOption.map
      (fun r => r.layers.map fun l => (l.label, l.transform, l.copies.length)) =
    some [(some "a".toList, some "scale(2)".toList, 0), (some "a_ff0000".toList, some "scale(2)".toList, 2), (some "a_blue".toList, some "scale(2)".toList, 1),
      (some "colorkey".toList, none, 0), (some "colortags".toList, none, 0)] := by decide +kernel

/-- A triangle over the reals. -/
noncomputable def triangleR (style : Str) : ColorElem ℝ := ⟨some style, [[.line ⟨⟨0, 0⟩, ⟨3, 0⟩⟩, .line ⟨⟨3, 0⟩, ⟨0, 3⟩⟩, .line ⟨⟨0, 3⟩, ⟨0, 0⟩⟩]], some 0⟩

/-- The fill of the triangle. -/
theorem triangleR_fill (style color : Str) (h : inlineStyleToDict (some style) = .ok [("fill".toList, color)]) (c : Str) : HasFill (triangleR style) c ↔ c = color := by
  unfold HasFill triangleR
  constructor
  · rintro ⟨s, d, h1, h2, h3⟩
    simp only [Option.some.injEq] at h1
    subst h1
    rw [h] at h2
    simp only [Except.ok.injEq] at h2
    subst h2
    simpa [Style.get, List.lookup] using h3.symm
  · rintro rfl
    exact ⟨style, _, rfl, h, by simp [Style.get, List.lookup]⟩

/-- The hypotheses of the theorems are met: two triangles, red and blue, in a layer of the document, with all options. -/
example (o : ColorOpts ℝ) (fmax fmin : ℝ) : ∃ r, colorRun o fmax fmin id [⟨some "a".toList, none, none, true, []⟩] [triangleR "fill:red".toList, triangleR "fill:blue".toList] = .ok r := by
  have fr := triangleR_fill "fill:red".toList "red".toList (by decide +kernel)
  have fb := triangleR_fill "fill:blue".toList "blue".toList (by decide +kernel)
  have hfirst : ∀ c p, FirstIn [⟨some "a".toList, none, none, true, []⟩] [triangleR "fill:red".toList, triangleR "fill:blue".toList] c p →
      p = ⟨some "a".toList, none, none, true, []⟩ ∧ (c = "red".toList ∨ c = "blue".toList) := by
    rintro c p ⟨b, e, a, i, h1, -, h3, h4, h5⟩
    have he : e ∈ [triangleR "fill:red".toList, triangleR "fill:blue".toList] := by rw [h1]; simp
    simp only [List.mem_cons, List.not_mem_nil, or_false] at he
    rcases he with rfl | rfl
    · simp only [triangleR, Option.some.injEq] at h4
      subst h4
      exact ⟨by simpa using h5.symm, Or.inl ((fr c).1 h3)⟩
    · simp only [triangleR, Option.some.injEq] at h4
      subst h4
      exact ⟨by simpa using h5.symm, Or.inr ((fb c).1 h3)⟩
  have nr : nameFor (⟨some "a".toList, none, none, true, []⟩ : ColorLayer ℝ) "red".toList = "a_red".toList := by
    show "a".toList ++ '_' :: lstripHash "red".toList = _
    decide +kernel
  have nb : nameFor (⟨some "a".toList, none, none, true, []⟩ : ColorLayer ℝ) "blue".toList = "a_blue".toList := by
    show "a".toList ++ '_' :: lstripHash "blue".toList = _
    decide +kernel
  apply C164_succeeds_partial o fmax fmin id (fun l => List.Perm.refl l)
  · intro e he s hs
    simp only [List.mem_cons, List.not_mem_nil, or_false] at he
    rcases he with rfl | rfl <;> simp only [triangleR, Option.some.injEq] at hs <;> subst hs
    · exact ⟨[("fill".toList, "red".toList)], by decide +kernel⟩
    · exact ⟨[("fill".toList, "blue".toList)], by decide +kernel⟩
  · intro e he c _
    have hp : e.paths = [[.line ⟨⟨0, 0⟩, ⟨3, 0⟩⟩, .line ⟨⟨3, 0⟩, ⟨0, 3⟩⟩, .line ⟨⟨0, 3⟩, ⟨0, 0⟩⟩]] := by
      simp only [List.mem_cons, List.not_mem_nil, or_false] at he
      rcases he with rfl | rfl <;> rfl
    rw [hp]
    refine ⟨by simp, ?_⟩
    intro p hp
    simp only [List.mem_singleton] at hp
    subst hp
    refine ⟨[⟨0, 0⟩, ⟨3, 0⟩, ⟨0, 3⟩, ⟨0, 0⟩], ⟨_, _, rfl, rfl⟩, Or.inr ?_⟩
    rw [polyArea_eq]
    simp [cycPairs, pairsFrom]
  · intro _
    constructor
    · simp
    · intro e he
      simp only [List.mem_cons, List.not_mem_nil, or_false] at he
      rcases he with rfl | rfl <;> exact ⟨0, rfl, by simp⟩
    · intro c c' p p' name h1 h2 h3 h4
      obtain ⟨rfl, hc⟩ := hfirst c p h1
      obtain ⟨rfl, hc'⟩ := hfirst c' p' h2
      rw [namedFor_iff] at h3 h4
      rw [h3] at h4
      rcases hc with rfl | rfl <;> rcases hc' with rfl | rfl
      · rfl
      · rw [nr, nb] at h4; exact absurd h4 (by decide +kernel)
      · rw [nr, nb] at h4; exact absurd h4 (by decide +kernel)
      · rfl
    · intro l hl c p name h1 h2
      obtain ⟨rfl, hc⟩ := hfirst c p h1
      rw [namedFor_iff] at h2
      simp only [List.mem_singleton] at hl
      subst hl
      rw [h2]
      rcases hc with rfl | rfl
      · rw [nr]; simp only [ne_eq, Option.some.injEq]; decide +kernel
      · rw [nb]; simp only [ne_eq, Option.some.injEq]; decide +kernel

end Verif.Ext
