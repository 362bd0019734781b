import Verif.Svg.Layer
import Verif.Svg.Props15
import Mathlib.Data.List.Lex

/-!
# C123: layers are made and reused without losing what is in the drawing
-/

set_option linter.unusedSectionVars false

namespace Verif.Svg
open Verif PyFloat PyTrig Geom Css

/-! ## Specification -/

/-- Specification: the node reached by going down to the child with each of these numbers. -/
def XNode.follow (n : XNode) : List Nat → Option XNode
  | [] => some n
  | i :: r => n.kids[i]?.bind fun k => k.follow r

/-- Specification: the tag and the attributes of a node (nothing for a comment). -/
def XNode.top : XNode → Option (Ns × Str × List (Str × Str))
  | .elem ns t a _ => some (ns, t, a)
  | .comment => none

/-- Specification: the two documents are the same, but the node at `q` has nothing in it in the second one. -/
def EmptiedAt (q : List Nat) (doc doc' : XNode) : Prop :=
  ∀ r, (q <+: r ∧ r ≠ q → doc'.follow r = none) ∧ (¬ (q <+: r ∧ r ≠ q) → (doc'.follow r).map XNode.top = (doc.follow r).map XNode.top)

/-- Specification: the SVG group at this place has this label. -/
def LayerAt (doc : XNode) (q : List Nat) (name : Str) : Prop :=
  ∃ a k, doc.follow q = some (.elem .svg "g".toList a k) ∧ a.lookup "inkscape:label".toList = some name

/-- Specification: it is the first one in the document (places in a document are ordered like words in a dictionary). -/
def FirstLayer (doc : XNode) (q : List Nat) (name : Str) : Prop :=
  LayerAt doc q name ∧ ∀ r, LayerAt doc r name → ¬ r < q

/-- Specification: the first layer of this name has something in it. -/
def HasContent (doc : XNode) (name : Str) : Prop := ∃ q m, FirstLayer doc q name ∧ doc.follow q = some m ∧ m.kids ≠ []

/-- Specification: a number with at least two digits. -/
def twoDigits (n : Nat) : Str := if n < 10 then '0' :: (toString n).toList else (toString n).toList

/-- Specification: the name with a number added. -/
def numbered (name : Str) (n : Nat) : Str := name ++ "_".toList ++ twoDigits n

/-- Specification: a new element at the end of the drawing, the rest unchanged. -/
def AddedLast (doc doc' new : XNode) : Prop :=
  ∃ ns t a k, doc = .elem ns t a k ∧ doc' = .elem ns t a (k ++ [new])

/-- Specification: an empty layer with this name. -/
def EmptyLayer (n : XNode) (name : Str) : Prop := IsLayer n name ∧ n.kids = []

/-! ## Proofs -/

theorem named_iff (name : Str) (n : XNode) : n.named name = true ↔ ∃ a k, n = .elem .svg "g".toList a k ∧ a.lookup "inkscape:label".toList = some name := by
  cases n with
  | comment => simp only [XNode.named]; simp
  | elem ns t a k =>
    unfold XNode.named
    split
    · rename_i t' a' k' heq
      injection heq with e1 e2 e3 e4
      subst e1 e2 e3 e4
      rw [Bool.and_eq_true, decide_eq_true_eq, decide_eq_true_eq]
      constructor
      · rintro ⟨rfl, h⟩; exact ⟨_, _, rfl, h⟩
      · rintro ⟨a, k, h, h'⟩
        injection h with e1 e2 e3 e4
        subst e3
        exact ⟨e2, h'⟩
    · rename_i hne
      constructor
      · intro h; cases h
      · rintro ⟨a', k', h, -⟩; exact absurd h (hne _ _ _)

theorem emptiedAt_nil (ns : Ns) (t : Str) (a : List (Str × Str)) (k : List XNode) : EmptiedAt [] (.elem ns t a k) (.elem ns t a []) := by
  intro r
  cases r with
  | nil => simp [XNode.follow, XNode.top]
  | cons i r => simp [XNode.follow, XNode.kids]

theorem emptiedAt_cons {i : Nat} {q : List Nat} {ks : List XNode} {k k' : XNode} (ns : Ns) (t : Str) (a : List (Str × Str)) (hk : ks[i]? = some k)
    (h : EmptiedAt q k k') : EmptiedAt (i :: q) (.elem ns t a ks) (.elem ns t a (ks.set i k')) := by
  intro r
  cases r with
  | nil => simp [XNode.follow, XNode.top]
  | cons j r =>
    have hi : i < ks.length := (List.getElem?_eq_some_iff.1 hk).1
    by_cases hij : i = j
    · subst hij
      have e1 : (XNode.elem ns t a ks).follow (i :: r) = k.follow r := by simp [XNode.follow, XNode.kids, hk]
      have e2 : (XNode.elem ns t a (ks.set i k')).follow (i :: r) = k'.follow r := by simp [XNode.follow, XNode.kids, hi]
      rw [e1, e2]
      have := h r
      simpa [List.cons_prefix_cons] using this
    · have e : (XNode.elem ns t a (ks.set i k')).follow (j :: r) = (XNode.elem ns t a ks).follow (j :: r) := by
        simp [XNode.follow, XNode.kids, List.getElem?_set, hij]
      rw [e]
      refine ⟨fun hh => absurd (List.cons_prefix_cons.1 hh.1).1 hij, fun _ => rfl⟩

/-- Looking for the first node of a kind, and emptying it. -/
theorem first_spec (p : XNode → Bool) (hp : p .comment = false) (n : XNode) : ∀ up,
    ((n.places up).find? (fun a => p a.node) = none ∧ (n.emptied p).2 = false ∧ (n.emptied p).1 = n ∧ ∀ r m, n.follow r = some m → p m = false) ∨
    ∃ a q, (n.places up).find? (fun a => p a.node) = some a ∧ n.follow q = some a.node ∧ p a.node = true ∧ (n.emptied p).2 = true ∧
      (∀ r m, n.follow r = some m → p m = true → ¬ r < q) ∧ EmptiedAt q n (n.emptied p).1 := by
  refine XNode.rec (motive_1 := fun n => ∀ up,
      ((n.places up).find? (fun a => p a.node) = none ∧ (n.emptied p).2 = false ∧ (n.emptied p).1 = n ∧ ∀ r m, n.follow r = some m → p m = false) ∨
      ∃ a q, (n.places up).find? (fun a => p a.node) = some a ∧ n.follow q = some a.node ∧ p a.node = true ∧ (n.emptied p).2 = true ∧
        (∀ r m, n.follow r = some m → p m = true → ¬ r < q) ∧ EmptiedAt q n (n.emptied p).1)
    (motive_2 := fun ks => ∀ up,
      ((placesList up ks).find? (fun a => p a.node) = none ∧ (emptiedList p ks).2 = false ∧ (emptiedList p ks).1 = ks ∧
        ∀ (i : Nat) (k : XNode) (r : List Nat) (m : XNode), ks[i]? = some k → k.follow r = some m → p m = false) ∨
      ∃ (a : At) (i : Nat) (k k' : XNode) (q : List Nat), (placesList up ks).find? (fun a => p a.node) = some a ∧ ks[i]? = some k ∧ k.follow q = some a.node ∧ p a.node = true ∧
        (emptiedList p ks).2 = true ∧
        (∀ (j : Nat) (l : XNode) (r : List Nat) (m : XNode), ks[j]? = some l → l.follow r = some m → p m = true → ¬ (j :: r) < (i :: q)) ∧
        (emptiedList p ks).1 = ks.set i k' ∧ EmptiedAt q k k') ?_ ?_ ?_ ?_ n
  · intro ns t at' ks ih up
    by_cases h : p (.elem ns t at' ks) = true
    · right
      refine ⟨⟨.elem ns t at' ks, up⟩, [], ?_, rfl, h, ?_, ?_, ?_⟩
      · rw [XNode.places, List.find?_cons]; simp [h]
      · rw [XNode.emptied, if_pos h]
      · intro r m _ _ hr; exact absurd hr (by simp)
      · rw [XNode.emptied, if_pos h]; exact emptiedAt_nil ns t at' ks
    · have hf : ((XNode.elem ns t at' ks).places up).find? (fun a => p a.node) = (placesList (.elem ns t at' ks :: up) ks).find? (fun a => p a.node) := by
        rw [XNode.places, List.find?_cons]; simp [h]
      have he : (XNode.elem ns t at' ks).emptied p = (.elem ns t at' (emptiedList p ks).1, (emptiedList p ks).2) := by
        rw [XNode.emptied, if_neg h]
      rw [hf, he]
      rcases ih (.elem ns t at' ks :: up) with ⟨h1, h2, h3, h4⟩ | ⟨a, i, k, k', q, h1, h2, h3, h4, h5, h6, h7, h8⟩
      · left
        refine ⟨h1, h2, by rw [h3], ?_⟩
        intro r m hm
        cases r with
        | nil => simp only [XNode.follow, Option.some.injEq] at hm; subst hm; simpa using h
        | cons i r =>
          simp only [XNode.follow, XNode.kids, Option.bind_eq_some_iff] at hm
          obtain ⟨k, hk, hm⟩ := hm
          exact h4 i k r m hk hm
      · right
        refine ⟨a, i :: q, h1, ?_, h4, h5, ?_, ?_⟩
        · simp [XNode.follow, XNode.kids, h2, h3]
        · intro r m hm hpm
          cases r with
          | nil => simp only [XNode.follow, Option.some.injEq] at hm; subst hm; exact absurd hpm h
          | cons j r =>
            simp only [XNode.follow, XNode.kids, Option.bind_eq_some_iff] at hm
            obtain ⟨l, hl, hm⟩ := hm
            exact h6 j l r m hl hm hpm
        · rw [h7]; exact emptiedAt_cons ns t at' h2 h8
  · intro up
    left
    refine ⟨by rw [XNode.places]; simp [hp], rfl, rfl, ?_⟩
    intro r m hm
    cases r with
    | nil => simp only [XNode.follow, Option.some.injEq] at hm; subst hm; exact hp
    | cons i r => simp [XNode.follow, XNode.kids] at hm
  · intro up
    left
    refine ⟨rfl, rfl, rfl, ?_⟩
    intro i k r m hk
    simp at hk
  · intro n ks ih1 ih2 up
    rw [placesList, List.find?_append]
    rcases ih1 up with ⟨h1, h2, h3, h4⟩ | ⟨a, q, h1, h2, h3, h4, h5, h6⟩
    · have he : emptiedList p (n :: ks) = (n :: (emptiedList p ks).1, (emptiedList p ks).2) := by
        rw [emptiedList, h2]; simp
      rw [he, h1]
      rcases ih2 up with ⟨g1, g2, g3, g4⟩ | ⟨a, i, k, k', q, g1, g2, g3, g4, g5, g6, g7, g8⟩
      · left
        refine ⟨by rw [g1]; rfl, g2, by rw [g3], ?_⟩
        intro i k r m hk hm
        cases i with
        | zero => simp only [List.getElem?_cons_zero, Option.some.injEq] at hk; subst hk; exact h4 r m hm
        | succ i => exact g4 i k r m hk hm
      · right
        refine ⟨a, i + 1, k, k', q, by rw [g1]; rfl, g2, g3, g4, g5, ?_, by simp only [g7, List.set_cons_succ], g8⟩
        intro j l r m hl hm hpm
        cases j with
        | zero =>
          simp only [List.getElem?_cons_zero, Option.some.injEq] at hl; subst hl
          exact absurd (h4 r m hm) (by rw [hpm]; simp)
        | succ j =>
          have := g6 j l r m hl hm hpm
          rw [List.cons_lt_cons_iff] at this ⊢
          rintro (h | ⟨h, h'⟩)
          · exact this (.inl (by omega))
          · exact this (.inr ⟨by omega, h'⟩)
    · right
      have he : emptiedList p (n :: ks) = ((n.emptied p).1 :: ks, true) := by
        rw [emptiedList, h4]; simp
      rw [he, h1]
      refine ⟨a, 0, n, (n.emptied p).1, q, rfl, rfl, h2, h3, rfl, ?_, rfl, h6⟩
      intro j l r m hl hm hpm
      rw [List.cons_lt_cons_iff]
      rintro (h | ⟨h, h'⟩)
      · omega
      · subst h
        simp only [List.getElem?_cons_zero, Option.some.injEq] at hl; subst hl
        exact h5 r m hm hpm h'

theorem layerAt_iff (doc : XNode) (q : List Nat) (name : Str) : LayerAt doc q name ↔ ∃ m, doc.follow q = some m ∧ m.named name = true := by
  constructor
  · rintro ⟨a, k, h, h'⟩; exact ⟨_, h, (named_iff _ _).2 ⟨a, k, rfl, h'⟩⟩
  · rintro ⟨m, h, h'⟩
    obtain ⟨a, k, rfl, h''⟩ := (named_iff _ _).1 h'
    exact ⟨a, k, h, h''⟩

theorem findLayer_spec (doc : XNode) (name : Str) :
    (findLayer doc name = none ∧ ∀ q, ¬ LayerAt doc q name) ∨
    ∃ a q, findLayer doc name = some a ∧ doc.follow q = some a.node ∧ a.node.named name = true ∧ FirstLayer doc q name ∧
      EmptiedAt q doc (doc.emptied (XNode.named name)).1 := by
  rcases first_spec (XNode.named name) rfl doc [] with ⟨h1, -, -, h4⟩ | ⟨a, q, h1, h2, h3, -, h5, h6⟩
  · left
    refine ⟨h1, fun q hq => ?_⟩
    obtain ⟨m, hm, hm'⟩ := (layerAt_iff _ _ _).1 hq
    rw [h4 q m hm] at hm'; cases hm'
  · right
    refine ⟨a, q, h1, h2, h3, ⟨(layerAt_iff _ _ _).2 ⟨_, h2, h3⟩, fun r hr => ?_⟩, h6⟩
    obtain ⟨m, hm, hm'⟩ := (layerAt_iff _ _ _).1 hr
    exact h5 r m hm hm'

theorem firstLayer_unique {doc : XNode} {q r : List Nat} {name : Str} (h : FirstLayer doc q name) (h' : FirstLayer doc r name) : q = r :=
  le_antisymm (not_lt.1 (h.2 r h'.1)) (not_lt.1 (h'.2 q h.1))

theorem inUse_iff (doc : XNode) (name : Str) : inUse (findLayer doc name) = true ↔ HasContent doc name := by
  rcases findLayer_spec doc name with ⟨h1, h2⟩ | ⟨a, q, h1, h2, h3, h4, -⟩
  · rw [h1]
    constructor
    · intro h; cases h
    · rintro ⟨q, m, h, -⟩; exact absurd h.1 (h2 q)
  · rw [h1]
    simp only [inUse, Bool.not_eq_true', List.isEmpty_eq_false_iff]
    constructor
    · intro h; exact ⟨q, a.node, h4, h2, h⟩
    · rintro ⟨r, m, hr, hm, hk⟩
      rw [firstLayer_unique hr h4, h2] at hm
      injection hm with hm
      rwa [hm]

theorem top_kids {n m : XNode} (h : n.top = m.top) (hk : n.kids = m.kids) : n = m := by
  cases n <;> cases m <;> simp_all [XNode.top, XNode.kids]

/-- Documents that look the same everywhere are the same. -/
theorem follow_ext (n : XNode) : ∀ m : XNode, (∀ r, (m.follow r).map XNode.top = (n.follow r).map XNode.top) → m = n := by
  refine XNode.rec (motive_1 := fun n => ∀ m : XNode, (∀ r, (m.follow r).map XNode.top = (n.follow r).map XNode.top) → m = n)
    (motive_2 := fun ks => ∀ ls : List XNode, (∀ (i : Nat) (r : List Nat), ((ls[i]?).bind (fun k => k.follow r)).map XNode.top =
      ((ks[i]?).bind (fun k => k.follow r)).map XNode.top) → ls = ks) ?_ ?_ ?_ ?_ n
  · intro ns t a ks ih m h
    have h0 := h []
    simp only [XNode.follow, Option.map_some, Option.some.injEq] at h0
    refine top_kids h0 (ih _ fun i r => ?_)
    have := h (i :: r)
    simpa [XNode.follow, XNode.kids] using this
  · intro m h
    have h0 := h []
    simp only [XNode.follow, Option.map_some, Option.some.injEq] at h0
    cases m with
    | comment => rfl
    | elem ns t a k => simp [XNode.top] at h0
  · intro ls h
    cases ls with
    | nil => rfl
    | cons l ls => have := h 0 []; simp [XNode.follow] at this
  · intro k ks ih1 ih2 ls h
    cases ls with
    | nil => have := h 0 []; simp [XNode.follow] at this
    | cons l ls =>
      have e1 : l = k := ih1 l fun r => by simpa using h 0 r
      have e2 : ls = ks := ih2 ls fun i r => by simpa using h (i + 1) r
      rw [e1, e2]

theorem emptied_same {doc doc' : XNode} {q : List Nat} {m : XNode} (h : EmptiedAt q doc doc') (hm : doc.follow q = some m) (hk : m.kids = []) : doc' = doc := by
  refine follow_ext doc doc' fun r => ?_
  by_cases hr : q <+: r ∧ r ≠ q
  · rw [(h r).1 hr]
    obtain ⟨s, rfl⟩ := hr.1
    have : doc.follow (q ++ s) = m.follow s := by
      clear h hr hk
      induction q generalizing doc with
      | nil => simp only [XNode.follow, Option.some.injEq] at hm; subst hm; rfl
      | cons i q ih =>
        simp only [XNode.follow, Option.bind_eq_some_iff] at hm
        obtain ⟨k, hk, hm⟩ := hm
        simp only [List.cons_append, XNode.follow, hk, Option.bind_some]
        exact ih hm
    rw [this]
    cases s with
    | nil => exact absurd (List.append_nil q) hr.2
    | cons i s => simp [XNode.follow, hk]
  · exact (h r).2 hr

theorem emptied_at {doc doc' : XNode} {q : List Nat} {m : XNode} (h : EmptiedAt q doc doc') (hm : doc.follow q = some m) : doc'.follow q = some m.noKids := by
  have h0 := (h q).2 (by simp)
  rw [hm] at h0
  simp only [Option.map_some, Option.map_eq_some_iff] at h0
  obtain ⟨m', hm', ht⟩ := h0
  rw [hm', Option.some.injEq]
  have hk : m'.kids = [] := by
    cases hk : m'.kids with
    | nil => rfl
    | cons k ks =>
      have := (h (q ++ [0])).1 ⟨List.prefix_append _ _, by simp⟩
      have e : doc'.follow (q ++ [0]) = m'.follow [0] := by
        clear h hm ht this hk
        induction q generalizing doc' with
        | nil => simp only [XNode.follow, Option.some.injEq] at hm'; subst hm'; rfl
        | cons i q ih =>
          simp only [XNode.follow, Option.bind_eq_some_iff] at hm'
          obtain ⟨k, hk, hm'⟩ := hm'
          simp only [List.cons_append, XNode.follow, hk, Option.bind_some]
          exact ih hm'
      rw [e] at this
      simp [XNode.follow, hk] at this
  refine top_kids ?_ ?_
  · rw [ht]; cases m <;> rfl
  · rw [hk]; cases m <;> rfl

theorem suffixed_eq (name : Str) (n : Nat) : suffixed name n = numbered name n := by
  unfold suffixed numbered twoDigits padZero natDigits
  rw [show (toString n).toList = Nat.toDigits 10 n from Nat.toList_repr]
  have hpos : 0 < (Nat.toDigits 10 n).length := Nat.length_toDigits_pos
  have h1 := @Nat.length_toDigits_le_iff 10 n 1 (by decide) (by decide)
  by_cases h : n < 10
  · have : (Nat.toDigits 10 n).length = 1 := by have := h1.2 (by simpa using h); omega
    rw [if_pos h, this]; simp
  · have : 2 ≤ (Nat.toDigits 10 n).length := by
      by_contra hc
      exact h (by simpa using h1.1 (by omega))
    rw [if_neg h, show 2 - (Nat.toDigits 10 n).length = 0 by omega]; simp

theorem suffixed_inj (name : Str) {n m : Nat} (h : suffixed name n = suffixed name m) : n = m := by
  have h' : padZero 2 (natDigits n) = padZero 2 (natDigits m) := by
    have := List.append_cancel_left h
    injection this
  have hv : ∀ k, Nat.ofDigitChars 10 (padZero 2 (natDigits k)) 0 = k := by
    intro k
    unfold padZero
    rw [Nat.ofDigitChars_append, Nat.ofDigitChars_replicate_zero]
    simp only [Nat.mul_zero]
    exact Nat.ofDigitChars_ten_toDigits
  rw [← hv n, ← hv m, h']

theorem suffixLoop_spec (doc : XNode) (name : Str) : ∀ fuel n,
    (suffixLoop doc name fuel n = none ∧ ∀ i, n ≤ i → i < n + fuel → HasContent doc (suffixed name i)) ∨
    ∃ k, n ≤ k ∧ suffixLoop doc name fuel n = some (suffixed name k, findLayer doc (suffixed name k)) ∧ ¬ HasContent doc (suffixed name k) ∧
      ∀ i, n ≤ i → i < k → HasContent doc (suffixed name i) := by
  intro fuel
  induction fuel with
  | zero => intro n; left; exact ⟨rfl, fun i h1 h2 => by omega⟩
  | succ fuel ih =>
    intro n
    by_cases h : inUse (findLayer doc (suffixed name n)) = true
    · have e : suffixLoop doc name (fuel + 1) n = suffixLoop doc name fuel (n + 1) := by
        rw [suffixLoop]; simp [h]
      have hn := (inUse_iff _ _).1 h
      rw [e]
      rcases ih (n + 1) with ⟨h1, h2⟩ | ⟨k, h1, h2, h3, h4⟩
      · left
        refine ⟨h1, fun i hi hi' => ?_⟩
        rcases Nat.eq_or_lt_of_le hi with rfl | hi
        · exact hn
        · exact h2 i hi (by omega)
      · right
        refine ⟨k, by omega, h2, h3, fun i hi hi' => ?_⟩
        rcases Nat.eq_or_lt_of_le hi with rfl | hi
        · exact hn
        · exact h4 i hi hi'
    · right
      refine ⟨n, le_rfl, ?_, fun hc => h ((inUse_iff _ _).2 hc), fun i h1 h2 => by omega⟩
      rw [suffixLoop]; simp [h]

/-- There are not more layers than nodes. -/
theorem names_bounded (doc : XNode) (name : Str) (n : Nat) (h : ∀ i < n, HasContent doc (suffixed name i)) : n ≤ (doc.places []).length := by
  have h' : ∀ i : Fin n, ∃ a, a ∈ doc.places [] ∧ a.node.named (suffixed name i) = true := by
    intro i
    have := (inUse_iff doc (suffixed name i)).2 (h i i.2)
    rcases findLayer_spec doc (suffixed name i) with ⟨h1, -⟩ | ⟨a, q, h1, -, h3, -, -⟩
    · rw [h1] at this; cases this
    · exact ⟨a, List.mem_of_find?_eq_some h1, h3⟩
  choose f hf hf' using h'
  have hinj : Function.Injective f := by
    intro i j hij
    have hi := hf' i
    rw [hij] at hi
    obtain ⟨a, k, e, h1⟩ := (named_iff _ _).1 hi
    obtain ⟨a', k', e', h2⟩ := (named_iff _ _).1 (hf' j)
    rw [e] at e'
    injection e' with _ _ e' _
    subst e'
    rw [h1] at h2
    injection h2 with h2
    exact Fin.ext (suffixed_inj name h2)
  have hnd : ((List.finRange n).map f).Nodup := List.Nodup.map hinj (List.nodup_finRange n)
  have hsub : (List.finRange n).map f ⊆ doc.places [] := by
    intro a ha
    obtain ⟨i, -, rfl⟩ := List.mem_map.1 ha
    exact hf i
  have := (List.subperm_of_subset hnd hsub).length_le
  simpa using this

section
variable {K : Type} [PyTrig K]

theorem layerAttrs_label (fmtG : K → Str) (h : K) (c : LayerArgs K) (name : Str) :
    (layerAttrs fmtG h c name).lookup "inkscape:label".toList = some name := by
  unfold layerAttrs
  simp only [List.append_assoc, List.cons_append, List.nil_append]
  rw [List.lookup_cons, show ("inkscape:label".toList == "inkscape:groupmode".toList) = false by decide]
  dsimp only
  rw [List.lookup_cons, show ("inkscape:label".toList == "inkscape:label".toList) = true by decide]

theorem newLayer_empty (fmtG : K → Str) (h : K) (c : LayerArgs K) (name : Str) :
    EmptyLayer (.elem .none "g".toList (layerAttrs fmtG h c name) []) name := ⟨⟨rfl, layerAttrs_label fmtG h c name⟩, rfl⟩

theorem named_layer {n : XNode} {name : Str} (h : n.named name = true) : IsLayer n name := by
  obtain ⟨a, k, rfl, h'⟩ := (named_iff _ _).1 h
  exact ⟨rfl, h'⟩

theorem noKids_empty {n : XNode} {name : Str} (h : n.named name = true) : EmptyLayer n.noKids name := by
  obtain ⟨a, k, rfl, h'⟩ := (named_iff _ _).1 h
  exact ⟨⟨rfl, h'⟩, rfl⟩

theorem append_added {doc : XNode} (hd : ∃ ns t a k, doc = .elem ns t a k) (new : XNode) : AddedLast doc (doc.append new) new := by
  obtain ⟨ns, t, a, k, rfl⟩ := hd
  exact ⟨ns, t, a, k, rfl, rfl⟩

/-- **C123**, with a numeric suffix: for every drawing and every name, `create_layer` with `incr_suffix` ends, and its layer is empty and has
the name it is said to have: the name asked for unless that layer has something in it, and otherwise the name with the first number for which
the layer does not.  Nothing in the drawing is changed: an empty layer that is already there is used, or a new one is added at the end. -/
theorem C123_suffix (fmtG : K → Str) (h : K) (doc : XNode) (hd : ∃ ns t a k, doc = .elem ns t a k) (c : LayerArgs K) (hc : c.incr = true) :
    ∃ L, createLayer fmtG h doc c = some L ∧ EmptyLayer L.layer L.name ∧
      ((¬ HasContent doc c.name ∧ L.name = c.name) ∨
       (HasContent doc c.name ∧ ∃ n, L.name = numbered c.name n ∧ ¬ HasContent doc L.name ∧ ∀ i < n, HasContent doc (numbered c.name i))) ∧
      ((L.doc = doc ∧ ∃ q, FirstLayer doc q L.name ∧ doc.follow q = some L.layer) ∨
       ((∀ q, ¬ LayerAt doc q L.name) ∧ AddedLast doc L.doc L.layer)) := by
  -- the name and the layer found
  have key : ∃ nm, layerChoice doc c.name c.incr = some (nm, findLayer doc nm) ∧ ¬ HasContent doc nm ∧
      ((¬ HasContent doc c.name ∧ nm = c.name) ∨
       (HasContent doc c.name ∧ ∃ n, nm = numbered c.name n ∧ ¬ HasContent doc nm ∧ ∀ i < n, HasContent doc (numbered c.name i))) := by
    by_cases hu : inUse (findLayer doc c.name) = true
    · have hu' := (inUse_iff _ _).1 hu
      rcases suffixLoop_spec doc c.name ((doc.places []).length + 1) 0 with ⟨-, h2⟩ | ⟨k, -, h2, h3, h4⟩
      · have := names_bounded doc c.name ((doc.places []).length + 1) (fun i hi => h2 i (Nat.zero_le _) (by omega))
        omega
      · refine ⟨suffixed c.name k, ?_, h3, .inr ⟨hu', k, suffixed_eq _ _, h3, fun i hi => ?_⟩⟩
        · unfold layerChoice; simp only [hc, hu, Bool.and_self, if_true, h2]
        · rw [← suffixed_eq]; exact h4 i (Nat.zero_le _) hi
    · have hu' : ¬ HasContent doc c.name := fun hh => hu ((inUse_iff _ _).2 hh)
      refine ⟨c.name, ?_, hu', .inl ⟨hu', rfl⟩⟩
      unfold layerChoice; simp [hu]
  obtain ⟨nm, e, hn, hname⟩ := key
  refine ⟨layerUse fmtG h doc c nm (findLayer doc nm), by rw [createLayer, e]; rfl, ?_⟩
  rcases findLayer_spec doc nm with ⟨h1, h2⟩ | ⟨a, q, h1, h2, h3, h4, h5⟩
  · rw [h1]
    exact ⟨newLayer_empty fmtG h c nm, hname, .inr ⟨h2, append_added hd _⟩⟩
  · have hk : a.node.kids = [] := by
      by_contra hk
      exact hn ⟨q, a.node, h4, h2, hk⟩
    have hnk : a.node.noKids = a.node := by
      cases ha : a.node with
      | comment => rfl
      | elem ns t at' k => rw [ha] at hk; simp only [XNode.kids] at hk; rw [hk]; rfl
    have hE : EmptyLayer a.node nm := hnk ▸ noKids_empty h3
    rw [h1]
    by_cases hcl : c.clear = true
    · have e2 : layerUse fmtG h doc c nm (some a) = ⟨doc, nm, a.node⟩ := by
        simp only [layerUse, hcl, if_true, emptied_same h5 h2 hk, hnk]
      rw [e2]
      exact ⟨hE, hname, .inl ⟨rfl, q, h4, h2⟩⟩
    · have e2 : layerUse fmtG h doc c nm (some a) = ⟨doc, nm, a.node⟩ := by
        simp only [layerUse, hcl]; rfl
      rw [e2]
      exact ⟨hE, hname, .inl ⟨rfl, q, h4, h2⟩⟩

/-- **C123**, by name: without `incr_suffix` the first layer of that name is used, emptied if asked for, with everything else in the drawing
unchanged; if there is no such layer, a new one is added at the end and nothing else changes. -/
theorem C123_by_name (fmtG : K → Str) (h : K) (doc : XNode) (hd : ∃ ns t a k, doc = .elem ns t a k) (c : LayerArgs K) (hc : c.incr = false) :
    ∃ L, createLayer fmtG h doc c = some L ∧ L.name = c.name ∧
      ((∃ q, FirstLayer doc q c.name ∧ L.doc.follow q = some L.layer ∧
          (c.clear = true → EmptiedAt q doc L.doc ∧ EmptyLayer L.layer c.name) ∧ (c.clear = false → L.doc = doc)) ∨
       ((∀ q, ¬ LayerAt doc q c.name) ∧ AddedLast doc L.doc L.layer ∧ EmptyLayer L.layer c.name)) := by
  refine ⟨layerUse fmtG h doc c c.name (findLayer doc c.name), by rw [createLayer, layerChoice, hc]; rfl, ?_⟩
  rcases findLayer_spec doc c.name with ⟨h1, h2⟩ | ⟨a, q, h1, h2, h3, h4, h5⟩
  · rw [h1]
    exact ⟨rfl, .inr ⟨h2, append_added hd _, newLayer_empty fmtG h c c.name⟩⟩
  · rw [h1]
    by_cases hcl : c.clear = true
    · have e2 : layerUse fmtG h doc c c.name (some a) = ⟨(doc.emptied (XNode.named c.name)).1, c.name, a.node.noKids⟩ := by
        simp only [layerUse, hcl, if_true]
      rw [e2]
      exact ⟨rfl, .inl ⟨q, h4, emptied_at h5 h2, fun _ => ⟨h5, noKids_empty h3⟩, fun h => by rw [hcl] at h; cases h⟩⟩
    · have e2 : layerUse fmtG h doc c c.name (some a) = ⟨doc, c.name, a.node⟩ := by
        simp only [layerUse, hcl]; rfl
      rw [e2]
      exact ⟨rfl, .inl ⟨q, h4, h2, fun h => absurd h hcl, fun _ => rfl⟩⟩

/-- Specification: the value lies between 0 and 1 and is the given one if that does. -/
def Clamped (v given : ℝ) : Prop := 0 ≤ v ∧ v ≤ 1 ∧ (0 ≤ given → given ≤ 1 → v = given) ∧ (given < 0 → v = 0) ∧ (1 < given → v = 1)

end

theorem layerAttrs_style (fmtG : ℝ → Str) (h : ℝ) (c : LayerArgs ℝ) (name : Str) :
    (layerAttrs fmtG h c name).lookup "style".toList =
      c.opacity.map fun o => "opacity: ".toList ++ PyFloat.fmt 2 (pmin (pmax o zero) one) ++ ";".toList := by
  obtain ⟨nm, o, cl, inc, fl, tg⟩ := c
  cases tg <;> cases o <;> cases fl <;> rfl

theorem layerAttrs_transform (fmtG : ℝ → Str) (h : ℝ) (c : LayerArgs ℝ) (name : Str) :
    (layerAttrs fmtG h c name).lookup "transform".toList =
      if c.flipy then some ("translate(0, ".toList ++ fmtG h ++ ") scale(1, -1)".toList) else none := by
  obtain ⟨nm, o, cl, inc, fl, tg⟩ := c
  cases tg <;> cases o <;> cases fl <;> rfl

/-- **C123**, what a new layer says: with `flipy`, if the height of the view is written as the number `n`, its transform turns the drawing upside
down within that height; with an opacity, the style has it, limited to between 0 and 1; without them it says nothing about these. -/
theorem C123_attributes (env : NumEnv ℝ) (hex : ∀ neg m e, env.ofDec neg m e = (if neg then -(m : ℝ) else m) * 10 ^ e) (fmtG : ℝ → Str) (h : ℝ) (n : Numeral)
    (hn : n.Valid) (ht : fmtG h = n.text) (doc : XNode) (c : LayerArgs ℝ) (L : LayerMade) (hL : createLayer fmtG h doc c = some L)
    (hnew : ∀ q, ¬ LayerAt doc q L.name) :
    (∃ m, parseTransform env (L.layer.get "transform".toList) = .ok m ∧
      ∀ p, m.apply p = if c.flipy then ⟨p.x, n.value env - p.y⟩ else p) ∧
    (c.opacity = none → L.layer.get "style".toList = none) ∧
    (∀ o, c.opacity = some o → ∃ v, Clamped v o ∧ L.layer.get "style".toList = some ("opacity: ".toList ++ PyFloat.fmt 2 v ++ ";".toList)) := by
  obtain ⟨r, hr, rfl⟩ := Option.map_eq_some_iff.1 hL
  have hr2 : r.2 = none := by
    have : r.2 = findLayer doc r.1 := by
      unfold layerChoice at hr
      split at hr
      · rcases suffixLoop_spec doc c.name ((doc.places []).length + 1) 0 with ⟨h1, -⟩ | ⟨k, -, h1, -⟩
        · rw [h1] at hr; cases hr
        · rw [h1] at hr; cases hr; rfl
      · cases hr; rfl
    rw [this]
    have hnm : (layerUse fmtG h doc c r.1 r.2).name = r.1 := by
      cases r.2 with
      | none => rfl
      | some a => simp only [layerUse]; split <;> rfl
    rcases findLayer_spec doc r.1 with ⟨h1, -⟩ | ⟨a, q, -, -, -, h4, -⟩
    · exact h1
    · rw [hnm] at hnew; exact absurd h4.1 (hnew q)
  have hlay : (layerUse fmtG h doc c r.1 r.2).layer = .elem .none "g".toList (layerAttrs fmtG h c r.1) [] := by rw [hr2]; rfl
  rw [hlay]
  refine ⟨?_, ?_, ?_⟩
  · rw [XNode.get, layerAttrs_transform]
    cases hf : c.flipy with
    | false =>
      exact ⟨Mat.ident, rfl, fun p => by simpa using (C41_compose Mat.ident Mat.ident Mat.ident p).2.2.2.2⟩
    | true =>
      have hl : ListText ("translate".toList ++ ([] ++ '(' :: (("0".toList ++ ',' :: (' ' :: n.text)) ++ ')' ::
          (' ' :: ("scale".toList ++ ([] ++ '(' :: (("1".toList ++ ',' :: (' ' :: "-1".toList)) ++ ')' :: [])))))))
          [⟨"translate", [⟨none, ['0'], none, none⟩, n]⟩, ⟨"scale", [⟨none, ['1'], none, none⟩, ⟨some true, ['1'], none, none⟩]⟩] := by
        refine ListText.item ⟨"translate", _⟩ _ _ _ _ (.inl ⟨rfl, .inr rfl⟩) (by simp) ?_ (ListText.sep _ _ _ (.inl rfl) ?_)
        · exact ArgText.num ⟨none, ['0'], none, none⟩ ',' _ _ ⟨rfl, by simp, by simp, by simp⟩ (by unfold Sep; simp)
            (ArgText.sep _ _ _ (.inl rfl) (ArgText.last n hn))
        · refine ListText.item ⟨"scale", _⟩ _ _ _ _ (.inr (.inl ⟨rfl, .inr rfl⟩)) (by simp) ?_ ListText.nil
          exact ArgText.num ⟨none, ['1'], none, none⟩ ',' _ _ ⟨rfl, by simp, by simp, by simp⟩ (by unfold Sep; simp)
            (ArgText.sep _ _ _ (.inl rfl) (ArgText.last ⟨some true, ['1'], none, none⟩ ⟨rfl, by simp, by simp, by simp⟩))
      have e : "translate(0, ".toList ++ fmtG h ++ ") scale(1, -1)".toList = "translate".toList ++ ([] ++ '(' :: (("0".toList ++ ',' :: (' ' :: n.text)) ++ ')' ::
          (' ' :: ("scale".toList ++ ([] ++ '(' :: (("1".toList ++ ',' :: (' ' :: "-1".toList)) ++ ')' :: [])))))) := by
        rw [ht]; simp
      rw [if_pos rfl, e]
      obtain ⟨m, hm, hm'⟩ := parseTransform_text env hl
      refine ⟨m, hm, fun p => ?_⟩
      rw [hm', if_pos rfl]
      have v0 : (⟨none, ['0'], none, none⟩ : Numeral).value env = 0 := by
        simp [Numeral.value, hex, Numeral.exponent, expValue, natOf, Numeral.negative]
      have v1 : (⟨none, ['1'], none, none⟩ : Numeral).value env = 1 := by
        simp [Numeral.value, hex, Numeral.exponent, expValue, natOf, Numeral.negative]
      have v2 : (⟨some true, ['1'], none, none⟩ : Numeral).value env = -1 := by
        simp [Numeral.value, hex, Numeral.exponent, expValue, natOf, Numeral.negative]
      simp only [applyList, List.foldr_cons, List.foldr_nil, List.map_cons, List.map_nil, v0, v1, v2, svgApply]
      apply P.ext_real <;> simp <;> ring
  · intro ho
    rw [XNode.get, layerAttrs_style, ho]; rfl
  · intro o ho
    rw [XNode.get, layerAttrs_style, ho]
    refine ⟨_, ?_, rfl⟩
    unfold Clamped pmin pmax
    simp only [zero, one, real_ofInt, real_lt, Int.cast_zero, Int.cast_one]
    by_cases h0 : o < 0
    · simp [h0, not_lt.2 (zero_le_one (α := ℝ))]
      linarith
    · by_cases h1 : 1 < o
      · simp [h0, h1]; try linarith
      · simp [h0, h1]; push Not at h0 h1; exact ⟨h0, h1⟩

/-- Specification: the element with something in it. -/
def filled (n : XNode) (k : List XNode) : XNode :=
  match n with
  | .elem ns t a _ => .elem ns t a k
  | .comment => .comment

theorem rereadList_eq (ks : List XNode) : rereadList ks = ks.map XNode.reread := by
  induction ks with
  | nil => rfl
  | cons k ks ih => rw [rereadList, ih, List.map_cons]

theorem emptiedAt_unique {doc d d' : XNode} {q : List Nat} (h : EmptiedAt q doc d) (h' : EmptiedAt q doc d') : d = d' := by
  refine follow_ext d' d fun r => ?_
  by_cases hr : q <+: r ∧ r ≠ q
  · rw [(h r).1 hr, (h' r).1 hr]
  · rw [(h r).2 hr, (h' r).2 hr]

/-- **C123**, another run: if a layer is made in a drawing without one of that name, filled with anything, written and read again, then the next
call for that name empties it and leaves the drawing as it was after the first call: drawings do not pile up. -/
theorem C123_rerun {K : Type} [PyTrig K] (fmtG : K → Str) (h : K) (doc : XNode) (hd : ∃ ns t a k, doc = .elem ns t a k) (c : LayerArgs K)
    (hc : c.incr = false) (hcl : c.clear = true) (hno : ∀ q, ¬ LayerAt doc.reread q c.name) (hno' : ∀ q, ¬ LayerAt doc q c.name) (k : List XNode) :
    ∃ L L', createLayer fmtG h doc c = some L ∧ createLayer fmtG h (doc.append (filled L.layer k)).reread c = some L' ∧
      L'.doc = L.doc.reread ∧ L'.layer = L.layer.reread := by
  obtain ⟨ns, t, a, ks, rfl⟩ := hd
  obtain ⟨L, hL, hn, hL'⟩ := C123_by_name fmtG h (.elem ns t a ks) ⟨ns, t, a, ks, rfl⟩ c hc
  rcases hL' with ⟨q, hq, -⟩ | ⟨-, hadd, hemp⟩
  · exact absurd hq.1 (hno' q)
  obtain ⟨ns', t', a', ks', e1, e2⟩ := hadd
  injection e1 with e11 e12 e13 e14
  subst e11 e12 e13 e14
  -- the layer made
  obtain ⟨⟨hg, hlab⟩, hk0⟩ := hemp
  cases hlay : L.layer with
  | comment => rw [hlay] at hg; cases hg
  | elem lns lt la lk =>
  rw [hlay] at hg hlab hk0 e2
  have hlk : lk = [] := hk0
  subst hlk
  have hlns : lns = .none ∨ lns = .svg := by
    cases lns with
    | none => exact .inl rfl
    | svg => exact .inr rfl
    | other => simp [XNode.isGroup] at hg
  have hre : lns.reread = .svg := by rcases hlns with rfl | rfl <;> rfl
  have hlt : lt = "g".toList := by
    unfold XNode.isGroup at hg
    simp only [Bool.and_eq_true, decide_eq_true_eq] at hg
    exact hg.2
  subst hlt
  have hD : ((XNode.elem ns t a ks).append (filled (.elem lns "g".toList la []) k)).reread =
      .elem ns.reread t a (ks.map XNode.reread ++ [.elem .svg "g".toList la (k.map XNode.reread)]) := by
    simp only [XNode.append, filled, XNode.reread, rereadList_eq, List.map_append, List.map_cons, List.map_nil, hre]
  have hE : L.doc.reread = .elem ns.reread t a (ks.map XNode.reread ++ [.elem .svg "g".toList la []]) := by
    rw [e2]; simp only [XNode.reread, rereadList_eq, List.map_append, List.map_cons, List.map_nil, hre]
  have hdr : (XNode.elem ns t a ks).reread = .elem ns.reread t a (ks.map XNode.reread) := by
    simp only [XNode.reread, rereadList_eq]
  rw [hdr] at hno
  refine ⟨L, ?_⟩
  rw [hlay, hD]
  have hfirst : FirstLayer (.elem ns.reread t a (ks.map XNode.reread ++ [.elem .svg "g".toList la (k.map XNode.reread)])) [ks.length] c.name := by
    refine ⟨⟨la, k.map XNode.reread, ?_, hlab⟩, ?_⟩
    · simp [XNode.follow, XNode.kids]
    · rintro r ⟨a', k', h1, h2⟩ hlt
      cases r with
      | nil =>
        refine hno [] ⟨a', ks.map XNode.reread, ?_, h2⟩
        simp only [XNode.follow, Option.some.injEq, XNode.elem.injEq] at h1 ⊢
        exact ⟨h1.1, h1.2.1, h1.2.2.1, trivial⟩
      | cons i r =>
        rw [List.cons_lt_cons_iff] at hlt
        rcases hlt with hlt | ⟨rfl, hlt⟩
        · refine hno (i :: r) ⟨a', k', ?_, h2⟩
          simp only [XNode.follow, XNode.kids] at h1 ⊢
          rwa [List.getElem?_append_left (by simpa using hlt)] at h1
        · exact absurd hlt (by simp)
  obtain ⟨L', hL', -, h'⟩ := C123_by_name fmtG h (.elem ns.reread t a (ks.map XNode.reread ++ [.elem .svg "g".toList la (k.map XNode.reread)]))
    ⟨_, _, _, _, rfl⟩ c hc
  refine ⟨L', hL, hL', ?_⟩
  rcases h' with ⟨q, hq, hf, hemp, -⟩ | ⟨hnone, -⟩
  · rw [firstLayer_unique hq hfirst] at hemp hf
    have hE' : EmptiedAt [ks.length] (.elem ns.reread t a (ks.map XNode.reread ++ [.elem .svg "g".toList la (k.map XNode.reread)])) L.doc.reread := by
      have := emptiedAt_cons (i := ks.length) (ks := ks.map XNode.reread ++ [.elem .svg "g".toList la (k.map XNode.reread)]) ns.reread t a
        (by simp) (emptiedAt_nil .svg "g".toList la (k.map XNode.reread))
      rw [hE]
      simpa [List.set_append] using this
    have e := emptiedAt_unique (hemp hcl).1 hE'
    refine ⟨e, ?_⟩
    rw [e, hE] at hf
    have hf' : XNode.elem .svg "g".toList la [] = L'.layer := by simpa [XNode.follow, XNode.kids] using hf
    rw [← hf', XNode.reread, rereadList, hre]
  · exact absurd hfirst.1 (hnone _)

/-! ## Examples -/

/-- A drawing with a layer in use, an empty one and a numbered one. -/
def docL : XNode := el "svg" [] [
  el "g" [at' "inkscape:label" "Grid"] [el "path" [] []],
  el "g" [at' "inkscape:label" "Grid_00"] [el "g" [at' "inkscape:label" "inner"] [.comment]],
  el "g" [at' "inkscape:label" "empty"] []]

theorem docL_grid : HasContent docL "Grid".toList := (inUse_iff _ _).1 (by decide +kernel)

/-- The numbers given: the first free one is 01, as `Grid` and `Grid_00` are in use. -/
example : (createLayer (fun _ : ℚ => []) 0 docL { name := "Grid".toList, incr := true }).map (·.name) = some "Grid_01".toList := by
  decide +kernel

/-- An empty layer is used again. -/
example : (createLayer (fun _ : ℚ => []) 0 docL { name := "empty".toList, incr := true }).map (·.name) = some "empty".toList := by
  decide +kernel

/-- Non-vacuity of `C123_suffix`: its second case. -/
example : ∃ L, createLayer (fun _ : ℚ => []) 0 docL { name := "Grid".toList, incr := true } = some L ∧ AddedLast docL L.doc L.layer := by
  obtain ⟨L, hL, -, -, h⟩ := C123_suffix (fun _ : ℚ => []) 0 docL ⟨_, _, _, _, rfl⟩ { name := "Grid".toList, incr := true } rfl
  refine ⟨L, hL, ?_⟩
  rcases h with ⟨-, q, hq, -⟩ | ⟨-, h⟩
  · exfalso
    have hn : L.name = "Grid_01".toList := by
      have := congrArg (Option.map LayerMade.name) hL
      rw [show (createLayer (fun _ : ℚ => []) 0 docL { name := "Grid".toList, incr := true }).map (·.name) = some "Grid_01".toList by decide +kernel] at this
      simpa using this.symm
    rw [hn] at hq
    rcases findLayer_spec docL "Grid_01".toList with ⟨-, h2⟩ | ⟨a, r, h1, -⟩
    · exact h2 q hq.1
    · have : (findLayer docL "Grid_01".toList).isNone = true := by decide +kernel
      rw [h1] at this; cases this
  · exact h

/-- A layer made in a run is an element without a name space, which is not found in the same run. -/
theorem C123_refuted_same_run :
    ∃ L L', createLayer (fun _ : ℚ => []) 0 docL { name := "new".toList } = some L ∧
      createLayer (fun _ : ℚ => []) 0 L.doc { name := "new".toList } = some L' ∧
      L.doc.kids.length = 4 ∧ L'.doc.kids.length = 5 ∧
      (L'.doc.follow [3]).map (fun n => n.get "inkscape:label".toList) = some (some "new".toList) ∧
      (L'.doc.follow [4]).map (fun n => n.get "inkscape:label".toList) = some (some "new".toList) := by
  refine ⟨_, _, rfl, rfl, ?_⟩
  decide +kernel

/-- Non-vacuity of `C123_rerun`. -/
example : (∀ q, ¬ LayerAt docL.reread q "new".toList) ∧ ∀ q, ¬ LayerAt docL q "new".toList := by
  constructor
  · rcases findLayer_spec docL.reread "new".toList with ⟨-, h2⟩ | ⟨a, r, h1, -⟩
    · exact h2
    · have : (findLayer docL.reread "new".toList).isNone = true := by decide +kernel
      rw [h1] at this; cases this
  · rcases findLayer_spec docL "new".toList with ⟨-, h2⟩ | ⟨a, r, h1, -⟩
    · exact h2
    · have : (findLayer docL "new".toList).isNone = true := by decide +kernel
      rw [h1] at this; cases this

end Verif.Svg
