import Verif.Cam.Document
import Mathlib.Data.List.Infix
import Mathlib.Tactic.Common
import Mathlib.Tactic.Ring

/-!
# C186: what a document says about its layers
-/

namespace Verif.Cam
open Verif
open Verif.Svg

/-! ## Addresses -/

theorem at?_append (n : XNode) (p q : List Nat) : n.at? (p ++ q) = (n.at? p).bind fun m => m.at? q := by
  induction p generalizing n with
  | nil => rfl
  | cons i p ih =>
    show (match n.kids[i]? with | some k => k.at? (p ++ q) | none => none) = _
    show _ = (match n.kids[i]? with | some k => k.at? p | none => none).bind _
    cases n.kids[i]? with
    | none => rfl
    | some k => exact ih k

mutual
theorem mem_addrs (n : XNode) (p : List Nat) : p ∈ n.addrs ↔ (n.at? p).isSome := by
  match n with
  | .comment =>
    cases p with
    | nil => simp [XNode.addrs, XNode.at?]
    | cons i p => simp [XNode.addrs, XNode.at?, XNode.kids]
  | .elem ns t a k =>
    unfold XNode.addrs
    cases p with
    | nil => simp [XNode.at?]
    | cons i p =>
      have := mem_addrsList 0 k (i :: p)
      simp only [List.mem_cons, reduceCtorEq, false_or]
      rw [this]
      simp only [XNode.at?, XNode.kids, Nat.zero_le, Nat.sub_zero, List.cons.injEq, true_and]
      constructor
      · rintro ⟨j, q, m, ⟨rfl, rfl⟩, h, hm⟩
        rw [h]; exact hm
      · intro h
        cases hk : k[i]? with
        | none => rw [hk] at h; cases h
        | some m => rw [hk] at h; exact ⟨i, p, m, ⟨rfl, rfl⟩, hk, h⟩
theorem mem_addrsList (i : Nat) (l : List XNode) (p : List Nat) :
    p ∈ addrsList i l ↔ ∃ j q m, p = j :: q ∧ i ≤ j ∧ l[j - i]? = some m ∧ (m.at? q).isSome := by
  match l with
  | [] => simp [addrsList]
  | k :: ks =>
    unfold addrsList
    rw [List.mem_append, mem_addrsList (i + 1) ks p, List.mem_map]
    constructor
    · rintro (⟨q, hq, rfl⟩ | ⟨j, q, m, rfl, hj, hm, hq⟩)
      · exact ⟨i, q, k, rfl, le_refl _, by simp, (mem_addrs k q).1 hq⟩
      · refine ⟨j, q, m, rfl, by omega, ?_, hq⟩
        obtain ⟨d, rfl⟩ : ∃ d, j = i + 1 + d := ⟨j - (i + 1), by omega⟩
        have e1 : i + 1 + d - (i + 1) = d := by omega
        have e2 : i + 1 + d - i = d + 1 := by omega
        rw [e1] at hm
        rw [e2]
        simpa using hm
    · rintro ⟨j, q, m, rfl, hj, hm, hq⟩
      rcases Nat.eq_or_lt_of_le hj with rfl | hlt
      · left
        simp at hm
        subst hm
        exact ⟨q, (mem_addrs k q).2 hq, rfl⟩
      · right
        refine ⟨j, q, m, rfl, hlt, ?_, hq⟩
        obtain ⟨d, rfl⟩ : ∃ d, j = i + 1 + d := ⟨j - (i + 1), by omega⟩
        have e1 : i + 1 + d - (i + 1) = d := by omega
        have e2 : i + 1 + d - i = d + 1 := by omega
        rw [e1]
        rw [e2] at hm
        simpa using hm
end

mutual
/-- In document order no node comes after one it contains. -/
theorem addrs_order (n : XNode) : n.addrs.Pairwise fun p q => ¬ q <+: p := by
  match n with
  | .comment => simp [XNode.addrs]
  | .elem ns t a k =>
    unfold XNode.addrs
    refine List.pairwise_cons.2 ⟨?_, addrsList_order 0 k⟩
    intro q hq h
    obtain ⟨j, r, m, rfl, -⟩ := (mem_addrsList 0 k q).1 hq
    simp at h
theorem addrsList_order (i : Nat) (l : List XNode) : (addrsList i l).Pairwise fun p q => ¬ q <+: p := by
  match l with
  | [] => simp [addrsList]
  | k :: ks =>
    unfold addrsList
    refine List.pairwise_append.2 ⟨?_, addrsList_order (i + 1) ks, ?_⟩
    · rw [List.pairwise_map]
      refine (addrs_order k).imp ?_
      intro p q h hpq
      exact h (List.cons_prefix_cons.1 hpq).2
    · intro p hp q hq h
      obtain ⟨p', -, rfl⟩ := List.mem_map.1 hp
      obtain ⟨j, r, m, rfl, hj, -⟩ := (mem_addrsList (i + 1) ks q).1 hq
      have := (List.cons_prefix_cons.1 h).1
      omega
end

/-! ## The layer of an element -/

/-- Specification: at this address there is a layer: a group of the SVG name space that Inkscape marks as a layer. -/
def LayerAt (doc : XNode) (q : List Nat) : Prop :=
  ∃ a k, doc.at? q = some (.elem .svg "g".toList a k) ∧ a.lookup "inkscape:groupmode".toList = some "layer".toList

theorem isLayer_iff (n : XNode) : n.isLayer = true ↔ ∃ a k, n = .elem .svg "g".toList a k ∧ a.lookup "inkscape:groupmode".toList = some "layer".toList := by
  cases n with
  | comment => simp [XNode.isLayer]
  | elem ns t a k =>
    cases ns <;> simp only [XNode.isLayer, Bool.false_eq_true, false_iff, not_exists, XNode.elem.injEq, reduceCtorEq, false_and, not_false_eq_true, implies_true,
      Bool.and_eq_true, decide_eq_true_eq]
    constructor
    · rintro ⟨h1, h2⟩
      exact ⟨a, k, ⟨trivial, h1, rfl, rfl⟩, h2⟩
    · rintro ⟨a', k', ⟨-, h1, rfl, rfl⟩, h2⟩
      exact ⟨h1, h2⟩

theorem layerAt_iff (doc : XNode) (q : List Nat) : doc.layerAt q = true ↔ LayerAt doc q := by
  unfold XNode.layerAt LayerAt
  cases h : doc.at? q with
  | none => simp
  | some n =>
    show n.isLayer = true ↔ _
    rw [isLayer_iff]
    simp only [Option.some.injEq]

/-- **C186** (layer of an element): `get_parent_layer` of an element of the document returns the outermost layer that the element is or is in; if the
element is in no layer it returns `None`. -/
theorem C186_outermost (doc : XNode) (p : List Nat) (hp : (doc.at? p).isSome) :
    (∀ q, parentLayer doc p = some q ↔ LayerAt doc q ∧ q <+: p ∧ ∀ r, LayerAt doc r → r <+: p → q <+: r) ∧
    (parentLayer doc p = none ↔ ∀ q, q <+: p → ¬ LayerAt doc q) := by
  have hmem : ∀ q, q <+: p → q ∈ doc.addrs := by
    rintro q ⟨r, rfl⟩
    rw [mem_addrs]
    rw [at?_append] at hp
    cases h : doc.at? q with
    | none => rw [h] at hp; cases hp
    | some m => rfl
  have hnone : parentLayer doc p = none ↔ ∀ q, q <+: p → ¬ LayerAt doc q := by
    unfold parentLayer
    rw [List.find?_eq_none]
    constructor
    · intro h q hq hl
      refine h q (hmem q hq) ?_
      rw [Bool.and_eq_true]
      exact ⟨(layerAt_iff doc q).2 hl, List.isPrefixOf_iff_prefix.2 hq⟩
    · intro h q _ hq
      rw [Bool.and_eq_true] at hq
      exact h q (List.isPrefixOf_iff_prefix.1 hq.2) ((layerAt_iff doc q).1 hq.1)
  have hsome : ∀ q, parentLayer doc p = some q → LayerAt doc q ∧ q <+: p ∧ ∀ r, LayerAt doc r → r <+: p → q <+: r := by
    intro q hq
    have hq' := hq
    unfold parentLayer at hq'
    obtain ⟨h1, as, bs, hl, h2⟩ := List.find?_eq_some_iff_append.1 hq'
    rw [Bool.and_eq_true] at h1
    have hqp := List.isPrefixOf_iff_prefix.1 h1.2
    refine ⟨(layerAt_iff doc q).1 h1.1, hqp, ?_⟩
    intro r hr hrp
    rcases List.prefix_or_prefix_of_prefix hqp hrp with h | h
    · exact h
    · have hrm := hmem r hrp
      rw [hl, List.mem_append, List.mem_cons] at hrm
      rcases hrm with hrm | rfl | hrm
      · have := h2 r hrm
        rw [(layerAt_iff doc r).2 hr, List.isPrefixOf_iff_prefix.2 hrp] at this
        cases this
      · exact h
      · have ho := addrs_order doc
        rw [hl, List.pairwise_append] at ho
        exact absurd h ((List.pairwise_cons.1 ho.2.1).1 r hrm)
  refine ⟨fun q => ⟨hsome q, ?_⟩, hnone⟩
  rintro ⟨h1, h2, h3⟩
  cases hc : parentLayer doc p with
  | none => exact absurd h1 (hnone.1 hc q h2)
  | some q' =>
    obtain ⟨g1, g2, g3⟩ := hsome q' hc
    have e1 := h3 q' g1 g2
    have e2 := g3 q h1 h2
    rw [e1.eq_of_length (le_antisymm e1.length_le e2.length_le)]

/-- **C186**, the part that holds of "returns the layer that the element is in": if no layer of the document is inside another one, `get_parent_layer`
returns a layer exactly if the element is or is in that layer. -/
theorem C186_layer_partial (doc : XNode) (hflat : ∀ q r, LayerAt doc q → LayerAt doc r → q <+: r → q = r) (p q : List Nat) (hp : (doc.at? p).isSome) :
    parentLayer doc p = some q ↔ LayerAt doc q ∧ q <+: p := by
  rw [(C186_outermost doc p hp).1 q]
  constructor
  · rintro ⟨h1, h2, -⟩
    exact ⟨h1, h2⟩
  · rintro ⟨h1, h2⟩
    refine ⟨h1, h2, fun r hr hrp => ?_⟩
    rcases List.prefix_or_prefix_of_prefix h2 hrp with h | h
    · exact h
    · rw [hflat r q hr h1 h]

/-- A layer with the given label and contents. -/
def layerElem (label : String) (k : List XNode) : XNode :=
  .elem .svg "g".toList [("inkscape:groupmode".toList, "layer".toList), ("inkscape:label".toList, label.toList)] k

/-- A document with two layers; the second one has a sub-layer. -/
def docLayers : XNode :=
  .elem .svg "svg".toList [] [.elem .other "namedview".toList [] [], layerElem "A" [.elem .svg "path".toList [] []],
    layerElem "B" [.elem .svg "rect".toList [] [], layerElem "C" [.elem .svg "path".toList [] []]]]

/-- Non-vacuity: in this document the path of the layer A is in A, and the view is in no layer. -/
example : parentLayer docLayers [1, 0] = some [1] ∧ parentLayer docLayers [0] = none ∧ parentLayer docLayers [2, 0] = some [2] := by decide +kernel

/-- **C186**, refuted for sub-layers: there is a document with an element whose innermost layer is not the one `get_parent_layer` returns. -/
theorem C186_refuted_sublayer : ∃ doc p q r, (doc.at? p).isSome ∧ LayerAt doc r ∧ r <+: p ∧ (∀ s, LayerAt doc s → s <+: p → s <+: r) ∧
    parentLayer doc p = some q ∧ q ≠ r := by
  refine ⟨docLayers, [2, 1, 0], [2], [2, 1], by decide +kernel, (layerAt_iff _ _).1 (by decide +kernel), by decide, ?_, by decide +kernel, by decide⟩
  intro s hs hp
  have hmem : s ∈ [2, 1, 0].inits := (List.mem_inits _ _).2 hp
  simp only [List.inits, List.map, List.mem_cons, List.not_mem_nil, or_false] at hmem
  rcases hmem with rfl | rfl | rfl | rfl
  · exact List.nil_prefix
  · decide
  · decide
  · exact absurd ((layerAt_iff _ _).2 hs) (by decide +kernel)

/-- **C186**, refuted for layers the extension itself made: if a document whose root is not a layer has no layer of that name, then whatever is put into
the layer that `create_layer` makes, unless it is a layer itself, is in no layer as far as `get_parent_layer` can tell, and neither is the layer. -/
theorem C186_refuted_new {K : Type} [PyTrig K] (fmtG : K → Str) (h : K) (ns : Ns) (t : Str) (at' : List (Str × Str)) (k : List XNode) (c : LayerArgs K)
    (hroot : ¬ LayerAt (.elem ns t at' k) []) (hno : findLayer (.elem ns t at' k) c.name = none) :
    ∃ doc a, createLayer fmtG h (.elem ns t at' k) c = some ⟨doc, c.name, .elem .none "g".toList a []⟩ ∧ a.lookup "inkscape:groupmode".toList = some "layer".toList ∧
      ∀ ks : List XNode, (∀ x ∈ ks, x.isLayer = false) → ∀ i < ks.length,
        parentLayer (.elem ns t at' (k ++ [.elem .none "g".toList a ks])) [k.length, i] = none ∧
        parentLayer (.elem ns t at' (k ++ [.elem .none "g".toList a ks])) [k.length] = none := by
  have e : layerChoice (.elem ns t at' k) c.name c.incr = some (c.name, none) := by
    unfold layerChoice
    rw [hno]
    simp [inUse]
  refine ⟨_, layerAttrs fmtG h c c.name, by rw [createLayer, e]; rfl, by unfold layerAttrs; rfl, ?_⟩
  intro ks hks i hi
  have hg : ∀ a' : List (Str × Str), (XNode.elem .none "g".toList a' ks).isLayer = false := fun _ => rfl
  generalize hdoc : XNode.elem ns t at' (k ++ [.elem .none "g".toList (layerAttrs fmtG h c c.name) ks]) = doc
  have h0 : ¬ LayerAt doc [] := by
    rintro ⟨a', k', h1, h2⟩
    refine hroot ⟨at', k, ?_, ?_⟩
    · rw [← hdoc] at h1
      simp only [XNode.at?, Option.some.injEq, XNode.elem.injEq] at h1
      obtain ⟨rfl, rfl, -, -⟩ := h1
      rfl
    · rw [← hdoc] at h1
      simp only [XNode.at?, Option.some.injEq, XNode.elem.injEq] at h1
      obtain ⟨-, -, rfl, -⟩ := h1
      exact h2
  have a1 : doc.at? [k.length] = some (.elem .none "g".toList (layerAttrs fmtG h c c.name) ks) := by
    rw [← hdoc]
    simp [XNode.at?, XNode.kids]
  have a2 : doc.at? [k.length, i] = some ks[i] := by
    rw [← hdoc]
    simp [XNode.at?, XNode.kids, hi]
  have n1 : ¬ LayerAt doc [k.length] := by
    rw [← layerAt_iff]
    unfold XNode.layerAt
    rw [a1]
    exact Bool.false_ne_true
  have n2 : ¬ LayerAt doc [k.length, i] := by
    rw [← layerAt_iff]
    unfold XNode.layerAt
    rw [a2]
    show ¬ ks[i].isLayer = true
    rw [hks _ (List.getElem_mem hi)]
    exact Bool.false_ne_true
  constructor
  · rw [(C186_outermost doc _ (by rw [a2]; rfl)).2]
    intro q hq
    have := (List.mem_inits _ _).2 hq
    simp only [List.inits, List.map, List.mem_cons, List.not_mem_nil, or_false] at this
    rcases this with rfl | rfl | rfl
    · exact h0
    · exact n1
    · exact n2
  · rw [(C186_outermost doc _ (by rw [a1]; rfl)).2]
    intro q hq
    have := (List.mem_inits _ _).2 hq
    simp only [List.inits, List.map, List.mem_cons, List.not_mem_nil, or_false] at this
    rcases this with rfl | rfl
    · exact h0
    · exact n1

/-- Non-vacuity: a document without the layer asked for. -/
example : ¬ LayerAt docLayers [] ∧ (findLayer docLayers "new".toList).isNone = true :=
  ⟨fun h => absurd ((layerAt_iff _ _).2 h) (by decide +kernel), by decide +kernel⟩

/-! ## Names and locks -/

/-- **C186** (names): after `set_layer_name` a layer has that name, every other attribute and everything in it is as before, and `find_layer` looks for it
under that name and no other. -/
theorem C186_rename (ns : Ns) (t : Str) (a : List (Str × Str)) (k : List XNode) (name : Str) :
    ((XNode.elem ns t a k).setLabel name).label = some name ∧
    (∀ x, x ≠ "inkscape:label".toList → ((XNode.elem ns t a k).setLabel name).get x = (XNode.elem ns t a k).get x) ∧
    ((XNode.elem ns t a k).setLabel name).kids = k ∧
    ∀ other, ((XNode.elem .svg "g".toList a k).setLabel name).named other = true ↔ other = name := by
  refine ⟨?_, ?_, rfl, ?_⟩
  · unfold XNode.label XNode.setLabel XNode.get
    exact List.lookup_cons_self
  · intro x hx
    unfold XNode.setLabel XNode.get
    dsimp only
    generalize "inkscape:label".toList = l at hx
    have hb : (x == l) = false := by simpa using hx
    rw [List.lookup_cons, hb]
    dsimp only
    induction a with
    | nil => rfl
    | cons y ys ih =>
      by_cases h : y.1 = l
      · rw [List.filter_cons_of_neg (by simp [h]), ih, List.lookup_cons, h, hb]
      · rw [List.filter_cons_of_pos (by simp [h]), List.lookup_cons, List.lookup_cons, ih]
  · intro other
    unfold XNode.setLabel XNode.named
    dsimp only
    rw [List.lookup_cons_self, decide_eq_true rfl, Bool.true_and, decide_eq_true_eq, Option.some.injEq]
    exact eq_comm

/-- Specification: the text is the word "true" in capital or small letters or a mix of them. -/
def SaysTrue (v : Str) : Prop := ∃ a b c d, v = [a, b, c, d] ∧ (a = 't' ∨ a = 'T') ∧ (b = 'r' ∨ b = 'R') ∧ (c = 'u' ∨ c = 'U') ∧ (d = 'e' ∨ d = 'E')

theorem lowerC_cases (c x : Char) (hx : 'a' ≤ x ∧ x ≤ 'z') : lowerC c = x ↔ c = x ∨ c = Char.ofNat (x.toNat - 32) := by
  have hx1 : 97 ≤ x.toNat := hx.1
  have hx2 : x.toNat ≤ 122 := hx.2
  have hval : ∀ n < 128, (Char.ofNat n).toNat = n := by decide
  unfold lowerC
  split
  · rename_i h
    have h1 : 65 ≤ c.toNat := h.1
    have h2 : c.toNat ≤ 90 := h.2
    constructor
    · intro e
      right
      rw [← e, hval _ (by omega)]
      simp
    · rintro (rfl | rfl)
      · omega
      · rw [hval _ (by omega)]
        have : x.toNat - 32 + 32 = x.toNat := by omega
        rw [this]
        simp
  · rename_i h
    constructor
    · exact Or.inl
    · rintro (rfl | rfl)
      · rfl
      · exfalso
        apply h
        have e := hval (x.toNat - 32) (by omega)
        constructor
        · show 65 ≤ (Char.ofNat (x.toNat - 32)).toNat
          omega
        · show (Char.ofNat (x.toNat - 32)).toNat ≤ 90
          omega

/-- **C186** (locks): `layer_is_locked` says yes exactly if the element has the attribute by which Inkscape locks layers and its value is "true" in any
capitalisation. -/
theorem C186_locked (n : XNode) : n.locked = true ↔ ∃ v, n.get "sodipodi:insensitive".toList = some v ∧ SaysTrue v := by
  have key : ∀ v : Str, lowerS v = "true".toList ↔ SaysTrue v := by
    intro v
    have ht := fun c => lowerC_cases c 't' (by decide)
    have hr := fun c => lowerC_cases c 'r' (by decide)
    have hu := fun c => lowerC_cases c 'u' (by decide)
    have he := fun c => lowerC_cases c 'e' (by decide)
    constructor
    · intro h
      match v, h with
      | [a, b, c, d], h =>
        have h' : [lowerC a, lowerC b, lowerC c, lowerC d] = ['t', 'r', 'u', 'e'] := h
        simp only [List.cons.injEq, and_true] at h'
        exact ⟨a, b, c, d, rfl, (ht a).1 h'.1, (hr b).1 h'.2.1, (hu c).1 h'.2.2.1, (he d).1 h'.2.2.2⟩
      | [], h => exact absurd (congrArg List.length h) (by decide)
      | [a], h => exact absurd (congrArg List.length h) (by simp [lowerS])
      | [a, b], h => exact absurd (congrArg List.length h) (by simp [lowerS])
      | [a, b, c], h => exact absurd (congrArg List.length h) (by simp [lowerS])
      | a :: b :: c :: d :: e :: r, h => exact absurd (congrArg List.length h) (by simp [lowerS])
    · rintro ⟨a, b, c, d, rfl, h1, h2, h3, h4⟩
      show [lowerC a, lowerC b, lowerC c, lowerC d] = ['t', 'r', 'u', 'e']
      rw [(ht a).2 h1, (hr b).2 h2, (hu c).2 h3, (he d).2 h4]
  unfold XNode.locked
  cases h : n.get "sodipodi:insensitive".toList with
  | none => simp
  | some v =>
    show decide (lowerS v = "true".toList) = true ↔ _
    rw [decide_eq_true_eq, key v]
    simp

/-- Non-vacuity: a locked layer and one that is not. -/
example : (XNode.elem .svg "g".toList [("sodipodi:insensitive".toList, "True".toList)] []).locked = true ∧
    (XNode.elem .svg "g".toList [("sodipodi:insensitive".toList, "1".toList)] []).locked = false := by decide +kernel

/-! ## The name of the document, its selected layer and the default parent -/

/-- **C186**, refuted for the name: `get_document_name` returns nothing, and the name kept with the document is "untitled.svg", whatever
document is opened; in particular it is so for a new document that was given a name. -/
theorem C186_refuted_name : (∀ doc, documentName doc = none ∧ docName doc = "untitled.svg".toList) ∧
    ∀ {K : Type} [PyTrig K] (d : NewDoc K) (s : Str), d.docName = some s → s ≠ [] →
      (newInkscape d).get "sodipodi:docname".toList = some s ∧ docName (newInkscape d) = "untitled.svg".toList := by
  have hc : ("sodipodi:docname".toList).contains ':' = true := by decide
  have hname : ∀ doc, docName doc = "untitled.svg".toList := by
    intro doc
    unfold docName XNode.getPlain
    rw [if_pos hc]
    rfl
  refine ⟨fun doc => ⟨rfl, hname doc⟩, ?_⟩
  intro K _ d s hs hne
  refine ⟨?_, hname _⟩
  have hg : given d.docName = some s := by
    rw [hs]
    unfold given
    simp [hne]
  unfold newInkscape XNode.get NewDoc.nameAttr rootAttrs
  dsimp only
  rw [hg]
  rfl

/-- Specification: the element with this id that comes first in the document, not counting the root. -/
def FirstWithId (doc : XNode) (id : Str) (a : At) : Prop :=
  ∃ before after, placesList [doc] doc.kids = before ++ a :: after ∧ a.node.get "id".toList = some id ∧ ∀ b ∈ before, b.node.get "id".toList ≠ some id

/-- **C186** (selected layer): of a document with a view, `get_selected_layer` is the first element whose id the view names as the current layer, and what
is drawn without a parent goes into that element; if the view names no layer or no element has that id, there is no selected layer and everything goes into
the root.  A document without a view cannot be opened. -/
theorem C186_selected (doc : XNode) :
    (∀ v, namedView doc = some v →
      (∀ id a, v.get "inkscape:current-layer".toList = some id → FirstWithId doc id a → selectedLayer doc = .ok (some a) ∧ defaultParent doc = .ok a) ∧
      (v.get "inkscape:current-layer".toList = none → selectedLayer doc = .ok none ∧ defaultParent doc = .ok ⟨doc, []⟩) ∧
      ∀ id, v.get "inkscape:current-layer".toList = some id → (¬ ∃ a, FirstWithId doc id a) → selectedLayer doc = .ok none ∧ defaultParent doc = .ok ⟨doc, []⟩) ∧
    (namedView doc = none → selectedLayer doc = .error .attributeError ∧ defaultParent doc = .error .attributeError) := by
  refine ⟨fun v hv => ⟨?_, ?_, ?_⟩, ?_⟩
  · rintro id a h ⟨before, after, h1, h2, h3⟩
    have hb : byId doc id = some a := by
      unfold byId
      rw [List.find?_eq_some_iff_append]
      exact ⟨by simpa using h2, before, after, h1, fun b hb => by simpa using h3 b hb⟩
    have : selectedLayer doc = .ok (some a) := by
      unfold selectedLayer
      rw [hv]
      dsimp only
      rw [h]
      exact congrArg Except.ok hb
    exact ⟨this, by unfold defaultParent; rw [this]; rfl⟩
  · intro h
    have : selectedLayer doc = .ok none := by
      unfold selectedLayer
      rw [hv]
      dsimp only
      rw [h]
      rfl
    exact ⟨this, by unfold defaultParent; rw [this]; rfl⟩
  · intro id h hno
    have hb : byId doc id = none := by
      cases hc : byId doc id with
      | none => rfl
      | some a =>
        unfold byId at hc
        rw [List.find?_eq_some_iff_append] at hc
        obtain ⟨h2, before, after, h1, h3⟩ := hc
        exact absurd ⟨a, before, after, h1, by simpa using h2, fun b hb => by simpa using h3 b hb⟩ hno
    have : selectedLayer doc = .ok none := by
      unfold selectedLayer
      rw [hv]
      dsimp only
      rw [h]
      exact congrArg Except.ok hb
    exact ⟨this, by unfold defaultParent; rw [this]; rfl⟩
  · intro h
    have : selectedLayer doc = .error .attributeError := by
      unfold selectedLayer
      rw [h]
    exact ⟨this, by unfold defaultParent; rw [this]; rfl⟩

/-- Non-vacuity: a document whose view names its second layer. -/
example : ∃ v a, namedView (.elem .svg "svg".toList [] [.elem .other "namedview".toList [("inkscape:current-layer".toList, "l2".toList)] [],
      .elem .svg "g".toList [("id".toList, "l1".toList)] [], .elem .svg "g".toList [("id".toList, "l2".toList)] []]) = some v ∧
    v.get "inkscape:current-layer".toList = some "l2".toList ∧
    FirstWithId (.elem .svg "svg".toList [] [.elem .other "namedview".toList [("inkscape:current-layer".toList, "l2".toList)] [],
      .elem .svg "g".toList [("id".toList, "l1".toList)] [], .elem .svg "g".toList [("id".toList, "l2".toList)] []]) "l2".toList a := by
  refine ⟨.elem .other "namedview".toList [("inkscape:current-layer".toList, "l2".toList)] [], ⟨.elem .svg "g".toList [("id".toList, "l2".toList)] [], _⟩, rfl, rfl, [_, _], [], rfl, rfl, ?_⟩
  intro b hb
  simp only [List.mem_cons, List.not_mem_nil, or_false] at hb
  rcases hb with rfl | rfl
  · intro h; exact absurd h (by decide +kernel)
  · intro h; exact absurd h (by decide +kernel)

/-- **C186** (new documents): a new document that is given a layer whose id is not that of the view has that layer selected, and everything goes into it; one
without a layer has none, and everything goes into the root.  Its units are the ones it was given. -/
theorem C186_new {K : Type} [PyTrig K] (d : NewDoc K) :
    docUnits (newInkscape d) = .ok d.units ∧
    (∀ s, d.layerName = some s → s ≠ [] → d.layerId ≠ "namedview".toList →
      ∃ a, selectedLayer (newInkscape d) = .ok (some a) ∧ defaultParent (newInkscape d) = .ok a ∧ a.node.label = some s ∧ LayerAt (newInkscape d) [1] ∧
        (newInkscape d).at? [1] = some a.node ∧ a.up = [newInkscape d]) ∧
    ((d.layerName = none ∨ d.layerName = some []) → selectedLayer (newInkscape d) = .ok none ∧ defaultParent (newInkscape d) = .ok ⟨newInkscape d, []⟩) := by
  have hview : namedView (newInkscape d) = some d.view := by
    unfold namedView newInkscape NewDoc.view
    rfl
  refine ⟨?_, ?_, ?_⟩
  · unfold docUnits
    rw [hview]
    rfl
  · intro s hs hne hid
    have hg : given d.layerName = some s := by
      rw [hs]; unfold given; simp [hne]
    have hcur : d.view.get "inkscape:current-layer".toList = some d.layerId := by
      unfold NewDoc.view; rw [hg]; rfl
    have hvid : d.view.get "id".toList = some "namedview".toList := rfl
    have hl : d.layers = [.elem .svg "g".toList [("id".toList, d.layerId), ("inkscape:groupmode".toList, "layer".toList), ("inkscape:label".toList, s)] []] := by
      unfold NewDoc.layers; rw [hg]
    have hplaces : placesList [newInkscape d] (newInkscape d).kids =
        [⟨d.view, [newInkscape d]⟩] ++ ⟨.elem .svg "g".toList [("id".toList, d.layerId), ("inkscape:groupmode".toList, "layer".toList), ("inkscape:label".toList, s)] [], [newInkscape d]⟩ :: [] := by
      have : (newInkscape d).kids = d.view :: d.layers := rfl
      rw [this, hl]
      rfl
    have hf : FirstWithId (newInkscape d) d.layerId ⟨.elem .svg "g".toList [("id".toList, d.layerId), ("inkscape:groupmode".toList, "layer".toList), ("inkscape:label".toList, s)] [], [newInkscape d]⟩ := by
      refine ⟨_, _, hplaces, rfl, ?_⟩
      intro b hb
      rw [List.mem_singleton] at hb
      rw [hb, hvid]
      intro h
      exact hid (Option.some.inj h).symm
    obtain ⟨h1, h2⟩ := ((C186_selected (newInkscape d)).1 _ hview).1 _ _ hcur hf
    have hat : (newInkscape d).at? [1] = some (.elem .svg "g".toList [("id".toList, d.layerId), ("inkscape:groupmode".toList, "layer".toList), ("inkscape:label".toList, s)] []) := by
      have : (newInkscape d).kids = d.view :: d.layers := rfl
      unfold XNode.at?
      rw [this, hl]
      rfl
    exact ⟨_, h1, h2, rfl, ⟨_, _, hat, rfl⟩, hat, rfl⟩
  · intro hs
    have hg : given d.layerName = none := by
      rcases hs with h | h <;> rw [h] <;> rfl
    have hcur : d.view.get "inkscape:current-layer".toList = none := by
      unfold NewDoc.view; rw [hg]; rfl
    exact ((C186_selected (newInkscape d)).1 _ hview).2.1 hcur

/-- Non-vacuity: a new document with a layer. -/
example : ∃ d : NewDoc ℚ, d.layerName = some "Plan".toList ∧ d.layerId ≠ "namedview".toList := ⟨⟨1, 1, [], [], none, some "Plan".toList, "l".toList⟩, rfl, by decide⟩

/-- **C186**, refuted for what is selected: the "selected layer" need not be a layer.  If the id given for the layer of a new document is that of the view,
the view element is the selected layer and everything is drawn into it, though the layer is there. -/
theorem C186_refuted_selected {K : Type} [PyTrig K] (d : NewDoc K) (s : Str) (hs : d.layerName = some s) (hne : s ≠ []) (hid : d.layerId = "namedview".toList) :
    LayerAt (newInkscape d) [1] ∧ ∃ a, selectedLayer (newInkscape d) = .ok (some a) ∧ defaultParent (newInkscape d) = .ok a ∧ a.node.isGroup = false ∧
      (newInkscape d).at? [0] = some a.node := by
  have hview : namedView (newInkscape d) = some d.view := by
    unfold namedView newInkscape NewDoc.view
    rfl
  have hg : given d.layerName = some s := by
    rw [hs]; unfold given; simp [hne]
  have hcur : d.view.get "inkscape:current-layer".toList = some "namedview".toList := by
    unfold NewDoc.view; rw [hg, hid]; rfl
  have hl : d.layers = [.elem .svg "g".toList [("id".toList, d.layerId), ("inkscape:groupmode".toList, "layer".toList), ("inkscape:label".toList, s)] []] := by
    unfold NewDoc.layers; rw [hg]
  have hk : (newInkscape d).kids = d.view :: d.layers := rfl
  constructor
  · refine ⟨[("id".toList, d.layerId), ("inkscape:groupmode".toList, "layer".toList), ("inkscape:label".toList, s)], [], ?_, rfl⟩
    unfold XNode.at?
    rw [hk, hl]
    rfl
  · obtain ⟨h1, h2⟩ := ((C186_selected (newInkscape d)).1 _ hview).1 _ ⟨d.view, [newInkscape d]⟩ hcur
      ⟨[], placesList [newInkscape d] d.layers, by rw [hk]; rfl, rfl, by simp⟩
    refine ⟨_, h1, h2, rfl, ?_⟩
    unfold XNode.at?
    rw [hk]
    rfl

/-- Non-vacuity: the id of the view given for the layer. -/
example : ∃ d : NewDoc ℚ, d.layerName = some "Plan".toList ∧ d.layerId = "namedview".toList := ⟨⟨1, 1, [], [], none, some "Plan".toList, "namedview".toList⟩, rfl, rfl⟩

/-- **C186** (units): the unit of an open document is the one the view gives as that of the document, else the one it gives as its unit, else pixels, and
`get_document_units` says so. -/
theorem C186_units {K : Type} [PyTrig K] (env : NumEnv K) (conv : Conv K) (eps : K) (doc : XNode) (d : Opened K) (h : openDoc env conv eps doc = .ok d) :
    docUnits doc = .ok d.info.docUnits ∧ ∃ v, namedView doc = some v ∧
      (∀ u, v.get "inkscape:document-units".toList = some u → d.info.docUnits = u) ∧
      (∀ u, v.get "inkscape:document-units".toList = none → v.get "units".toList = some u → d.info.docUnits = u) ∧
      (v.get "inkscape:document-units".toList = none → v.get "units".toList = none → d.info.docUnits = "px".toList) := by
  unfold openDoc at h
  simp only [bind, Except.bind] at h
  split at h
  on_goal 2 => cases h
  split at h
  · cases h
  split at h
  · cases h
  rename_i ctx _
  split at h
  · cases h
  · rename_i v hv
    injection h with h
    subst h
    refine ⟨by unfold docUnits; rw [hv], v, hv, ?_, ?_, ?_⟩
    · intro u hu
      simp only [hu, Option.getD_some]
    · intro u h1 hu
      simp only [h1, hu, Option.getD_some, Option.getD_none]
    · intro h1 h2
      simp only [h1, h2, Option.getD_none]

/-- Non-vacuity: a document in millimetres opens. -/
example : ((openDoc exactQ Conv.default (1 / 1000) (.elem .svg "svg".toList [("width".toList, "100".toList), ("height".toList, "50".toList)]
    [.elem .other "namedview".toList [("units".toList, "mm".toList)] []])).toOption.map fun d => d.info.docUnits) = some "mm".toList := by decide +kernel

end Verif.Cam
