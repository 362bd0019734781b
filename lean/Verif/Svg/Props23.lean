import Verif.Svg.Elements
import Verif.Svg.Props11
import Verif.Svg.Props16
import Verif.Svg.Props19
import Verif.Svg.Props20

/-!
# C175: markers; C176: rectangles, circles and texts that are written; C177: path data of single segments
-/

set_option linter.unusedSectionVars false

namespace Verif.Svg
open Verif PyFloat PyTrig Geom

/-! ## C175: specification -/

mutual
/-- Specification: an element and everything below it, in document order. -/
def XNode.nodes : XNode → List XNode
  | .elem ns t a k => .elem ns t a k :: nodesOf k
  | .comment => [.comment]
/-- Specification: the elements of a list and everything below them, in document order. -/
def nodesOf : List XNode → List XNode
  | [] => []
  | k :: ks => k.nodes ++ nodesOf ks
end

/-- Specification: how many elements below the root of the document have this id. -/
def copies (doc : XNode) (id : Str) : Nat := ((nodesOf doc.kids).filter fun n => n.get "id".toList = some id).length

/-- Specification: an element of the SVG name space that holds definitions. -/
def IsDefs (n : XNode) : Prop := ∃ a k, n = .elem .svg "defs".toList a k

/-- Specification: no element of this tree has the id. -/
def FreeOf (id : Str) (n : XNode) : Prop := ∀ x ∈ n.nodes, x.get "id".toList ≠ some id

/-- Specification: the first definitions of a document and what is before and after them. -/
def HasDefs (doc : XNode) (pre : List XNode) (a : List (Str × Str)) (held post : List XNode) : Prop :=
  doc.kids = pre ++ .elem .svg "defs".toList a held :: post ∧ ∀ n ∈ pre, ¬ IsDefs n

/-- Specification: the id is not in the document, or only as that of one element that is directly in the first definitions. -/
def OnlyInDefs (doc : XNode) (id : Str) : Prop :=
  (∀ n ∈ doc.kids, ¬ IsDefs n → FreeOf id n) ∧
  ∀ pre a held post, HasDefs doc pre a held post → a.lookup "id".toList ≠ some id ∧ (∀ n ∈ post, FreeOf id n) ∧
    (∀ n ∈ held, ∀ c ∈ n.kids, FreeOf id c) ∧ (held.filter fun n => n.get "id".toList = some id).length ≤ 1

/-- Specification: what a marker looks like: it turns with the line, is drawn from the middle of its own axes, and holds one path. -/
def IsMarker (m : MarkerArgs) (n : XNode) : Prop :=
  n.top.map (fun t => t.1) = some .svg ∧ n.top.map (fun t => t.2.1) = some "marker".toList ∧ n.get "id".toList = some m.id ∧ n.get "orient".toList = some "auto".toList ∧
  n.get "refX".toList = some "0.0".toList ∧ n.get "refY".toList = some "0.0".toList ∧ n.get "style".toList = some "overflow:visible".toList ∧
  ∃ p, n.kids = [p] ∧ p.top.map (fun t => t.2.1) = some "path".toList ∧ p.get "d".toList = some m.d ∧ p.get "style".toList = some m.style ∧
    p.get "transform".toList = some m.transform ∧ p.kids = []

/-! ## The definitions -/

theorem isDefs_iff (n : XNode) : n.isDefs = true ↔ IsDefs n := by
  cases n with
  | elem ns t a k =>
    simp only [XNode.isDefs, Bool.and_eq_true, decide_eq_true_eq, IsDefs]
    constructor
    · rintro ⟨rfl, rfl⟩; exact ⟨a, k, rfl⟩
    · rintro ⟨a', k', h⟩; cases h; exact ⟨rfl, rfl⟩
  | comment => simp [XNode.isDefs, IsDefs]

/-- Changing the children of the first definitions, which are added if there are none. -/
def withDefs (f : List XNode → List XNode) : List XNode → List XNode
  | [] => [.elem .svg "defs".toList [] (f [])]
  | n :: r => if n.isDefs then (match n with
      | .elem ns t a k => .elem ns t a (f k)
      | .comment => .comment) :: r else n :: withDefs f r

theorem markerKids_eq (m : MarkerArgs) (r : Bool) (k : List XNode) : markerKids m r k = withDefs (putMarker m r) k := by
  induction k with
  | nil => cases r <;> rfl
  | cons n l ih =>
    simp only [markerKids, withDefs]
    rw [ih]
    cases n <;> rfl

theorem withDefs_none (f : List XNode → List XNode) (k : List XNode) (h : ∀ n ∈ k, ¬ IsDefs n) : withDefs f k = k ++ [.elem .svg "defs".toList [] (f [])] := by
  induction k with
  | nil => rfl
  | cons n l ih =>
    have : n.isDefs = false := by
      have := h n (by simp)
      rw [← isDefs_iff] at this
      simpa using this
    simp only [withDefs, this, Bool.false_eq_true, if_false, List.cons_append]
    rw [ih fun x hx => h x (by simp [hx])]

theorem withDefs_some (f : List XNode → List XNode) (pre post : List XNode) (a : List (Str × Str)) (held : List XNode) (h : ∀ n ∈ pre, ¬ IsDefs n) :
    withDefs f (pre ++ .elem .svg "defs".toList a held :: post) = pre ++ .elem .svg "defs".toList a (f held) :: post := by
  induction pre with
  | nil => simp [withDefs, XNode.isDefs]
  | cons n l ih =>
    have : n.isDefs = false := by
      have := h n (by simp)
      rw [← isDefs_iff] at this
      simpa using this
    simp only [withDefs, this, Bool.false_eq_true, if_false, List.cons_append]
    rw [ih fun x hx => h x (by simp [hx])]

/-- Either there are no definitions, or there are first ones. -/
theorem defs_cases (k : List XNode) : (∀ n ∈ k, ¬ IsDefs n) ∨ ∃ pre a held post, k = pre ++ .elem .svg "defs".toList a held :: post ∧ ∀ n ∈ pre, ¬ IsDefs n := by
  induction k with
  | nil => left; simp
  | cons n l ih =>
    by_cases hn : IsDefs n
    · obtain ⟨a, held, rfl⟩ := hn
      exact Or.inr ⟨[], a, held, l, rfl, by simp⟩
    · rcases ih with h | ⟨pre, a, held, post, rfl, h⟩
      · left
        intro x hx
        rcases List.mem_cons.1 hx with rfl | hx
        · exact hn
        · exact h x hx
      · refine Or.inr ⟨n :: pre, a, held, post, rfl, ?_⟩
        intro x hx
        rcases List.mem_cons.1 hx with rfl | hx
        · exact hn
        · exact h x hx

theorem withDefs_comp (f g : List XNode → List XNode) (k : List XNode) : withDefs f (withDefs g k) = withDefs (fun l => f (g l)) k := by
  rcases defs_cases k with h | ⟨pre, a, held, post, rfl, h⟩
  · rw [withDefs_none g k h, withDefs_none _ k h]
    exact withDefs_some f k [] [] (g []) h
  · rw [withDefs_some g _ _ _ _ h, withDefs_some f _ _ _ _ h, withDefs_some _ _ _ _ _ h]

/-- The children of the definitions after all markers. -/
def putAll (ms : List MarkerArgs) (l : List XNode) : List XNode := ms.foldl (fun k m => putMarker m true k) l

theorem createMarkers_eq (ms : List MarkerArgs) (hms : ms ≠ []) (ns : Ns) (t : Str) (a : List (Str × Str)) (k : List XNode) :
    createMarkers ms (.elem ns t a k) = .elem ns t a (withDefs (putAll ms) k) := by
  induction ms generalizing k with
  | nil => exact absurd rfl hms
  | cons m r ih =>
    by_cases hr : r = []
    · subst hr
      simp only [createMarkers, List.foldl_cons, List.foldl_nil, createMarker, markerKids_eq]
      rfl
    · have := ih hr (withDefs (putMarker m true) k)
      have e : createMarkers (m :: r) (.elem ns t a k) = createMarkers r (.elem ns t a (markerKids m true k)) := rfl
      rw [e, markerKids_eq, this, withDefs_comp]
      rfl

theorem eraseP_once {α : Type} (p : α → Bool) (l : List α) (h : (l.filter p).length ≤ 1) : l.eraseP p = l.filter fun x => !p x := by
  induction l with
  | nil => rfl
  | cons x r ih =>
    by_cases hx : p x = true
    · rw [List.filter_cons_of_pos hx, List.length_cons] at h
      have : r.filter p = [] := List.eq_nil_of_length_eq_zero (by omega)
      rw [List.eraseP_cons_of_pos hx, List.filter_cons_of_neg (by simp [hx])]
      symm
      rw [List.filter_eq_self]
      intro y hy
      have := List.filter_eq_nil_iff.1 this y hy
      simpa using this
    · rw [List.eraseP_cons_of_neg hx, List.filter_cons_of_pos (by simpa using hx)]
      rw [List.filter_cons_of_neg hx] at h
      rw [ih h]

theorem marker_hasId (m : MarkerArgs) (id : Str) : (markerNode m).hasId id = decide (m.id = id) := by
  simp [XNode.hasId, markerNode, XNode.get, List.lookup]

theorem filter_ids (l : List XNode) (m : MarkerArgs) (ids : List Str) (hm : m.id ∉ ids) :
    (putMarker m true l).filter (fun n => decide (∀ id ∈ ids, n.hasId id = false)) =
    (l.eraseP (XNode.hasId m.id)).filter (fun n => decide (∀ id ∈ ids, n.hasId id = false)) ++ [markerNode m] := by
  unfold putMarker
  rw [if_pos rfl, List.filter_append]
  congr 1
  rw [List.filter_eq_self]
  intro x hx
  rw [List.mem_singleton] at hx
  subst hx
  simp only [decide_eq_true_eq]
  intro id hid
  rw [marker_hasId]
  simp only [decide_eq_false_iff_not]
  rintro rfl
  exact hm hid

/-- All markers after each other: the old ones of these ids are gone, the new ones are last. -/
theorem putAll_eq (ms : List MarkerArgs) (hn : (ms.map MarkerArgs.id).Nodup) (l : List XNode) (h : ∀ m ∈ ms, (l.filter (XNode.hasId m.id)).length ≤ 1) :
    putAll ms l = l.filter (fun n => decide (∀ id ∈ ms.map MarkerArgs.id, n.hasId id = false)) ++ ms.map markerNode := by
  induction ms generalizing l with
  | nil =>
    simp [putAll]
  | cons m r ih =>
    rw [List.map_cons, List.nodup_cons] at hn
    have hm := h m (by simp)
    have e1 := eraseP_once _ l hm
    have hrest : ∀ m' ∈ r, ((putMarker m true l).filter (XNode.hasId m'.id)).length ≤ 1 := by
      intro m' hm'
      unfold putMarker
      rw [if_pos rfl, List.filter_append, e1]
      have hne : m.id ≠ m'.id := fun e => hn.1 (e ▸ List.mem_map_of_mem hm')
      have e2 : [markerNode m].filter (XNode.hasId m'.id) = [] := by
        rw [List.filter_eq_nil_iff]
        intro x hx
        rw [List.mem_singleton] at hx
        subst hx
        rw [marker_hasId]
        simpa using hne
      rw [e2, List.append_nil, List.filter_filter]
      refine le_trans ?_ (h m' (by simp [hm']))
      apply List.Sublist.length_le
      apply List.monotone_filter_right
      intro x
      simp only [Bool.and_eq_true]
      exact fun hx => hx.1
    have := ih hn.2 (putMarker m true l) hrest
    have e3 : putAll (m :: r) l = putAll r (putMarker m true l) := rfl
    rw [e3, this, filter_ids l m _ hn.1, e1, List.filter_filter, List.append_assoc]
    congr 1
    apply List.filter_congr
    intro x _
    simp only [List.map_cons, List.mem_cons, forall_eq_or_imp, Bool.decide_and]
    rw [Bool.and_comm]
    congr 1
    cases x.hasId m.id <;> rfl

/-! ## C175 -/

mutual
theorem places_nodes : ∀ (n : XNode) (up : List XNode), (n.places up).map At.node = n.nodes
  | .elem ns t a k, up => by
    simp only [XNode.places, XNode.nodes, List.map_cons]
    rw [placesList_nodes k]
  | .comment, up => rfl
theorem placesList_nodes : ∀ (k : List XNode) (up : List XNode), (placesList up k).map At.node = nodesOf k
  | [], up => rfl
  | n :: r, up => by
    simp only [placesList, nodesOf, List.map_append]
    rw [places_nodes n, placesList_nodes r]
end

/-- The element found by its id is the first one in document order. -/
theorem byId_node (doc : XNode) (id : Str) : (byId doc id).map At.node = (nodesOf doc.kids).find? fun n => n.get "id".toList = some id := by
  unfold byId
  rw [← placesList_nodes doc.kids [doc], List.find?_map]
  rfl

theorem nodesOf_append (l r : List XNode) : nodesOf (l ++ r) = nodesOf l ++ nodesOf r := by
  induction l with
  | nil => rfl
  | cons x l ih => simp only [List.cons_append, nodesOf, ih, List.append_assoc]

theorem nodesOf_flat (l : List XNode) : nodesOf l = l.flatMap XNode.nodes := by
  induction l with
  | nil => rfl
  | cons x l ih => simp only [nodesOf, ih, List.flatMap_cons]

theorem marker_nodes (m : MarkerArgs) : (markerNode m).nodes =
    [markerNode m, .elem .svg "path".toList [("d".toList, m.d), ("style".toList, m.style), ("transform".toList, m.transform)] []] := rfl

theorem marker_get (m : MarkerArgs) : (markerNode m).get "id".toList = some m.id := rfl

theorem markerPath_get (m : MarkerArgs) : (XNode.elem .svg "path".toList [("d".toList, m.d), ("style".toList, m.style), ("transform".toList, m.transform)] []).get "id".toList = none := rfl

/-- Nothing of these elements has the id. -/
theorem nodesOf_free {id : Str} {l : List XNode} (h : ∀ n ∈ l, FreeOf id n) : ∀ x ∈ nodesOf l, x.get "id".toList ≠ some id := by
  intro x hx
  rw [nodesOf_flat, List.mem_flatMap] at hx
  obtain ⟨n, hn, hx⟩ := hx
  exact h n hn x hx

theorem nodes_below (n : XNode) : n.nodes = n :: nodesOf n.kids := by
  cases n <;> rfl

/-- **C175.** Markers that are not already elsewhere in the document: after they are made, exactly one element has the id of each of them, looking for the id finds it, and it is the
marker as it was asked for. -/
theorem C175_once (ms : List MarkerArgs) (hn : (ms.map MarkerArgs.id).Nodup) (doc : XNode) (hd : ∃ ns t a k, doc = .elem ns t a k) (h : ∀ m ∈ ms, OnlyInDefs doc m.id) :
    ∀ m ∈ ms, copies (createMarkers ms doc) m.id = 1 ∧ ∃ n, (byId (createMarkers ms doc) m.id).map At.node = some n ∧ IsMarker m n := by
  obtain ⟨ns, t, a, k, rfl⟩ := hd
  intro m hm
  have hms : ms ≠ [] := by
    rintro rfl
    simp at hm
  have key : ∃ A B, nodesOf (createMarkers ms (.elem ns t a k)).kids = A ++ nodesOf (ms.map markerNode) ++ B ∧ (∀ x ∈ A, x.get "id".toList ≠ some m.id) ∧
      ∀ x ∈ B, x.get "id".toList ≠ some m.id := by
    rw [createMarkers_eq ms hms]
    show ∃ A B, nodesOf (withDefs (putAll ms) k) = _ ∧ _
    rcases defs_cases k with hk | ⟨pre, da, held, post, rfl, hk⟩
    · rw [withDefs_none _ k hk, putAll_eq ms hn [] (by simp)]
      refine ⟨nodesOf k ++ [.elem .svg "defs".toList [] (ms.map markerNode)], [], ?_, ?_, by simp⟩
      · rw [nodesOf_append]
        simp only [nodesOf, XNode.nodes, List.filter_nil, List.nil_append, List.append_nil, List.append_assoc, List.cons_append]
      · intro x hx
        rcases List.mem_append.1 hx with hx | hx
        · exact nodesOf_free (fun n hn => (h m hm).1 n hn (hk n hn)) x hx
        · rw [List.mem_singleton] at hx
          subst hx
          simp [XNode.get, List.lookup]
    · rw [withDefs_some _ _ _ _ _ hk]
      obtain ⟨hda, hpost, hheld, hone⟩ := (h m hm).2 pre da held post ⟨rfl, hk⟩
      have e := putAll_eq ms hn held fun m' hm' => ((h m' hm').2 pre da held post ⟨rfl, hk⟩).2.2.2
      refine ⟨nodesOf pre ++ .elem .svg "defs".toList da (putAll ms held) ::
        nodesOf (held.filter (fun n => decide (∀ id ∈ ms.map MarkerArgs.id, n.hasId id = false))), nodesOf post, ?_, ?_, ?_⟩
      · rw [nodesOf_append]
        show nodesOf pre ++ (XNode.elem .svg "defs".toList da (putAll ms held) :: nodesOf (putAll ms held) ++ nodesOf post) = _
        have e2 : nodesOf (putAll ms held) = nodesOf (held.filter (fun n => decide (∀ id ∈ ms.map MarkerArgs.id, n.hasId id = false))) ++ nodesOf (ms.map markerNode) := by
          rw [e, nodesOf_append]
        rw [e2]
        simp
      · intro x hx
        rcases List.mem_append.1 hx with hx | hx
        · exact nodesOf_free (fun n hn => (h m hm).1 n (List.mem_append_left _ hn) (hk n hn)) x hx
        rcases List.mem_cons.1 hx with rfl | hx
        · exact hda
        · rw [nodesOf_flat, List.mem_flatMap] at hx
          obtain ⟨n, hn, hx⟩ := hx
          rw [List.mem_filter, decide_eq_true_eq] at hn
          rw [nodes_below] at hx
          rcases List.mem_cons.1 hx with rfl | hx
          · have := hn.2 m.id (List.mem_map_of_mem hm)
            simpa [XNode.hasId] using this
          · exact nodesOf_free (fun c hc => hheld n hn.1 c hc) x hx
      · exact fun x hx => nodesOf_free hpost x hx
  have key2 : ∃ A B, nodesOf (createMarkers ms (.elem ns t a k)).kids = A ++ markerNode m :: B ∧ (∀ x ∈ A, x.get "id".toList ≠ some m.id) ∧
      ∀ x ∈ B, x.get "id".toList ≠ some m.id := by
    obtain ⟨A, B, e, hA, hB⟩ := key
    obtain ⟨l, r, rfl⟩ := List.mem_iff_append.1 hm
    have free : ∀ o : MarkerArgs, o.id ≠ m.id → FreeOf m.id (markerNode o) := by
      intro o ho x hx
      rw [marker_nodes] at hx
      rcases List.mem_cons.1 hx with rfl | hx
      · rw [marker_get]
        simpa using ho
      · rw [List.mem_singleton] at hx
        subst hx
        rw [markerPath_get]
        simp
    rw [List.map_append, List.map_cons, List.nodup_append] at hn
    have hl : ∀ n ∈ l.map markerNode, FreeOf m.id n := by
      intro n hn'
      obtain ⟨o, ho, rfl⟩ := List.mem_map.1 hn'
      exact free o (hn.2.2 _ (List.mem_map_of_mem ho) _ (by simp))
    have hr : ∀ n ∈ r.map markerNode, FreeOf m.id n := by
      intro n hn'
      obtain ⟨o, ho, rfl⟩ := List.mem_map.1 hn'
      refine free o ?_
      intro e
      have := (List.nodup_cons.1 hn.2.1).1
      exact this (e ▸ List.mem_map_of_mem ho)
    refine ⟨A ++ nodesOf (l.map markerNode),
      .elem .svg "path".toList [("d".toList, m.d), ("style".toList, m.style), ("transform".toList, m.transform)] [] :: nodesOf (r.map markerNode) ++ B, ?_, ?_, ?_⟩
    · rw [e, List.map_append, List.map_cons, nodesOf_append]
      simp only [nodesOf, marker_nodes]
      simp
    · intro x hx
      rcases List.mem_append.1 hx with hx | hx
      · exact hA x hx
      · exact nodesOf_free hl x hx
    · intro x hx
      rcases List.mem_append.1 hx with hx | hx
      · rcases List.mem_cons.1 hx with rfl | hx
        · rw [markerPath_get]
          simp
        · exact nodesOf_free hr x hx
      · exact hB x hx
  obtain ⟨A, B, e, hA, hB⟩ := key2
  constructor
  · unfold copies
    have hA' : A.filter (fun n => n.get "id".toList = some m.id) = [] := by
      rw [List.filter_eq_nil_iff]
      intro x hx
      simpa using hA x hx
    have hB' : B.filter (fun n => n.get "id".toList = some m.id) = [] := by
      rw [List.filter_eq_nil_iff]
      intro x hx
      simpa using hB x hx
    rw [e, List.filter_append, hA', List.filter_cons_of_pos (by rw [marker_get]; simp), hB']
    rfl
  · refine ⟨markerNode m, ?_, ?_⟩
    · rw [byId_node, e, List.find?_append]
      have : A.find? (fun n => n.get "id".toList = some m.id) = none := by
        rw [List.find?_eq_none]
        intro x hx
        simpa using hA x hx
      rw [this, List.find?_cons_of_pos (by rw [marker_get]; simp)]
      rfl
    · exact ⟨rfl, rfl, rfl, rfl, rfl, rfl, rfl, _, rfl, rfl, rfl, rfl, rfl, rfl⟩

/-- **C175.** The rest of the document stays as it is: the marker is put at the end of the first definitions of the document, and of what these held only the first element with the id
of the marker is taken out, if asked to; if there are no definitions, they are added at the end of the document. -/
theorem C175_rest (m : MarkerArgs) (replace : Bool) (ns : Ns) (t : Str) (a : List (Str × Str)) (k : List XNode) :
    ∃ n, IsMarker m n ∧
    ((∀ x ∈ k, ¬ IsDefs x) → createMarker m replace (.elem ns t a k) = .elem ns t a (k ++ [.elem .svg "defs".toList [] [n]])) ∧
    ∀ pre da held post, HasDefs (.elem ns t a k) pre da held post →
      ∃ held', createMarker m replace (.elem ns t a k) = .elem ns t a (pre ++ .elem .svg "defs".toList da (held' ++ [n]) :: post) ∧
        (replace = false ∨ (∀ x ∈ held, x.get "id".toList ≠ some m.id) → held' = held) ∧
        ∀ l o r, held = l ++ o :: r → replace = true → (∀ x ∈ l, x.get "id".toList ≠ some m.id) → o.get "id".toList = some m.id → held' = l ++ r := by
  refine ⟨markerNode m, ⟨rfl, rfl, rfl, rfl, rfl, rfl, rfl, _, rfl, rfl, rfl, rfl, rfl, rfl⟩, ?_, ?_⟩
  · intro h
    show XNode.elem ns t a (markerKids m replace k) = _
    rw [markerKids_eq, withDefs_none _ k h]
    cases replace <;> rfl
  · rintro pre da held post ⟨hk, h⟩
    have hk : k = pre ++ .elem .svg "defs".toList da held :: post := hk
    refine ⟨if replace then held.eraseP (XNode.hasId m.id) else held, ?_, ?_, ?_⟩
    · show XNode.elem ns t a (markerKids m replace k) = _
      rw [markerKids_eq, hk, withDefs_some _ _ _ _ _ h]
      rfl
    · rintro (h | h)
      · rw [if_neg (by simp [h])]
      · split
        · exact List.eraseP_of_forall_not (by simpa [XNode.hasId] using h)
        · rfl
    · rintro l o r rfl rfl hl ho
      rw [if_pos rfl, List.eraseP_append_right _ (by simpa [XNode.hasId] using hl), List.eraseP_cons_of_pos (by simpa [XNode.hasId] using ho)]

/-- **C175.** Making the preview again: the document is the same as if only the markers of the last time had been made, whatever their styles were before. -/
theorem C175_again (ms ms' : List MarkerArgs) (hid : ms.map MarkerArgs.id = ms'.map MarkerArgs.id) (hn : (ms.map MarkerArgs.id).Nodup) (doc : XNode)
    (hd : ∃ ns t a k, doc = .elem ns t a k)
    (h : ∀ m ∈ ms, ∀ pre a held post, HasDefs doc pre a held post → (held.filter fun n => n.get "id".toList = some m.id).length ≤ 1) :
    createMarkers ms' (createMarkers ms doc) = createMarkers ms' doc := by
  obtain ⟨ns, t, a, k, rfl⟩ := hd
  by_cases hms : ms = []
  · subst hms
    rfl
  have hms' : ms' ≠ [] := by
    rintro rfl
    simp at hid
    exact hms hid
  rw [createMarkers_eq ms hms, createMarkers_eq ms' hms', createMarkers_eq ms' hms', withDefs_comp]
  have hlist : ∀ l : List XNode, (∀ m ∈ ms, (l.filter (XNode.hasId m.id)).length ≤ 1) → putAll ms' (putAll ms l) = putAll ms' l := by
    intro l hl
    have hl' : ∀ m ∈ ms', (l.filter (XNode.hasId m.id)).length ≤ 1 := by
      intro m hm
      have : m.id ∈ ms.map MarkerArgs.id := hid ▸ List.mem_map_of_mem hm
      obtain ⟨m', hm', e⟩ := List.mem_map.1 this
      rw [← e]
      exact hl m' hm'
    have e1 := putAll_eq ms hn l hl
    have hsplit : ∀ id ∈ ms.map MarkerArgs.id, (l.filter (fun n => decide (∀ id ∈ ms.map MarkerArgs.id, n.hasId id = false))).filter (XNode.hasId id) = [] := by
      intro id hid
      rw [List.filter_eq_nil_iff]
      intro x hx
      rw [List.mem_filter] at hx
      have := hx.2
      rw [decide_eq_true_eq] at this
      rw [this id hid]
      simp
    rw [putAll_eq ms' (hid ▸ hn) l hl', putAll_eq ms' (hid ▸ hn) (putAll ms l), e1, List.filter_append]
    · congr 1
      have e2 : (ms.map markerNode).filter (fun n => decide (∀ id ∈ ms'.map MarkerArgs.id, n.hasId id = false)) = [] := by
        rw [List.filter_eq_nil_iff]
        intro x hx
        obtain ⟨m, hm, rfl⟩ := List.mem_map.1 hx
        rw [decide_eq_true_eq]
        intro hx
        have := hx m.id (hid ▸ List.mem_map_of_mem hm)
        rw [marker_hasId] at this
        simp at this
      rw [e2, List.append_nil, hid, List.filter_filter]
      apply List.filter_congr
      intro x _
      rw [Bool.and_self]
    · intro m hm
      have : m.id ∈ ms.map MarkerArgs.id := hid ▸ List.mem_map_of_mem hm
      rw [e1, List.filter_append, hsplit _ this, List.nil_append]
      have e3 : (ms.map markerNode).filter (XNode.hasId m.id) = (ms.filter fun x => decide (x.id = m.id)).map markerNode := by
        rw [List.filter_map]
        congr 1
        apply List.filter_congr
        intro x _
        exact marker_hasId x m.id
      rw [e3, List.length_map]
      have : (ms.filter fun x => decide (x.id = m.id)).length = (ms.map MarkerArgs.id).count m.id := by
        rw [List.count_eq_countP, List.countP_map, List.countP_eq_length_filter]
        congr 1
        apply List.filter_congr
        intro x _
        exact (beq_eq_decide _ _).symm
      rw [this]
      exact List.nodup_iff_count_le_one.1 hn _
  congr 1
  rcases defs_cases k with hk | ⟨pre, da, held, post, rfl, hk⟩
  · rw [withDefs_none _ k hk, withDefs_none _ k hk, hlist [] (by simp)]
  · rw [withDefs_some _ _ _ _ _ hk, withDefs_some _ _ _ _ _ hk, hlist held]
    intro m hm
    exact h m hm pre da held post ⟨rfl, hk⟩

/-- An element of the SVG name space. -/
def elm (t : String) (attr : List (String × String)) (kids : List XNode) : XNode := .elem .svg t.toList (attr.map fun a => (a.1.toList, a.2.toList)) kids

/-- A document with a drawing, definitions that hold an old marker, and a second element with definitions. -/
def docM : XNode := elm "svg" [("id", "root")] [
  elm "g" [("id", "layer1")] [elm "path" [("id", "p1"), ("d", "M 0,0 L 1,1")] []],
  elm "defs" [("id", "defs1")] [elm "linearGradient" [("id", "grad")] [], elm "marker" [("id", "PreviewLineEnd1"), ("style", "old")] [elm "path" [] []]],
  elm "defs" [] [elm "filter" [("id", "f")] []]]

/-- The preview's markers in it. -/
def marksQ : List MarkerArgs := previewMarkers (fun n => "fill:".toList ++ n) "0.38".toList

theorem marksQ_ids : marksQ.map MarkerArgs.id = ["PreviewLineEnd0".toList, "PreviewLineEnd1".toList, "PreviewLineEnd2".toList] := by decide +kernel

/-- Whether the id is only in the first definitions. -/
def onlyInDefs (id : Str) (k : List XNode) : Bool :=
  match k with
  | [] => true
  | n :: r =>
    if n.isDefs then
      decide (n.get "id".toList ≠ some id) && (nodesOf r).all (fun x => decide (x.get "id".toList ≠ some id)) &&
      n.kids.all (fun c => (nodesOf c.kids).all fun x => decide (x.get "id".toList ≠ some id)) && decide ((n.kids.filter fun c => decide (c.get "id".toList = some id)).length ≤ 1)
    else n.nodes.all (fun x => decide (x.get "id".toList ≠ some id)) && onlyInDefs id r

theorem free_of_all {id : Str} {n : XNode} (h : n.nodes.all (fun x => decide (x.get "id".toList ≠ some id)) = true) : FreeOf id n := by
  intro x hx
  have := List.all_eq_true.1 h x hx
  simpa using this

theorem free_of_list {id : Str} {l : List XNode} (h : (nodesOf l).all (fun x => decide (x.get "id".toList ≠ some id)) = true) : ∀ n ∈ l, FreeOf id n := by
  intro n hn x hx
  have := List.all_eq_true.1 h x (by rw [nodesOf_flat]; exact List.mem_flatMap.2 ⟨n, hn, hx⟩)
  simpa using this

theorem onlyInDefs_ok (id : Str) (doc : XNode) (h : onlyInDefs id doc.kids = true) : OnlyInDefs doc id := by
  unfold OnlyInDefs HasDefs
  generalize doc.kids = k at *
  induction k with
  | nil => exact ⟨by simp, fun pre a held post h => by simp at h⟩
  | cons n r ih =>
    unfold onlyInDefs at h
    by_cases hd : n.isDefs = true
    · rw [if_pos hd] at h
      simp only [Bool.and_eq_true, decide_eq_true_eq] at h
      obtain ⟨⟨⟨h1, h2⟩, h3⟩, h4⟩ := h
      constructor
      · intro x hx hnx
        rcases List.mem_cons.1 hx with rfl | hx
        · exact absurd ((isDefs_iff _).1 hd) hnx
        · exact free_of_list h2 x hx
      · rintro pre a held post ⟨e, hp⟩
        cases pre with
        | nil =>
          rw [List.nil_append, List.cons.injEq] at e
          obtain ⟨rfl, rfl⟩ := e
          refine ⟨h1, free_of_list h2, ?_, h4⟩
          intro x hx c hc
          exact free_of_list (List.all_eq_true.1 h3 x hx) c hc
        | cons y pre =>
          rw [List.cons_append, List.cons.injEq] at e
          obtain ⟨rfl, rfl⟩ := e
          exact absurd ((isDefs_iff _).1 hd) (hp _ (by simp))
    · rw [if_neg hd, Bool.and_eq_true] at h
      obtain ⟨h1, h2⟩ := h
      obtain ⟨i1, i2⟩ := ih h2
      constructor
      · intro x hx hnx
        rcases List.mem_cons.1 hx with rfl | hx
        · exact free_of_all h1
        · exact i1 x hx hnx
      · rintro pre a held post ⟨e, hp⟩
        cases pre with
        | nil =>
          rw [List.nil_append, List.cons.injEq] at e
          obtain ⟨rfl, rfl⟩ := e
          exact absurd ((isDefs_iff _).2 ⟨_, _, rfl⟩) hd
        | cons y pre =>
          rw [List.cons_append, List.cons.injEq] at e
          obtain ⟨rfl, rfl⟩ := e
          exact i2 pre a held post ⟨rfl, fun n hn => hp n (by simp [hn])⟩

theorem docM_only : ∀ m ∈ marksQ, OnlyInDefs docM m.id := by
  have h : ∀ m ∈ marksQ, onlyInDefs m.id docM.kids = true := by decide +kernel
  exact fun m hm => onlyInDefs_ok _ _ (h m hm)

/-- The hypotheses of `C175_once` and `C175_again` are met by a document that already has one of the markers. -/
example : (∃ ns t a k, docM = .elem ns t a k) ∧ (marksQ.map MarkerArgs.id).Nodup ∧ (∀ m ∈ marksQ, OnlyInDefs docM m.id) ∧ copies docM "PreviewLineEnd1".toList = 1 ∧
    copies docM "PreviewLineEnd0".toList = 0 ∧ copies (createMarkers marksQ docM) "PreviewLineEnd1".toList = 1 ∧
    createMarkers marksQ (createMarkers (previewMarkers (fun _ => "red".toList) "2".toList) docM) = createMarkers marksQ docM := by
  refine ⟨⟨_, _, _, _, rfl⟩, by rw [marksQ_ids]; decide +kernel, docM_only, by decide +kernel, by decide +kernel, by decide +kernel, ?_⟩
  refine C175_again _ _ (by rw [marksQ_ids]; decide +kernel) (by decide +kernel) docM ⟨_, _, _, _, rfl⟩ ?_
  intro m hm pre a held post hd
  have : m.id ∈ marksQ.map MarkerArgs.id := by
    have e : (previewMarkers (fun _ => "red".toList) "2".toList).map MarkerArgs.id = marksQ.map MarkerArgs.id := by decide +kernel
    rw [← e]
    exact List.mem_map_of_mem hm
  obtain ⟨m', hm', e⟩ := List.mem_map.1 this
  rw [← e]
  exact ((docM_only m' hm').2 pre a held post hd).2.2.2

/-- A definition that holds the id twice. -/
def docTwice : XNode := elm "svg" [] [elm "defs" [] [elm "marker" [("id", "PreviewLineEnd0"), ("style", "first")] [], elm "marker" [("id", "PreviewLineEnd0"), ("style", "second")] []]]

/-- The id is already that of an element of the drawing. -/
def docElsewhere : XNode := elm "svg" [] [elm "g" [] [elm "path" [("id", "PreviewLineEnd0")] []], elm "defs" [] []]

/-- **C175, refuted.** It is not the case that the marker asked for is always the one that is found: if the definitions hold the id twice only the first one is taken out, an element of
the drawing with the id is found instead, and without `replace` so is the old marker. -/
theorem C175_refuted (m : MarkerArgs) (hm : m.id = "PreviewLineEnd0".toList) :
    (∃ n, (byId (createMarker m true docTwice) m.id).map At.node = some n ∧ n.get "style".toList = some "second".toList ∧ ¬ IsMarker m n) ∧
    (∃ n, (byId (createMarker m true docElsewhere) m.id).map At.node = some n ∧ ¬ IsMarker m n) ∧
    ∃ n, (byId (createMarker m false docTwice) m.id).map At.node = some n ∧ n.get "style".toList = some "first".toList ∧ ¬ IsMarker m n := by
  obtain ⟨id, d, st, tr⟩ := m
  subst hm
  refine ⟨⟨elm "marker" [("id", "PreviewLineEnd0"), ("style", "second")] [], rfl, rfl, ?_⟩, ⟨elm "path" [("id", "PreviewLineEnd0")] [], rfl, ?_⟩,
    elm "marker" [("id", "PreviewLineEnd0"), ("style", "first")] [], rfl, rfl, ?_⟩
  · rintro ⟨-, -, -, h, -⟩
    exact absurd h (by decide +kernel)
  · rintro ⟨-, -, -, h, -⟩
    exact absurd h (by decide +kernel)
  · rintro ⟨-, -, -, h, -⟩
    exact absurd h (by decide +kernel)

/-! ## C176: rectangles, circles and texts -/

theorem rect_get (str : ℝ → Str) (pos : P ℝ) (w h : ℝ) (style : Option Str) :
    (createRect str pos w h style).get "x".toList = some (str pos.x) ∧ (createRect str pos w h style).get "y".toList = some (str pos.y) ∧
    (createRect str pos w h style).get "width".toList = some (str w) ∧ (createRect str pos w h style).get "height".toList = some (str h) := ⟨rfl, rfl, rfl, rfl⟩

/-- **C176.** A rectangle that is written is read back as the rectangle: four lines around it, its numbers those that were written. -/
theorem C176_rect (env : NumEnv ℝ) (eps : ℝ) (rounds : Nat) (str : ℝ → Str) (num : ℝ → Numeral) (hn : ∀ v, str v = (num v).text ∧ (num v).Valid) (pos : P ℝ) (w h : ℝ)
    (style : Option Str) :
    ∃ l, elementGeometry env eps rounds (createRect str pos w h style) none none = .ok [.path l] ∧ Connected l ∧ ClosedPath l ∧
      l = linesThrough [⟨(num pos.x).value env, (num pos.y).value env⟩, ⟨(num pos.x).value env, (num pos.y).value env + (num h).value env⟩,
        ⟨(num pos.x).value env + (num w).value env, (num pos.y).value env + (num h).value env⟩,
        ⟨(num pos.x).value env + (num w).value env, (num pos.y).value env⟩, ⟨(num pos.x).value env, (num pos.y).value env⟩] := by
  have has : ∀ v, ∃ n : Numeral, n.Valid ∧ some (str v) = some n.text ∧ (num v).value env = n.value env := fun v => ⟨num v, (hn v).2, congrArg some (hn v).1, rfl⟩
  exact C78_rect env eps rounds _ rfl _ _ _ _ (Or.inr (has pos.x)) (Or.inr (has pos.y)) (Or.inr (has w)) (Or.inr (has h))

/-- **C176.** A circle that is written is read back as the circle: four quarter turns about the centre with the radius, back to the start. -/
theorem C176_circle (env : NumEnv ℝ) (eps : ℝ) (rounds : Nat) (str : ℝ → Str) (num : ℝ → Numeral) (hn : ∀ v, str v = (num v).text ∧ (num v).Valid) (c : P ℝ) (r : ℝ)
    (style : Option Str) :
    ∃ arcs : List (Arc ℝ), elementGeometry env eps rounds (createCircle str c r style) none none = .ok [.path (arcs.map .arc)] ∧ arcs.length = 4 ∧
      Connected (arcs.map .arc) ∧ ClosedPath (arcs.map .arc) ∧
      ∀ a ∈ arcs, a.center = ⟨(num c.x).value env, (num c.y).value env⟩ ∧ a.radius = |(num r).value env| ∧ a.angle = Real.pi / 2 ∧ a.OnCircle ∧
        rotAbout a.center a.angle a.p1 = a.p2 := by
  have has : ∀ v, ∃ n : Numeral, n.Valid ∧ some (str v) = some n.text ∧ (num v).value env = n.value env := fun v => ⟨num v, (hn v).2, congrArg some (hn v).1, rfl⟩
  exact C78_circle env eps rounds _ rfl _ _ _ (Or.inr (has c.x)) (Or.inr (has c.y)) (Or.inr (has r))

/-- **C176.** The style of both is the text that was given; without one, or with an empty one, there is no attribute. -/
theorem C176_style (str : ℝ → Str) (p : P ℝ) (w h r : ℝ) (s : Str) :
    (s ≠ [] → (createRect str p w h (some s)).get "style".toList = some s ∧ (createCircle str p r (some s)).get "style".toList = some s) ∧
    (createRect str p w h none).get "style".toList = none ∧ (createCircle str p r none).get "style".toList = none ∧
    (createRect str p w h (some [])).get "style".toList = none ∧ (createCircle str p r (some [])).get "style".toList = none := by
  refine ⟨?_, rfl, rfl, rfl, rfl⟩
  intro hs
  have e : styleAttr (some s) = [("style".toList, s)] := if_neg hs
  unfold createRect createCircle
  rw [e]
  exact ⟨rfl, rfl⟩

/-- Non-vacuity: a way of writing numbers, with whole numbers read back as they were. -/
example : ∃ (str : ℝ → Str) (num : ℝ → Numeral), (∀ v, str v = (num v).text ∧ (num v).Valid) ∧ ∀ k : ℤ, (num k).value exactQ = k :=
  ⟨fun v => fmt 6 ((⌊v⌋ : ℤ) : ℚ), fun v => numQ 6 ((⌊v⌋ : ℤ) : ℚ), fun v => ⟨numQ_text 6 _, numQ_valid 6 _⟩, fun k => by rw [numQ_value, Int.floor_intCast, roundQ_int]⟩

theorem textLines_spec (x h : ℝ) (l : List Str) : ∀ y, ∃ s, textLines x (some h) y l = .ok s ∧ s.length = l.length ∧
    ∀ i : Nat, ∀ t, s[i]? = some t → l[i]? = some t.text ∧ t.x = x ∧ t.y = y + i * h := by
  induction l with
  | nil => exact fun y => ⟨[], rfl, rfl, fun i t h => by simp at h⟩
  | cons a r ih =>
    intro y
    obtain ⟨s, e, hl, hs⟩ := ih (y + h)
    refine ⟨⟨x, y, a⟩ :: s, ?_, by simp [hl], ?_⟩
    · show (textLines x (some h) (y +. h) r).map _ = _
      rw [real_add, e]
      rfl
    · intro i t ht
      cases i with
      | zero =>
        simp only [List.getElem?_cons_zero, Option.some.injEq] at ht
        subst ht
        exact ⟨rfl, rfl, by simp⟩
      | succ i =>
        rw [List.getElem?_cons_succ] at ht
        obtain ⟨h1, h2, h3⟩ := hs i t ht
        refine ⟨by simpa using h1, h2, ?_⟩
        rw [h3]
        push_cast
        ring

/-- **C176.** A text with a style is written at its place; a list of lines is written line below line, each the line height below the one before, in order. -/
theorem C176_text (x y h : ℝ) (style s : Str) (l : List Str) (lh : Option ℝ) :
    (∃ e, createText (.one s) x y lh (some style) = .ok e ∧ e.x = x ∧ e.y = y ∧ e.style = style ∧ e.spans = [⟨x, y, s⟩]) ∧
    ∃ e, createText (.lines l) x y (some h) (some style) = .ok e ∧ e.x = x ∧ e.y = y ∧ e.style = style ∧ e.spans.length = l.length ∧
      ∀ i : Nat, ∀ t, e.spans[i]? = some t → l[i]? = some t.text ∧ t.x = x ∧ t.y = y + i * h := by
  refine ⟨⟨⟨x, y, style, [⟨x, y, s⟩]⟩, rfl, rfl, rfl, rfl, rfl⟩, ?_⟩
  obtain ⟨sp, e, hl, hs⟩ := textLines_spec x h l y
  refine ⟨⟨x, y, style, sp⟩, ?_, rfl, rfl, rfl, hl, hs⟩
  show (textLines x (some h) y l).map _ = _
  rw [e]
  rfl

/-- Three lines of text. -/
example : (createText (.lines ["a".toList, "b".toList, "c".toList]) (1 : ℚ) 2 (some 10) (some "s".toList)).toOption.map (fun e => e.spans.map fun t => (t.x, t.y, String.ofList t.text)) =
    some [(1, 2, "a"), (1, 12, "b"), (1, 22, "c")] := by decide +kernel

/-- **C176, refuted.** Not every call writes a text: without a style, and with a list of lines that is not empty but no line height, which both are defaults, `TypeError` is raised. -/
theorem C176_refuted (t : TextArg) (x y : ℝ) (lh : Option ℝ) (style a : Str) (l : List Str) :
    createText t x y lh none = .error .typeError ∧ createText (.lines (a :: l)) x y none (some style) = .error .typeError := ⟨rfl, rfl⟩

/-! ## C177: path data of single segments -/

theorem spells_ptText (n : Nat) (p : P ℚ) : Spells (ptText n p) ((numP n p).map Lex.num) := by
  unfold ptText
  rw [numQ_text, numQ_text]
  exact spells_then (spells_number _ (numQ_valid n p.x)) space_sep (spells_number _ (numQ_valid n p.y))

/-- **C177.** The path data of a line is read back as a move to its start and a line to its end, with six digits after the point. -/
theorem C177_line (l : Line ℚ) :
    parsePath exactQ (lineSvgPath l) = (rounded (roundQ 6) [('M', [l.p1.x, l.p1.y]), ('L', [l.p2.x, l.p2.y])], none) := by
  have := read_written 6 l.p1 false [.line l] (s := lineSvgPath l) (by
    have h := spells_then (spells_cmd (c := 'M') (by decide +kernel) (spells_ptText 6 l.p1)) space_sep (spells_cmd (c := 'L') (by decide +kernel) (spells_ptText 6 l.p2))
    simpa [lineSvgPath, lexOf, wcmdOf] using h)
  simpa [backTo, cmdOf] using this

/-- **C177.** The path data of a curve is read back as a move to its start and the curve with its two control points and its end. -/
theorem C177_curve (b : Bez ℚ) :
    parsePath exactQ (bezSvgPath b) = (rounded (roundQ 6) [('M', [b.p1.x, b.p1.y]), ('C', [b.c1.x, b.c1.y, b.c2.x, b.c2.y, b.p2.x, b.p2.y])], none) := by
  have := read_written 6 b.p1 false [.bez b] (s := bezSvgPath b) (by
    have h := spells_then (spells_cmd (c := 'M') (by decide +kernel) (spells_ptText 6 b.p1)) space_sep (spells_cmd (c := 'C') (by decide +kernel)
      (spells_then (spells_ptText 6 b.c1) space_sep (spells_then (spells_ptText 6 b.c2) space_sep (spells_ptText 6 b.p2))))
    simpa [bezSvgPath, lexOf, wcmdOf] using h)
  simpa [backTo, cmdOf] using this

/-- The numeral `0.0`. -/
def zeroPoint : Numeral := ⟨none, ['0'], some ['0'], none⟩

theorem zeroPoint_ok : "0.0".toList = zeroPoint.text ∧ zeroPoint.Valid ∧ zeroPoint.value exactQ = 0 := by
  refine ⟨by decide +kernel, ⟨by decide +kernel, ?_, by decide +kernel, ?_⟩, by decide +kernel⟩
  · intro ds h
    cases h
    decide +kernel
  · intro u s ds h
    cases h

/-- **C177.** The path data of an arc is read back as a move to its start and an arc to its end: its radius twice, no rotation, the small one of the two arcs, and the direction of the arc. -/
theorem C177_arc (a : Arc ℚ) :
    parsePath exactQ (arcSvgPath a) = (rounded (roundQ 6) [('M', [a.p1.x, a.p1.y]),
      ('A', [a.radius, a.radius, 0, 0, if a.angle < 0 then 0 else 1, a.p2.x, a.p2.y])], none) := by
  have hz : (zero : ℚ) = 0 := by show ((0 : ℤ) : ℚ) = 0; simp
  have hlt : (a.angle <. (zero : ℚ)) = decide (a.angle < 0) := by rw [hz]; rfl
  set k : Nat := if a.angle < 0 then 0 else 1 with hk
  set wa : Char × List Numeral := ('A', [numQ 6 a.radius, numQ 6 a.radius, zeroPoint, numFlag 0, numFlag k] ++ numP 6 a.p2) with hwa
  have hA : WrittenCmd wa := by
    refine ⟨rfl, ?_, ?_⟩
    · intro m hm
      simp only [hwa, List.mem_append, List.mem_cons, List.not_mem_nil, or_false] at hm
      rcases hm with (rfl | rfl | rfl | rfl | rfl) | h
      · exact numQ_valid _ _
      · exact numQ_valid _ _
      · exact zeroPoint_ok.2.1
      · exact (numFlag_ok _).2.1
      · exact (numFlag_ok _).2.1
      · exact numP_valid 6 _ m h
    · intro _ i m hm hi
      rcases hi with rfl | rfl
      · have : numFlag 0 = m := Option.some.inj hm
        rw [← this]; exact (numFlag_ok _).2.2.1
      · have : numFlag _ = m := Option.some.inj hm
        rw [← this]; exact (numFlag_ok _).2.2.1
  have hsp : Spells (arcSvgPath a) ([('M', numP 6 a.p1), wa].flatMap lexOf) := by
    have e0 : "0".toList = (numFlag 0).text := by decide +kernel
    have hs : arcSvgPath a = 'M' :: ' ' :: (ptText 6 a.p1 ++ ' ' :: 'A' :: ' ' :: (ptText 6 ⟨a.radius, a.radius⟩ ++ ' ' :: (zeroPoint.text ++ ' ' :: ((numFlag 0).text ++
        ' ' :: ((numFlag k).text ++ ' ' :: ptText 6 a.p2))))) := by
      unfold arcSvgPath
      rw [hlt, ← zeroPoint_ok.1, ← e0, ← (numFlag_ok k).1, hk]
      simp only [decide_eq_true_eq]
    rw [hs]
    have h4 := spells_then (spells_number _ (numFlag_ok k).2.1) space_sep (spells_ptText 6 a.p2)
    have h3 := spells_then (spells_number _ (numFlag_ok 0).2.1) space_sep h4
    have h2 := spells_then (spells_number _ zeroPoint_ok.2.1) space_sep h3
    have h1 := spells_then (spells_ptText 6 ⟨a.radius, a.radius⟩) space_sep h2
    have h0 := spells_then (spells_cmd (c := 'M') (by decide +kernel) (spells_ptText 6 a.p1)) space_sep (spells_cmd (c := 'A') (by decide +kernel) h1)
    simpa [lexOf, numP, hwa] using h0
  rw [C72_round_trip exactQ _ (by
    intro x hx
    simp only [List.mem_cons, List.not_mem_nil, or_false] at hx
    rcases hx with rfl | rfl
    · exact move_written 6 a.p1
    · exact hA) (by intro x hx; simp only [List.head?_cons, Option.some.injEq] at hx; rw [← hx]) hsp]
  have h0 := (numFlag_ok 0).2.2.2
  have h1 := (numFlag_ok k).2.2.2
  push_cast at h0
  by_cases h : a.angle < 0
  · have hk' : k = 0 := by rw [hk, if_pos h]
    rw [hk'] at h1
    push_cast at h1
    simp [rounded, hwa, argValues, numP, numQ_value, h0, h1, roundQ_zero, roundQ_one, zeroPoint_ok.2.2, h, hk']
  · have hk' : k = 1 := by rw [hk, if_neg h]
    rw [hk'] at h1
    push_cast at h1
    simp [rounded, hwa, argValues, numP, numQ_value, h0, h1, roundQ_zero, roundQ_one, zeroPoint_ok.2.2, h, hk']

/-- The texts of a line, an arc and a curve. -/
example : String.ofList (lineSvgPath (⟨⟨0, 1⟩, ⟨1 / 3, -2⟩⟩ : Line ℚ)) = "M 0.000000 1.000000 L 0.333333 -2.000000" ∧
    String.ofList (arcSvgPath (⟨⟨1, 0⟩, ⟨0, 1⟩, 1, 2, ⟨0, 0⟩⟩ : Arc ℚ)) = "M 1.000000 0.000000 A 1.000000 1.000000 0.0 0 1 0.000000 1.000000" ∧
    String.ofList (bezSvgPath (⟨⟨0, 0⟩, ⟨1, 0⟩, ⟨2, 1⟩, ⟨3, 1⟩⟩ : Bez ℚ)) = "M 0.000000 0.000000 C 1.000000 0.000000 2.000000 1.000000 3.000000 1.000000" := by decide +kernel

/-- **C177.** The command that is written means the arc, if this is at most half a turn: among all arcs between its ends of its radius, on the small side and in its direction, there is
only this one. -/
theorem C177_arc_partial (a : Arc ℝ) (h : Arc.Sound a) (hr : a.radius ≠ 0) (h0 : a.angle ≠ 0) (h1 : |a.angle| ≤ Real.pi) (c : P ℝ) (δ : ℝ) :
    Cam.SvgArc a.radius (!decide (a.angle < 0)) a.p1 a.p2 c δ ↔ c = a.center ∧ δ = a.angle := by
  have := C130_arc_partial a h hr h0 h1 c δ
  rw [sweepFlag_real] at this
  by_cases hn : a.angle < 0 <;> simpa [hn] using this

/-- **C177, refuted.** The path data of an arc of more than half a turn (but less than a whole one) does not mean the arc: the flag says that it is the small one. -/
theorem C177_refuted_long (a : Arc ℝ) (h : Arc.Sound a) (hr : a.radius ≠ 0) (h1 : Real.pi < |a.angle|) (h2 : |a.angle| < 2 * Real.pi) (δ : ℝ) :
    ¬ Cam.SvgArc a.radius (!decide (a.angle < 0)) a.p1 a.p2 a.center δ := by
  have := C130_refuted_long a h hr h1 h2 δ
  rw [sweepFlag_real] at this
  by_cases hn : a.angle < 0 <;> simpa [hn] using this

/-- Three quarters of a turn. -/
example : ∃ a : Arc ℝ, Arc.Sound a ∧ a.radius ≠ 0 ∧ Real.pi < |a.angle| ∧ |a.angle| < 2 * Real.pi := by
  refine ⟨⟨⟨1, 0⟩, ⟨0, -1⟩, 1, 3 * Real.pi / 2, ⟨0, 0⟩⟩, ⟨by norm_num [sqDist], ?_⟩, one_ne_zero, ?_, ?_⟩
  · have e : (3 * Real.pi / 2 : ℝ) = Real.pi + Real.pi / 2 := by ring
    unfold rotAbout
    simp only [e, Real.cos_add, Real.sin_add, Real.cos_pi, Real.sin_pi, Real.cos_pi_div_two, Real.sin_pi_div_two]
    norm_num
  · have := Real.pi_pos
    show Real.pi < |3 * Real.pi / 2|
    rw [abs_of_pos (by positivity)]
    linarith
  · have := Real.pi_pos
    show |3 * Real.pi / 2| < 2 * Real.pi
    rw [abs_of_pos (by positivity)]
    linarith

end Verif.Svg
