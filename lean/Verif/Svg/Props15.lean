import Verif.Svg.Props14

/-!
# C113: what is cut: layers and selections
-/

set_option linter.unusedSectionVars false

namespace Verif.Svg
open Verif PyFloat PyTrig Geom Css

/-! ## Specification -/

/-- Specification: the tags of the shapes that can be cut. -/
def shapeTags : List String := ["path", "rect", "line", "circle", "ellipse", "polyline", "polygon"]

/-- Specification: a shape element. -/
def ShapeElem (n : XNode) : Prop := ∃ ns tag attr kids, n = .elem ns tag attr kids ∧ ∃ t ∈ shapeTags, tag = t.toList

/-- Specification: a layer (a group with this label). -/
def IsLayer (n : XNode) (label : Str) : Prop := n.isGroup = true ∧ n.get "inkscape:label".toList = some label

/-- Specification: a layer of tcnc's own: its name begins with `tcnc` and a space. -/
def OwnLayer (n : XNode) : Prop := ∃ rest, IsLayer n ("tcnc ".toList ++ rest)

theorem skips_iff (n : XNode) : ({ skip := [tcncLayer] } : Flat).skips n = true ↔ OwnLayer n := by
  unfold Flat.skips XNode.layer OwnLayer IsLayer
  by_cases hg : n.isGroup = true
  · rw [if_pos hg]
    cases hl : n.get "inkscape:label".toList with
    | none => simp
    | some l =>
      dsimp only
      by_cases he : l.isEmpty = true
      · have : l = [] := by simpa using he
        subst this
        simp
      · rw [if_neg he]
        simp only [List.any_cons, List.any_nil, Bool.or_false, tcncLayer, List.isPrefixOf_iff_prefix]
        constructor
        · rintro ⟨r, hr⟩; exact ⟨r, hg, by rw [← hr]⟩
        · rintro ⟨r, -, hr⟩; injection hr with hr; exact ⟨r, hr.symm⟩
  · rw [if_neg hg]
    simp [hg]

theorem isShape_iff (n : XNode) : IsShape { skip := [tcncLayer] } n ↔ ShapeElem n := by
  unfold IsShape ShapeElem
  constructor
  · rintro ⟨-, -, ns, tag, attr, kids, rfl, h⟩
    refine ⟨ns, tag, attr, kids, rfl, ?_⟩
    simp only [List.mem_cons, List.not_mem_nil, or_false] at h
    simp only [shapeTags, List.mem_cons, List.not_mem_nil, or_false, exists_eq_or_imp, exists_eq_left]
    exact h
  · rintro ⟨ns, tag, attr, kids, rfl, t, ht, rfl⟩
    simp only [shapeTags, List.mem_cons, List.not_mem_nil, or_false] at ht
    rcases ht with rfl | rfl | rfl | rfl | rfl | rfl | rfl <;>
    exact ⟨by cases ns <;> rfl, by cases ns <;> rfl, ns, _, attr, kids, rfl, by simp⟩

theorem open_iff (n : XNode) : Open { skip := [tcncLayer] } n ↔ n.isGroup = true ∧ ¬ OwnLayer n := by
  unfold Open
  rw [← skips_iff]
  simp

/-- Specification: `b` is cut when the elements below the list of ancestors `up` are to be cut: a shape that is inside groups only, none
of them a layer of tcnc's own, with nothing switched off on the way to the root of the document. -/
def Cut (up : List XNode) (b : At) : Prop :=
  ShapeElem b.node ∧ (∃ mids, b.up = mids ++ up ∧ ∀ m ∈ mids, m.isGroup = true ∧ ¬ OwnLayer m) ∧ ∀ m ∈ b.chain, ¬ Off m.toNode

theorem shown_iff (R b : At) : Shown { skip := [tcncLayer] } R b ↔ Cut R.chain b := by
  unfold Shown Cut
  rw [isShape_iff]
  simp only [open_iff]

open Classical in
/-- **C113**, nothing selected, in documents without comments and references: exactly the shapes that are not hidden, inside groups only and in
no layer of tcnc's own are cut, in document order. -/
theorem C113_document_partial (env : NumEnv ℝ) (doc : XNode) (limit : Nat) (hdoc : Tame env doc)
    (hwf : ∀ b ∈ placesList [doc] doc.kids, Tame env b.node ∧ b.up.length ≤ limit) :
    ∃ l, tcncShapes env doc limit [] = .ok l ∧ l.map (·.1) = (placesList [doc] doc.kids).filter (fun b => decide (Cut [doc] b)) ∧
      ∀ x ∈ l, elementTransform env (x.1.node.get "transform".toList) (x.1.up.map fun y : XNode => y.get "transform".toList) = .ok x.2 := by
  obtain ⟨l, h1, h2, h3⟩ := C111_shapes_partial env doc { skip := [tcncLayer] } rfl limit ⟨doc, []⟩
    (by intro m hm; rw [List.mem_singleton.1 hm]; exact ⟨hdoc.2.2.1, hdoc.2.2.2⟩)
    (by intro b hb; exact ⟨(hwf b hb).1, by have := (hwf b hb).2; simpa using this⟩)
  refine ⟨l, h1, ?_, h3⟩
  rw [h2]
  refine List.filter_congr fun b _ => ?_
  rw [decide_eq_decide, shown_iff]
  rfl

theorem byId_places {doc : XNode} {id : Str} {a : At} (h : byId doc id = some a) : a ∈ placesList [doc] doc.kids :=
  List.mem_of_find?_eq_some h

/-- The descendants of a descendant are descendants. -/
theorem places_sub (n : XNode) : ∀ up, ∀ a ∈ n.places up, ∀ b ∈ a.node.places a.up, b ∈ n.places up := by
  refine XNode.rec (motive_1 := fun n => ∀ up, ∀ a ∈ n.places up, ∀ b ∈ a.node.places a.up, b ∈ n.places up)
    (motive_2 := fun ks => ∀ up, ∀ a ∈ placesList up ks, ∀ b ∈ a.node.places a.up, b ∈ placesList up ks) ?_ ?_ ?_ ?_ n
  · intro ns t at' ks ih up a ha b hb
    rw [XNode.places] at ha
    rcases List.mem_cons.1 ha with rfl | ha
    · exact hb
    · rw [XNode.places]
      exact List.mem_cons_of_mem _ (ih _ a ha b hb)
  · intro up a ha b hb
    rw [XNode.places, List.mem_singleton] at ha
    subst ha
    exact hb
  · intro up a ha
    simp [placesList] at ha
  · intro k ks ih1 ih2 up a ha b hb
    rw [placesList] at ha ⊢
    rcases List.mem_append.1 ha with ha | ha
    · exact List.mem_append_left _ (ih1 up a ha b hb)
    · exact List.mem_append_right _ (ih2 up a ha b hb)

theorem places_sub_list {up ks : List XNode} {a b : At} (ha : a ∈ placesList up ks) (hb : b ∈ a.node.places a.up) : b ∈ placesList up ks := by
  rw [placesList_eq, List.mem_flatMap] at ha ⊢
  obtain ⟨k, hk, ha⟩ := ha
  exact ⟨k, hk, places_sub k up a ha b hb⟩

open Classical in
/-- An element of a list of elements. -/
theorem flatNode_listed (env : NumEnv ℝ) (doc : XNode) (limit : Nat) (a : At)
    (hup : ∀ m ∈ a.up, GoodStyle m.toNode ∧ ∃ t, parseTransform env (m.get "transform".toList) = .ok t)
    (hwf : ∀ b ∈ a.node.places a.up, Tame env b.node ∧ b.up.length < a.up.length + limit) :
    ∃ l, flatNode env doc { skip := [tcncLayer] } limit none true a = .ok l ∧
      l.map (·.1) = (a.node.places a.up).filter (fun b => decide (Cut a.up b)) ∧
      ∀ x ∈ l, elementTransform env (x.1.node.get "transform".toList) (x.1.up.map fun y : XNode => y.get "transform".toList) = .ok x.2 := by
  obtain ⟨T, hT⟩ := parentTransform_ok env a.up (fun m hm => (hup m hm).2)
  have hself := (hwf a (by rw [places_eq]; simp)).1
  have hgood : ∀ m ∈ a.node.toNode :: a.up.map XNode.toNode, GoodStyle m := by
    intro m hm
    rcases List.mem_cons.1 hm with rfl | hm
    · exact hself.2.2.1
    · obtain ⟨x, hx, rfl⟩ := List.mem_map.1 hm; exact (hup x hx).1
  cases limit with
  | zero => have := (hwf a (by rw [places_eq]; simp)).2; omega
  | succ n =>
    obtain ⟨v, hv, hvo⟩ := C76_visible a.node.toNode (a.up.map XNode.toNode) hgood
    have hv' : nodeVisible true false (a.chain.map XNode.toNode) = .ok v := hv
    cases v with
    | false =>
      refine ⟨[], flatNode_off env doc _ n none true a hv', ?_, by simp⟩
      obtain ⟨m, hm, hoff⟩ := hvo.1 rfl
      symm
      rw [List.map_nil, List.filter_eq_nil_iff]
      intro b hb
      rw [decide_eq_true_eq]
      rintro ⟨-, -, h2⟩
      obtain ⟨mids, hmid⟩ := places_up a.node a.up b hb
      have hm' : ∃ x ∈ a.chain, x.toNode = m := by
        rcases List.mem_cons.1 hm with rfl | hm
        · exact ⟨a.node, by simp [At.chain], rfl⟩
        · obtain ⟨x, hx, rfl⟩ := List.mem_map.1 hm; exact ⟨x, by simp [At.chain, hx], rfl⟩
      obtain ⟨x, hx, rfl⟩ := hm'
      exact h2 x (by rw [hmid]; exact List.mem_append_right _ hx) hoff
    | true =>
      have hon : ∀ m ∈ a.chain, ¬ Off m.toNode := by
        intro m hm h
        have hm' : m.toNode ∈ a.node.toNode :: a.up.map XNode.toNode := List.mem_map.2 ⟨m, hm, rfl⟩
        exact absurd (hvo.2 ⟨_, hm', h⟩) (by simp)
      obtain ⟨w, hw, hwo⟩ := visible_below hgood (by
        intro m hm; obtain ⟨x, hx, rfl⟩ := List.mem_map.1 hm; exact hon x (by simp [At.chain, hx]))
      have hw1 : w = true := by
        cases w with
        | true => rfl
        | false => exact absurd (hwo.1 rfl) (hon a.node (by simp [At.chain]))
      subst hw1
      have hw' : nodeVisible false false (a.chain.map XNode.toNode) = .ok true := hw
      have heq : flatNode env doc { skip := [tcncLayer] } (n + 1) none true a = flatNode env doc { skip := [tcncLayer] } (n + 1) none false a := by
        rw [flatNode, flatNode, hv', hw']
      rw [heq]
      obtain ⟨l, h1, h2, h3⟩ := flatNode_tame env doc { skip := [tcncLayer] } rfl (n + 1) a none T hT (.inr rfl)
        (fun m hm => ⟨(hup m hm).1, hon m (by simp [At.chain, hm])⟩) hwf
      refine ⟨l, h1, ?_, h3⟩
      rw [h2]
      refine List.filter_congr fun b hb => ?_
      rw [decide_eq_decide]
      unfold Below Cut
      rw [isShape_iff]
      simp only [open_iff]
      constructor
      · rintro ⟨g1, mids, g2, g3, g4⟩
        refine ⟨g1, ⟨mids, g2, g3⟩, ?_⟩
        intro m hm
        unfold At.chain at hm
        rw [g2] at hm
        rcases List.mem_cons.1 hm with rfl | hm
        · exact g4 _ (by simp)
        · rcases List.mem_append.1 hm with hm | hm
          · exact g4 m (by simp [hm])
          · exact hon m (by simp [At.chain, hm])
      · rintro ⟨g1, ⟨mids, g2, g3⟩, g4⟩
        refine ⟨g1, mids, g2, g3, ?_⟩
        intro m hm
        refine g4 m ?_
        unfold At.chain
        rw [g2]
        rcases List.mem_cons.1 hm with rfl | hm
        · simp
        · simp [hm]

open Classical in
/-- **C113**, with a selection, in documents without comments and references: the selected elements one after the other, in the order of the selection, and of
each what it shows; ids that do not exist are ignored.  Only layers inside a selected element are skipped, not those around it
(`C113_refuted_selected_preview`), and what is selected twice, by itself and within a group, is cut twice (`C113_refuted_twice`). -/
theorem C113_selection_partial (env : NumEnv ℝ) (doc : XNode) (limit : Nat) (ids : List Str) (hne : ids ≠ []) (hdoc : Tame env doc)
    (hwf : ∀ b ∈ placesList [doc] doc.kids, Tame env b.node ∧ b.up.length ≤ limit) :
    ∃ l, tcncShapes env doc limit ids = .ok l ∧
      l.map (·.1) = (ids.filterMap (byId doc)).flatMap (fun a => (a.node.places a.up).filter (fun b => decide (Cut a.up b))) ∧
      ∀ x ∈ l, elementTransform env (x.1.node.get "transform".toList) (x.1.up.map fun y : XNode => y.get "transform".toList) = .ok x.2 := by
  have hall : ∀ b ∈ doc.places [], Tame env b.node := by
    intro b hb
    have := places_eq ⟨doc, []⟩
    dsimp only at this
    rw [this] at hb
    rcases List.mem_cons.1 hb with rfl | hb
    · exact hdoc
    · exact (hwf b hb).1
  have hk : ∀ a ∈ ids.filterMap (byId doc), ∃ l, flatNode env doc { skip := [tcncLayer] } limit none true a = .ok l ∧
      l.map (·.1) = (a.node.places a.up).filter (fun b => decide (Cut a.up b)) ∧
      ∀ x ∈ l, elementTransform env (x.1.node.get "transform".toList) (x.1.up.map fun y : XNode => y.get "transform".toList) = .ok x.2 := by
    intro a ha
    obtain ⟨id, -, hid⟩ := List.mem_filterMap.1 ha
    have hap := byId_place hid
    refine flatNode_listed env doc limit a ?_ ?_
    · intro m hm
      rcases (places_mem doc [] a hap).1 m (by simp [At.chain, hm]) with h | ⟨b, hb, rfl⟩
      · cases h
      · exact ⟨(hall b hb).2.2.1, (hall b hb).2.2.2⟩
    · intro b hb
      have hb2 := places_sub_list (byId_places hid) hb
      refine ⟨(hwf b hb2).1, ?_⟩
      have h1 := (hwf b hb2).2
      obtain ⟨mids, h2⟩ := placesList_up (byId_places hid)
      rw [h2, List.length_append, List.length_singleton]
      omega
  obtain ⟨g, hg1, hg2⟩ := concatM_exists (l := ids.filterMap (byId doc)) (f := flatNode env doc { skip := [tcncLayer] } limit none true)
    (fun a ha => let ⟨l, h, _⟩ := hk a ha; ⟨l, h⟩)
  have hg3 : ∀ a ∈ ids.filterMap (byId doc), (g a).map (·.1) = (a.node.places a.up).filter (fun b => decide (Cut a.up b)) ∧
      ∀ x ∈ g a, elementTransform env (x.1.node.get "transform".toList) (x.1.up.map fun y : XNode => y.get "transform".toList) = .ok x.2 := by
    intro a ha
    obtain ⟨l, h1, h2⟩ := hk a ha
    rw [hg1 a ha] at h1
    injection h1 with h1
    rw [h1]; exact h2
  refine ⟨(ids.filterMap (byId doc)).flatMap g, ?_, ?_, ?_⟩
  · unfold tcncShapes
    rw [if_neg (by simpa using hne)]
    exact hg2
  · rw [List.map_flatMap]
    exact List.flatMap_congr fun a ha => (hg3 a ha).1
  · intro x hx
    obtain ⟨a, ha, hx⟩ := List.mem_flatMap.1 hx
    exact (hg3 a ha).2 x hx

/-! ## Tcnc's own layers -/

/-- **C113**, the layers tcnc makes: those of the preview and of the debug output are layers of its own and are left out when the document is
cut again; the layer of the subpaths (its default name) is not. -/
theorem C113_own_layers (n : XNode) (hg : n.isGroup = true) :
    (∀ name ∈ ["tcnc preview: tool path", "tcnc preview: tangent tool", "tcnc debug"],
      n.get "inkscape:label".toList = some name.toList → OwnLayer n) ∧
    (n.get "inkscape:label".toList = some "subpaths (tcnc)".toList → ¬ OwnLayer n) := by
  refine ⟨?_, ?_⟩
  · intro name hname h
    simp only [List.mem_cons, List.not_mem_nil, or_false] at hname
    rcases hname with rfl | rfl | rfl
    · exact ⟨"preview: tool path".toList, hg, h⟩
    · exact ⟨"preview: tangent tool".toList, hg, h⟩
    · exact ⟨"debug".toList, hg, h⟩
  · rintro h ⟨r, -, hr⟩
    rw [h] at hr
    injection hr with hr
    exact absurd (List.cons.inj hr).1 (by decide)

/-- A drawing with a preview in it, and a subpath layer. -/
def docP : XNode := el "svg" [] [
  el "g" [at' "id" "l1", at' "inkscape:label" "Layer 1"] [el "path" [at' "id" "p1"] []],
  el "g" [at' "id" "l2", at' "inkscape:label" "tcnc preview: tool path"] [el "path" [at' "id" "p2"] []],
  el "g" [at' "id" "l3", at' "inkscape:label" "subpaths (tcnc)"] [el "path" [at' "id" "p3"] []],
  el "g" [at' "id" "l4", at' "inkscape:label" "tcnc test piece"] [el "path" [at' "id" "p4"] []]]

/-- The ids of what is cut. -/
def cutIds (ids : List String) : Option (List (Option Str)) :=
  (tcncShapes exactQ docP 3 (ids.map String.toList)).toOption.map fun l => l.map fun s => s.1.node.get "id".toList

/-- **C113**, refuted as "the preview is never cut": a selected path of the preview is cut, for instance if everything is selected. -/
theorem C113_refuted_selected_preview : cutIds ["p1", "p2"] = some [some "p1".toList, some "p2".toList] := by decide +kernel

/-- **C113**, refuted as "what tcnc draws is never cut": the subpaths drawn by one run are cut by the next. -/
theorem C113_refuted_subpaths : cutIds [] = some [some "p1".toList, some "p3".toList] := by decide +kernel

/-- **C113**, refuted as "the drawing is cut": a layer of the user whose name happens to begin with `tcnc` and a space is left out, even if it is selected. -/
theorem C113_refuted_user_layer : cutIds ["l4"] = some [] ∧ cutIds [] = some [some "p1".toList, some "p3".toList] := by decide +kernel

/-- **C113**, refuted as "each shape is cut once": a group selected along with one of its members. -/
theorem C113_refuted_twice : cutIds ["l1", "p1"] = some [some "p1".toList, some "p1".toList] := by decide +kernel

/-- **C113**, refuted as "nothing selected means everything": selected elements that no longer exist mean that nothing is cut. -/
theorem C113_refuted_missing : cutIds ["gone"] = some [] := by decide +kernel

/-- Non-vacuity of `C113_document_partial` and `C113_selection_partial`. -/
theorem docP_tame (env : NumEnv ℝ) : Tame env docP ∧ ∀ b ∈ placesList [docP] docP.kids, Tame env b.node ∧ b.up.length ≤ 2 := by
  refine ⟨⟨by simp [docP, el], rfl, ⟨_, rfl⟩, ⟨_, rfl⟩⟩, ?_⟩
  intro b hb
  simp only [docP, el, XNode.kids, placesList, XNode.places, List.mem_append, List.mem_cons, List.not_mem_nil, or_false] at hb
  rcases hb with (rfl | rfl) | (rfl | rfl) | (rfl | rfl) | (rfl | rfl) <;>
  exact ⟨⟨(by simp), rfl, ⟨_, rfl⟩, ⟨_, rfl⟩⟩, by simp⟩

example (env : NumEnv ℝ) : ∃ l, tcncShapes env docP 2 ["l1".toList] = .ok l := by
  obtain ⟨l, h, -⟩ := C113_selection_partial env docP 2 ["l1".toList] (by simp) (docP_tame env).1 (docP_tame env).2
  exact ⟨l, h⟩

end Verif.Svg
