import Verif.Svg.Layer
import Verif.Svg.Props16
import Verif.Geom.Props1

/-!
# C125: visible layers, their elements and the area within the margins
-/

set_option linter.unusedSectionVars false

namespace Verif.Svg
open Verif PyFloat PyTrig Geom Css

/-! ## Specification -/

/-- Specification: a layer as the user sees it: a group with a label that is not empty. -/
def ALayer (n : XNode) : Prop := ∃ c rest, IsLayer n (c :: rest)

/-- Specification: nothing switches the element off: neither itself nor anything it is in. -/
def On (a : At) : Prop := ∀ m ∈ a.chain, ¬ Off m.toNode

/-- Specification: the styles of the element and of everything it is in can be parsed. -/
def GoodStyles (a : At) : Prop := ∀ m ∈ a.chain, GoodStyle m.toNode

/-- Specification: the margins in the order of the CSS property: top, right, bottom, left; those that are missing are as the opposite ones. -/
def cssMargins (t : ℝ) : List ℝ → ℝ × ℝ × ℝ × ℝ
  | [] => (t, t, t, t)
  | [r] => (t, r, t, r)
  | [r, b] => (t, r, b, r)
  | r :: b :: l :: _ => (t, r, b, l)

/-! ## Layers -/

theorem layer_iff (n : XNode) : n.layer.isSome = true ↔ ALayer n := by
  unfold XNode.layer ALayer IsLayer
  by_cases hg : n.isGroup = true
  · rw [if_pos hg]
    cases h : n.get "inkscape:label".toList with
    | none => simp
    | some l => cases l <;> simp [hg]
  · rw [if_neg hg]
    simp [hg]

theorem chain_visible (a : At) (hg : GoodStyles a) : ∃ v, nodeVisible true false (a.chain.map XNode.toNode) = .ok v ∧ (v = true ↔ On a) := by
  obtain ⟨v, hv, hvo⟩ := C76_visible a.node.toNode (a.up.map XNode.toNode) (by
    intro m hm
    have : m ∈ a.chain.map XNode.toNode := hm
    obtain ⟨x, hx, rfl⟩ := List.mem_map.1 this
    exact hg x hx)
  refine ⟨v, hv, ?_⟩
  have e : a.node.toNode :: a.up.map XNode.toNode = a.chain.map XNode.toNode := rfl
  rw [e] at hvo
  have : (∃ m ∈ a.chain.map XNode.toNode, Off m) ↔ ¬ On a := by
    unfold On
    push Not
    constructor
    · rintro ⟨m, hm, h⟩
      obtain ⟨x, hx, rfl⟩ := List.mem_map.1 hm
      exact ⟨x, hx, h⟩
    · rintro ⟨x, hx, h⟩
      exact ⟨_, List.mem_map.2 ⟨x, hx, rfl⟩, h⟩
  rw [this] at hvo
  cases v with
  | false => simpa using hvo.1 rfl
  | true => simpa using fun h => hvo.2 h

open Classical in
/-- **C125**, layers: `get_visible_layers` returns exactly the layers among the elements below the root that are not switched off, in order. -/
theorem C125_layers (l : List At) (hg : ∀ a ∈ l, ALayer a.node → GoodStyles a) :
    visibleLayers l = .ok (l.filter fun a => ALayer a.node ∧ On a) := by
  induction l with
  | nil => rfl
  | cons a l ih =>
    have ih := ih fun b hb => hg b (by simp [hb])
    rw [visibleLayers, ih]
    by_cases ha : ALayer a.node
    · obtain ⟨v, hv, hvo⟩ := chain_visible a (hg a (by simp) ha)
      rw [if_pos ((layer_iff _).2 ha), hv]
      by_cases hon : On a
      · rw [hvo.2 hon]
        simp [List.filter, ha, hon, bind, Except.bind, pure, Except.pure]
      · have : v = false := by cases v with
          | false => rfl
          | true => exact absurd (hvo.1 rfl) hon
        subst this
        simp [List.filter, ha, hon, bind, Except.bind, pure, Except.pure]
    · have : a.node.layer.isSome = false := by
        cases h : a.node.layer.isSome with
        | false => rfl
        | true => exact absurd ((layer_iff _).1 h) ha
      rw [this]
      simp [List.filter, ha, bind, Except.bind, pure, Except.pure]

open Classical in
theorem visibleKids_spec (l : List At) (hg : ∀ a ∈ l, GoodStyles a) (hup : ∀ a ∈ l, ∀ m ∈ a.up, ¬ Off m.toNode) :
    visibleKids l = .ok (l.filter fun a => On a) := by
  induction l with
  | nil => rfl
  | cons a l ih =>
    have ih := ih (fun b hb => hg b (by simp [hb])) (fun b hb => hup b (by simp [hb]))
    rw [visibleKids, ih]
    obtain ⟨v, hv, hvo⟩ := visible_below (n := a.node.toNode) (up := a.up.map XNode.toNode) (by
        intro m hm
        have : m ∈ a.chain.map XNode.toNode := hm
        obtain ⟨x, hx, rfl⟩ := List.mem_map.1 this
        exact hg a (by simp) x hx) (by
        intro m hm
        obtain ⟨x, hx, rfl⟩ := List.mem_map.1 hm
        exact hup a (by simp) x hx)
    have hv' : nodeVisible false false (a.chain.map XNode.toNode) = .ok v := hv
    rw [hv']
    have hon : On a ↔ ¬ Off a.node.toNode := by
      constructor
      · intro h; exact h _ (by simp [At.chain])
      · intro h m hm
        rcases List.mem_cons.1 hm with rfl | hm
        · exact h
        · exact hup a (by simp) m hm
    cases v with
    | false =>
      have : ¬ On a := fun h => (hon.1 h) (hvo.1 rfl)
      simp [List.filter, this, bind, Except.bind, pure, Except.pure]
    | true =>
      have : On a := hon.2 fun h => absurd (hvo.2 h) (by simp)
      simp [List.filter, this, bind, Except.bind, pure, Except.pure]

open Classical in
/-- **C125**, elements: `get_layer_elements` returns exactly the children of the layer that are not switched off, by themselves, the layer or
anything it is in, in order. -/
theorem C125_elements (a : At) (ha : GoodStyles a) (hk : ∀ b ∈ a.kids, GoodStyle b.node.toNode) :
    layerElements a = .ok (a.kids.filter fun b => On b) := by
  obtain ⟨v, hv, hvo⟩ := chain_visible a ha
  have hup : ∀ b ∈ a.kids, b.up = a.chain := by
    intro b hb
    obtain ⟨k, -, rfl⟩ := List.mem_map.1 hb
    rfl
  rw [layerElements, hv]
  cases v with
  | true =>
    have hon := hvo.1 rfl
    simp only [bind, Except.bind, if_true]
    refine visibleKids_spec _ ?_ ?_
    · intro b hb m hm
      rcases List.mem_cons.1 hm with rfl | hm
      · exact hk b hb
      · rw [hup b hb] at hm; exact ha m hm
    · intro b hb m hm
      rw [hup b hb] at hm
      exact hon m hm
  | false =>
    have hon : ¬ On a := fun h => absurd (hvo.2 h) (by simp)
    have : a.kids.filter (fun b => On b) = [] := by
      rw [List.filter_eq_nil_iff]
      intro b hb
      rw [decide_eq_true_eq]
      intro h
      refine hon fun m hm => h m ?_
      refine List.mem_cons_of_mem _ ?_
      rw [hup b hb]; exact hm
    rw [this]
    rfl

/-! ## Margins -/

/-- **C125**, margins: if the margins fit in the page, the rectangle is exactly what is at least the margins away from the sides of the page: they
are given as in CSS (top, right, bottom, left; those missing as the opposite ones), with `y` upwards. -/
theorem C125_margins (w h t : ℝ) (args : List ℝ) (T R B L : ℝ) (hm : cssMargins t args = (T, R, B, L)) (hx : L + R ≤ w) (hy : B + T ≤ h) (p : P ℝ) :
    (marginCliprect w h t args).Contains p ↔ L ≤ p.x - 0 ∧ R ≤ w - p.x ∧ B ≤ p.y - 0 ∧ T ≤ h - p.y := by
  have key : marginCliprect w h t args = Box.mk' ⟨L, B⟩ ⟨w - R, h - T⟩ := by
    rcases args with _ | ⟨r, _ | ⟨b, _ | ⟨l, rest⟩⟩⟩ <;> (simp only [cssMargins, Prod.mk.injEq] at hm; obtain ⟨rfl, rfl, rfl, rfl⟩ := hm; rfl)
  rw [key]
  unfold Box.Contains
  have e : Box.mk' (⟨L, B⟩ : P ℝ) ⟨w - R, h - T⟩ = ⟨⟨L, B⟩, ⟨w - R, h - T⟩⟩ := by
    simp only [Box.mk', Geom.pmin_real, Geom.pmax_real]
    rw [min_eq_left (by linarith), min_eq_left (by linarith), max_eq_right (by linarith), max_eq_right (by linarith)]
  rw [e]
  constructor
  · rintro ⟨h1, h2, h3, h4⟩
    exact ⟨by simpa using h1, by linarith, by simpa using h3, by linarith⟩
  · rintro ⟨h1, h2, h3, h4⟩
    exact ⟨by simpa using h1, by linarith, by simpa using h3, by linarith⟩

/-- Non-vacuity: a page of 10 by 20 with margins of 1 (top), 2 (right), 3 (bottom) and 4 (left). -/
example : cssMargins 1 [2, 3, 4] = (1, 2, 3, 4) ∧ (4 : ℝ) + 2 ≤ 10 ∧ (3 : ℝ) + 1 ≤ 20 := by
  refine ⟨rfl, by norm_num, by norm_num⟩

/-- **C125**, refuted for margins that do not fit: with margins of 8 on a page of 10 by 10, no point is 8 away from all sides, but the rectangle is
the square from 2 to 8 instead of being empty. -/
theorem C125_refuted_overlap : (marginCliprect (10 : ℝ) 10 8 []).Contains ⟨5, 5⟩ ∧ ¬ ∃ p : P ℝ, 8 ≤ p.x - 0 ∧ 8 ≤ 10 - p.x := by
  refine ⟨?_, ?_⟩
  · have e : marginCliprect (10 : ℝ) 10 8 [] = ⟨⟨2, 2⟩, ⟨8, 8⟩⟩ := by
      simp only [marginCliprect, Box.mk', Geom.pmin_real, Geom.pmax_real, List.length_nil, lt_self_iff_false, if_false]
      norm_num
    rw [e]
    norm_num [Box.Contains]
  · rintro ⟨p, h1, h2⟩
    linarith

/-- A drawing with two layers, one of them hidden, a group that is no layer and a comment, for the examples. -/
def docV : XNode :=
  el "svg" [] [el "g" [at' "inkscape:label" "one"] [el "path" [] [], el "path" [at' "style" "display:none"] []],
    .comment, el "g" [at' "inkscape:label" "two", at' "style" "display:none"] [el "path" [] []], el "g" [] []]

/-- Non-vacuity of `C125_layers` and `C125_elements`: the layer shown and its path that is shown are found. -/
example : (∀ a ∈ (⟨docV, []⟩ : At).kids, GoodStyles a) ∧
    (visibleLayers (⟨docV, []⟩ : At).kids).toOption.map (fun l => l.map fun a => a.node.get "inkscape:label".toList) = some [some "one".toList] ∧
    (layerElements ((⟨docV, []⟩ : At).kids.getD 0 ⟨.comment, []⟩)).toOption.map List.length = some 1 ∧
    (layerElements ((⟨docV, []⟩ : At).kids.getD 2 ⟨.comment, []⟩)).toOption.map List.length = some 0 := by
  refine ⟨?_, by decide +kernel, by decide +kernel, by decide +kernel⟩
  have : ∀ m ∈ docV :: docV.kids, GoodStyle m.toNode := by
    intro m hm
    simp only [docV, el, XNode.kids, List.mem_cons, List.not_mem_nil, or_false] at hm
    rcases hm with rfl | rfl | rfl | rfl | rfl <;> exact ⟨_, rfl⟩
  intro a ha m hm
  obtain ⟨k, hk, rfl⟩ := List.mem_map.1 ha
  simp only [At.chain, List.mem_cons, List.not_mem_nil, or_false] at hm
  rcases hm with rfl | rfl
  · exact this _ (List.mem_cons_of_mem _ hk)
  · exact this _ (by simp)

end Verif.Svg
