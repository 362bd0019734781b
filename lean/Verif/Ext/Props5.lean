import Verif.Ext.Props4
import Verif.Svg.Props5
import Verif.Svg.Props18

/-!
# C135: the reordering of paths by `pathshuffler.py`
-/

set_option linter.unusedSectionVars false

namespace Verif.Ext
open Verif PyFloat PyTrig Geom Css Svg

/-! ## Specification -/

/-- Specification: a `path` element of SVG. -/
def APath (n : XNode) : Prop := ∃ a k, n = .elem .svg "path".toList a k

/-- Specification: everything in the document has a style that can be read. -/
def DocStyles (doc : XNode) : Prop := GoodStyle doc.toNode ∧ ∀ L ∈ doc.kids, GoodStyle L.toNode ∧ ∀ k ∈ L.kids, GoodStyle k.toNode

open Classical in
/-- Specification: the paths that the user sees directly in the layers: those in layers at the top that nothing switches off, and that nothing switches off. -/
noncomputable def seenPaths (doc : XNode) : List At :=
  ((⟨doc, []⟩ : At).kids.filter fun L => ALayer L.node).flatMap fun L => L.kids.filter fun b => On b ∧ APath b.node

open Classical in
/-- Specification: a top element without those paths: a layer loses them, anything else stays as it is. -/
noncomputable def without (L : At) : XNode :=
  match L.node with
  | .elem ns t a k => if ALayer L.node then .elem ns t a ((L.kids.filter fun b => ¬ (On b ∧ APath b.node)).map At.node) else .elem ns t a k
  | .comment => .comment

/-- Specification: the document's top elements without those paths. -/
noncomputable def others (doc : XNode) : List XNode := (⟨doc, []⟩ : At).kids.map without

/-- Specification: `out` is `l` in the order the method asks for: any order for `shuffle`, the opposite one for `reverse`, the same for anything else. -/
def InOrder {α : Type} (method : Str) (l out : List α) : Prop :=
  if method = "shuffle".toList then out.Perm l else if method = "reverse".toList then out = l.reverse else out = l

/-- Specification: the path can be taken apart: its transforms and its path data can be read. -/
def Explodable (te : TextEnv ℝ) (b : At) (m : Mat ℝ) (ds : List Str) : Prop :=
  elementTransform exactR (b.node.get "transform".toList) (b.up.map fun x => x.get "transform".toList) = .ok m ∧
  ∃ d, b.node.get "d".toList = some d ∧ explodePath exactR te d = .ok ds

/-- Specification: an element drawn at the top of the document is a piece of the path `b` with the path data `d`: it has the style of the path, and it is where `m` puts it. -/
def Piece (b : At) (m : Mat ℝ) (d : Str) (x : XNode) : Prop :=
  APath x ∧ x.kids = [] ∧ x.get "d".toList = some d ∧ (x.get "style".toList).getD [] = (b.node.get "style".toList).getD [] ∧
  ∃ m', parseTransform exactR (x.get "transform".toList) = .ok m' ∧ ∀ p, Within (slack p) (m'.apply p) (m.apply p)

/-! ## Lemmas -/

theorem isPath_iff (n : XNode) : XNode.isPath n = true ↔ APath n := by
  unfold XNode.isPath APath
  split
  · rename_i t a k
    constructor
    · intro h
      rw [decide_eq_true_eq] at h
      exact ⟨a, k, by rw [h]⟩
    · rintro ⟨a', k', h⟩
      injection h with _ h
      rw [decide_eq_true_eq]; exact h
  · rename_i h
    constructor
    · intro h'; cases h'
    · rintro ⟨a, k, rfl⟩
      exact absurd rfl (h _ _ _)

theorem up_of_kid {a b : At} (h : b ∈ a.kids) : b.up = a.chain := by
  obtain ⟨k, -, rfl⟩ := List.mem_map.1 h
  rfl

theorem styles_kid {doc : XNode} (h : DocStyles doc) {L : At} (hL : L ∈ (⟨doc, []⟩ : At).kids) : GoodStyles L ∧ ∀ b ∈ L.kids, GoodStyle b.node.toNode := by
  obtain ⟨k, hk, rfl⟩ := List.mem_map.1 hL
  obtain ⟨h1, h2⟩ := h.2 k hk
  refine ⟨?_, ?_⟩
  · intro m hm
    rcases List.mem_cons.1 hm with rfl | hm
    · exact h1
    · have : m = doc := by simpa using hm
      subst this; exact h.1
  · intro b hb
    obtain ⟨x, hx, rfl⟩ := List.mem_map.1 hb
    exact h2 x hx

open Classical in
theorem layersElements_spec (ls : List At) (h : ∀ L ∈ ls, GoodStyles L ∧ ∀ b ∈ L.kids, GoodStyle b.node.toNode) :
    layersElements ls = .ok ((ls.map fun L => L.kids.filter fun b => On b).filter fun g => !g.isEmpty) := by
  induction ls with
  | nil => rfl
  | cons L ls ih =>
    have hL := h L (by simp)
    rw [layersElements, C125_elements L hL.1 hL.2, ih fun x hx => h x (by simp [hx])]
    simp only [bind, Except.bind, pure, Except.pure, List.map_cons]
    cases hg : (L.kids.filter fun b => On b) with
    | nil => simp
    | cons x xs => simp

theorem flatten_nonempty {α : Type} (l : List (List α)) : (l.filter fun g => !g.isEmpty).flatten = l.flatten := by
  induction l with
  | nil => rfl
  | cons g l ih =>
    cases g with
    | nil => simpa using ih
    | cons x xs => simp [ih]

theorem shufflePaths_flat (gs : List (List At)) : (shufflePaths gs).flatten = gs.flatten.filter fun a => XNode.isPath a.node := by
  unfold shufflePaths
  rw [flatten_nonempty]
  induction gs with
  | nil => rfl
  | cons g gs ih => rw [List.map_cons, List.flatten_cons, List.flatten_cons, List.filter_append, ih]

theorem shufflePaths_empty (gs : List (List At)) : (shufflePaths gs).isEmpty = (shufflePaths gs).flatten.isEmpty := by
  have h : ∀ g ∈ shufflePaths gs, g ≠ [] := by
    intro g hg
    have := (List.mem_filter.1 hg).2
    simpa using this
  cases hs : shufflePaths gs with
  | nil => rfl
  | cons g l =>
    rw [hs] at h
    have := h g (by simp)
    cases g with
    | nil => exact absurd rfl this
    | cons x xs => rfl

open Classical in
theorem onLayer {L : At} (b : At) (hb : b ∈ L.kids) (h : On b) : On L := by
  intro m hm
  refine h m (List.mem_cons_of_mem _ ?_)
  rw [up_of_kid hb]; exact hm

open Classical in
/-- The paths found. -/
theorem found_paths (doc : XNode) (h : DocStyles doc) : ∃ gs, shuffleGroups doc [] = .ok gs ∧ (shufflePaths gs).flatten = seenPaths doc := by
  have h1 := C125_layers (⟨doc, []⟩ : At).kids fun a ha _ => (styles_kid h ha).1
  have h2 := layersElements_spec ((⟨doc, []⟩ : At).kids.filter fun a => ALayer a.node ∧ On a)
    fun L hL => styles_kid h (List.mem_filter.1 hL).1
  refine ⟨(((⟨doc, []⟩ : At).kids.filter fun a => ALayer a.node ∧ On a).map fun L => L.kids.filter fun b => On b).filter fun g => !g.isEmpty, ?_, ?_⟩
  · unfold shuffleGroups
    rw [h1]
    exact h2
  · rw [shufflePaths_flat, flatten_nonempty]
    unfold seenPaths
    generalize (⟨doc, []⟩ : At).kids = ls
    induction ls with
    | nil => rfl
    | cons L ls ih =>
      have e : (L.kids.filter fun b => decide (On b)).filter (fun a => XNode.isPath a.node) = L.kids.filter fun b => decide (On b ∧ APath b.node) := by
        rw [List.filter_filter]
        apply List.filter_congr
        intro b _
        rw [Bool.eq_iff_iff]
        simp [isPath_iff, and_comm]
      by_cases hl : ALayer L.node
      · by_cases ho : On L
        · simp only [List.filter_cons, hl, ho, and_self, decide_true, if_true, List.map_cons, List.flatten_cons, List.filter_append, List.flatMap_cons, ih, e]
        · have : L.kids.filter (fun b => decide (On b ∧ APath b.node)) = [] := by
            rw [List.filter_eq_nil_iff]
            intro b hb
            rw [decide_eq_true_eq]
            exact fun hh => ho (onLayer b hb hh.1)
          simp only [List.filter_cons, hl, ho, and_false, decide_false, decide_true, if_true, Bool.false_eq_true, if_false, List.flatMap_cons, this, List.nil_append, ih]
      · simp only [List.filter_cons, hl, false_and, decide_false, Bool.false_eq_true, if_false, ih]

theorem arranged_order (method : Str) (perm : List XNode → List XNode) (hp : ∀ l, (perm l).Perm l) (l : List XNode) : InOrder method l (arranged method perm l) := by
  unfold InOrder arranged
  split
  · exact hp l
  · split <;> rfl

/-! ## C135 -/

/-- **C135** (nothing to do): without shuffling and exploding, and if there is no path to be seen, no layer is made. -/
theorem C135_nothing (env : NumEnv ℝ) (te : TextEnv ℝ) (o : ShuffleOpts) (perm : List XNode → List XNode) (doc : XNode) :
    ((o.shuffle = false ∧ o.explode = false) → ∀ sel, shuffled env te o perm doc sel = .ok none) ∧
    (DocStyles doc → seenPaths doc = [] → shuffled env te o perm doc [] = .ok none) := by
  constructor
  · rintro ⟨h1, h2⟩ sel
    unfold shuffled
    rw [h1, h2]; rfl
  · intro hd h0
    obtain ⟨gs, h1, h2⟩ := found_paths doc hd
    unfold shuffled
    split
    · rfl
    · rw [h1]
      show (if (shufflePaths gs).isEmpty = true then _ else _) = _
      rw [shufflePaths_empty, h2, h0]; rfl

/-- **C135** (the paths): without exploding, the new layer has exactly the paths that are seen in the layers, each once, in the order asked for — whatever the random order is. -/
theorem C135_paths (env : NumEnv ℝ) (te : TextEnv ℝ) (o : ShuffleOpts) (ho : o.shuffle = true) (hx : o.explode = false) (perm : List XNode → List XNode)
    (hp : ∀ l, (perm l).Perm l) (doc : XNode) (hd : DocStyles doc) (h0 : seenPaths doc ≠ []) :
    ∃ out, shuffled env te o perm doc [] = .ok (some out) ∧ InOrder o.method ((seenPaths doc).map At.node) out := by
  obtain ⟨gs, h1, h2⟩ := found_paths doc hd
  refine ⟨arranged o.method perm ((seenPaths doc).map At.node), ?_, arranged_order _ _ hp _⟩
  unfold shuffled
  rw [ho, h1]
  show (if (shufflePaths gs).isEmpty = true then _ else _) = _
  rw [shufflePaths_empty, h2, if_neg (by simpa using h0), hx]
  rfl

open Classical in
/-- **C135** (selection): if something is selected, the paths are those that are selected, in the order of the selection. -/
theorem C135_selected (env : NumEnv ℝ) (te : TextEnv ℝ) (o : ShuffleOpts) (ho : o.shuffle = true) (hx : o.explode = false) (perm : List XNode → List XNode)
    (hp : ∀ l, (perm l).Perm l) (doc : XNode) (sel : List At) (h0 : ∃ b ∈ sel, APath b.node) :
    ∃ out, shuffled env te o perm doc sel = .ok (some out) ∧ InOrder o.method ((sel.filter fun b => APath b.node).map At.node) out := by
  have hne : sel ≠ [] := by rintro rfl; obtain ⟨b, hb, -⟩ := h0; cases hb
  have hgs : shuffleGroups doc sel = .ok [sel] := by
    unfold shuffleGroups
    rw [if_neg (by simpa using hne)]
  have hfl : (shufflePaths [sel]).flatten = sel.filter fun b => APath b.node := by
    rw [shufflePaths_flat]
    simp only [List.flatten_cons, List.flatten_nil, List.append_nil]
    apply List.filter_congr
    intro b _
    rw [Bool.eq_iff_iff]
    simp [isPath_iff]
  refine ⟨arranged o.method perm ((sel.filter fun b => APath b.node).map At.node), ?_, arranged_order _ _ hp _⟩
  unfold shuffled
  rw [ho, hgs]
  show (if (shufflePaths [sel]).isEmpty = true then _ else _) = _
  rw [shufflePaths_empty, hfl, if_neg ?_, hx]
  · rfl
  · obtain ⟨b, hb, hP⟩ := h0
    have : b ∈ sel.filter fun b => APath b.node := List.mem_filter.2 ⟨hb, by simpa using hP⟩
    intro h
    rw [List.isEmpty_iff] at h
    rw [h] at this
    cases this

open Classical in
theorem leftKids_spec (l : List At) (hg : ∀ b ∈ l, GoodStyles b) (hup : ∀ b ∈ l, ∀ m ∈ b.up, ¬ Off m.toNode) :
    leftKids l = .ok ((l.filter fun b => ¬ (On b ∧ APath b.node)).map At.node) := by
  induction l with
  | nil => rfl
  | cons b l ih =>
    have hv := visibleKids_spec [b] (by simpa using hg b (by simp)) (by simpa using hup b (by simp))
    rw [leftKids, ih (fun x hx => hg x (by simp [hx])) fun x hx => hup x (by simp [hx])]
    rw [visibleKids] at hv
    cases hn : nodeVisible false false (b.chain.map XNode.toNode) with
    | error e => rw [hn] at hv; cases hv
    | ok v =>
      rw [hn] at hv
      have hv : (if v then [b] else []) = [b].filter fun b => On b := by
        simpa [bind, Except.bind, visibleKids, pure, Except.pure] using hv
      have hvo : v = true ↔ On b := by
        by_cases ho : On b <;> cases v <;> simp [List.filter, ho] at hv ⊢ <;> try exact ho
      simp only [bind, Except.bind, pure, Except.pure]
      congr 1
      by_cases ho : On b
      · have : v = true := hvo.2 ho
        subst this
        by_cases hP : APath b.node
        · have := (isPath_iff b.node).2 hP
          simp [List.filter_cons, ho, hP, this]
        · have : XNode.isPath b.node = false := by
            rw [Bool.eq_false_iff]; exact fun h => hP ((isPath_iff b.node).1 h)
          simp [List.filter_cons, ho, hP, this]
      · have : v = false := by rw [Bool.eq_false_iff]; exact fun h => ho (hvo.1 h)
        subst this
        simp [List.filter_cons, ho]

open Classical in
theorem leftLayer_spec (doc : XNode) (hd : DocStyles doc) (L : At) (hL : L ∈ (⟨doc, []⟩ : At).kids) : leftLayer L = .ok (without L) := by
  obtain ⟨hg, hk⟩ := styles_kid hd hL
  unfold leftLayer without
  cases hn : L.node with
  | comment => rfl
  | elem ns t a k =>
    dsimp only
    rw [← hn]
    by_cases hl : ALayer L.node
    · rw [if_pos hl, if_pos ((layer_iff _).2 hl)]
      obtain ⟨v, hv, hvo⟩ := chain_visible L hg
      rw [hv]
      cases v with
      | true =>
        have := leftKids_spec L.kids (fun b hb m hm => by
          rcases List.mem_cons.1 hm with rfl | hm
          · exact hk b hb
          · rw [up_of_kid hb] at hm; exact hg m hm) fun b hb m hm => by
          rw [up_of_kid hb] at hm; exact hvo.1 rfl m hm
        simp only [bind, Except.bind, if_true, this, pure, Except.pure]
      | false =>
        have hall : L.kids.filter (fun b => decide (¬ (On b ∧ APath b.node))) = L.kids := by
          rw [List.filter_eq_self]
          intro b hb
          rw [decide_eq_true_eq]
          exact fun h => absurd (hvo.2 (onLayer b hb h.1)) (by simp)
        simp only [bind, Except.bind, Bool.false_eq_true, if_false, pure, Except.pure]
        rw [hall]
        have : L.kids.map At.node = k := by
          unfold At.kids
          rw [List.map_map, hn]
          simp [XNode.kids, Function.comp_def]
        rw [this, hn]
    · have : L.node.layer.isSome = false := by
        rw [Bool.eq_false_iff]; exact fun h => hl ((layer_iff _).1 h)
      rw [if_neg hl, this]
      simp only [bind, Except.bind, Bool.false_eq_true, if_false, pure, Except.pure]

/-- **C135** (the rest): without exploding, everything else in the document stays as it is: the layers lose exactly the paths that are moved; with exploding everything stays. -/
theorem C135_rest (doc : XNode) (hd : DocStyles doc) :
    leftRoot false (⟨doc, []⟩ : At).kids = .ok (others doc) ∧ leftRoot true (⟨doc, []⟩ : At).kids = .ok doc.kids := by
  constructor
  · have key : ∀ l : List At, (∀ L ∈ l, L ∈ (⟨doc, []⟩ : At).kids) → leftRoot false l = .ok (l.map without) := by
      intro l hl
      induction l with
      | nil => rfl
      | cons L l ih =>
        rw [leftRoot, ih fun x hx => hl x (by simp [hx])]
        simp only [Bool.false_eq_true, if_false]
        rw [leftLayer_spec doc hd L (hl L (by simp))]
        rfl
    exact key _ fun _ h => h
  · have key : ∀ l : List At, leftRoot true l = .ok (l.map At.node) := by
      intro l
      induction l with
      | nil => rfl
      | cons L l ih => rw [leftRoot, ih]; rfl
    rw [key]
    unfold At.kids
    simp [Function.comp_def]

/-- **C135** (places), the part that holds: a path that is moved from a layer without a transform into the new layer (which has none, C123) is drawn where it was.
Missing: layers with transforms. -/
theorem C135_place_partial (env : NumEnv ℝ) (doc : XNode) (b : At) (hb : b ∈ seenPaths doc) (new : XNode) (hnew : new.get "transform".toList = none)
    (hL : ∀ L, L ∈ doc.kids → b.up = [L, doc] → L.get "transform".toList = none) :
    elementTransform env (b.node.get "transform".toList) ([new, doc].map fun x => x.get "transform".toList) =
      elementTransform env (b.node.get "transform".toList) (b.up.map fun x => x.get "transform".toList) := by
  unfold seenPaths at hb
  rw [List.mem_flatMap] at hb
  obtain ⟨L, hl, hb⟩ := hb
  have hl := (List.mem_filter.1 hl).1
  have hb := (List.mem_filter.1 hb).1
  obtain ⟨k, hk, rfl⟩ := List.mem_map.1 hl
  have hu : b.up = [k, doc] := up_of_kid hb
  rw [hu]
  simp only [List.map_cons, List.map_nil, hnew, hL k hk hu]

open Classical in
/-- The part of **C135** that fails: a path in a layer that is moved by 100 is drawn elsewhere after it is put into the new layer. -/
theorem C135_refuted_place : ∃ (doc : XNode) (b : At), DocStyles doc ∧ b ∈ seenPaths doc ∧ ∀ new : XNode, new.get "transform".toList = none → ∃ m m',
    elementTransform exactR (b.node.get "transform".toList) (b.up.map fun x => x.get "transform".toList) = .ok m ∧
    elementTransform exactR (b.node.get "transform".toList) ([new, doc].map fun x => x.get "transform".toList) = .ok m' ∧
    ∀ p, m.apply p = moved (m'.apply p) ⟨100, 0⟩ := by
  let path : XNode := .elem .svg "path".toList [("d".toList, "M 0 0 L 1 1".toList)] []
  let L : XNode := .elem .svg "g".toList [("inkscape:label".toList, "one".toList), ("transform".toList, "translate(100,0)".toList)] [path]
  let doc : XNode := .elem .svg "svg".toList [] [L]
  refine ⟨doc, ⟨path, [L, doc]⟩, ⟨⟨[], rfl⟩, ?_⟩, ?_, ?_⟩
  · intro x hx
    obtain rfl : x = L := by simpa [doc, XNode.kids] using hx
    refine ⟨⟨[], rfl⟩, fun y hy => ?_⟩
    obtain rfl : y = path := by simpa [L, XNode.kids] using hy
    exact ⟨[], rfl⟩
  · have hoff : ∀ n : XNode, n.get "style".toList = none → n.get "visibility".toList = none → ¬ Off n.toNode := by
      intro n h1 h2
      unfold Off XNode.toNode
      rw [h1, h2]
      have hs : ∀ name value, ¬ HasStyle ⟨none, none⟩ name value := by
        rintro name value ⟨d, h1, h2⟩
        have : inlineStyleToDict none = .ok [] := rfl
        rw [this] at h1
        injection h1 with h1
        subst h1
        simp [Style.get] at h2
      rintro (h | (h | ⟨-, h⟩) | h | ⟨-, h⟩)
      · exact hs _ _ h
      · exact hs _ _ h
      · cases h
      · exact hs _ _ h
      · cases h
    unfold seenPaths
    rw [List.mem_flatMap]
    refine ⟨⟨L, [doc]⟩, ?_, ?_⟩
    · rw [List.mem_filter]
      refine ⟨by simp [At.kids, doc, XNode.kids], ?_⟩
      rw [decide_eq_true_eq]
      rw [← layer_iff]
      rfl
    · rw [List.mem_filter]
      refine ⟨by simp [At.kids, L, XNode.kids], ?_⟩
      rw [decide_eq_true_eq]
      refine ⟨?_, _, _, rfl⟩
      intro m hm
      have : m = path ∨ m = L ∨ m = doc := by simpa [At.chain] using hm
      rcases this with rfl | rfl | rfl <;> exact hoff _ rfl rfl
  · intro new hnew
    have n1 : Numeral.Valid ⟨none, ['1', '0', '0'], none, none⟩ := ⟨rfl, by simp, by simp, by simp⟩
    have n0 : Numeral.Valid ⟨none, ['0'], none, none⟩ := ⟨rfl, by simp, by simp, by simp⟩
    have ht : ListText "translate(100,0)".toList [⟨"translate", [⟨none, ['1', '0', '0'], none, none⟩, ⟨none, ['0'], none, none⟩]⟩] :=
      .item ⟨"translate", _⟩ [] "100,0".toList [] _ (by simp [OkTransform]) (by simp) (.num _ ',' _ _ n1 (by simp [Svg.Sep]) (.last _ n0)) .nil
    obtain ⟨m, h1, h2⟩ := C77_element_transform_partial exactR (attr := none) (own := []) (ancestors := [some "translate(100,0)".toList, none])
      .none (.cons (.some _ _ ht) (.cons .none .nil))
    refine ⟨m, Mat.ident, h1, ?_, ?_⟩
    · simp only [List.map_cons, List.map_nil, hnew]
      rfl
    · intro p
      rw [h2]
      have hi : (Mat.ident : Mat ℝ).apply p = p := (C41_compose Mat.ident Mat.ident Mat.ident p).2.2.2.2
      rw [hi]
      have v1 : Numeral.value exactR ⟨none, ['1', '0', '0'], none, none⟩ = 100 := by
        unfold Numeral.value Numeral.negative Numeral.exponent exactR
        have : natOf ['1', '0', '0'] = 100 := by decide +kernel
        simp [expValue, this]
      have v0 : Numeral.value exactR ⟨none, ['0'], none, none⟩ = 0 := by
        unfold Numeral.value Numeral.negative Numeral.exponent exactR
        have : natOf ['0'] = 0 := by decide +kernel
        simp [expValue, this]
      simp [applyList, svgApply, v1, v0, moved]

theorem pieceAttrs_get (style : Option Str) (m : Mat ℝ) (d : Str) :
    (pieceAttrs style m d).lookup "d".toList = some d ∧ ((pieceAttrs style m d).lookup "style".toList).getD [] = style.getD [] ∧
    (pieceAttrs style m d).lookup "transform".toList = if isIdentity m then none else some (transformAttr m) := by
  unfold pieceAttrs
  cases style with
  | none => by_cases h : isIdentity m = true <;> simp [h, List.lookup]
  | some s => cases s <;> by_cases h : isIdentity m = true <;> simp [h, List.lookup]

theorem piece_spec (b : At) (m : Mat ℝ) (d : Str) : Piece b m d (.elem .svg "path".toList (pieceAttrs (b.node.get "style".toList) m d) []) := by
  obtain ⟨h1, h2, h3⟩ := pieceAttrs_get (b.node.get "style".toList) m d
  refine ⟨⟨_, _, rfl⟩, rfl, h1, h2, ?_⟩
  show ∃ m', parseTransform exactR ((pieceAttrs (b.node.get "style".toList) m d).lookup "transform".toList) = .ok m' ∧ _
  rw [h3]
  by_cases hi : isIdentity m = true
  · rw [if_pos hi]
    refine ⟨Mat.ident, rfl, fun p => ?_⟩
    rw [(C133_identity m).1 hi, (C41_compose Mat.ident Mat.ident Mat.ident p).2.2.2.2]
    have : 0 ≤ slack p := by unfold slack; positivity
    exact ⟨by simpa using this, by simpa using this⟩
  · rw [if_neg hi]
    obtain ⟨m', h4, h5, -⟩ := C133_transform_text m
    exact ⟨m', h4, h5⟩

theorem pieces_spec (te : TextEnv ℝ) (l : List At) (ms : At → Mat ℝ) (dss : At → List Str) (h : ∀ b ∈ l, Explodable te b (ms b) (dss b)) :
    ∃ items : List (List XNode), concatM (piecesOf exactR te) l = .ok items.flatten ∧ List.Forall₂ (fun b g => List.Forall₂ (Piece b (ms b)) (dss b) g) l items := by
  induction l with
  | nil => exact ⟨[], rfl, .nil⟩
  | cons b l ih =>
    obtain ⟨items, h1, h2⟩ := ih fun x hx => h x (by simp [hx])
    obtain ⟨hm, d, hd, hds⟩ := h b (by simp)
    refine ⟨((dss b).map fun d => .elem .svg "path".toList (pieceAttrs (b.node.get "style".toList) (ms b) d) []) :: items, ?_, .cons ?_ h2⟩
    · rw [concatM, h1]
      unfold piecesOf explodeAttr
      rw [hm, hd]
      simp only [bind, Except.bind, hds]
      rfl
    · rw [List.forall₂_map_right_iff]
      exact List.forall₂_same.2 fun d _ => piece_spec b (ms b) d

/-- **C135** (pieces): with exploding, the new layer has exactly the pieces (C84) of the paths that are seen, in the order asked for; every piece has the style of its path and
a transform that puts it where the path is (to the six decimals of the text), so that a root without a transform draws it there. -/
theorem C135_pieces (te : TextEnv ℝ) (o : ShuffleOpts) (hx : o.explode = true) (perm : List XNode → List XNode)
    (hp : ∀ l, (perm l).Perm l) (doc : XNode) (hd : DocStyles doc) (h0 : seenPaths doc ≠ []) (ms : At → Mat ℝ) (dss : At → List Str)
    (h : ∀ b ∈ seenPaths doc, Explodable te b (ms b) (dss b)) :
    ∃ (out : List XNode) (items : List (List XNode)), shuffled exactR te o perm doc [] = .ok (some out) ∧ InOrder o.method items.flatten out ∧
      List.Forall₂ (fun b g => List.Forall₂ (Piece b (ms b)) (dss b) g) (seenPaths doc) items := by
  obtain ⟨gs, h1, h2⟩ := found_paths doc hd
  obtain ⟨items, h3, h4⟩ := pieces_spec te (seenPaths doc) ms dss h
  refine ⟨arranged o.method perm items.flatten, items, ?_, arranged_order _ _ hp _, h4⟩
  unfold shuffled
  rw [hx, h1]
  simp only [Bool.not_true, Bool.and_false, Bool.false_eq_true, if_false]
  show (if (shufflePaths gs).isEmpty = true then _ else _) = _
  rw [shufflePaths_empty, h2, if_neg (by simpa using h0)]
  unfold shuffleItems
  rw [if_pos rfl, h3]
  rfl

/-- **C135** (a path without data): with exploding, if the first path that cannot be taken apart is one without path data, the run ends with a `TypeError`. -/
theorem C135_no_data (te : TextEnv ℝ) (o : ShuffleOpts) (hx : o.explode = true) (perm : List XNode → List XNode)
    (doc : XNode) (hd : DocStyles doc) (pre post : List At) (b : At) (h0 : seenPaths doc = pre ++ b :: post) (ms : At → Mat ℝ) (dss : At → List Str)
    (h : ∀ a ∈ pre, Explodable te a (ms a) (dss a)) (m : Mat ℝ) (hm : elementTransform exactR (b.node.get "transform".toList) (b.up.map fun x => x.get "transform".toList) = .ok m)
    (hb : b.node.get "d".toList = none) : shuffled exactR te o perm doc [] = .error .typeError := by
  obtain ⟨gs, h1, h2⟩ := found_paths doc hd
  have key : ∀ l : List At, (∀ a ∈ l, Explodable te a (ms a) (dss a)) → concatM (piecesOf exactR te) (l ++ b :: post) = .error .typeError := by
    intro l
    induction l with
    | nil =>
      intro _
      have hp : piecesOf exactR te b = .error .typeError := by
        unfold piecesOf explodeAttr
        rw [hm, hb]
        rfl
      show concatM (piecesOf exactR te) (b :: post) = _
      rw [concatM, hp]
      rfl
    | cons a l ih =>
      intro hl
      have ih := ih fun x hx => hl x (by simp [hx])
      obtain ⟨hma, d, hda, hds⟩ := hl a (by simp)
      have hp : piecesOf exactR te a = .ok ((dss a).map fun d => .elem .svg "path".toList (pieceAttrs (a.node.get "style".toList) (ms a) d) []) := by
        unfold piecesOf explodeAttr
        rw [hma, hda]
        simp only [bind, Except.bind, hds]
        rfl
      rw [List.cons_append, concatM, hp, ih]
      rfl
  unfold shuffled
  rw [hx, h1]
  simp only [Bool.not_true, Bool.and_false, Bool.false_eq_true, if_false]
  show (if (shufflePaths gs).isEmpty = true then _ else _) = _
  rw [shufflePaths_empty, h2, if_neg (by rw [h0]; simp)]
  unfold shuffleItems
  rw [if_pos rfl, h0, key pre h]
  rfl

end Verif.Ext
