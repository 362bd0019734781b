import Verif.Svg.Layer
import Verif.Svg.Path

/-!
# The extensions that copy and reorder elements: `repeater.py` and `pathshuffler.py`

The document is a tree (`Svg/Tree.lean`).  The creation of the output layer is that of `Svg/Layer.lean`; here is what is put into it.
-/

set_option linter.unusedSectionVars false

namespace Verif.Ext
open Verif PyFloat PyTrig Geom Css Svg

section
variable {K : Type} [PyTrig K]

/-- `transform_attr` (`svg/svg.py:1059-1062`): `matrix(%f,%f,%f,%f,%f,%f)`, the columns of the matrix one after the other. -/
def transformAttr (m : Mat K) : Str :=
  "matrix(".toList ++ fmt 6 m.a ++ ',' :: fmt 6 m.d ++ ',' :: fmt 6 m.b ++ ',' :: fmt 6 m.e ++ ',' :: fmt 6 m.c ++ ',' :: fmt 6 m.f ++ [')']

/-- `is_identity_transform` (`geom/transform2d.py:24-38`). -/
def isIdentity (m : Mat K) : Bool :=
  beq m.a one && beq m.b zero && beq m.c zero && beq m.d zero && beq m.e one && beq m.f zero

/-- `element.set(name, value)` on the list of attributes. -/
def setAttr (name value : Str) : List (Str × Str) → List (Str × Str)
  | [] => [(name, value)]
  | (n, v) :: l => if n = name then (n, value) :: l else (n, v) :: setAttr name value l

/-- `element.set(name, value)`; a comment has no attributes. -/
def XNode.set (name value : Str) : XNode → Except PyErr XNode
  | .elem ns t a k => .ok (.elem ns t (setAttr name value a) k)
  | .comment => .error .typeError

/-! ## repeater.py -/

/-- One copy of an element (`repeater.py:67-77`): the matrix of the element times the translation; only the attribute is set in the copy. -/
def copyOf (env : NumEnv K) (interval angle : K) (n : Nat) (e : XNode) : Except PyErr XNode := do
  let own ← parseTransform env (e.get "transform".toList)
  let v := P.fromPolar (interval *. ofInt (n + 1)) (PyFloat.neg angle)
  XNode.set "transform".toList (transformAttr (own.compose (Mat.translate v.x v.y))) e

/-- The elements of one round (`repeater.py:66-78`) for a list of selected elements. -/
def copyRound (env : NumEnv K) (interval angle : K) (n : Nat) : List XNode → Except PyErr (List XNode)
  | [] => .ok []
  | e :: es => do
    let c ← copyOf env interval angle n e
    let cs ← copyRound env interval angle n es
    pure (c :: cs)

/-- The rounds from `n` on (`repeater.py:65`). -/
def copyRounds (env : NumEnv K) (interval angle : K) (es : List XNode) : Nat → Nat → Except PyErr (List XNode)
  | 0, _ => .ok []
  | rounds + 1, n => do
    let cs ← copyRound env interval angle n es
    let r ← copyRounds env interval angle es rounds (n + 1)
    pure (cs ++ r)

/-- The elements that `Repeater.run` adds for a selection (`repeater.py:49-77`); `range` of a negative number is empty. -/
def repeated (env : NumEnv K) (copies : Int) (interval angle : K) (es : List XNode) : Except PyErr (List XNode) :=
  copyRounds env interval angle es copies.toNat 0

/-- The first round if nothing is selected and no layer is made (`repeater.py:66-78`, `inkscape/inkext.py:227`): the children of the root are visited one
after the other while every copy is added at their end (`svg/svg.py:747-752`, `143`).  `none`: still running after `fuel` elements. -/
def liveRound (env : NumEnv K) (interval angle : K) (n : Nat) : Nat → Nat → List XNode → Option (Except PyErr (List XNode))
  | 0, _, _ => none
  | fuel + 1, i, kids =>
    match kids[i]? with
    | none => some (.ok kids)
    | some e =>
      match copyOf env interval angle n e with
      | .error err => some (.error err)
      | .ok c => liveRound env interval angle n fuel (i + 1) (kids ++ [c])

/-! ## pathshuffler.py -/

/-- The options of `BreakShuffle` (`pathshuffler.py:35-43`); `reverse_order` is not used. -/
structure ShuffleOpts where
  shuffle : Bool := true
  explode : Bool := false
  method : Str := "shuffle".toList

/-- `node.tag == svg_ns('path')` (`pathshuffler.py:69`). -/
def XNode.isPath : XNode → Bool
  | .elem .svg t _ _ => t = "path".toList
  | _ => false

/-- The elements of the visible layers (`pathshuffler.py:60-64`). -/
def layersElements : List At → Except PyErr (List (List At))
  | [] => .ok []
  | a :: l => do
    let es ← layerElements a
    let r ← layersElements l
    pure (if es.isEmpty then r else es :: r)

/-- The groups of elements (`pathshuffler.py:54-64`): the selection, or what is in the visible layers. -/
def shuffleGroups (doc : XNode) (selected : List At) : Except PyErr (List (List At)) :=
  if selected.isEmpty then do
    let ls ← visibleLayers (⟨doc, []⟩ : At).kids
    layersElements ls
  else .ok [selected]

/-- The paths of the groups that have some (`pathshuffler.py:66-72`). -/
def shufflePaths (groups : List (List At)) : List (List At) :=
  (groups.map fun g => g.filter fun a => XNode.isPath a.node).filter fun g => !g.isEmpty

/-- `explode_path` of the attribute `d` of a path (`pathshuffler.py:87,93`); without the attribute the tokenizer raises. -/
def explodeAttr (env : NumEnv K) (te : TextEnv K) (d : Option Str) : Except PyErr (List Str) :=
  match d with
  | none => .error .typeError
  | some d => explodePath env te d

/-- The attributes of the pieces (`pathshuffler.py:94-99`); the order of the attributes does not matter. -/
def pieceAttrs (style : Option Str) (m : Mat K) (d : Str) : List (Str × Str) :=
  [("d".toList, d)] ++ (match style with
    | some s => if s.isEmpty then [] else [("style".toList, s)]
    | none => []) ++ (if isIdentity m then [] else [("transform".toList, transformAttr m)])

/-- The pieces of a path (`pathshuffler.py:86-101`). -/
def piecesOf (env : NumEnv K) (te : TextEnv K) (a : At) : Except PyErr (List XNode) := do
  let m ← elementTransform env (a.node.get "transform".toList) (a.up.map fun x => x.get "transform".toList)
  let ds ← explodeAttr env te (a.node.get "d".toList)
  pure (ds.map fun d => .elem .svg "path".toList (pieceAttrs (a.node.get "style".toList) m d) [])

/-- What is put in order: the paths themselves or their pieces (`pathshuffler.py:82-105`). -/
def shuffleItems (env : NumEnv K) (te : TextEnv K) (explode : Bool) (paths : List At) : Except PyErr (List XNode) :=
  if explode then concatM (piecesOf env te) paths else .ok (paths.map fun a => a.node)

/-- The arrangement (`pathshuffler.py:106-112`); `perm` is what `random.shuffle` does to a list. -/
def arranged (method : Str) (perm : List XNode → List XNode) (l : List XNode) : List XNode :=
  if method = "shuffle".toList then perm l else if method = "reverse".toList then l.reverse else l

/-- What `BreakShuffle.run` puts into its layer (`pathshuffler.py:49-119`); `none`: it returns without making a layer. -/
def shuffled (env : NumEnv K) (te : TextEnv K) (o : ShuffleOpts) (perm : List XNode → List XNode) (doc : XNode) (selected : List At) :
    Except PyErr (Option (List XNode)) :=
  if !o.shuffle && !o.explode then .ok none
  else do
    let groups ← shuffleGroups doc selected
    if (shufflePaths groups).isEmpty then return none
    let items ← shuffleItems env te o.explode (shufflePaths groups).flatten
    return some (arranged o.method perm items)

/-- What is left of the children of a visible layer when its visible paths are moved (`pathshuffler.py:119-120`: `append` moves an element). -/
def leftKids : List At → Except PyErr (List XNode)
  | [] => .ok []
  | a :: l => do
    let vis ← nodeVisible false false (a.chain.map XNode.toNode)
    let rest ← leftKids l
    pure (if vis && XNode.isPath a.node then rest else a.node :: rest)

/-- What is left of a child of the root: a visible layer loses its visible paths. -/
def leftLayer (a : At) : Except PyErr XNode :=
  match a.node with
  | .elem ns t at' _ => do
    let vis ← if a.node.layer.isSome then nodeVisible true false (a.chain.map XNode.toNode) else .ok false
    if vis then do
      let k ← leftKids a.kids
      pure (.elem ns t at' k)
    else pure a.node
  | .comment => .ok .comment

/-- What is left of the children of the root if nothing is selected; exploded paths stay where they are, since the pieces are new elements. -/
def leftRoot (explode : Bool) : List At → Except PyErr (List XNode)
  | [] => .ok []
  | a :: l => do
    let x ← if explode then .ok a.node else leftLayer a
    let rest ← leftRoot explode l
    pure (x :: rest)

end
end Verif.Ext
