import Verif.Svg.Context
import Verif.Svg.Geometry

/-!
# Model of the document tree: `inksvg.get_shape_elements`

The document is a tree of elements and comments (comments stand for processing instructions too).  An element is looked at together with
its ancestors, since visibility and transforms depend on them.  Name spaces are reduced to what the code can tell apart; attributes in name spaces are
written with a prefix (`xlink:href`, `inkscape:label`).
-/

set_option linter.unusedSectionVars false

namespace Verif.Svg
open Verif PyFloat PyTrig Geom Css

/-- The name space of a tag: none, SVG, or another one. -/
inductive Ns
  | none
  | svg
  | other
  deriving DecidableEq

/-- A node of the document. -/
inductive XNode
  | elem (ns : Ns) (tag : Str) (attr : List (Str × Str)) (kids : List XNode)
  | comment

/-- `node.get(name)`; comments have no attributes. -/
def XNode.get (n : XNode) (name : Str) : Option Str :=
  match n with
  | .elem _ _ a _ => a.lookup name
  | .comment => none

/-- `list(node)`. -/
def XNode.kids : XNode → List XNode
  | .elem _ _ _ k => k
  | .comment => []

/-- The attributes that decide visibility (`svg/svg.py:376-380`). -/
def XNode.toNode (n : XNode) : Node := ⟨n.get "style".toList, n.get "visibility".toList⟩

/-- `node_is_group` (`svg/svg.py:499-501`). -/
def XNode.isGroup : XNode → Bool
  | .elem ns t _ _ => (ns = .svg || ns = .none) && t = "g".toList
  | .comment => false

/-- `node.tag == svg_ns('use') or node.tag == 'use'` (`inkscape/inksvg.py:419`). -/
def XNode.isUse : XNode → Bool
  | .elem ns t _ _ => (ns = .svg || ns = .none) && t = "use".toList
  | .comment => false

/-- A node with its ancestors, the nearest first. -/
structure At where
  node : XNode
  up : List XNode

/-- The children of a node. -/
def At.kids (a : At) : List At := a.node.kids.map fun k => ⟨k, a.node :: a.up⟩

/-- The node and its ancestors. -/
def At.chain (a : At) : List XNode := a.node :: a.up

mutual
/-- The node and its descendants in document order. -/
def XNode.places (up : List XNode) : XNode → List At
  | .elem ns t a k => ⟨.elem ns t a k, up⟩ :: placesList (.elem ns t a k :: up) k
  | .comment => [⟨.comment, up⟩]
/-- The nodes of a list and their descendants in document order. -/
def placesList (up : List XNode) : List XNode → List At
  | [] => []
  | k :: ks => k.places up ++ placesList up ks
end

/-- `get_node_by_id` (`svg/svg.py:1047-1057`): the first element below the root, in document order, with this id. -/
def byId (doc : XNode) (id : Str) : Option At :=
  (placesList [doc] doc.kids).find? fun a => a.node.get "id".toList = some id

/-- `get_layer_name` of a layer (`inkscape/inksvg.py:243-246,312-318`): a group with a label that is not empty. -/
def XNode.layer (n : XNode) : Option Str :=
  if n.isGroup then
    match n.get "inkscape:label".toList with
    | some l => if l.isEmpty then none else some l
    | none => none
  else none

/-- The settings of `get_shape_elements` (`inkscape/inksvg.py:320-323`): the shape tags, the regular expressions of the layers to skip as
predicates, and whether transforms are accumulated. -/
structure Flat where
  shapes : List Str := ["path".toList, "rect".toList, "line".toList, "circle".toList, "ellipse".toList, "polyline".toList, "polygon".toList]
  skip : List (Str → Bool) := []
  accumulate : Bool := true

/-- The layer is skipped (`inkscape/inksvg.py:405-411`). -/
def Flat.skips (c : Flat) (n : XNode) : Bool :=
  match n.layer with
  | some l => c.skip.any fun r => r l
  | none => false

variable {K : Type} [PyTrig K]

/-- Results of a list of nodes one after the other; the first exception ends it. -/
def concatM {α β : Type} (f : α → Except PyErr (List β)) : List α → Except PyErr (List β)
  | [] => .ok []
  | a :: l => do
    let r ← f a
    let rs ← concatM f l
    pure (r ++ rs)

/-- `float(node.get(name, '0'))` (`inkscape/inksvg.py:430-431`). -/
def XNode.num (env : NumEnv K) (n : XNode) (name : Str) : Except PyErr K :=
  match n.get name with
  | none => .ok zero
  | some s => env.float (strip s)

/-- `_get_shape_nodes_recurs` (`inkscape/inksvg.py:367-440`).  The first argument is what is left of Python's recursion limit; beyond it
`RuntimeError` is raised.  The tag of a comment is not text, so that stripping its name space raises `AttributeError`. -/
def flatNode (env : NumEnv K) (doc : XNode) (c : Flat) : Nat → Option (Mat K) → Bool → At → Except PyErr (List (At × Mat K))
  | 0, _, _, _ => .error .runtime
  | n + 1, parentT, checkParent, a => do
    let vis ← nodeVisible checkParent false (a.chain.map XNode.toNode)
    if !vis then return []
    let p ← match parentT with
      | some m => Except.ok m
      | none => parentTransform env (a.up.map fun x => x.get "transform".toList)
    let own ← parseTransform env (a.node.get "transform".toList)
    let t := if c.accumulate then p.compose own else own
    if a.node.isGroup then
      if c.skips a.node then return []
      concatM (flatNode env doc c n (some t) false) a.kids
    else if a.node.isUse then
      match a.node.get "xlink:href".toList with
      | some ref =>
        if ref.isEmpty then return []
        match byId doc (ref.drop 1) with
        | some r => do
          let x ← a.node.num env "x".toList
          let y ← a.node.num env "y".toList
          let t' := if isZeroF x && isZeroF y then t else t.compose (Mat.translate x y)
          flatNode env doc c n (some t') false r
        | none => return []
      | none => return []
    else
      match a.node with
      | .comment => .error .attributeError
      | .elem _ tag _ _ => return (if tag ∈ c.shapes then [(a, t)] else [])

/-- `get_shape_elements` of an element (`inkscape/inksvg.py:347-365`). -/
def shapesOf (env : NumEnv K) (doc : XNode) (c : Flat) (limit : Nat) (parentT : Option (Mat K)) (root : At) : Except PyErr (List (At × Mat K)) := do
  let vis ← nodeVisible true false (root.chain.map XNode.toNode)
  if !vis then return []
  concatM (flatNode env doc c limit parentT false) root.kids

/-- `get_shape_elements` of a list of elements (`inkscape/inksvg.py:347-365`). -/
def shapesOfList (env : NumEnv K) (doc : XNode) (c : Flat) (limit : Nat) (parentT : Option (Mat K)) (nodes : List At) :
    Except PyErr (List (At × Mat K)) :=
  concatM (flatNode env doc c limit parentT true) nodes

/-- `re.match('tcnc .*', name)` (`tcnc.py:219`). -/
def tcncLayer (name : Str) : Bool := "tcnc ".toList.isPrefixOf name

/-- The shape elements `Tcnc.run` cuts (`tcnc.py:216-222`, `inkscape/inkext.py:181-190,207-232`): those among the selected elements or, if nothing is
selected, in the document.  A selected id that does not exist leaves `None` in the list, which is not visible without `_recurs` and so is skipped. -/
def tcncShapes (env : NumEnv K) (doc : XNode) (limit : Nat) (ids : List Str) : Except PyErr (List (At × Mat K)) :=
  let c : Flat := { skip := [tcncLayer] }
  if ids.isEmpty then shapesOf env doc c limit none ⟨doc, []⟩
  else shapesOfList env doc c limit none (ids.filterMap (byId doc))

end Verif.Svg
