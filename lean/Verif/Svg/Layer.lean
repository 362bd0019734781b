import Verif.Svg.Tree

/-!
# Model of the layers of `inkscape/inksvg.py`

Elements are changed in place in the program; here a changed document is a new tree.
-/

set_option linter.unusedSectionVars false

namespace Verif.Svg
open Verif PyFloat PyTrig Geom Css

/-- What the query `//svg:g[@inkscape:label="<name>"]` accepts (`inkscape/inksvg.py:141-150`): a group that is in the SVG name space, with this
label.  Names with a quotation mark, which change the query, are not modelled. -/
def XNode.named (name : Str) : XNode → Bool
  | .elem .svg t a _ => t = "g".toList && a.lookup "inkscape:label".toList = some name
  | _ => false

/-- `find_layer` (`inkscape/inksvg.py:141-150,271-284`): the first one in document order. -/
def findLayer (doc : XNode) (name : Str) : Option At := (doc.places []).find? fun a => a.node.named name

/-- `layer is not None and len(layer) > 0` (`inkscape/inksvg.py:183,185`). -/
def inUse : Option At → Bool
  | some a => !a.node.kids.isEmpty
  | none => false

/-- `'%s_%02d' % (name, n)` (`inkscape/inksvg.py:186`). -/
def suffixed (name : Str) (n : Nat) : Str := name ++ '_' :: padZero 2 (natDigits n)

/-- The loop over the numeric suffixes (`inkscape/inksvg.py:184-188`), with a bound on its rounds; `none` is a loop that goes on. -/
def suffixLoop (doc : XNode) (name : Str) : Nat → Nat → Option (Str × Option At)
  | 0, _ => none
  | fuel + 1, n =>
    let layer := findLayer doc (suffixed name n)
    if inUse layer then suffixLoop doc name fuel (n + 1) else some (suffixed name n, layer)

mutual
/-- `del layer[:]` (`inkscape/inksvg.py:203-205`) on the first element, in document order, that is accepted; also says whether there is one. -/
def XNode.emptied (p : XNode → Bool) : XNode → XNode × Bool
  | .elem ns t a k =>
    if p (.elem ns t a k) then (.elem ns t a [], true)
    else
      let r := emptiedList p k
      (.elem ns t a r.1, r.2)
  | .comment => (.comment, false)
/-- The same on a list of elements. -/
def emptiedList (p : XNode → Bool) : List XNode → List XNode × Bool
  | [] => ([], false)
  | k :: ks =>
    let r := k.emptied p
    if r.2 then (r.1 :: ks, true)
    else
      let rs := emptiedList p ks
      (k :: rs.1, rs.2)
end

/-- `del node[:]` (`inkscape/inksvg.py:205`). -/
def XNode.noKids : XNode → XNode
  | .elem ns t a _ => .elem ns t a []
  | .comment => .comment

/-- `etree.SubElement(docroot, …)` (`inkscape/inksvg.py:202`). -/
def XNode.append (doc new : XNode) : XNode :=
  match doc with
  | .elem ns t a k => .elem ns t a (k ++ [new])
  | .comment => .comment

section
variable {K : Type} [PyTrig K]

/-- The arguments of `create_layer` (`inkscape/inksvg.py:160-161`). -/
structure LayerArgs (K : Type) where
  name : Str
  opacity : Option K := none
  clear : Bool := true
  incr : Bool := false
  flipy : Bool := false
  tag : Option Str := none

/-- What `create_layer` leaves: the document, the name used and the layer. -/
structure LayerMade where
  doc : XNode
  name : Str
  layer : XNode

/-- The attributes of a new layer (`inkscape/inksvg.py:190-201`).  `fmtG` is the format `%g`; the height of the view is `h`. -/
def layerAttrs (fmtG : K → Str) (h : K) (c : LayerArgs K) (name : Str) : List (Str × Str) :=
  [("inkscape:groupmode".toList, "layer".toList), ("inkscape:label".toList, name)] ++
  (match c.tag with
   | some t => [("utlco:tag".toList, t)]
   | none => []) ++
  (match c.opacity with
   | some o => [("style".toList, "opacity: ".toList ++ PyFloat.fmt 2 (pmin (pmax o zero) one) ++ ";".toList)]
   | none => []) ++
  (if c.flipy then [("transform".toList, "translate(0, ".toList ++ fmtG h ++ ") scale(1, -1)".toList)] else [])

/-- The name and the layer, if any, that are used (`inkscape/inksvg.py:181-188`).  The loop over
suffixes is given one round per node of the document and one more; `none` would be a loop still running. -/
def layerChoice (doc : XNode) (name : Str) (incr : Bool) : Option (Str × Option At) :=
  if incr && inUse (findLayer doc name) then suffixLoop doc name ((doc.places []).length + 1) 0 else some (name, findLayer doc name)

/-- The layer made, cleared or kept (`inkscape/inksvg.py:189-208`).  An element that is made has no name space (`inkscape/inksvg.py:202`). -/
def layerUse (fmtG : K → Str) (h : K) (doc : XNode) (c : LayerArgs K) (name : Str) : Option At → LayerMade
  | none =>
    let new := XNode.elem .none "g".toList (layerAttrs fmtG h c name) []
    ⟨doc.append new, name, new⟩
  | some a =>
    if c.clear then ⟨(doc.emptied (XNode.named name)).1, name, a.node.noKids⟩
    else ⟨doc, name, a.node⟩

/-- `create_layer` (`inkscape/inksvg.py:160-206`). -/
def createLayer (fmtG : K → Str) (h : K) (doc : XNode) (c : LayerArgs K) : Option LayerMade :=
  (layerChoice doc c.name c.incr).map fun r => layerUse fmtG h doc c r.1 r.2

/-- Writing the document and reading it again, if SVG is its default name space: elements made without a name space are written without a
prefix and so are in the SVG name space after that (`svg/svg.py:124-137`, behaviour of the XML library). -/
def Ns.reread : Ns → Ns
  | .none => .svg
  | n => n

mutual
/-- The document after it is written and read again. -/
def XNode.reread : XNode → XNode
  | .elem ns t a k => .elem ns.reread t a (rereadList k)
  | .comment => .comment
/-- The same for a list. -/
def rereadList : List XNode → List XNode
  | [] => []
  | k :: ks => k.reread :: rereadList ks
end

/-- `get_visible_layers` (`inkscape/inksvg.py:285-292`): the children of the root that are layers and visible. -/
def visibleLayers : List At → Except PyErr (List At)
  | [] => .ok []
  | a :: l => do
    let vis ← if a.node.layer.isSome then nodeVisible true false (a.chain.map XNode.toNode) else .ok false
    let rest ← visibleLayers l
    pure (if vis then a :: rest else rest)

/-- The visible ones among the children of a layer (`inkscape/inksvg.py:307-310`). -/
def visibleKids : List At → Except PyErr (List At)
  | [] => .ok []
  | a :: l => do
    let vis ← nodeVisible false false (a.chain.map XNode.toNode)
    let rest ← visibleKids l
    pure (if vis then a :: rest else rest)

/-- `get_layer_elements` (`inkscape/inksvg.py:295-310`). -/
def layerElements (a : At) : Except PyErr (List At) := do
  let vis ← nodeVisible true false (a.chain.map XNode.toNode)
  if vis then visibleKids a.kids else pure []

/-- `margin_cliprect` (`inkscape/inksvg.py:91-117`); the arguments after the first are a list. -/
def marginCliprect (w h : K) (mtop : K) (args : List K) : Box K :=
  let mright := mtop
  let mbottom := mtop
  let mleft := mtop
  let mright := if 0 < args.length then args.getD 0 mright else mright
  let mleft := if 0 < args.length then args.getD 0 mleft else mleft
  let mbottom := if 1 < args.length then args.getD 1 mbottom else mbottom
  let mleft := if 2 < args.length then args.getD 2 mleft else mleft
  Box.mk' ⟨mleft, mbottom⟩ ⟨w -. mright, h -. mtop⟩

end

end Verif.Svg
