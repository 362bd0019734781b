import Verif.Cam.Main
import Verif.Svg.Layer
import Verif.Svg.NewDoc

/-!
# Model of the questions an Inkscape document answers (`inkscape/inksvg.py`)

The name of the document, its units, the selected layer, the default parent of what is drawn, the layer an element is in, names and locks of layers.  Where an
element has to be told from an equal one it is given by its address: the positions of the children on the way down from the root.
-/

namespace Verif.Svg
open Verif

mutual
/-- The addresses of a node and its descendants in document order (`node.iter()`, `//…`; `inkscape/inksvg.py:255-259`). -/
def XNode.addrs : XNode → List (List Nat)
  | .elem _ _ _ k => [] :: addrsList 0 k
  | .comment => [[]]
/-- The same for the children from position `i` on. -/
def addrsList (i : Nat) : List XNode → List (List Nat)
  | [] => []
  | k :: ks => k.addrs.map (i :: ·) ++ addrsList (i + 1) ks
end

/-- The node at an address (children as in `list(node)`; used for `inkscape/inksvg.py:255-259`). -/
def XNode.at? : XNode → List Nat → Option XNode
  | n, [] => some n
  | n, i :: p =>
    match n.kids[i]? with
    | some k => k.at? p
    | none => none

/-- What the query `//svg:g[@inkscape:groupmode="layer"]` accepts (`inkscape/inksvg.py:255`). -/
def XNode.isLayer : XNode → Bool
  | .elem .svg t a _ => t = "g".toList && a.lookup "inkscape:groupmode".toList = some "layer".toList
  | _ => false

/-- The query accepts the node at this address. -/
def XNode.layerAt (doc : XNode) (p : List Nat) : Bool :=
  match doc.at? p with
  | some n => n.isLayer
  | none => false

/-- `get_parent_layer` (`inkscape/inksvg.py:248-260`) of the node at an address: the first layer in document order among whose
descendants (and itself) the node is.  Elements are equal only if they are the same element, so that this is a question about addresses. -/
def parentLayer (doc : XNode) (p : List Nat) : Option (List Nat) := doc.addrs.find? fun q => doc.layerAt q && q.isPrefixOf p

/-- `node.get(name)` with a name without name space.  In a document with name spaces a name with a colon is never such a name
(behaviour of the XML library, `inkscape/inksvg.py:69`). -/
def XNode.getPlain (n : XNode) (name : Str) : Option Str := if name.contains ':' then none else n.get name

/-- `self.doc_name` (`inkscape/inksvg.py:69`). -/
def docName (doc : XNode) : Str := (doc.getPlain "sodipodi:docname".toList).getD "untitled.svg".toList

/-- `get_document_name` (`inkscape/inksvg.py:119-121`): the statement has no `return`. -/
def documentName (_doc : XNode) : Option Str := none

/-- `set_layer_name` (`inkscape/inksvg.py:238-241`). -/
def XNode.setLabel (name : Str) : XNode → XNode
  | .elem ns t a k => .elem ns t (("inkscape:label".toList, name) :: a.filter fun x => x.1 ≠ "inkscape:label".toList) k
  | .comment => .comment

/-- `get_layer_name` (`inkscape/inksvg.py:243-246`). -/
def XNode.label (n : XNode) : Option Str := n.get "inkscape:label".toList

/-- `layer_is_locked` (`inkscape/inksvg.py:262-268`). -/
def XNode.locked (n : XNode) : Bool :=
  match n.get "sodipodi:insensitive".toList with
  | some v => lowerS v = "true".toList
  | none => false

end Verif.Svg

namespace Verif.Cam
open Verif
open Verif.Svg (XNode At byId)

/-- `get_document_units` (`inkscape/inksvg.py:71-75,123-128`); `AttributeError` without a `namedview`. -/
def docUnits (doc : XNode) : Except PyErr Str :=
  match namedView doc with
  | none => .error .attributeError
  | some v => .ok ((v.get "inkscape:document-units".toList).getD ((v.get "units".toList).getD "px".toList))

/-- `get_selected_layer` (`inkscape/inksvg.py:79,130-139`); `AttributeError` without a `namedview`. -/
def selectedLayer (doc : XNode) : Except PyErr (Option At) :=
  match namedView doc with
  | none => .error .attributeError
  | some v => .ok ((v.get "inkscape:current-layer".toList).bind (byId doc))

/-- The parent of everything that is drawn without a parent given (`inkscape/inksvg.py:80-83`, `svg/svg.py:302-304`). -/
def defaultParent (doc : XNode) : Except PyErr At := (selectedLayer doc).map fun l => l.getD ⟨doc, []⟩

end Verif.Cam
