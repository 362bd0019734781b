import Verif.Svg.Tree

/-!
# New documents

`create_svg_document`, `random_id` (`svg/svg.py:1028-1045`; `SVGContext.create_document`, `svg/svg.py:86-106`, does the same) and `create_inkscape_document` (`inkscape/inksvg.py:443-477`).
-/

namespace Verif.Svg
open Verif PyFloat PyTrig Geom Css

section
variable {K : Type} [PyTrig K]

/-- `s.rstrip(c)` for one character. -/
def rstripC (c : Char) (s : Str) : Str := (s.reverse.dropWhile (· == c)).reverse

/-- `floatystr` (`svg/svg.py:1010-1014`): `%f` without trailing zeros. -/
def floatyStr (v : K) : Str := rstripC '.' (rstripC '0' (PyFloat.fmt 6 v))

/-- `random_id` without a root node (`svg/svg.py:1041`): the prefix and a random number. -/
def randomId (pre : Str) (r : Nat) : Str := pre ++ natDigits r

/-- `random_id` with the root of a document (`svg/svg.py:1041-1045`), an `ElementTree`: the name `id` in the condition is the
built-in function, so that the document is searched for the text of that function (`rootnode` searched from the root).  `rs` are
the random numbers; `none`: still looping after `fuel` rounds. -/
def randomIdIn (doc : XNode) (pre : Str) (rs : Nat → Nat) : Nat → Nat → Option Str
  | 0, _ => none
  | fuel + 1, i => if (byId doc "<built-in function id>".toList).isSome then randomIdIn doc pre rs fuel (i + 1) else some (randomId pre (rs i))

/-- The attributes of the root of a new document (`svg/svg.py:1015-1024`).  The attribute is spelled `viewbox`. -/
def rootAttrs (width height : K) (units docId : Str) : List (Str × Str) :=
  [("width".toList, floatyStr width ++ units), ("height".toList, floatyStr height ++ units),
    ("viewbox".toList, "0 0 ".toList ++ floatyStr width ++ ' ' :: floatyStr height), ("id".toList, docId)]

/-- `create_svg_document` (`svg/svg.py:993-1025`); `docId` is the given id or the random one. -/
def newSvg (width height : K) (units docId : Str) : XNode := .elem .svg "svg".toList (rootAttrs width height units docId) []

/-- The arguments of `create_inkscape_document` (`inkscape/inksvg.py:443-445`). -/
structure NewDoc (K : Type) where
  width : K
  height : K
  units : Str := "px".toList
  docId : Str
  docName : Option Str := none
  layerName : Option Str := none
  layerId : Str := "defaultlayer".toList

/-- A text that is given and not empty. -/
def given : Option Str → Option Str
  | some s => if s.isEmpty then none else some s
  | none => none

/-- `sodipodi:docname` (`inkscape/inksvg.py:467-468`). -/
def NewDoc.nameAttr (d : NewDoc K) : List (Str × Str) :=
  match given d.docName with
  | some s => [("sodipodi:docname".toList, s)]
  | none => []

/-- The `namedview` element (`inkscape/inksvg.py:469-471,476`). -/
def NewDoc.view (d : NewDoc K) : XNode :=
  .elem .other "namedview".toList ([("id".toList, "namedview".toList), ("inkscape:document-units".toList, d.units)] ++
    match given d.layerName with
    | some _ => [("inkscape:current-layer".toList, d.layerId)]
    | none => []) []

/-- The default layer, if it is asked for (`inkscape/inksvg.py:472-475`). -/
def NewDoc.layers (d : NewDoc K) : List XNode :=
  match given d.layerName with
  | some s => [.elem .svg "g".toList [("id".toList, d.layerId), ("inkscape:groupmode".toList, "layer".toList), ("inkscape:label".toList, s)] []]
  | none => []

/-- `create_inkscape_document` (`inkscape/inksvg.py:443-477`). -/
def newInkscape (d : NewDoc K) : XNode :=
  .elem .svg "svg".toList (rootAttrs d.width d.height d.units d.docId ++ d.nameAttr) (d.view :: d.layers)

end
end Verif.Svg
