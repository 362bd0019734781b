import Verif.Svg.Output
import Verif.Svg.Layer

/-!
# Elements that are written: markers, rectangles, circles, texts; path data of single segments

`svg/svg.py:503-524` (`create_rect`, `create_circle`), `svg/svg.py:698-759` (markers and texts), and `to_svg_path` of lines, arcs and curves.
`_scale` returns its argument and is left out; `str` is an arbitrary function from numbers to texts.
-/

namespace Verif.Svg
open Verif PyFloat PyTrig Geom

/-! ## Markers -/

/-- What a marker is made of (the arguments of `create_simple_marker`, `svg/svg.py:698-699`). -/
structure MarkerArgs where
  id : Str
  d : Str
  style : Str
  transform : Str

/-- The marker element (`svg/svg.py:713-718`). -/
def markerNode (m : MarkerArgs) : XNode :=
  .elem .svg "marker".toList [("id".toList, m.id), ("orient".toList, "auto".toList), ("refX".toList, "0.0".toList), ("refY".toList, "0.0".toList),
      ("style".toList, "overflow:visible".toList)]
    [.elem .svg "path".toList [("d".toList, m.d), ("style".toList, m.style), ("transform".toList, m.transform)] []]

/-- What `self.docroot.find(svg_ns('defs'))` looks for (`svg/svg.py:704`). -/
def XNode.isDefs : XNode → Bool
  | .elem ns t _ _ => ns = .svg && t = "defs".toList
  | .comment => false

/-- What `defs.find('*[@id="…"]')` looks for (`svg/svg.py:710`). -/
def XNode.hasId (id : Str) (n : XNode) : Bool := n.get "id".toList = some id

/-- Removing the old marker, if asked to, and adding the new one (`svg/svg.py:707-718`), on the children of the definitions. -/
def putMarker (m : MarkerArgs) (replace : Bool) (kids : List XNode) : List XNode :=
  (if replace then kids.eraseP (XNode.hasId m.id) else kids) ++ [markerNode m]

/-- The same on the definitions. -/
def inDefs (m : MarkerArgs) (replace : Bool) : XNode → XNode
  | .elem ns t a k => .elem ns t a (putMarker m replace k)
  | .comment => .comment

/-- The first definitions among the children of the root are changed; they are added if there are none (`svg/svg.py:704-706`). -/
def markerKids (m : MarkerArgs) (replace : Bool) : List XNode → List XNode
  | [] => [.elem .svg "defs".toList [] [markerNode m]]
  | n :: r => if n.isDefs then inDefs m replace n :: r else n :: markerKids m replace r

/-- `create_simple_marker` (`svg/svg.py:698-718`): the document afterwards. -/
def createMarker (m : MarkerArgs) (replace : Bool) : XNode → XNode
  | .elem ns t a k => .elem ns t a (markerKids m replace k)
  | .comment => .comment

/-- The markers of the preview (`cam/gcodesvg.py:101-108`, `cam/gcodesvg.py:196-200`): `styles` gives the style of a name, `scale` is the text of
`end_marker_scale`. -/
def previewMarkers (styles : Str → Str) (scale : Str) : List MarkerArgs :=
  let arrow := "M 5.77,0.0 L -2.88,5.0 L -2.88,-5.0 L 5.77,0.0 z".toList
  [⟨"PreviewLineEnd0".toList, arrow, styles "toolpath_end_marker".toList, "scale(".toList ++ scale ++ ") translate(-4.5,0)".toList⟩,
   ⟨"PreviewLineEnd1".toList, arrow, styles "toolpath_end_marker".toList, "scale(-".toList ++ scale ++ ") translate(-4.5,0)".toList⟩,
   ⟨"PreviewLineEnd2".toList, arrow, styles "movepath_end_marker".toList, "scale(".toList ++ scale ++ ") translate(-4.5,0)".toList⟩]

/-- The loop over the markers (`cam/gcodesvg.py:196-200`). -/
def createMarkers (ms : List MarkerArgs) (doc : XNode) : XNode := ms.foldl (fun d m => createMarker m true d) doc

/-! ## Rectangles, circles and texts -/

section
variable {K : Type} [PyFloat K]

/-- The attribute `style`, if there is one (`svg/svg.py:511-512`). -/
def styleAttr (style : Option Str) : List (Str × Str) :=
  match style with
  | some s => if s = [] then [] else [("style".toList, s)]
  | none => []

/-- `create_rect` (`svg/svg.py:503-513`). -/
def createRect (str : K → Str) (pos : P K) (width height : K) (style : Option Str) : Elem :=
  ⟨"rect".toList, [("x".toList, str pos.x), ("y".toList, str pos.y), ("width".toList, str width), ("height".toList, str height)] ++ styleAttr style⟩

/-- `create_circle` (`svg/svg.py:515-524`). -/
def createCircle (str : K → Str) (center : P K) (radius : K) (style : Option Str) : Elem :=
  ⟨"circle".toList, [("r".toList, str radius), ("cx".toList, str center.x), ("cy".toList, str center.y)] ++ styleAttr style⟩

/-- The first argument of `create_text`: a text, or a list of lines. -/
inductive TextArg
  | one (s : Str)
  | lines (l : List Str)

/-- One line of a text: the `tspan` element with its two coordinates and its text (`svg/svg.py:754-758`). -/
structure TSpan (K : Type) where
  x : K
  y : K
  text : Str

/-- A text element (`svg/svg.py:733-737`). -/
structure TextElem (K : Type) where
  x : K
  y : K
  style : Str
  spans : List (TSpan K)

/-- The lines of a list (`svg/svg.py:742-744`): `y += None` raises `TypeError`. -/
def textLines (x : K) (lineHeight : Option K) : K → List Str → Except PyErr (List (TSpan K))
  | _, [] => .ok []
  | y, s :: r =>
    match lineHeight with
    | none => .error .typeError
    | some h => (textLines x lineHeight (y +. h) r).map fun l => ⟨x, y, s⟩ :: l

/-- `create_text` (`svg/svg.py:728-745`): an attribute that is `None` raises `TypeError`. -/
def createText (text : TextArg) (x y : K) (lineHeight : Option K) (style : Option Str) : Except PyErr (TextElem K) :=
  match style with
  | none => .error .typeError
  | some st =>
    match text with
    | .one s => .ok ⟨x, y, st, [⟨x, y, s⟩]⟩
    | .lines l => (textLines x lineHeight y l).map fun ls => ⟨x, y, st, ls⟩

/-! ## Path data of single segments -/

/-- Two numbers with a blank between them (`'%f %f'`). -/
def ptText (n : Nat) (p : P K) : Str := fmt n p.x ++ ' ' :: fmt n p.y

/-- `Line.to_svg_path` (`geom/line.py:600-604`); `%f` writes six digits. -/
def lineSvgPath (l : Line K) : Str := 'M' :: ' ' :: (ptText 6 l.p1 ++ ' ' :: 'L' :: ' ' :: ptText 6 l.p2)

/-- `CubicBezier.to_svg_path` (`geom/bezier.py:734-740`). -/
def bezSvgPath (b : Bez K) : Str :=
  'M' :: ' ' :: (ptText 6 b.p1 ++ ' ' :: 'C' :: ' ' :: (ptText 6 b.c1 ++ ' ' :: (ptText 6 b.c2 ++ ' ' :: ptText 6 b.p2)))

/-- `Arc.to_svg_path` (`geom/arc.py:632-641`). -/
def arcSvgPath (a : Arc K) : Str :=
  'M' :: ' ' :: (ptText 6 a.p1 ++ ' ' :: 'A' :: ' ' :: (ptText 6 ⟨a.radius, a.radius⟩ ++ ' ' :: ("0.0".toList ++ ' ' :: ("0".toList ++
    ' ' :: (natDigits (if a.angle <. zero then 0 else 1) ++ ' ' :: ptText 6 a.p2)))))

end
end Verif.Svg
