import Verif.Ext.Pipes
import Verif.Svg.Css
import Verif.Geom.Biarc
import Verif.Geom.Polygon

/-!
# Model of the extension `tcnc/colorcount.py`

The elements are the ones found by `get_shape_elements(get_elements())` (C76, C112), each with its `style` attribute, its geometry in document coordinates (C77, C78, C87) and the layer it is in; layers are not nested, as
`get_parent_layer` assumes.  `color_count.keys()` and `.items()` of Python 2 list the colours in an arbitrary order, the same for both; the order is an arbitrary function.
Sizes are in user units (C75), the styles are in `Ext/Styles.lean`, and the text of polygons and rectangles in `Svg/Output.lean`.
-/

namespace Verif.Ext
open Verif PyFloat PyTrig Geom Css

variable {K : Type} [PyFloat K] [PyTrig K]

/-- An element of the drawing: `element.get('style')`, `svg_element_to_geometry(element)` and the layer it is in (`inkscape/inksvg.py:248-260`). -/
structure ColorElem (K : Type) where
  style : Option Str
  paths : List (List (Shape K))
  layer : Option Nat
  deriving DecidableEq, Repr

/-- A layer: its attributes, whether what was in it before the run is still there, and the copies put into it. -/
structure ColorLayer (K : Type) where
  label : Option Str
  style : Option Str
  transform : Option Str
  kept : Bool
  copies : List (ColorElem K)
  deriving DecidableEq, Repr

/-- `self.svg.create_layer(name)` without further arguments (`inkscape/inksvg.py:160-205`): the layer of that name without its contents, or a new one. -/
def openLayer (layers : List (ColorLayer K)) (name : Str) : List (ColorLayer K) × Nat :=
  match layers.findIdx? (fun l => l.label = some name) with
  | some i => (layers.modify i fun l => { l with kept := false, copies := [] }, i)
  | none => (layers ++ [⟨some name, none, none, true, []⟩], layers.length)

/-- `stylemap.get('fill')` of an element (`colorcount.py:95-98`). -/
def fillOf (e : ColorElem K) : Except PyErr (Option Str) :=
  match e.style with
  | none => .ok none
  | some s => do
    let d ← inlineStyleToDict (some s)
    pure (d.get "fill".toList)

/-- The variables of the loop of `run` (`colorcount.py:88-91`). -/
structure ColorState (K : Type) where
  pathlist : List (List (Shape K) × Str)
  counts : List (Str × Nat)
  shapes : List (Str × List (Shape K))
  layers : List (ColorLayer K)
  colorLayers : List (Str × Nat)
  deriving DecidableEq, Repr

/-- `str.lstrip('#')`. -/
def lstripHash : Str → Str
  | '#' :: r => lstripHash r
  | s => s

/-- `self.svg.get_parent_layer(element)` (`inkscape/inksvg.py:248-260`): nothing if the layer has been emptied since. -/
def parentLayer (layers : List (ColorLayer K)) (e : ColorElem K) : Option (ColorLayer K) :=
  match e.layer with
  | none => none
  | some i =>
    match layers[i]? with
    | none => none
    | some l => if l.kept then some l else none

/-- `'%s' % name` of a layer's label, which can be `None`. -/
def labelText : Option Str → Str
  | none => "None".toList
  | some s => s

/-- The attributes set by `_add_color_layer` (`colorcount.py:244-247`). -/
def ColorLayer.like (parent l : ColorLayer K) : ColorLayer K :=
  { l with
    style := if parent.style.isSome then parent.style else l.style
    transform := if parent.transform.isSome then parent.transform else l.transform }

/-- `_add_color_layer` (`colorcount.py:237-249`); an element outside any layer gives `AttributeError`. -/
def addColorLayer (st : ColorState K) (e : ColorElem K) (color : Str) : Except PyErr (ColorState K) :=
  match parentLayer st.layers e with
  | none => .error .attributeError
  | some parent =>
    let o := openLayer st.layers (labelText parent.label ++ '_' :: lstripHash color)
    .ok { st with
      layers := o.1.modify o.2 parent.like
      colorLayers := (color, o.2) :: st.colorLayers }

/-- `_copy_to_layer` (`colorcount.py:226-231`). -/
def copyToLayer (st : ColorState K) (e : ColorElem K) (color : Str) : Except PyErr (ColorState K) := do
  let st ← if (st.colorLayers.lookup color).isNone then addColorLayer st e color else pure st
  match st.colorLayers.lookup color with
  | none => .error .attributeError
  | some i => pure { st with layers := st.layers.modify i fun l => { l with copies := l.copies ++ [e] } }

/-- `color_count[color] += 1`. -/
def addOne (counts : List (Str × Nat)) (color : Str) : List (Str × Nat) := counts.map fun c => if c.1 = color then (c.1, c.2 + 1) else c

/-- The counting of a filled element (`colorcount.py:104-110`): the first path stands for a new colour. -/
def countColor (separate : Bool) (st : ColorState K) (e : ColorElem K) (color : Str) : Except PyErr (ColorState K) :=
  if (st.counts.lookup color).isSome then .ok { st with counts := addOne st.counts color }
  else
    match e.paths with
    | [] => .error .indexError
    | path :: _ =>
      let st := { st with counts := st.counts ++ [(color, 1)], shapes := st.shapes ++ [(color, path)] }
      if separate then addColorLayer st e color else .ok st

/-- One round of the loop of `run` (`colorcount.py:94-112`). -/
def countElement (separate : Bool) (st : ColorState K) (e : ColorElem K) : Except PyErr (ColorState K) := do
  match ← fillOf e with
  | none => pure st
  | some color =>
    let st := { st with pathlist := st.pathlist ++ e.paths.map fun p => (p, color) }
    let st ← countColor separate st e color
    if separate then copyToLayer st e color else pure st

/-- The loop of `run` (`colorcount.py:94-112`). -/
def countElements (separate : Bool) : ColorState K → List (ColorElem K) → Except PyErr (ColorState K)
  | st, [] => .ok st
  | st, e :: r => do
    let st ← countElement separate st e
    countElements separate st r

/-- What is drawn in the layers of the key and the tags. -/
inductive ColorMark (K : Type) where
  | text (s : Str) (x y : K)
  | polygon (points : List (P K))
  | rect (x y width height : K) (fill : Str)
  deriving DecidableEq, Repr

/-- The options (`colorcount.py:36-51`) and sizes in user units (`colorcount.py:115-119`, `148-149`, `201`). -/
structure ColorOpts (K : Type) where
  separate : Bool
  shapeKey : Bool
  tagShapes : Bool
  prefix' : Str
  enumStart : Int
  keyFont : K
  tagFont : K
  left : K
  top : K
  boxWidth : K
  boxHeight : K

/-- `_path_to_poly` (`colorcount.py:217-224`); `IndexError` for a path without segments. -/
def pathToPoly (path : List (Shape K)) : Except PyErr (List (P K)) :=
  match path with
  | [] => .error .indexError
  | s :: r => .ok (s.p1 :: (s :: r).map Shape.p2)

/-- `_draw_annotation` (`colorcount.py:198-205`). -/
def colorTag (o : ColorOpts K) (c : P K) (index : Nat) : ColorMark K :=
  let offset := o.tagFont /. ofInt 2
  .text (o.prefix' ++ intDigits (index + o.enumStart)) (c.x +. PyFloat.neg offset) (c.y +. offset)

/-- `_draw_key_item_text` (`colorcount.py:177-181`). -/
def keyItemText (o : ColorOpts K) (y : K) (count : Nat) (color : Str) : ColorMark K :=
  .text ("count: ".toList ++ natDigits count ++ ", color: ".toList ++ color) o.left y

/-- `_draw_key_total` (`colorcount.py:183-187`). -/
def keyTotal (o : ColorOpts K) (y : K) (total : Nat) : ColorMark K := .text ("Total: ".toList ++ natDigits total) o.left y

/-- `key_line_height`, `key_bottom_margin` (`colorcount.py:116-117`). -/
def ColorOpts.gap (o : ColorOpts K) : K := o.keyFont *. lit 15 1

/-- `_draw_key_shape` (`colorcount.py:163-175`). -/
def drawKeyShape (o : ColorOpts K) (poly : List (P K)) (bbox : Box K) (y : K) (index : Nat) : Except PyErr (List (ColorMark K)) := do
  let dx := o.left -. bbox.p1.x
  let dy := y -. bbox.p1.y
  let tpoly := poly.map fun p => p.add ⟨dx, dy⟩
  let c ← polyCentroid tpoly
  pure [colorTag o c index, .polygon tpoly]

/-- The loop of `_draw_color_key_shapes` (`colorcount.py:130-144`): the marks, the next line and the total. -/
def keyShapes (o : ColorOpts K) (fmax fmin : K) (colors : List Str) (counts : List (Str × Nat)) (shapes : List (Str × List (Shape K))) :
    List Str → K → Nat → Except PyErr (List (ColorMark K))
  | [], y, total => .ok [keyTotal o (y +. o.gap) total]
  | color :: r, y, total =>
    match counts.lookup color, shapes.lookup color with
    | some count, some path => do
      let poly ← pathToPoly path
      let bbox := pointsBox fmax fmin poly
      let marks ← drawKeyShape o poly bbox y (colors.idxOf color)
      let y' := y +. ((bbox.p2.y -. bbox.p1.y) +. o.gap)
      let rest ← keyShapes o fmax fmin colors counts shapes r (y' +. o.gap) (total + count)
      pure (marks ++ keyItemText o y' count color :: rest)
    | _, _ => .error .keyError

/-- The loop of `_draw_color_key_boxes` (`colorcount.py:146-161`). -/
def keyBoxes (o : ColorOpts K) : List (Str × Nat) → K → Nat → List (ColorMark K)
  | [], y, total => [keyTotal o (y +. o.gap) total]
  | (color, count) :: r, y, total =>
    let y' := y +. (o.boxHeight +. o.gap)
    .rect o.left y o.boxWidth o.boxHeight color :: keyItemText o y' count color :: keyBoxes o r (y' +. o.gap) (total + count)

/-- `_tag_shapes` (`colorcount.py:189-196`, `207-211`). -/
def tagPaths (o : ColorOpts K) (colors : List Str) : List (List (Shape K) × Str) → Except PyErr (List (ColorMark K))
  | [] => .ok []
  | (path, color) :: r => do
    let poly ← pathToPoly path
    let c ← polyCentroid poly
    let rest ← tagPaths o colors r
    pure (colorTag o c (colors.idxOf color) :: rest)

/-- What the extension leaves in the document: the layers, the marks of the layer `colorkey` and of the layer `colortags`. -/
structure ColorDrawn (K : Type) where
  layers : List (ColorLayer K)
  key : List (ColorMark K)
  tags : Option (List (ColorMark K))
  deriving DecidableEq, Repr

/-- The state before the loop. -/
def colorStart (layers : List (ColorLayer K)) : ColorState K := ⟨[], [], [], layers, []⟩

/-- The key (`colorcount.py:123-126`). -/
def colorKey (o : ColorOpts K) (fmax fmin : K) (colors : List Str) (st : ColorState K) : Except PyErr (List (ColorMark K)) :=
  if o.shapeKey then keyShapes o fmax fmin colors st.counts st.shapes colors o.top 0
  else .ok (keyBoxes o (colors.map fun c => (c, (st.counts.lookup c).getD 0)) o.top 0)

/-- The tags, if asked for (`colorcount.py:127-128`). -/
def colorTags (o : ColorOpts K) (colors : List Str) (st : ColorState K) : Except PyErr (Option (List (ColorMark K))) :=
  if o.tagShapes then (tagPaths o colors st.pathlist).map some else .ok none

/-- The layers of the key and the tags (`colorcount.py:120-122`). -/
def keyLayers (o : ColorOpts K) (layers : List (ColorLayer K)) : List (ColorLayer K) :=
  let layers := (openLayer layers "colorkey".toList).1
  if o.tagShapes then (openLayer layers "colortags".toList).1 else layers

/-- The key and the tags (`colorcount.py:114-128`). -/
def drawColorKey (o : ColorOpts K) (fmax fmin : K) (order : List Str → List Str) (st : ColorState K) : Except PyErr (ColorDrawn K) := do
  let colors := order (st.counts.map Prod.fst)
  let key ← colorKey o fmax fmin colors st
  let tags ← colorTags o colors st
  pure ⟨keyLayers o st.layers, key, tags⟩

/-- `ColorCount.run` (`colorcount.py:78-128`). -/
def colorRun (o : ColorOpts K) (fmax fmin : K) (order : List Str → List Str) (layers : List (ColorLayer K)) (elems : List (ColorElem K)) : Except PyErr (ColorDrawn K) := do
  let st ← countElements o.separate (colorStart layers) elems
  if st.counts.isEmpty then pure ⟨st.layers, [], none⟩ else drawColorKey o fmax fmin order st

end Verif.Ext
