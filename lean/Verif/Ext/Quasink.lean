import Verif.Cam.Model
import Verif.Geom.Polygon
import Verif.Geom.Ellipse
import Verif.Ext.Quasi

/-!
# Model of `quasink.py`: drawing quasicrystal tilings

What is modelled: the projection, the plotter that collects and clips what `quasi.py` plots, re-centering, the sorting of the tiles, and what is drawn of tiles, boxes, edges, segments, segment
chains and inset tiles, as lists of points with their colours and layers.  Left out: the writing of the SVG elements (see `Svg/Output.lean`), the texts of the styles and the information
layer; the margins, the frame, the ellipses and `_draw_polygon_circles` (never called) are in `QMarks.lean`.
-/

set_option linter.unusedSectionVars false

namespace Verif.Ext
open Verif PyFloat PyTrig Geom

variable {K : Type} [PyTrig K]

/-- A `SphericalProjector` (`quasink.py:43-49`); `none` is the `IdentityProjector` (`quasink.py:36-40`). -/
structure Sphere (K : Type) where
  center : P K
  radius : K
  invert : Bool

/-- `project` (`quasink.py:39-40,51-59`). -/
def project (proj : Option (Sphere K)) (p : P K) : Except PyErr (P K) :=
  match proj with
  | none => .ok p
  | some s =>
    let v := p.sub s.center
    let h := v.length
    if s.radius <. h then .ok p
    else do
      let a ← pdiv (h *. (pi /. ofInt 2)) s.radius
      let scale ← if s.invert then .ok (sin a) else pdiv (s.radius *. sin a) h
      pure ((v.mul scale).add s.center)

/-- The clipping region (`quasink.py:204-209`). -/
inductive Region (K : Type) where
  | all
  | box (b : Box K)
  | ellipse (e : Ell K)

/-- `clip_region.point_inside(p)` (`quasink.py:785`), true when there is no region. -/
def Region.inside (eps : K) : Region K → P K → Except PyErr Bool
  | .all, _ => .ok true
  | .box b, p => .ok (b.pointInside p)
  | .ellipse e, p => e.pointInside eps p

/-- The options of a `_QuasiPlotter` (`quasink.py:656-681`); `clip_all` is always true.  `fmax` and `fmin` are `sys.float_info.max` and `.min`. -/
structure PlotOpts (K : Type) where
  eps : K
  fmax : K
  fmin : K
  region : Region K
  matrix : Mat K
  proj : Option (Sphere K)

/-- What the plotter has collected (`quasink.py:669-692`). -/
structure Plot (K : Type) where
  polygons : List (List (P K))
  polygonColors : List K
  segments : List (Line K)
  segpolys : List (List (P K))
  segpolyColors : List K
  colorCount : List (K × Nat)
  segCount : List (K × Nat)
  xmin : K
  ymin : K
  xmax : K
  ymax : K

/-- The plotter before anything is plotted (`quasink.py:669-692`). -/
def Plot.empty (o : PlotOpts K) : Plot K := ⟨[], [], [], [], [], [], [], o.fmax, o.fmax, o.fmin, o.fmin⟩

/-- The transformed and projected points, with the number of points outside (`quasink.py:779-786`). -/
def placeFrom (o : PlotOpts K) : List (P K) → Except PyErr (List (P K) × Nat)
  | [] => .ok ([], 0)
  | v :: vs => do
    let p ← project o.proj (o.matrix.apply v)
    let inside ← o.region.inside o.eps p
    let rest ← placeFrom o vs
    pure (p :: rest.1, if inside then rest.2 else rest.2 + 1)

/-- `_transform` (`quasink.py:773-789`). -/
def plotPlace (o : PlotOpts K) (vs : List (P K)) : Except PyErr (List (P K)) := do
  let r ← placeFrom o vs
  pure (if r.2 > 0 then [] else r.1)

/-- `color in d` for a dictionary `d` with numbers as keys. -/
def dictHas (d : List (K × Nat)) (color : K) : Bool := d.any fun e => beq e.1 color

/-- `d[color] = 1` for a `color` that is not in the dictionary. -/
def dictSet (d : List (K × Nat)) (color : K) (n : Nat) : List (K × Nat) :=
  if dictHas d color then d.map fun e => if beq e.1 color then (e.1, n) else e else d ++ [(color, n)]

/-- `d[color] += 1`: `KeyError` if the colour is not in the dictionary. -/
def dictIncr (d : List (K × Nat)) (color : K) : Except PyErr (List (K × Nat)) :=
  if dictHas d color then .ok (d.map fun e => if beq e.1 color then (e.1, e.2 + 1) else e) else .error .keyError

/-- Counting a colour (`quasink.py:712-715,733-736`): `seen` is the dictionary that is asked, `d` the one that is changed. -/
def bumpCount (seen d : List (K × Nat)) (color : K) : Except PyErr (List (K × Nat)) :=
  if dictHas seen color then dictIncr d color else .ok (dictSet d color 1)

/-- `_update_bbox` (`quasink.py:791-797`). -/
def growBox (pl : Plot K) (points : List (P K)) : Plot K :=
  points.foldl (fun pl p => { pl with xmin := pmin pl.xmin p.x, ymin := pmin pl.ymin p.y, xmax := pmax pl.xmax p.x, ymax := pmax pl.ymax p.y }) pl

/-- `plot_polygon` (`quasink.py:694-717`): the collected geometry, and whether the polygon was plotted. -/
def plotPolygon (o : PlotOpts K) (pl : Plot K) (vs : List (P K)) (color : K) : Except PyErr (Plot K × Bool) := do
  let xs ← plotPlace o vs
  if xs.isEmpty then pure (pl, false)
  else do
    let pl := growBox pl xs
    let count ← bumpCount pl.colorCount pl.colorCount color
    pure ({ pl with polygons := pl.polygons ++ [xs], colorCount := count, polygonColors := pl.polygonColors ++ [color] }, true)

/-- `plot_segment` (`quasink.py:719-724`). -/
def plotSegment (o : PlotOpts K) (pl : Plot K) (p1 p2 : P K) : Except PyErr (Plot K) := do
  let a ← project o.proj (o.matrix.apply p1)
  let b ← project o.proj (o.matrix.apply p2)
  pure { pl with segments := pl.segments ++ [⟨a, b⟩] }

/-- `plot_segpoly` (`quasink.py:726-738`): the test looks at the colours of the polygons, the count is that of the boxes. -/
def plotSegpoly (o : PlotOpts K) (pl : Plot K) (vs : List (P K)) (color : K) : Except PyErr (Plot K) := do
  let xs ← plotPlace o vs
  if xs.isEmpty then pure pl
  else do
    let count ← bumpCount pl.colorCount pl.segCount color
    pure { pl with segpolys := pl.segpolys ++ [xs], segCount := count, segpolyColors := pl.segpolyColors ++ [color] }

/-- One call of the plotter. -/
def plotCall (o : PlotOpts K) (pl : Plot K) : Call K → Except PyErr (Plot K)
  | .polygon vs color => (plotPolygon o pl vs color).map Prod.fst
  | .segment p1 p2 => plotSegment o pl p1 p2
  | .segpoly vs color => plotSegpoly o pl vs color

/-- Everything `quasi.py` tells the plotter, in order. -/
def plotCalls (o : PlotOpts K) (calls : List (Call K)) : Except PyErr (Plot K) := calls.foldlM (plotCall o) (Plot.empty o)

/-- What `plot_polygon` answers to the last call (`quasink.py:698-700,717`). -/
def plotReply (o : PlotOpts K) (calls : List (Call K)) : Bool :=
  match calls.getLast? with
  | some (.polygon vs _) => match plotPlace o vs with
    | .ok xs => !xs.isEmpty
    | .error _ => false
  | _ => false

/-- `recenter` (`quasink.py:740-765`).  The centre of a `Box` is a method, that of an `Ellipse` is a point. -/
def recenter (o : PlotOpts K) (pl : Plot K) : Except PyErr (Plot K) :=
  match o.region with
  | .all => .ok pl
  | .box _ => .error .typeError
  | .ellipse e =>
    let cx := (pl.xmax -. pl.xmin) /. ofInt 2
    let cy := (pl.ymax -. pl.ymin) /. ofInt 2
    let off := e.center.sub ⟨pl.xmin +. cx, pl.ymin +. cy⟩
    .ok { pl with
      polygons := pl.polygons.map fun poly => poly.map fun p => p.add off
      segments := pl.segments.map fun s => ⟨s.p1.add off, s.p2.add off⟩
      xmin := pl.xmin +. off.x, xmax := pl.xmax +. off.x, ymin := pl.ymin +. off.y, ymax := pl.ymax +. off.y }

/-- `bbox` (`quasink.py:767-771`). -/
def Plot.bbox (pl : Plot K) : Box K := Box.mk' ⟨pl.xmin, pl.ymin⟩ ⟨pl.xmax, pl.ymax⟩

/-! ## The clipping region -/

/-- The settings of `run` for the clipping region (`quasink.py:184-214`). -/
structure ClipOpts (K : Type) where
  eps : K
  docWidth : K
  docHeight : K
  marginLeft : K
  marginTop : K
  marginRight : K
  marginBottom : K
  toDoc : Bool
  toMargins : Bool
  toCircle : Bool
  offsetCenter : Bool

/-- The rectangle of the margins (`quasink.py:192-195`). -/
def marginRect (o : ClipOpts K) : Box K :=
  Box.mk' ⟨o.marginLeft, o.marginTop⟩ (P.sub ⟨o.docWidth, o.docHeight⟩ ⟨o.marginRight, o.marginBottom⟩)

/-- The clipping rectangle (`quasink.py:191,196-202`). -/
def clipRect (o : ClipOpts K) : Option (Box K) :=
  let doc := Box.mk' ⟨zero, zero⟩ ⟨o.docWidth, o.docHeight⟩
  if o.toDoc && o.toMargins then doc.intersection (marginRect o)
  else if o.toDoc then some doc
  else if o.toMargins then some (marginRect o)
  else none

/-- The clipping region (`quasink.py:204-209`). -/
def clipRegion (o : ClipOpts K) : Region K :=
  match clipRect o with
  | none => .all
  | some r =>
    if o.toCircle then .ellipse (Ell.mk' o.eps r.center (pmin (r.p2.x -. r.p1.x) (r.p2.y -. r.p1.y) /. ofInt 2) none zero)
    else .box r

/-- What is added to the offset of the tiling (`quasink.py:211-214`). -/
def centerOffset (o : ClipOpts K) : Except PyErr (P K) :=
  if o.offsetCenter then
    match clipRect o with
    | none => .error .attributeError
    | some r => .ok (r.center.sub ⟨o.docWidth /. ofInt 2, o.docHeight /. ofInt 2⟩)
  else .ok ⟨zero, zero⟩

/-- The transformation of the plotter (`quasink.py:225-231`). -/
def plotMatrix (docWidth docHeight scale rotate offX offY : K) : Mat K :=
  let scale := scale *. lit 1 1
  let off := P.add ⟨docWidth /. ofInt 2, docHeight /. ofInt 2⟩ ⟨offX, offY⟩
  Mat.compose (Mat.rotate rotate) (Mat.scaleTranslate scale scale off.x off.y)

/-! ## Sorting the tiles -/

/-- `list.sort(key=…)`, with the keys already worked out. -/
def sortKeyed {A κ : Type} (lt : κ → κ → Bool) (rev : Bool) (l : List (κ × A)) : List A :=
  (Cam.pySort (fun a b => if rev then lt b.1 a.1 else lt a.1 b.1) l).map Prod.snd

/-- The order in which things are drawn (`quasink.py:274-293`) for the method `sort` (1: inside out, 2: outside in): first by the angle, then by the distance of their middle `loc` from `hull`, the centroid of the hull, in units of `size`, the
length of the first side of the first tile. -/
def sortAround {A : Type} (eps : K) (sort : Int) (hull : P K) (size : K) (loc : A → Except PyErr (P K)) (l : List A) : Except PyErr (List A) := do
  let byAngle ← l.mapM fun a => do
    let c ← loc a
    pure (hull.ccwAngle2 eps (hull.add ⟨one, zero⟩) c, a)
  let l := sortKeyed (fun a b : K => a <. b) false byAngle
  let byDist ← l.mapM fun a => do
    let c ← loc a
    let d ← pdiv (hull.distance c) size
    pure (trunc d, a)
  if sort = 1 then pure (sortKeyed (fun a b : Int => decide (a < b)) false byDist)
  else if sort = 2 then pure (sortKeyed (fun a b : Int => decide (a < b)) true byDist)
  else pure l

/-- The order of the tiles (`quasink.py:277-278,284,287,291`): `ZeroDivisionError` if the first side of the first tile has no length or a tile has no centroid. -/
def sortTiles (eps : K) (sort : Int) (hull : P K) (size : K) (polys : List (List (P K))) : Except PyErr (List (List (P K))) :=
  sortAround eps sort hull size polyCentroid polys

/-- The order of the edges and of the segments (`quasink.py:279-281,285,288-289,292-293`). -/
def sortSegs (eps : K) (sort : Int) (hull : P K) (size : K) (segs : List (Line K)) : Except PyErr (List (Line K)) :=
  sortAround eps sort hull size (fun s => .ok s.midpoint) segs

/-! ## Drawing -/

/-- `fill_lut[i % len(fill_lut)]`: `ZeroDivisionError` for an empty table. -/
def lutAt (lut : List Str) (i : Int) : Except PyErr Str :=
  if lut.isEmpty then .error .zeroDivision else getIx lut (i.emod lut.length).toNat

/-- `sorted(d.keys())` (`quasink.py:418,448`). -/
def sortedKeys (d : List (K × Nat)) : List K := Cam.pySort (fun a b => a <. b) (d.map Prod.fst)

/-- `list.index(color)`: `ValueError` if it is not there. -/
def indexOf (color : K) : List K → Except PyErr Nat
  | [] => .error .valueError
  | c :: cs => if beq c color then .ok 0 else (indexOf color cs).map (· + 1)

/-- The loop of `_draw_polygons` (`quasink.py:424-435`), filled tiles from the tile `i` on: the corners and the colour of each. -/
def fillFrom (zfill : Bool) (lut : List Str) (lutOffset : Int) (colors : List K) (fillColors : List K) :
    List (List (P K)) → Nat → Int → Except PyErr (List (List (P K) × Str))
  | [], _, _ => .ok []
  | vs :: rest, i, ci => do
    let ci ← if zfill then do
        let color ← getIx colors i
        let k ← indexOf color fillColors
        pure (k : Int)
      else pure (ci + 1)
    if lut.isEmpty then .error .zeroDivision
    else do
      let ci := (ci + lutOffset).emod lut.length
      let css ← getIx lut ci.toNat
      let out ← fillFrom zfill lut lutOffset colors fillColors rest (i + 1) ci
      pure ((vs, css) :: out)

/-- `_draw_polygons` with fills (`quasink.py:406-435`). -/
def drawFilled (zfill : Bool) (lut : List Str) (lutOffset : Int) (pl : Plot K) : Except PyErr (List (List (P K) × Str)) :=
  fillFrom zfill lut lutOffset pl.polygonColors (sortedKeys pl.colorCount) pl.polygons 0 0

/-- A box as it is drawn: its corners, its colour and the number of its layer (`none`: the only layer). -/
structure DrawnBox (K : Type) where
  vertices : List (P K)
  css : Str
  layer : Option Nat
deriving DecidableEq

/-- The loop of `_draw_segboxes` (`quasink.py:460-473`) from the box `i` on; `nlayers` is the number of layers if there is a layer for each kind. -/
def boxesFrom (zfill : Bool) (lut : List Str) (lutOffset : Int) (colors : List K) (fillColors : List K) (nlayers : Option Nat) :
    List (List (P K)) → Nat → Nat → Except PyErr (List (DrawnBox K))
  | [], _, _ => .ok []
  | vs :: rest, i, ci => do
    let ci ← if zfill then do
        let color ← getIx colors i
        indexOf color fillColors
      else pure (ci + 1)
    let css ← lutAt lut (ci + lutOffset)
    let layer ← match nlayers with
      | none => pure none
      | some n => if ci < n then pure (some ci) else .error .indexError
    let out ← boxesFrom zfill lut lutOffset colors fillColors nlayers rest (i + 1) ci
    pure (⟨vs, css, layer⟩ :: out)

/-- `_draw_segboxes` (`quasink.py:443-473`). -/
def drawBoxes (zfill layers : Bool) (lut : List Str) (lutOffset : Int) (pl : Plot K) : Except PyErr (List (DrawnBox K)) :=
  let fillColors := sortedKeys pl.segCount
  boxesFrom zfill lut lutOffset pl.segpolyColors fillColors (if layers then some fillColors.length else none) pl.segpolys 0 0

/-- A segment, scaled about its middle (`quasink.py:541-544,557-560`). -/
def scaleSeg (scale : K) (s : Line K) : Except PyErr (Line K) :=
  if !(beq scale one) then
    let len := s.length
    s.extend ((len *. scale) -. len) true
  else .ok s

/-- An edge, cut to the margins if asked for (`quasink.py:545-546`). -/
def cutTo (eps : K) (margins : Option (Box K)) (s : Line K) : Option (Line K) :=
  match margins with
  | none => some s
  | some b => b.clipLine eps s

/-- The loop of `_draw_polygon_segments` (`quasink.py:540-552`): the segment, its colour and the number of its layer. -/
def edgesFrom (eps scale : K) (margins : Option (Box K)) (lut : List Str) (layers : Bool) :
    List (Line K) → Nat → Except PyErr (List (Line K × Str × Option Nat))
  | [], _ => .ok []
  | s :: rest, ci => do
    let s ← scaleSeg scale s
    let clipped := cutTo eps margins s
    let css ← getIx lut ci
    let ci := (ci + 1) % lut.length
    match clipped with
    | none => .error .attributeError
    | some s => do
      let out ← edgesFrom eps scale margins lut layers rest ci
      pure ((s, css, if layers then some ci else none) :: out)

/-- `_draw_polygon_segments` (`quasink.py:529-552`). -/
def drawEdges (eps scale : K) (margins : Option (Box K)) (lut : List Str) (layers : Bool) (segs : List (Line K)) :
    Except PyErr (List (Line K × Str × Option Nat)) := edgesFrom eps scale margins lut layers segs 0

/-- `_draw_segments` (`quasink.py:554-563`). -/
def drawSegments (scale : K) (segs : List (Line K)) : Except PyErr (List (Line K)) := segs.mapM (scaleSeg scale)

/-- `_inset_polygon` (`quasink.py:487-506`): `none` if the polygon is too small; a corner is `None` where two sides do not cross. -/
def insetPolygon (eps : K) (a b c d : P K) (offset : K) : Option (List (Option (P K))) :=
  let l1 : Line K := ⟨a, b⟩
  let l2 : Line K := ⟨b, c⟩
  let l3 : Line K := ⟨c, d⟩
  let l4 : Line K := ⟨d, a⟩
  let d1 := l1.distanceToPoint eps c
  let d2 := l2.distanceToPoint eps a
  if (offset *. ofInt 2 <=. d1) && (offset *. ofInt 2 <=. d2) then
    let off := offset *. ofInt (l1.whichSide eps c)
    let o1 := l1.offset eps off
    let o2 := l2.offset eps off
    let o3 := l3.offset eps off
    let o4 := l4.offset eps off
    some [o4.intersection eps o1, o1.intersection eps o2, o2.intersection eps o3, o3.intersection eps o4]
  else none

/-- The inset polygons of one layer (`quasink.py:481-484`); `IndexError` for a polygon with fewer than four corners. -/
def insetLayer (eps offset : K) : List (List (P K)) → Except PyErr (List (List (Option (P K))))
  | [] => .ok []
  | (a :: b :: c :: d :: _) :: rest => do
    let out ← insetLayer eps offset rest
    pure ((insetPolygon eps a b c d offset).toList ++ out)
  | _ :: _ => .error .indexError

/-- The loop of `_draw_inset_polygons` (`quasink.py:475-485`) for `n` more layers. -/
def insetsFrom (eps step : K) (polys : List (List (P K))) : Nat → K → Except PyErr (List (List (List (Option (P K)))))
  | 0, _ => .ok []
  | n + 1, total => do
    let layer ← insetLayer eps total polys
    let out ← insetsFrom eps step polys n (total +. step)
    pure (layer :: out)

/-- `_draw_inset_polygons` (`quasink.py:475-485`): the polygons in each layer. -/
def drawInsets (eps step : K) (n : Nat) (polys : List (List (P K))) : Except PyErr (List (List (List (Option (P K))))) := insetsFrom eps step polys n step

/-! ## Chains of segments -/

/-- `_SegmentChain.connect_segment` (`quasink.py:613-629`), with `_prepend_segment`, `_append_segment` and `_angle_is_ok` (`quasink.py:651-653`): no smallest angle is ever set, so that every
angle is good.  `none` if the segment does not fit. -/
def connectSegment (eps : K) (chain : List (Line K)) (s : Line K) : Option (List (Line K)) :=
  match chain.head?, chain.getLast? with
  | some first, some last =>
    if s.p1.eq eps last.p2 then some (chain ++ [s])
    else if s.p2.eq eps last.p2 then some (chain ++ [s.reversed])
    else if s.p2.eq eps first.p1 then some (s :: chain)
    else if s.p1.eq eps first.p1 then some (s.reversed :: chain)
    else none
  | _, _ => some [s]

/-- One pass over the segments (`quasink.py:587-592`): the chain and the segments that did not fit, in order. -/
def chainPass (eps : K) : List (Line K) → List (Line K) → List (Line K) × List (Line K)
  | chain, [] => (chain, [])
  | chain, s :: rest =>
    match connectSegment eps chain s with
    | some chain => chainPass eps chain rest
    | none =>
      let r := chainPass eps chain rest
      (r.1, s :: r.2)

/-- Passes until no segment fits any more (`quasink.py:584-592`).  `none` while it is still running. -/
def growChain (eps : K) : Nat → List (Line K) → List (Line K) → Option (List (Line K) × List (Line K))
  | 0, _, _ => none
  | fuel + 1, chain, segs =>
    let r := chainPass eps chain segs
    if segs.length - r.2.length > 0 then growChain eps fuel r.1 r.2 else some r

/-- `polyline` (`quasink.py:631-637`). -/
def chainPolyline (chain : List (Line K)) : List (P K) :=
  match chain with
  | [] => []
  | s :: rest => s.p1 :: (s :: rest).map Line.p2

/-- `_create_chains` (`quasink.py:581-595`).  `none` while it is still running. -/
def createChains (eps : K) : Nat → List (Line K) → Option (List (List (P K)))
  | 0, _ => none
  | fuel + 1, segs =>
    if segs.isEmpty then some []
    else
      match growChain eps fuel [] segs with
      | none => none
      | some r =>
        match createChains eps fuel r.2 with
        | none => none
        | some out => some (if r.1.isEmpty then out else chainPolyline r.1 :: out)

/-- A drawn chain: its points and whether it is filled. -/
structure DrawnChain (K : Type) where
  points : List (P K)
  filled : Bool
deriving DecidableEq

/-- The drawing of one chain (`quasink.py:571-579`): nothing if only closed chains are wanted and it is not closed.  (The code asks whether a chain is closed only where it matters; no chain is empty, so that asking does no harm.) -/
def drawChain (eps : K) (fillClosed closedOnly : Bool) (vs : List (P K)) : Except PyErr (Option (DrawnChain K)) := do
  let closed ← polyIsClosed eps vs
  pure (if !closedOnly || closed then some ⟨vs, fillClosed && closed⟩ else none)

/-- The sort of the chains, largest area first (`quasink.py:568-570`). -/
def sortChains (chains : List (List (P K))) : List (List (P K)) :=
  sortKeyed (fun a b : K => a <. b) true (chains.map fun v => (PyFloat.abs (polyArea v), v))

/-- `_draw_segment_chains` (`quasink.py:565-579`).  `none` while it is still running. -/
def drawChains (eps : K) (fillClosed closedOnly : Bool) (fuel : Nat) (segs : List (Line K)) : Option (Except PyErr (List (DrawnChain K))) :=
  (createChains eps fuel segs).map fun chains => ((sortChains chains).mapM (drawChain eps fillClosed closedOnly)).map fun l => l.filterMap id

end Verif.Ext
