import Verif.Graph.Peel

/-!
# Model of the extension `tcnc/polypath.py`

Vertices are as in `Graph/Model.lean`.  The styles are in `Ext/Styles.lean`, the text written for a polygon in `Svg/Output.lean`; here a drawing is a list of layers of polylines.
The offset of a polygon is computed by the third-party module `contrib/clipper.py` and stands as an arbitrary function, and so do the convex hull (C96) and the test whether a point is inside a polygon (C120).
-/

namespace Verif.Ext
open Verif Graph

variable {V : Type} [DecidableEq V]

/-- A segment of a path of the drawing as a tuple of points: a line `(p1, p2)`, an arc `(p1, p2, radius, angle, center)` or a curve `(p1, c1, c2, p2)`
(`geom/line.py:25-30`, `geom/arc.py:27-41`, `geom/bezier.py:31-45`). -/
inductive SegV (V : Type) where
  | line (p1 p2 : V)
  | arc (p1 p2 : V)
  | curve (p1 c1 c2 p2 : V)
  deriving DecidableEq, Repr

/-- `edge[0]`, `edge[1]` of a segment (`geom/planargraph.py:140-141`). -/
def SegV.pair : SegV V → V × V
  | .line a b => (a, b)
  | .arc a b => (a, b)
  | .curve a c _ _ => (a, c)

/-- The loops that add the segments of the paths to the graph (`polypath.py:141-143`). -/
def addSegments (env : GEnv V) : G V → List (SegV V) → Except PyErr (G V)
  | g, [] => .ok g
  | g, s :: r =>
    match g.addEdge env s.pair.1 s.pair.2 with
    | (g, none) => addSegments env g r
    | (_, some e) => .error e

/-- The graph of the drawing (`polypath.py:139-143`). -/
def drawingGraph (env : GEnv V) (paths : List (List (SegV V))) : Except PyErr (G V) := addSegments env G.empty paths.flatten

/-- A polyline drawn by `create_polygon`, and whether `Z` follows. -/
structure PolyDrawn (V : Type) where
  points : List V
  z : Bool
  deriving DecidableEq, Repr

/-- A layer and what is drawn in it. -/
structure PolyLayer (V : Type) where
  name : String
  shapes : List (PolyDrawn V)
  deriving DecidableEq, Repr

/-- `create_polygon` (`svg/svg.py:620-631`): nothing for no vertices. -/
def drawPolygon (closePolygon closePath : Bool) (vs : List V) : List (PolyDrawn V) :=
  match vs with
  | [] => []
  | a :: r => [⟨if closePolygon ∧ a ≠ (a :: r).getLastD a then a :: r ++ [a] else a :: r, closePath⟩]

/-- The options (`polypath.py:40-87`) that are used, without the styles and fillets. -/
structure PolyOpts where
  pathDraw : Bool
  longest : Bool
  minLength : Int
  maxPaths : Int
  strategy : Strategy
  offsetDraw : Bool
  recurs : Bool
  convexDraw : Bool
  hullDraw : Bool
  innerDraw : Bool

/-- What is not determined by the drawing: random choices, the orders in which sets and dictionaries are iterated over; and geometry: the comparisons, the turning direction of a polygon, offsets, the convex
hull, the inside of a polygon. -/
structure PolyTools (V : Type) where
  env : GEnv V
  rnd : Nat → Nat → Nat → Nat
  rnd2 : Nat → Nat → Nat → Nat
  edgeOrder : List (V × V) → List (V × V)
  nodeOrder : List V → List V
  iters : Nat → Nat → List V → List V
  clockwise : List V → Bool
  offset : List V → List (List V)
  hull : List V → List V
  inside : List V → V → Bool

/-- `_draw_polypaths` (`polypath.py:168-176`). -/
def drawPolypaths (T : PolyTools V) (o : PolyOpts) (g : G V) : Option (Except PyErr (List (PolyLayer V))) :=
  (buildPaths T.env g o.strategy T.rnd none).map fun r => r.map fun ps =>
    [⟨"q_polypath", (ps.filter fun p => o.minLength < p.length).flatMap (drawPolygon false false)⟩]

/-- The loop of `_draw_longest_polypaths` from path number `i` on (`polypath.py:182-189`). -/
def longestLayers (maxPaths : Int) : Nat → List (List V) → List (PolyLayer V)
  | _, [] => []
  | i, p :: ps => if (i : Int) = maxPaths then [] else ⟨"q_polypath_long_" ++ toString i ++ "_", drawPolygon false false p⟩ :: longestLayers maxPaths (i + 1) ps

/-- `_draw_longest_polypaths` (`polypath.py:178-188`). -/
def drawLongest (T : PolyTools V) (o : PolyOpts) (g : G V) : Option (Except PyErr (List (PolyLayer V))) :=
  (longestPaths T.env g o.strategy T.rnd2 (T.edgeOrder g.edges)).map fun r => r.map fun ps => longestLayers o.maxPaths 0 ps

/-- `_offset_polys` (`polypath.py:226-235`); `none`: deeper recursion than `fuel`. -/
def offsetPolys (offset : List V → List (List V)) (recurs : Bool) : Nat → List (List V) → Option (List (List V))
  | 0, _ => none
  | fuel + 1, polys =>
    polys.foldr (fun poly rest =>
      (if recurs then offsetPolys offset recurs fuel (offset poly) else some []).bind fun sub =>
        rest.map fun r => offset poly ++ sub ++ r) (some [])

/-- `_draw_offset_polygons` without fillets (`polypath.py:191-197`, `207-209`). -/
def drawOffsets (T : PolyTools V) (o : PolyOpts) (fuel : Nat) (g : G V) : Option (Except PyErr (List (PolyLayer V))) :=
  match facePolygons T.env g T.clockwise T.nodeOrder with
  | none => none
  | some (.error e) => some (.error e)
  | some (.ok faces) => (offsetPolys T.offset o.recurs fuel faces).map fun ps => .ok [⟨"q_cell_polygons", ps.flatMap (drawPolygon true true)⟩]

/-- `_draw_convex_hull` (`polypath.py:237-241`). -/
def drawConvexHull (T : PolyTools V) (g : G V) : List (PolyLayer V) := [⟨"q_convex_hull", drawPolygon true false (T.hull (T.nodeOrder g.keys))⟩]

/-- `_draw_polygon_hulls` (`polypath.py:243-248`). -/
def drawHulls (ps : List (List V)) : PolyLayer V := ⟨"q_polyhull", ps.flatMap (drawPolygon true false)⟩

/-- The boundary polygon and the inner ones (`polypath.py:161-167`). -/
def drawBoundary (T : PolyTools V) (o : PolyOpts) (fuel : Nat) (g : G V) : Option (Except PyErr (List (PolyLayer V))) :=
  match boundaryPolygon T.env g with
  | .error e => some (.error e)
  | .ok outer =>
    if o.innerDraw then
      match peelBoundary T.env T.iters T.inside fuel outer (g.query T.env) with
      | none => none
      | some (.error e) => some (.error e)
      | some (.ok []) => some (.ok [drawHulls [outer]])
      | some (.ok inner) => some (.ok [drawHulls [outer], drawHulls inner])
    else some (.ok [drawHulls [outer]])

/-- One thing after the other; an exception ends the run. -/
def drawnAfter (a b : Option (Except PyErr (List (PolyLayer V)))) : Option (Except PyErr (List (PolyLayer V))) :=
  match a with
  | none => none
  | some (.error e) => some (.error e)
  | some (.ok l) => b.map fun r => r.map fun l' => l ++ l'

/-- Something that is only drawn if it is asked for. -/
def ifAsked (b : Bool) (d : Option (Except PyErr (List (PolyLayer V)))) : Option (Except PyErr (List (PolyLayer V))) :=
  if b then d else some (.ok [])

/-- `run` from the paths of the selected shapes on (`polypath.py:119-166`). -/
def polyRun (T : PolyTools V) (o : PolyOpts) (fuel : Nat) (paths : List (List (SegV V))) : Option (Except PyErr (List (PolyLayer V))) :=
  match drawingGraph T.env paths with
  | .error e => some (.error e)
  | .ok g =>
    let g' := if o.offsetDraw then g.query T.env else g
    drawnAfter (ifAsked o.pathDraw (drawPolypaths T o g))
      (drawnAfter (ifAsked o.longest (drawLongest T o g))
        (drawnAfter (ifAsked o.offsetDraw (drawOffsets T o fuel g))
          (drawnAfter (ifAsked o.convexDraw (some (.ok (drawConvexHull T g'))))
            (ifAsked o.hullDraw (drawBoundary T o fuel g')))))

end Verif.Ext
