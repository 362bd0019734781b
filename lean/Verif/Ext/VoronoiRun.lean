import Verif.Ext.VoronoiExt
import Verif.Ext.PolyExt

/-!
# Model of the extension `tcnc/voronoi.py`: from the selected shapes to the layers

Points are compared exactly, as the vertices of a graph are (see `Graph/Model.lean`).  The texts of the styles are in `Ext/Styles.lean`; here a layer has the name of its style.  That a layer gets a new name if
there is one already is in `Svg/Layer.lean`.
-/

set_option linter.unusedSectionVars false

namespace Verif.Ext
open Verif PyFloat PyTrig Geom Graph

section
variable {K : Type} [PyTrig K] [DecidableEq K]

/-- The options (`voronoi.py:40-51`); `--epsilon` is not used. -/
structure VoroOpts where
  jiggle : Bool
  triangles : Bool
  delaunay : Bool
  clip : Bool

/-- What is not determined by the drawing: the order in which sets and dictionaries are iterated over, the random numbers of `jiggle` for the point with a number; and the comparisons of the graph. -/
structure VoroTools (K : Type) where
  env : GEnv (P K)
  pointOrder : List (P K) → List (P K)
  sign : Nat → K
  rx : Nat → K
  ry : Nat → K
  iter : Nat → List (P K × P K) → List (P K × P K)
  nodeOrder : List (P K) → List (P K)
  edgeOrder : List (P K × P K) → List (P K × P K)

/-- What is drawn with `create_line` or `create_polygon` (`voronoi.py:135-165`). -/
inductive VoroShape (K : Type) where
  | line (p1 p2 : P K)
  | polygon (vs : List (P K))
  deriving DecidableEq

/-- A layer, the name of the style of what is in it, and what is in it. -/
structure VoroLayer (K : Type) where
  name : String
  style : String
  shapes : List (VoroShape K)
  deriving DecidableEq

/-- `segment.p1`, `segment.p2` (`voronoi.py:103-104`). -/
def segPoints : SegV (P K) → List (P K)
  | .line a b => [a, b]
  | .arc a b => [a, b]
  | .curve a _ _ b => [a, b]

/-- The set of input points (`voronoi.py:99-105`). -/
def inputPoints (paths : List (List (SegV (P K)))) : List (P K) := (paths.flatten.flatMap segPoints).dedup

/-- `input_points = [jiggle(p) for p in input_points]` from point number `i` on (`geom/voronoi.py:178-179`). -/
def jiggleAll (T : VoroTools K) : Nat → List (P K) → List (P K)
  | _, [] => []
  | i, p :: ps => Voronoi.jiggle (T.sign i) (T.rx i) (T.ry i) p :: jiggleAll T (i + 1) ps

/-- The points of the diagram (`voronoi.py:113-115`, `geom/voronoi.py:177-180`). -/
def diagramPoints (T : VoroTools K) (jig : Bool) (paths : List (List (SegV (P K)))) : List (P K) :=
  if jig then jiggleAll T 0 (T.pointOrder (inputPoints paths)) else T.pointOrder (inputPoints paths)

/-- `clipping_hull` (`voronoi.py:109-111`). -/
def clippingHull (T : VoroTools K) (clip : Bool) (g : G (P K)) : Except PyErr (Option (List (P K))) :=
  if clip then (boundaryPolygon T.env g).map some else .ok none

/-- A layer of lines (`voronoi.py:132-136`). -/
def lineLayer (name style : String) (ls : List (Line K)) : VoroLayer K := ⟨name, style, ls.map fun l => .line l.p1 l.p2⟩

/-- `planargraph.Graph(voronoi_clipped_segments)` (`geom/planargraph.py:128-130`). -/
def segmentGraph (env : GEnv (P K)) (ls : List (Line K)) : Except PyErr (G (P K)) := addSegments env G.empty (ls.map fun l => .line l.p1 l.p2)

/-- The graph without its open edges (`voronoi.py:145-146`); `none`: the loop takes more than `fuel` rounds. -/
def closedGraph (T : VoroTools K) (fuel : Nat) (ls : List (Line K)) : Option (Except PyErr (G (P K))) :=
  match segmentGraph T.env ls with
  | .error e => some (.error e)
  | .ok g => g.cull T.env T.iter T.nodeOrder fuel

/-- The layer of the edges that are left (`voronoi.py:148-152`). -/
def closedLayer (T : VoroTools K) (g : G (P K)) : VoroLayer K := ⟨"voronoi_closed", "voronoi", (T.edgeOrder g.edges).map fun e => .line e.1 e.2⟩

/-- The layers of a clipping polygon (`voronoi.py:138-152`). -/
def hullLayers (T : VoroTools K) (fuel : Nat) (hull : Option (List (P K))) (clipped : List (Line K)) : Option (Except PyErr (List (VoroLayer K))) :=
  match hull with
  | none => some (.ok [])
  | some _ => (closedGraph T fuel clipped).map fun r => r.map fun g => [lineLayer "voronoi_clipped" "voronoi" clipped, closedLayer T g]

/-- `create_polygon(triangle, close_polygon=True)` (`voronoi.py:163-165`, `svg/svg.py:620-631`). -/
def triangleShape (t : Voronoi.Site K × Voronoi.Site K × Voronoi.Site K) : VoroShape K :=
  let a : P K := ⟨t.1.x, t.1.y⟩
  let b : P K := ⟨t.2.1.x, t.2.1.y⟩
  let c : P K := ⟨t.2.2.x, t.2.2.y⟩
  .polygon (if a = c then [a, b, c] else [a, b, c, a])

/-- The layers that are asked for (`voronoi.py:154-165`). -/
def delaunayLayers (o : VoroOpts) (ls : List (Line K)) (s : Voronoi.State K) : List (VoroLayer K) :=
  (if o.delaunay then [lineLayer "delaunay_edges" "delaunay_triangle" ls] else []) ++
    if o.triangles then [⟨"delaunay_triangles", "delaunay_triangle", s.tris.map triangleShape⟩] else []

/-- The segments to be drawn: clipped to the page, and to the polygon (`voronoi.py:122-127`). -/
def clippedBoth (eps : K) (page : Box K) (hull : Option (List (P K))) (s : Voronoi.State K) : Except PyErr (List (Line K) × List (Line K)) := do
  let segs ← clippedVoronoi eps page s.out
  let clipped ← clippedPoly eps segs hull
  pure (segs, clipped)

/-- `_draw_voronoi` (`voronoi.py:121-165`). -/
def drawVoronoi (T : VoroTools K) (o : VoroOpts) (eps : K) (page : Box K) (fuel : Nat) (hull : Option (List (P K))) (s : Voronoi.State K) :
    Option (Except PyErr (List (VoroLayer K))) :=
  match clippedBoth eps page hull s with
  | .error e => some (.error e)
  | .ok (segs, clipped) =>
    (hullLayers T fuel hull clipped).map fun r => r.map fun hl =>
      lineLayer "voronoi_diagram" "voronoi" segs :: (hl ++ delaunayLayers o (clippedDelaunay eps s.made hull) s)

/-- The diagram and its drawing (`voronoi.py:113-118`). -/
def diagramRun (T : VoroTools K) (o : VoroOpts) (eps : K) (page : Box K) (fuel fuel2 : Nat) (paths : List (List (SegV (P K)))) (hull : Option (List (P K))) :
    Option (Except PyErr (List (VoroLayer K))) :=
  match Voronoi.voronoi fuel (diagramPoints T o.jiggle paths) with
  | none => none
  | some (.error e) => some (.error e)
  | some (.ok s) => drawVoronoi T o eps page fuel2 hull s

/-- `run` from the selected shapes on (`voronoi.py:80-118`): `shapes` are the paths of each of them. -/
def voroRun (T : VoroTools K) (o : VoroOpts) (eps : K) (page : Box K) (fuel fuel2 : Nat) (shapes : List (List (List (SegV (P K))))) :
    Option (Except PyErr (List (VoroLayer K))) :=
  if shapes = [] then some (.ok [])
  else
    match drawingGraph T.env shapes.flatten with
    | .error e => some (.error e)
    | .ok g =>
      match clippingHull T o.clip g with
      | .error e => some (.error e)
      | .ok hull => diagramRun T o eps page fuel fuel2 shapes.flatten hull

end
end Verif.Ext
