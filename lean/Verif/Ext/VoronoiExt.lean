import Verif.Geom.Clip
import Verif.Geom.Polygon
import Verif.Voronoi.Model

/-!
# Model of `tcnc/voronoi.py` and `tcnc/geom/voronoiclip.py`: drawing a diagram on the page

An edge of the diagram is a member of the list `out` of the sweep: the edge with its equation `a x + b y = c`, and its two end points, each of which may be missing.
-/

set_option linter.unusedSectionVars false

namespace Verif.Ext
open Verif PyFloat PyTrig Geom

section
variable {K : Type} [PyTrig K]

/-- An edge of the diagram, `VoronoiEdge` (`geom/voronoi.py:62-105`): equation, `p1`, `p2`. -/
abbrev DEdge (K : Type) := Voronoi.Edge K × Option (P K) × Option (P K)

/-- The other end of an edge with only one end point (`voronoi.py:195-209`); `xclip` is the page border it goes to. -/
def farEnd (vertical : K → Bool) (box : Box K) (e : Voronoi.Edge K) (p1 : P K) (xclip : K) : Except PyErr (P K) :=
  if vertical e.b then do
    let x ← pdiv e.c e.a
    pure ⟨x, if (box.p1.y +. box.p2.y) /. ofInt 2 <. p1.x then box.p2.y else box.p1.y⟩
  else do
    let y ← pdiv (e.c -. xclip *. e.a) e.b
    pure ⟨xclip, y⟩

/-- An edge as a segment, `none` if it is skipped (`voronoi.py:178-210`).  `point_inside(None)` subscripts `None`. -/
def edgeSegment (eps : K) (box : Box K) : DEdge K → Except PyErr (Option (Line K))
  | (_, some p, some q) => .ok (some ⟨p, q⟩)
  | (_, none, none) => .error .typeError
  | (e, some p, none) =>
    if box.pointInside p then do
      let q ← farEnd (isZero eps) box e p box.p2.x
      pure (some ⟨p, q⟩)
    else .ok none
  | (e, none, some p) =>
    if box.pointInside p then do
      let q ← farEnd (isZero eps) box e p box.p1.x
      pure (some ⟨p, q⟩)
    else .ok none

/-- One turn of the loop of `_clipped_voronoi_segments` (`voronoi.py:178-213`). -/
def clipEdge (eps : K) (box : Box K) (d : DEdge K) : Except PyErr (Option (Line K)) := do
  let s ← edgeSegment eps box d
  pure (s.bind (box.clipLine eps))

/-- `_clipped_voronoi_segments` (`voronoi.py:167-213`). -/
def clippedVoronoi (eps : K) (box : Box K) (ds : List (DEdge K)) : Except PyErr (List (Line K)) := do
  let r ← ds.mapM (clipEdge eps box)
  pure (r.filterMap id)

/-- An edge as a segment in `clip_voronoi_segments` (`geom/voronoiclip.py:26-52`): no edge is skipped, and the test for a vertical edge is exact.  `p1[0]` of `None` is only read
for a vertical edge; otherwise `Line(None, p2)` unpacks `None`. -/
def edgeSegment0 (box : Box K) : DEdge K → Except PyErr (Line K)
  | (_, some p, some q) => .ok ⟨p, q⟩
  | (_, none, none) => .error .typeError
  | (e, some p, none) => do
    let q ← farEnd (PyTrig.beq zero) box e p box.p2.x
    pure ⟨p, q⟩
  | (e, none, some p) => do
    let q ← farEnd (PyTrig.beq zero) box e p box.p1.x
    pure ⟨p, q⟩

/-- `clip_voronoi_segments` (`geom/voronoiclip.py:15-56`). -/
def clipVoronoi0 (eps : K) (box : Box K) (ds : List (DEdge K)) : Except PyErr (List (Line K)) := do
  let r ← ds.mapM (edgeSegment0 box)
  pure (r.filterMap (box.clipLine eps))

/-- `_clipped_poly_voronoi_segments` (`voronoi.py:215-222`), also `clip_voronoi_segments_poly` (`geom/voronoiclip.py:59-71`). -/
def clippedPoly (eps : K) (segs : List (Line K)) : Option (List (P K)) → Except PyErr (List (Line K))
  | none => .ok []
  | some vs => do
    let r ← segs.mapM (polyIntersectLine eps vs)
    pure r.flatten

/-- The line is a side of the polygon (`voronoi.py:251-256`, `261-266`). -/
def isSide (eps : K) (vs : List (P K)) (l : Line K) : Bool := (cycPairs vs).any fun e => Line.eq eps ⟨e.2, e.1⟩ l

/-- An end of the line is a vertex of the polygon (`voronoi.py:267-271`). -/
def touchesVertex (eps : K) (vs : List (P K)) (l : Line K) : Bool :=
  (cycPairs vs).any fun e => l.p1.eq eps e.2 || l.p1.eq eps e.1 || l.p2.eq eps e.2 || l.p2.eq eps e.1

/-- `_line_inside_hull` (`voronoi.py:233-273`), also `line_inside_hull` (`geom/voronoiclip.py:86-126`). -/
def lineInsideHull (eps : K) (vs : List (P K)) (l : Line K) (allowHull : Bool) : Bool :=
  if allowHull && isSide eps vs l then true
  else if !polyPointInside vs l.midpoint then false
  else if !allowHull && isSide eps vs l then false
  else if touchesVertex eps vs l then true
  else polyPointInside vs l.p1 || polyPointInside vs l.p2

/-- `_clipped_delaunay_segments` (`voronoi.py:224-231`): the Delaunay edges of the edges made by the sweep, in order.  (`clipped_delaunay_segments` of `geom/voronoiclip.py:74-83` is a
function that calls `self._line_inside_hull`.) -/
def clippedDelaunay (eps : K) (es : List (Voronoi.Edge K)) : Option (List (P K)) → List (Line K)
  | none => es.map fun e => ⟨⟨e.s1.x, e.s1.y⟩, ⟨e.s2.x, e.s2.y⟩⟩
  | some vs => (es.map fun e => (⟨⟨e.s1.x, e.s1.y⟩, ⟨e.s2.x, e.s2.y⟩⟩ : Line K)).filter fun l => lineInsideHull eps vs l true

end
end Verif.Ext
