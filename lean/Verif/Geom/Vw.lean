import Verif.Geom.Polygon

/-!
# `simplify_polyline_vw`

`geom/polygon.py:513-562`: the beginning of a simplification by the areas of triangles.
-/

set_option linter.unusedSectionVars false

namespace Verif.Geom
open Verif PyFloat PyTrig

variable {K : Type} [PyTrig K]

/-- The triangles of three points in a row with the index of the one in the middle (`geom/polygon.py:540-551`). -/
def vwTriangles : Nat → List (P K) → List (Nat × K)
  | i, a :: b :: c :: r => (i, areaTriangle a b c) :: vwTriangles (i + 1) (b :: c :: r)
  | _, _ => []

/-- The loop (`geom/polygon.py:555-562`).  `heapq.heappop` takes the least pair, which is the one with the least index: the triangles are listed by their
index, so it is the first.  Nothing is done with it; an empty heap is an `IndexError`. -/
def vwPops : Nat → List (Nat × K) → Except PyErr Unit
  | 0, _ => .ok ()
  | _ + 1, [] => .error .indexError
  | n + 1, _ :: r => vwPops n r

/-- `simplify_polyline_vw` (`geom/polygon.py:513-558`); `none` is Python's `None`, with which it ends.  `len(points) / 2` is a float, so that
`min(n, len(points) / 2)` is an `int` unless it is the second that is less, and `range` of a float is a `TypeError`. -/
def simplifyPolylineVw (points : List (P K)) (tolerance : K) : Except PyErr (Option (List (P K))) :=
  if points.length < 3 then .ok (some points)
  else if (points.length : Int) < 2 * trunc (tolerance *. ofInt points.length) then .error .typeError
  else (vwPops (max 1 (trunc (tolerance *. ofInt points.length))).toNat (vwTriangles 1 points)).map fun _ => none

end Verif.Geom
