import Verif.Geom.Polygon
import Verif.Geom.Smooth

/-!
# The extension that smooths polygons: `polysmooth.py`
-/

set_option linter.unusedSectionVars false

namespace Verif.Ext
open Verif PyFloat PyTrig Geom

section
variable {K : Type} [PyTrig K]

/-- The lines from each point to the next one (`polysmooth.py:153-159`). -/
def linesThrough : P K → List (P K) → List (Line K)
  | _, [] => []
  | p, q :: ps => ⟨p, q⟩ :: linesThrough q ps

/-- The vertices of a list of lines (`polysmooth.py:147-151`): where the lines start, and where the last one ends. -/
def lineVertices (l : Line K) (ls : List (Line K)) : List (P K) :=
  (l :: ls).map Line.p1 ++ [((l :: ls).getLastD l).p2]

/-- `_simplify_polyline` (`polysmooth.py:146-159`); `none`: the recursion is too deep. -/
def simplifyPolyline (eps tol : K) (depth : Nat) (l : Line K) (ls : List (Line K)) : Option (List (Line K)) := do
  match ← rdp eps tol depth (lineVertices l ls) with
  | [] => none
  | p :: ps => some (linesThrough p ps)

/-- The lines pending, simplified (`polysmooth.py:135`, `142-144`). -/
def flush (eps tol : K) (depth : Nat) : List (Line K) → Option (List (Shape K))
  | [] => some []
  | l :: ls => (simplifyPolyline eps tol depth l ls).map (List.map Shape.line)

/-- The loop of `simplify_polylines` (`polysmooth.py:124-144`): the lines pending are `acc`.  A segment that is not a line ends a polyline of two
or more lines, and is then left out itself; otherwise it is added while the pending line stays pending. -/
def simplifyLoop (eps tol : K) (depth : Nat) : List (Line K) → List (Shape K) → Option (List (Shape K))
  | acc, [] => flush eps tol depth acc
  | acc, .line l :: path => simplifyLoop eps tol depth (acc ++ [l]) path
  | acc, s :: path =>
    if 1 < acc.length then do
      let a ← flush eps tol depth acc
      let r ← simplifyLoop eps tol depth [] path
      pure (a ++ r)
    else do
      let r ← simplifyLoop eps tol depth acc path
      pure (s :: r)

/-- `simplify_polylines` (`polysmooth.py:124-144`). -/
def simplifyPolylines (eps tol : K) (depth : Nat) (path : List (Shape K)) : Option (List (Shape K)) := simplifyLoop eps tol depth [] path

/-- Where a smoothed path is put (`polysmooth.py:104-111`, `svg/svg.py:747-752`). -/
inductive Place where
  /-- the layer made for the output -/
  | newLayer
  /-- the element around the one that is replaced -/
  | parent
  /-- the default parent of the context -/
  | default
  deriving DecidableEq, Repr

/-- The paths of one element that are written, and where to (`polysmooth.py:93-121`): `smoothed` are the smoothed paths of the element, an empty one
is skipped; `attached`: is the element still in the document? -/
def placed {α : Type} (newLayer : Bool) : Bool → List (List α) → List (List α × Place)
  | _, [] => []
  | attached, [] :: ps => placed newLayer attached ps
  | attached, p :: ps =>
    if newLayer then (p, .newLayer) :: placed newLayer attached ps
    else (p, if attached then .parent else .default) :: placed newLayer false ps

end
end Verif.Ext
