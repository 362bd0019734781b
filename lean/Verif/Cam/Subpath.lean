import Verif.Cam.Outline
import Verif.Geom.Smooth

/-!
# The sub-paths, simplified and smoothed: `cam/gcodesvg.py`
-/

set_option linter.unusedSectionVars false

namespace Verif.Cam
open Verif PyFloat PyTrig Geom

section
variable {K : Type} [PyTrig K]

/-- The lines between consecutive points (`cam/gcodesvg.py:396-402`). -/
def linesThrough : List (P K) → List (Line K)
  | p :: q :: qs => ⟨p, q⟩ :: linesThrough (q :: qs)
  | _ => []

/-- `_simplify_path` (`cam/gcodesvg.py:390-402`): `zip(*path)` of an empty path cannot be unpacked (`ValueError`); `depth` bounds the recursion of
`simplify_polyline_rdp`, `none` is a recursion that goes on. -/
def simplifyLines (eps tol : K) (depth : Nat) (path : List (Line K)) : Option (Except PyErr (List (Line K))) :=
  match path.getLast? with
  | none => some (.error .valueError)
  | some l => (rdp eps tol depth (path.map Line.p1 ++ [l.p2])).map fun ps => .ok (linesThrough ps)

/-- What `smooth_path` returns, as a path: a path of a single line is returned as it is (`geom/bezier.py:1035-1036`). -/
def smoothedShapes (path : List (Line K)) : Smoothed K → List (Shape K)
  | .same => path.map Shape.line
  | .curves l => l.map Shape.bez

/-- One sub-path (`cam/gcodesvg.py:352-360`): what is drawn. -/
def subPath (eps tol smoothness : K) (depth : Nat) (marks : List (Line K)) (offset : K) : Option (Except PyErr (List (Shape K))) :=
  match subPoints offset marks with
  | .error e => some (.error e)
  | .ok ps =>
    match makeOutlinePath eps ps with
    | .error e => some (.error e)
    | .ok path =>
      (simplifyLines eps tol depth path).map fun r =>
        match r with
        | .error e => .error e
        | .ok path => (smoothPath eps smoothness (path.map Shape.line)).map (smoothedShapes path)

/-- The loop over the offsets (`cam/gcodesvg.py:350-361`): what was drawn, and the exception that ended it. -/
def drawAll (eps tol smoothness : K) (depth : Nat) (marks : List (Line K)) : List K → Option (List (List (Shape K)) × Option PyErr)
  | [] => some ([], none)
  | k :: ks =>
    (subPath eps tol smoothness depth marks k).bind fun r =>
      match r with
      | .error e => some ([], some e)
      | .ok s => (drawAll eps tol smoothness depth marks ks).map fun x => (s :: x.1, x.2)

/-- `_draw_subpaths` (`cam/gcodesvg.py:337-361`): nothing without tool marks; the length is that of the first one.  The layer is made by
`create_layer` (C123). -/
def drawSubpaths (eps tol smoothness step : K) (fuel depth : Nat) (marks : List (Line K)) : Option (List (List (Shape K)) × Option PyErr) :=
  match marks with
  | [] => some ([], none)
  | m :: _ => (subOffsets step m.length fuel step).bind (drawAll eps tol smoothness depth marks)

/-- `_draw_toolmark_outline` (`cam/gcodesvg.py:308-326`): the two sides that are drawn, if both have lines. -/
def drawOutline (eps : K) (marks : List (Line K)) : Except PyErr (List (List (Line K))) :=
  match marks with
  | [] => .ok []
  | _ => do
    let a ← makeOutlinePath eps (marks.map Line.p1)
    let b ← makeOutlinePath eps (marks.map Line.p2)
    pure (if a.isEmpty || b.isEmpty then [] else [a, b])

end
end Verif.Cam
