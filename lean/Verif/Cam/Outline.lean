import Verif.Geom.Polygon

/-!
# The outline of the tool marks and the sub-paths: `cam/gcodesvg.py`

What `plot_tool_up` draws when the options for the outline or the sub-paths are on.
-/

set_option linter.unusedSectionVars false

namespace Verif.Cam
open Verif PyFloat PyTrig Geom

section
variable {K : Type} [PyTrig K]

/-- A point that is added to the path (`cam/gcodesvg.py:378-386`): the last line is replaced if the point is in line with it.  The lines are kept in reverse. -/
def outlineStep (eps : K) (prev q : P K) : List (Line K) → List (Line K)
  | [] => [⟨prev, q⟩]
  | l :: ls => if l.whichSide eps q true = 0 then ⟨l.p1, q⟩ :: ls else ⟨prev, q⟩ :: l :: ls

/-- The first loop of `_make_outline_path` over the points (`cam/gcodesvg.py:372-387`).  The intersections of the tool marks
(`cam/gcodesvg.py:364-371`) are only drawn for debugging. -/
def outlineLoop (eps : K) : List (Line K) → P K → List (P K) → List (Line K)
  | path, _, [] => path.reverse
  | path, prev, q :: qs => if q.ne eps prev then outlineLoop eps (outlineStep eps prev q path) q qs else outlineLoop eps path q qs

/-- The inner loop of `_fix_intersections` (`cam/gcodesvg.py:420-428`): the first of the lines that crosses, where, and its index. -/
def firstCross (eps : K) (l1 : Line K) : Nat → List (Line K) → Option (P K × Line K × Nat)
  | _, [] => none
  | j, l2 :: ls =>
    match l1.intersection eps l2 true with
    | some p => some (p, l2, j)
    | none => firstCross eps l1 (j + 1) ls

/-- `_fix_intersections` (`cam/gcodesvg.py:405-431`); `skip`: how many lines are still to be skipped. -/
def fixIntersections (eps : K) : Nat → List (Line K) → List (Line K)
  | _, [] => []
  | skip + 1, _ :: rest => fixIntersections eps skip rest
  | 0, l1 :: rest =>
    match firstCross eps l1 0 (rest.drop 1) with
    | none => l1 :: fixIntersections eps 0 rest
    | some (p, l2, j) => ⟨l1.p1, p⟩ :: ⟨p, l2.p2⟩ :: fixIntersections eps (j + 2) rest

/-- The angle at the end of a line between its start and a point (`cam/gcodesvg.py:445`, `453`, `464`). -/
def cornerAngle (eps : K) (l : Line K) (q : P K) : K := l.p2.angle2 eps l.p1 q

/-- The search after a right turn (`cam/gcodesvg.py:452-458`): the next line and how many lines to skip; `cur` is the line looked at last. -/
def searchRight (eps : K) (l1 cur : Line K) : Nat → List (Line K) → Line K × Nat
  | _, [] => (cur, 0)
  | j, l :: ls =>
    if pi /. ofInt 2 <. PyFloat.abs (cornerAngle eps l1 l.p2) then (⟨l1.p2, l.p2⟩, j) else searchRight eps l1 l (j + 1) ls

/-- The search after a left turn (`cam/gcodesvg.py:463-468`): the line cut or extended, the next line and how many lines to skip. -/
def searchLeft (eps : K) (l1 cur : Line K) : Nat → List (Line K) → Line K × Line K × Nat
  | _, [] => (l1, cur, 0)
  | j, l :: ls =>
    if pi /. ofInt 2 <. PyFloat.abs (cornerAngle eps ⟨l1.p1, l.p1⟩ l.p2) then (⟨l1.p1, l.p1⟩, l, j) else searchLeft eps ⟨l1.p1, l.p1⟩ l (j + 1) ls

/-- The loop of `_fix_reversals` (`cam/gcodesvg.py:433-472`). -/
def fixReversalsLoop (eps : K) : Line K → Nat → List (Line K) → List (Line K)
  | l1, _, [] => [l1]
  | l1, skip + 1, _ :: rest => fixReversalsLoop eps l1 skip rest
  | l1, 0, l2 :: rest =>
    if PyFloat.abs (cornerAngle eps l1 l2.p2) <. pi /. ofInt 2 then
      if zero <. cornerAngle eps l1 l2.p2 then
        l1 :: fixReversalsLoop eps (searchRight eps l1 l2 0 (l2 :: rest)).1 (searchRight eps l1 l2 0 (l2 :: rest)).2 rest
      else
        (searchLeft eps l1 l2 0 (l2 :: rest)).1 ::
          fixReversalsLoop eps (searchLeft eps l1 l2 0 (l2 :: rest)).2.1 (searchLeft eps l1 l2 0 (l2 :: rest)).2.2 rest
    else l1 :: fixReversalsLoop eps l2 0 rest

/-- `_fix_reversals` (`cam/gcodesvg.py:433-472`): `path[0]` raises for an empty path. -/
def fixReversals (eps : K) : List (Line K) → Except PyErr (List (Line K))
  | [] => .error .indexError
  | l :: ls => .ok (fixReversalsLoop eps l 0 ls)

/-- `_make_outline_path` (`cam/gcodesvg.py:363-388`). -/
def makeOutlinePath (eps : K) : List (P K) → Except PyErr (List (Line K))
  | p :: q :: qs => fixReversals eps (fixIntersections eps 0 (outlineLoop eps [] p (q :: qs)))
  | _ => .ok []

/-- The offsets for which a sub-path is drawn (`cam/gcodesvg.py:348-361`); `none`: still running. -/
def subOffsets (step len : K) : Nat → K → Option (List K)
  | 0, _ => none
  | fuel + 1, offset => if offset <. len then (subOffsets step len fuel (offset +. step)).map (offset :: ·) else some []

/-- The points of a sub-path on the tool marks (`cam/gcodesvg.py:352-355`). -/
def subPoints (offset : K) : List (Line K) → Except PyErr (List (P K))
  | [] => .ok []
  | l :: ls => do
    let u ← pdiv offset l.length
    let r ← subPoints offset ls
    pure (l.pointAt u :: r)

end
end Verif.Cam
