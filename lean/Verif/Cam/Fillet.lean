import Verif.Cam.Seg

/-!
# Model of the path functions of `tcnc/geom/fillet.py`
-/

set_option linter.unusedSectionVars false

namespace Verif.Cam
open Verif Verif.Geom PyFloat PyTrig

variable {K : Type} [PyTrig K]

/-- `insert_fillet` (`geom/fillet.py:104-124`); `none` is the empty tuple. -/
def insertFillet (eps : K) (s1 s2 : Shape K) (r : K) : Except PyErr (Option (Shape K × Arc K × Shape K)) := do
  match ← createFilletArc eps s1 s2 r with
  | none => pure none
  | some f => pure (some (connectFirst eps s1 f, f, connectSecond eps f s2))

/-- The loop of `fillet_path` (`geom/fillet.py:43-52`), starting with the current segment. -/
def shapeFilletLoop (eps r : K) : Shape K → List (Shape K) → Except PyErr (List (Shape K))
  | s1, [] => .ok [s1]
  | s1, s2 :: rest => do
    match ← insertFillet eps s1 s2 r with
    | none => do let out ← shapeFilletLoop eps r s2 rest; pure (s1 :: out)
    | some (n1, f, n2) => do let out ← shapeFilletLoop eps r n2 rest; pure (n1 :: .arc f :: out)

/-- The fillet between the last and the first segment (`geom/fillet.py:54-59`, `geom/fillet.py:96-101`). -/
def shapeFilletClose (eps r : K) (new : List (Shape K)) : Except PyErr (List (Shape K)) :=
  match new, new.getLast? with
  | first :: _, some last => do
    match ← insertFillet eps last first r with
    | none => pure new
    | some (n1, f, n2) =>
      match setLast new n1 ++ [.arc f] with
      | [] => pure []
      | _ :: tl => pure (n2 :: tl)
  | _, _ => pure new

/-- `path[0].p1 == path[-1].p2` (`geom/fillet.py:54`, `geom/fillet.py:96`). -/
def shapesClosed (eps : K) (path : List (Shape K)) : Bool :=
  match path.head?, path.getLast? with
  | some a, some b => a.p1.eq eps b.p2
  | _, _ => false

/-- `fillet_path` (`geom/fillet.py:26-61`). -/
def shapeFilletPath (eps : K) (path : List (Shape K)) (r : K) (close : Bool := true) : Except PyErr (List (Shape K)) :=
  if (r <. eps) || decide (path.length < 2) then .ok path
  else match path with
    | [] => .ok path
    | s :: rest => do
      let new ← shapeFilletLoop eps r s rest
      let new ← if close && decide (2 < path.length) && shapesClosed eps path then shapeFilletClose eps r new else pure new
      pure (if path.length < new.length then new else path)

/-- The loop of `fillet_polygon` (`geom/fillet.py:84-95`): the next side starts where the current segment ends. -/
def polyFilletLoop (eps r : K) : Shape K → List (P K) → Except PyErr (List (Shape K))
  | s1, [] => .ok [s1]
  | s1, p :: rest => do
    match ← insertFillet eps s1 (.line ⟨s1.p2, p⟩) r with
    | none => do let out ← polyFilletLoop eps r (.line ⟨s1.p2, p⟩) rest; pure (s1 :: out)
    | some (n1, f, n2) => do let out ← polyFilletLoop eps r n2 rest; pure (n1 :: .arc f :: out)

/-- `fillet_polygon` (`geom/fillet.py:64-101`) for vertices given as points. -/
def filletPolygon (eps : K) (poly : List (P K)) (r : K) (close : Bool := true) : Except PyErr (List (Shape K)) :=
  match poly with
  | [] => .ok []
  | [_] => .ok []
  | a :: b :: [] => .ok [.line ⟨a, b⟩]
  | a :: b :: c :: rest => do
    let path ← polyFilletLoop eps r (.line ⟨a, b⟩) (c :: rest)
    if close && decide (2 < path.length) && shapesClosed eps path then shapeFilletClose eps r path else pure path

end Verif.Cam
