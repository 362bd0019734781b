import Verif.Geom.Biarc
import Verif.Cam.Model

/-!
# Tool path lists, the tool flip and the position queries

Model of `cam/toolpath.py`, `SimpleCAM.flip_tool` and the read-only queries of the G-code generator.
-/

set_option linter.unusedVariables false

namespace Verif.Cam
open Verif PyFloat PyTrig Verif.Geom Verif.GCode

variable {K : Type} [PyFloat K] [PyTrig K]

/-! ## `Toolpath` -/

/-- The body of the loop in `Toolpath.biarc_approximation` (`cam/toolpath.py:47-59`): what one segment adds to the list.  The error branch reads
`segment.__name__`, which instances do not have. -/
def toolSegs (eps tol : K) (depth : Nat) (flat : K) : Shape K → Except PyErr (List (Shape K))
  | .bez b => b.biarcApproximation eps tol depth flat
  | .line l => .ok [.line l]
  | .arc a => .ok [.arc a]
  | .other _ _ => .error .attributeError

/-- `Toolpath.biarc_approximation` (`cam/toolpath.py:27-59`).  The list is changed in place: what was added before an error stays. -/
def toolAppend (eps tol : K) (depth : Nat) (flat : K) (t : List (Shape K)) : List (Shape K) → List (Shape K) × Option PyErr
  | [] => (t, none)
  | s :: path =>
    match toolSegs eps tol depth flat s with
    | .error e => (t, some e)
    | .ok l => toolAppend eps tol depth flat (t ++ l) path

/-- The loop of `Toolpath.verify_continuity` (`cam/toolpath.py:65-69`). -/
def toolJoined (eps : K) (prev : Shape K) : List (Shape K) → Bool
  | [] => true
  | s :: path => if prev.p2.eq eps s.p1 then toolJoined eps s path else false

/-- `Toolpath.verify_continuity` (`cam/toolpath.py:61-69`). -/
def toolContinuous (eps : K) : List (Shape K) → Except PyErr Bool
  | [] => .error .indexError
  | s :: path => .ok (toolJoined eps s path)

/-- `Toolpath.is_closed` (`cam/toolpath.py:71-73`). -/
def toolClosed (eps : K) (t : List (Shape K)) : Bool :=
  match t.head?, t.getLast? with
  | some a, some b => decide (2 < t.length) && a.p1.eq eps b.p2
  | _, _ => false

/-! ## Flipping the tool -/

/-- The part of a `SimpleCAM` that `flip_tool` uses: the direction of the last flip and the generator (`cam/simplecam.py:126`). -/
structure Flipper (K : Type) where
  toggle : Int
  gc : Gen K

/-- The state a new `SimpleCAM` has (`cam/simplecam.py:126`). -/
def Flipper.init (g : Gen K) : Flipper K := ⟨-1, g⟩

/-- `SimpleCAM.flip_tool` (`cam/simplecam.py:538-544`): the generator's attribute is called `_axis_offset` (`cam/gcode.py:220`), so that reading
`axis_offset` raises `AttributeError` after the direction has been changed. -/
def Flipper.flip (f : Flipper K) : Flipper K × Option PyErr := ({ f with toggle := f.toggle * -1 }, some .attributeError)

/-- Any number of flips with generator calls in between, going on after errors (`cam/simplecam.py:538-544`): `none` is a flip. -/
def Flipper.run (f : Flipper K) : List (Option (Call K)) → Flipper K
  | [] => f
  | none :: l => f.flip.1.run l
  | some c :: l => Flipper.run { f with gc := (f.gc.step c).1 } l

/-! ## Queries of the generator -/

/-- `GCodeGenerator.X` (`cam/gcode.py:239-242`). -/
def genX (g : Gen K) : Option K := g.last 'X'
/-- `GCodeGenerator.Y` (`cam/gcode.py:244-247`). -/
def genY (g : Gen K) : Option K := g.last 'Y'
/-- `GCodeGenerator.Z` (`cam/gcode.py:249-252`). -/
def genZ (g : Gen K) : Option K := g.last 'Z'
/-- `GCodeGenerator.A` (`cam/gcode.py:254-257`). -/
def genA (g : Gen K) : Option K := g.last 'A'
/-- `GCodeGenerator.get_current_position_xy` (`cam/gcode.py:757-765`). -/
def currentXY (g : Gen K) : Option K × Option K := (g.last 'X', g.last 'Y')
/-- `GCodeGenerator.get_current_position` (`cam/gcode.py:767-776`). -/
def currentXYZA (g : Gen K) : Option K × Option K × Option K × Option K := (g.last 'X', g.last 'Y', g.last 'Z', g.last 'A')

end Verif.Cam
