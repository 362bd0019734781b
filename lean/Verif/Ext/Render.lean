import Verif.Ext.Lines
import Verif.Cam.Fillet

/-!
# Model of how `tcnc/lines.py` draws the paths it has made

The text of the elements is that of `create_line` and `create_polypath` (`Svg/Output.lean`, C129); here an element is its layer, its style and the shapes it is made from.  The layers are made with
a suffix for their names if there are layers of that name (C132) and with an upward Y axis.
-/

set_option linter.unusedSectionVars false

namespace Verif.Ext
open Verif PyFloat PyTrig Geom Cam

variable {K : Type} [PyTrig K]

/-- The options for drawing (`lines.py:142-156`). -/
structure DrawArgs (K : Type) where
  both : Bool
  gridLayers : Bool
  fillet : Bool
  radius : K

/-- The layers of the extension (`lines.py:192-194`). -/
inductive GridLayer where
  | all | horizontal | vertical
deriving DecidableEq

/-- The styles of the lines (`lines.py:336,340,344,347`). -/
inductive GridStyle where
  | hLine | vLine
deriving DecidableEq

/-- An element of the drawing. -/
structure DrawnPath (K : Type) where
  layer : GridLayer
  style : GridStyle
  shapes : List (Shape K)

/-- The shapes of a path. -/
def asShapes (path : List (Line K)) : List (Shape K) := path.map .line

/-- One path of `render_lines` (`lines.py:371-380`); `none` if nothing is drawn. -/
def renderPath (eps : K) (a : DrawArgs K) (path : List (Line K)) : Except PyErr (Option (List (Shape K))) :=
  if path.length = 1 then .ok (some (asShapes path))
  else if path.isEmpty then .ok none
  else if a.fillet then (shapeFilletPath eps (asShapes path) a.radius false).map some
  else .ok (some (asShapes path))

/-- `render_lines` (`lines.py:368-380`). -/
def renderLines (eps : K) (a : DrawArgs K) (layer : GridLayer) (style : GridStyle) : List (List (Line K)) → Except PyErr (List (DrawnPath K))
  | [] => .ok []
  | p :: ps => do
    let d ← renderPath eps a p
    let out ← renderLines eps a layer style ps
    pure ((d.map fun s => ⟨layer, style, s⟩).toList ++ out)

/-- Whether there are horizontal and vertical lines to be drawn by turns (`lines.py:315,328`); there are no paths if there are no lines. -/
def byTurns (a : DrawArgs K) (hs vs : List (List (Line K))) : Bool := a.both && !hs.isEmpty && !vs.isEmpty

/-- The layers made (`lines.py:313-325`). -/
def gridLayers (a : DrawArgs K) (hs vs : List (List (Line K))) : List GridLayer :=
  if !a.gridLayers || byTurns a hs vs then [.all]
  else (if hs.isEmpty then [] else [.horizontal]) ++ (if vs.isEmpty then [] else [.vertical])

/-- Drawing of the paths (`lines.py:313-348`), without the shuffling; `create_polypath` draws nothing for an empty path (`svg/svg.py:660-661`). -/
def drawGrid (eps : K) (a : DrawArgs K) (hs vs : List (List (Line K))) : Except PyErr (List (DrawnPath K)) :=
  if byTurns a hs vs then
    .ok ((alternated (hs.map fun p => (⟨.all, .hLine, asShapes p⟩ : DrawnPath K)) (vs.map fun p => ⟨.all, .vLine, asShapes p⟩)).filter fun d => !d.shapes.isEmpty)
  else do
    let h ← renderLines eps a (if a.gridLayers then .horizontal else .all) .hLine hs
    let v ← renderLines eps a (if a.gridLayers then .vertical else .all) .vLine vs
    pure (h ++ v)

end Verif.Ext
