import Verif.Svg.Elements
import Verif.Svg.Templates
import Verif.Geom.Ellipse

/-!
# The sine wave extension

`sinewave.py:46-63`.  The options are in user units already (C174); a negative number of cycles is an empty range.
-/

namespace Verif.Ext
open Verif PyFloat PyTrig Geom Svg

section
variable {K : Type} [PyTrig K]

/-- What the extension draws: the layer it uses, and the elements it adds to it. -/
structure SineDrawing where
  made : LayerMade
  drawn : List XNode

/-- `create_path` (`svg/svg.py:720-726`). -/
def pathNode (d : Str) (style : Option Str) : XNode :=
  .elem .svg "path".toList ([("d".toList, d)] ++ style.toList.map fun s => ("style".toList, s)) []

/-- The element of `create_polypath` (`svg/svg.py:637-696`), none for an empty path. -/
def polypathNode (digits : Nat) (style : Option Str) (path : List (Shape K)) : List XNode :=
  match polypathText digits false path with
  | some d => [pathNode d style]
  | none => []

/-- The style of the wave (`sinewave.py:44`). -/
def sineStyle : Str := "fill:none;stroke:#000000;stroke-width:1px;stroke-opacity:1;".toList

/-- `run` (`sinewave.py:46-61`): `none` would be the search for a free name still running. -/
def sineRun (unit : Str → Except PyErr K) (str fmtG : K → Str) (digits : Nat) (height : K) (doc : XNode) (amplitude wavelength : K) (cycles : Int)
    (origin : P K) : Option (Except PyErr SineDrawing) :=
  (createLayer fmtG height doc { name := "sine wave".toList, incr := true, flipy := true }).map fun made =>
    let path := sineWave amplitude wavelength cycles.toNat origin
    (scaleInlineStyle unit str sineStyle).map fun style => ⟨made, polypathNode digits (some style) (path.map Shape.bez)⟩

end
end Verif.Ext
