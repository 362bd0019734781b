import Verif.Geom.Curve

/-!
# Model of the normals of Bezier curves
-/

set_option linter.unusedSectionVars false

namespace Verif.Geom
open Verif PyFloat PyTrig

variable {K : Type} [PyTrig K]

/-- `CubicBezier.normal` (`geom/bezier.py:154-157`). -/
def Bez.normal (eps : K) (b : Bez K) (t : K) : P K := (b.tangent eps t).normal

end Verif.Geom
