import Verif.Geom.Ellipse
import Verif.Geom.Shapes

/-!
# Model of the measures of an ellipse and of the ellipse inscribed in a parallelogram (`tcnc/geom/ellipse.py`)
-/

set_option linter.unusedSectionVars false

namespace Verif.Geom
open Verif PyFloat PyTrig

variable {K : Type} [PyTrig K]

/-- `Ellipse.eccentricity` (`geom/ellipse.py:166-168`). -/
def Ell.eccentricity (e : Ell K) : Except PyErr K := do
  let f ← e.focus
  pdiv f e.rx

/-- `math.pow(x, -1.5)` (`geom/ellipse.py:178`), as `1 / (x √x)`; `ValueError` for zero and for a negative number. -/
def powNeg15 (x : K) : Except PyErr K := if zero <. x then .ok (one /. (x *. sqrt x)) else .error .valueError

/-- `Ellipse.curvature` (`geom/ellipse.py:170-178`); it ignores the centre and the rotation. -/
def Ell.curvature (e : Ell K) (p : P K) : Except PyErr K := do
  let rx2 := e.rx *. e.rx
  let ry2 := e.ry *. e.ry
  let tmp1 ← pdiv one (rx2 *. ry2)
  let a ← pdiv (p.x *. p.x) (rx2 *. rx2)
  let b ← pdiv (p.y *. p.y) (ry2 *. ry2)
  let c ← powNeg15 (a +. b)
  pure (tmp1 *. c)

/-- `v`, the height of the touching point (`geom/ellipse.py:392-401`); powers are written as products. -/
def inscribedV (ecc k d h : K) : Except PyErr K :=
  if one <=. ecc ∨ ecc <. zero then .ok (k /. ofInt 2)
  else do
    let q ← pdiv (k /. ofInt 2 *. ((d +. h) *. (d +. h) +. k *. k)) (k *. k +. d *. d +. h *. h)
    pure (q *. (one -. ecc))

/-- The semi-axes from the coefficients of the equation (`geom/ellipse.py:402-415`); powers are written as products. -/
def inscribedAxes (k d h v : K) : Except PyErr (K × K) := do
  let a0 := k *. k *. k
  let b0 := k *. ((d +. h) *. (d +. h)) -. ofInt 4 *. d *. h *. v
  let c0 := PyFloat.neg k *. (k *. d -. ofInt 2 *. h *. v +. k *. h)
  let d0 := PyFloat.neg (ofInt 2) *. k *. k *. h *. v
  let e0 := ofInt 2 *. k *. h *. v *. (d -. h)
  let f0 := k *. h *. h *. v *. v
  let t1 := a0 *. e0 *. e0 +. b0 *. d0 *. d0 +. ofInt 4 *. f0 *. c0 *. c0 -. ofInt 2 *. c0 *. d0 *. e0 -. ofInt 4 *. a0 *. b0 *. f0
  let t2 := ofInt 2 *. (a0 *. b0 -. c0 *. c0)
  let t3 ← psqrt ((b0 -. a0) *. (b0 -. a0) +. ofInt 4 *. c0 *. c0)
  let qa ← pdiv t1 (t2 *. (a0 +. b0 -. t3))
  let a ← psqrt qa
  let qb ← pdiv t1 (t2 *. (a0 +. b0 +. t3))
  let b ← psqrt qb
  pure (a, b)

/-- The corner angle and whether it is obtuse (`geom/ellipse.py:375-385`). -/
def cornerTheta (eps : K) (v0 v1 v3 : P K) : K := PyFloat.abs (v0.angle2 eps v1 v3)

/-- The ellipse from the two sides at the acute corner (`geom/ellipse.py:386-416`). -/
def inscribedFrom (eps ecc : K) (center : P K) (theta major h2 h : K) : Except PyErr (Ell K) := do
  let k := sin theta *. h2
  let d := cos theta *. h2
  let v ← inscribedV ecc k d h
  let ab ← inscribedAxes k d h v
  pure (Ell.mk' eps center ab.1 (some ab.2) major)

/-- `ellipse_in_parallelogram` (`geom/ellipse.py:358-416`), for a list of four vertices. -/
def ellipseInParallelogram (eps : K) (v0 v1 v2 v3 : P K) (ecc : K) : Except PyErr (Ell K) :=
  let axis : Line K := ⟨v0, v2⟩
  let theta := cornerTheta eps v0 v1 v3
  if pi /. ofInt 2 <. theta then
    inscribedFrom eps ecc axis.midpoint (pi -. theta) (axis.angle +. pi /. ofInt 2) (v1.distance v2) (v2.distance v3)
  else inscribedFrom eps ecc axis.midpoint theta axis.angle (v0.distance v1) (v1.distance v2)

end Verif.Geom
