import Verif.Ext.Quasink
import Verif.Geom.Inscribed

/-!
# Model of the margins, the frame, the circles and the ellipses drawn by `quasink.py`
-/

set_option linter.unusedSectionVars false

namespace Verif.Ext
open Verif PyFloat PyTrig Geom

variable {K : Type} [PyTrig K]

/-- A figure handed to `create_ellipse`, `create_circle` or `create_polygon` (`quasink.py:373-391,403-405,519,526-528`); styles and layers are left out. -/
inductive Mark (K : Type) where
  | ellipse (e : Ell K)
  | polygon (vs : List (P K))
  deriving DecidableEq

/-- The corners of a box as they are drawn (`quasink.py:379-384,387-388`). -/
def boxOutline (b : Box K) : List (P K) := [b.p1, ⟨b.p1.x, b.p2.y⟩, b.p2, ⟨b.p2.x, b.p1.y⟩]

/-- `_draw_margins` (`quasink.py:371-391`); without a clipping region it raises `AttributeError`. -/
def drawMargins (region : Region K) (bbox : Box K) : Except PyErr (List (Mark K)) :=
  match region with
  | .all => .error .attributeError
  | .ellipse e => .ok [.ellipse ⟨e.center, e.rx, e.ry, zero⟩, .polygon (boxOutline bbox)]
  | .box b => .ok [.polygon (boxOutline b), .polygon (boxOutline bbox)]

/-- `_draw_frame` (`quasink.py:393-404`); the stroke has the width `thickness`. -/
def drawFrame (center : P K) (width height thickness : K) : Mark K :=
  let offset := thickness /. ofInt 2
  let cx := width /. ofInt 2 +. offset
  let cy := height /. ofInt 2 +. offset
  .polygon [center.add ⟨cx, cy⟩, center.add ⟨cx, PyFloat.neg cy⟩, center.add ⟨PyFloat.neg cx, PyFloat.neg cy⟩, center.add ⟨PyFloat.neg cx, cy⟩]

/-- The options of the frame (`quasink.py:341-343`): nothing is drawn unless both sizes are positive. -/
def frameMarks (draw : Bool) (center : P K) (width height thickness : K) : List (Mark K) :=
  if draw && (zero <. width && zero <. height) then [drawFrame center width height thickness] else []

/-- One ellipse of `_draw_polygon_ellipses` (`quasink.py:525-527`): both semi-axes are made shorter by `inset`. -/
def tileEllipse (eps inset : K) (poly : List (P K)) : Except PyErr (Mark K) :=
  match poly with
  | v0 :: v1 :: v2 :: v3 :: _ => do
    let e ← ellipseInParallelogram eps v0 v1 v2 v3 one
    pure (.ellipse ⟨e.center, e.rx -. inset, e.ry -. inset, e.phi⟩)
  | _ => .error .indexError

/-- `_draw_polygon_ellipses` (`quasink.py:521-527`). -/
def drawPolygonEllipses (eps inset : K) : List (List (P K)) → Except PyErr (List (Mark K))
  | [] => .ok []
  | poly :: rest => do
    let m ← tileEllipse eps inset poly
    let ms ← drawPolygonEllipses eps inset rest
    pure (m :: ms)

/-- One circle of `_draw_polygon_circles` (`quasink.py:511-519`), as an ellipse with equal axes; the method is not called. -/
def tileCircle (eps : K) (poly : List (P K)) : Except PyErr (Mark K) :=
  match poly with
  | v0 :: v1 :: v2 :: _ =>
    let a := PyFloat.abs (v1.angle2 eps v0 v2)
    let radius := sin a *. v1.distance v2 /. ofInt 2
    .ok (.ellipse ⟨Line.midpoint ⟨v0, v2⟩, radius, radius, zero⟩)
  | _ => .error .indexError

end Verif.Ext
