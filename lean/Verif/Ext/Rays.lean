import Verif.Geom.Polygon
import Verif.Geom.Align

/-!
# Corners of a polygon and the rays from them

`polypath.py:273-377` (methods of the extension that draws polygon paths; their calls are commented out).
-/

namespace Verif.Ext
open Verif PyFloat PyTrig Geom

section
variable {K : Type} [PyTrig K]

/-- The triplets that the loops run through (`polypath.py:335-342`, `polypath.py:365-376`). -/
def cornersFrom {α : Type} (v1 v2 : α) : List α → List (α × α × α)
  | [] => []
  | v3 :: r => (v1, v2, v3) :: cornersFrom v2 v3 r

/-- `vertices[i]` and `vertices[i + 1]` (`polypath.py:332-334`, `polypath.py:362-364`): the last two vertices, or the two before the last if that is the first one again. -/
def firstTwo (eps : K) (vs : List (P K)) : Except PyErr (P K × P K) :=
  match vs.reverse, vs.head? with
  | l :: r, some h =>
    if l.eq eps h then
      match r with
      | b :: a :: _ => .ok (a, b)
      | _ => .error .indexError
    else
      match r with
      | a :: _ => .ok (a, l)
      | _ => .error .indexError
  | _, _ => .error .indexError

/-- Whether the loop takes the corner (`polypath.py:337-338`). -/
def isPointy (eps : K) (clockwise : Bool) (t : P K × P K × P K) : Bool :=
  let side := (Line.mk t.1 t.2.1).whichSide eps t.2.2 true
  side ≠ 0 && ((clockwise && 0 < side) || (!clockwise && side < 0))

/-- `_convex_vertices` (`polypath.py:325-342`). -/
def convexVertices (eps : K) (vs : List (P K)) : Except PyErr (List (P K × P K × P K)) :=
  (firstTwo eps vs).map fun f => (cornersFrom f.1 f.2 vs).filter (isPointy eps (polyArea vs <. zero))

/-- Whether the loop takes the corner (`polypath.py:366-369`). -/
def isDented (eps maxAngle : K) (clockwise : Bool) (t : P K × P K × P K) : Bool :=
  let side := (Line.mk t.1 t.2.1).whichSide eps t.2.2
  let angle := PyFloat.abs (t.2.1.angle2 eps t.1 t.2.2)
  (angle <. maxAngle) && ((clockwise && side < 0) || (!clockwise && 0 < side))

/-- The polygon that is built (`polypath.py:369-374`); `new` is what there is of it. -/
def closeDents (eps maxAngle : K) (clockwise : Bool) : List (P K) → List (P K × P K × P K) → List (P K)
  | new, [] => new
  | new, t :: r =>
    if isDented eps maxAngle clockwise t then closeDents eps maxAngle clockwise (new ++ [t.2.2]) r
    else
      match new.getLast? with
      | none => closeDents eps maxAngle clockwise (new ++ [t.2.1]) r
      | some l => if t.2.1.ne eps l then closeDents eps maxAngle clockwise (new ++ [t.2.1]) r else closeDents eps maxAngle clockwise new r

/-- `_concave_vertices` (`polypath.py:344-375`). -/
def concaveVertices (eps maxAngle : K) (vs : List (P K)) : Except PyErr (List (P K × P K × P K) × List (P K)) :=
  (firstTwo eps vs).map fun f =>
    ((cornersFrom f.1 f.2 vs).filter (isDented eps maxAngle (polyArea vs <. zero)), closeDents eps maxAngle (polyArea vs <. zero) [] (cornersFrom f.1 f.2 vs))

/-- The other end of the ray if the line is not upright (`polypath.py:295-321`): `d` is where the bisector starts, `m` and `c` are slope and intercept.
Rays to the left end at the rectangle of the extension instead of the one given. -/
def slantedEnd (eps : K) (own box : Box K) (dx m c : K) : Except PyErr (P K) :=
  if zero <. dx then
    if floatEq eps m zero then .ok ⟨box.p2.x, c⟩
    else do
      let y := box.p2.x *. m +. c
      let y := if zero <. m then pmin box.p2.y y else pmax box.p1.y y
      let x ← pdiv (y -. c) m
      pure ⟨x, y⟩
  else
    if floatEq eps m zero then .ok ⟨own.p1.x, c⟩
    else do
      let y := own.p1.x *. m +. c
      let y := if m <. zero then pmin box.p2.y y else pmax box.p1.y y
      let x ← pdiv (y -. c) m
      pure ⟨x, y⟩

/-- Where the line from `d` through `b` leaves the rectangle (`polypath.py:288-322`). -/
def rayEnd (eps : K) (own box : Box K) (d b : P K) : Except PyErr (P K) :=
  let dx := b.x -. d.x
  let dy := b.y -. d.y
  if floatEq eps dx zero then .ok ⟨d.x, if zero <. dy then box.p2.y else box.p1.y⟩
  else do
    let m ← pdiv dy dx
    slantedEnd eps own box dx m (m *. PyFloat.neg d.x +. d.y)

/-- The ray from one corner (`polypath.py:278-323`). -/
def cornerRay (eps : K) (own box : Box K) (t : P K × P K × P K) : Except PyErr (Line K) := do
  let d1 := t.2.1.distance t.2.2
  let d2 := t.2.1.distance t.1
  let mu ← pdiv d2 (d1 +. d2)
  let q ← rayEnd eps own box ((Line.mk t.1 t.2.2).pointAt mu) t.2.1
  pure ⟨t.2.1, q⟩

/-- `_get_polygon_rays` (`polypath.py:273-323`). -/
def polygonRays (eps : K) (own box : Box K) : List (P K × P K × P K) → Except PyErr (List (Line K))
  | [] => .ok []
  | t :: r => do
    let a ← cornerRay eps own box t
    let l ← polygonRays eps own box r
    pure (a :: l)

end
end Verif.Ext
