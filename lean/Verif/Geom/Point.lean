import Verif.Geom.Angle

/-!
# Model of `tcnc/geom/point.py` and `tcnc/geom/transform2d.py`

Law-free: every definition is over an arbitrary `PyTrig K`.  `eps` is `const.EPSILON`.
Division by zero raises `ZeroDivisionError` in Python; functions in which a user can trigger it return `Except`.
-/

set_option linter.unusedSectionVars false

namespace Verif.Geom
open Verif PyFloat PyTrig

variable {K : Type}

/-- `P`: a tuple of two floats (`geom/point.py:23-521`). -/
@[ext] structure P (K : Type) where
  x : K
  y : K
  deriving DecidableEq, Repr

section
variable [PyTrig K]

/-- Float division: `ZeroDivisionError` for a zero divisor. -/
def pdiv (a b : K) : Except PyErr K :=
  if PyTrig.beq b zero then .error .zeroDivision else .ok (a /. b)

/-- Python `max(a, b)`: the first argument unless the second is greater. -/
def pmax (a b : K) : K := if a <. b then b else a
/-- Python `min(a, b)`: the first argument unless the second is smaller. -/
def pmin (a b : K) : K := if b <. a then b else a

namespace P

/-- The origin. -/
def origin : P K := ⟨zero, zero⟩

/-- `P.from_polar` (`geom/point.py:65-80`). -/
def fromPolar (r angle : K) : P K := ⟨r *. cos angle, r *. sin angle⟩

/-- `P.__add__` with a vector (`geom/point.py:405-419`). -/
def add (p q : P K) : P K := ⟨p.x +. q.x, p.y +. q.y⟩
/-- `P.__sub__` with a vector (`geom/point.py:423-437`). -/
def sub (p q : P K) : P K := ⟨p.x -. q.x, p.y -. q.y⟩
/-- `P.__sub__` / `P.__add__` with a scalar (`geom/point.py:408-410`). -/
def addS (p : P K) (n : K) : P K := ⟨p.x +. n, p.y +. n⟩
/-- `P.__sub__` with a scalar (`geom/point.py:425-427`). -/
def subS (p : P K) (n : K) : P K := ⟨p.x -. n, p.y -. n⟩
/-- `P.__mul__` (`geom/point.py:441-449`; also `__rmul__`). -/
def mul (p : P K) (k : K) : P K := ⟨p.x *. k, p.y *. k⟩
/-- `P.__neg__` (`geom/point.py:401-403`) and `mirror` (`geom/point.py:148-151`). -/
def neg (p : P K) : P K := ⟨PyFloat.neg p.x, PyFloat.neg p.y⟩

/-- `P.length2` (`geom/point.py:117-120`). -/
def length2 (p : P K) : K := p.x *. p.x +. p.y *. p.y
/-- `P.length` (`geom/point.py:109-115`). -/
def length (p : P K) : K := hypot p.x p.y
/-- `P.is_zero` (`geom/point.py:88-90`). -/
def isZero (eps : K) (p : P K) : Bool := p.length2 <. eps *. eps

/-- `P.almost_equal` (`geom/point.py:92-107`). -/
def almostEq (tol : K) (p q : P K) : Bool :=
  (p.x -. q.x) *. (p.x -. q.x) +. (p.y -. q.y) *. (p.y -. q.y) <. tol *. tol

/-- `P.__eq__` for points (`geom/point.py:376-387`). -/
def eq (eps : K) (p q : P K) : Bool := almostEq eps p q
/-- `P.__ne__` (`geom/point.py:389-391`). -/
def ne (eps : K) (p q : P K) : Bool := !almostEq eps p q

/-- `P.unit` (`geom/point.py:122-135`); `L` is the square root of a positive number. -/
def unit (eps : K) (p : P K) : P K :=
  if eps *. eps <. p.length2 then ⟨p.x /. sqrt p.length2, p.y /. sqrt p.length2⟩ else ⟨zero, zero⟩

/-- `P.normal` (`geom/point.py:137-146`). -/
def normal (p : P K) (left : Bool := true) : P K :=
  if left then ⟨PyFloat.neg p.y, p.x⟩ else ⟨p.y, PyFloat.neg p.x⟩

/-- `P.dot` (`geom/point.py:153-170`). -/
def dot (p q : P K) : K := p.x *. q.x +. p.y *. q.y
/-- `P.cross` (`geom/point.py:172-193`). -/
def cross (p q : P K) : K := p.x *. q.y -. q.x *. p.y
/-- `P.angle` (`geom/point.py:195-201`). -/
def angle (p : P K) : K := atan2 p.y p.x

/-- `P.angle2` (`geom/point.py:203-223`): the angle `p1 → self → p2`. -/
def angle2 (eps : K) (self p1 p2 : P K) : K :=
  let v1 := p1.sub self
  let v2 := p2.sub self
  if v1.eq eps v2 then zero else atan2 (v1.cross v2) (v1.dot v2)

/-- `P.ccw_angle2` (`geom/point.py:225-236`). -/
def ccwAngle2 (eps : K) (self p1 p2 : P K) : K := normalizeAngle (self.angle2 eps p1 p2) pi

/-- `P.distance` (`geom/point.py:253-262`). -/
def distance (p q : P K) : K := hypot (p.x -. q.x) (p.y -. q.y)
/-- `P.distance2` (`geom/point.py:264-270`). -/
def distance2 (p q : P K) : K := (p.x -. q.x) *. (p.x -. q.x) +. (p.y -. q.y) *. (p.y -. q.y)

/-- `P.normal_projection` (`geom/point.py:314-326`). -/
def normalProjection (eps : K) (self p : P K) : K :=
  if self.length2 <. eps *. eps then zero else p.dot self /. self.length2

/-- `P.distance_to_line` (`geom/point.py:272-295`); the result is signed. -/
def distanceToLine (eps : K) (self p1 p2 : P K) : K :=
  let v1 := p2.sub p1
  if v1.length <. eps then self.distance p1 else v1.cross (p1.sub self) /. v1.length

/-- `P.inside_triangle2D` (`geom/point.py:328-350`). -/
def insideTriangle (self a b c : P K) : Except PyErr Bool := do
  let v1 := b.sub a
  let v2 := c.sub a
  let v3 := self.sub a
  let det := v1.cross v2
  let s ← pdiv (v1.cross v3) det
  let t ← pdiv (v2.cross v3) det
  pure ((zero <=. s) && (zero <=. t) && (s +. t <=. one))

/-- `P.orientation` (`geom/point.py:352-365`). -/
def orientation (self p2 p3 : P K) : K := (p2.sub self).cross (p3.sub self)

end P

/-! ## Transforms (`geom/transform2d.py`) -/

/-- A 2×3 affine matrix `((a, b, c), (d, e, f))`. -/
@[ext] structure Mat (K : Type) where
  a : K
  b : K
  c : K
  d : K
  e : K
  f : K
  deriving DecidableEq, Repr

/-- `IDENTITY_MATRIX` (`geom/transform2d.py:22`). -/
def Mat.ident : Mat K := ⟨one, zero, zero, zero, one, zero⟩

/-- `matrix_apply_to_point` (`geom/transform2d.py:143-146`). -/
def Mat.apply (m : Mat K) (p : P K) : P K :=
  ⟨m.a *. p.x +. m.b *. p.y +. m.c, m.d *. p.x +. m.e *. p.y +. m.f⟩

/-- `compose_transform` (`geom/transform2d.py:40-59`). -/
def Mat.compose (m1 m2 : Mat K) : Mat K :=
  ⟨m1.a *. m2.a +. m1.b *. m2.d, m1.a *. m2.b +. m1.b *. m2.e, m1.a *. m2.c +. m1.b *. m2.f +. m1.c,
   m1.d *. m2.a +. m1.e *. m2.d, m1.d *. m2.b +. m1.e *. m2.e, m1.d *. m2.c +. m1.e *. m2.f +. m1.f⟩

/-- `matrix_translate` (`geom/transform2d.py:77-87`). -/
def Mat.translate (x y : K) : Mat K := ⟨one, zero, x, zero, one, y⟩

/-- `matrix_rotate` (`geom/transform2d.py:61-75`). -/
def Mat.rotate (angle : K) (origin : P K := P.origin) : Mat K :=
  Mat.compose ⟨cos angle, PyFloat.neg (sin angle), origin.x, sin angle, cos angle, origin.y⟩
    (Mat.translate (PyFloat.neg origin.x) (PyFloat.neg origin.y))

/-- `matrix_scale` (`geom/transform2d.py:89-105`). -/
def Mat.scale (sx sy : K) (origin : Option (P K) := none) : Mat K :=
  let m : Mat K := ⟨sx, zero, zero, zero, sy, zero⟩
  match origin with
  | none => m
  | some o => Mat.compose (Mat.translate o.x o.y)
      (Mat.compose m (Mat.translate (PyFloat.neg o.x) (PyFloat.neg o.y)))

/-- `matrix_scale_translate` (`geom/transform2d.py:107-119`). -/
def Mat.scaleTranslate (sx sy ox oy : K) : Mat K := ⟨sx, zero, ox, zero, sy, oy⟩

/-- `matrix_skew_x` (`geom/transform2d.py:121-130`). -/
def Mat.skewX (angle : K) : Mat K := ⟨one, tan angle, zero, zero, one, zero⟩
/-- `matrix_skew_y` (`geom/transform2d.py:132-141`). -/
def Mat.skewY (angle : K) : Mat K := ⟨one, zero, zero, tan angle, one, zero⟩

/-- `P.transform` (`geom/point.py:367-370`). -/
def P.transform (p : P K) (m : Mat K) : P K := m.apply p
/-- `P.rotate` (`geom/point.py:372-374`). -/
def P.rotate (p : P K) (angle : K) (origin : P K := P.origin) : P K := p.transform (Mat.rotate angle origin)

/-- `canonicalize_point` (`geom/transform2d.py:148-163`). -/
def canonicalizePoint (p origin : P K) (theta : K) : P K :=
  ((Mat.rotate (PyFloat.neg theta)).apply p).sub origin

end
end Verif.Geom
