import Verif.Geom.Point

/-!
# Model of `tcnc/geom/line.py`, `arc.py`, `bezier.py`, `box.py` (shapes and their methods)

Law-free, over an arbitrary `PyTrig K`; `eps` is `const.EPSILON`.
-/

set_option linter.unusedSectionVars false

namespace Verif.Geom
open Verif PyFloat PyTrig

/-- `Line`: an immutable pair of points (`geom/line.py:25-40`). -/
@[ext] structure Line (K : Type) where
  p1 : P K
  p2 : P K
  deriving DecidableEq, Repr

/-- `Arc`: start, end, radius, signed sweep angle, centre (`geom/arc.py:35-67`). -/
@[ext] structure Arc (K : Type) where
  p1 : P K
  p2 : P K
  radius : K
  angle : K
  center : P K
  deriving DecidableEq, Repr

/-- `CubicBezier`: start, two control points, end (`geom/bezier.py:31-46`). -/
@[ext] structure Bez (K : Type) where
  p1 : P K
  c1 : P K
  c2 : P K
  p2 : P K
  deriving DecidableEq, Repr

/-- `Box`: lower left and upper right corner (`geom/box.py:23-38`). -/
@[ext] structure Box (K : Type) where
  p1 : P K
  p2 : P K
  deriving DecidableEq, Repr

variable {K : Type} [PyTrig K]

namespace Line

/-- `Line.from_polar` (`geom/line.py:40-44`). -/
def fromPolar (startp : P K) (length angle : K) : Line K := ⟨startp, startp.add (P.fromPolar length angle)⟩

/-- `Line.length` (`geom/line.py:56-58`). -/
def length (l : Line K) : K := (l.p2.sub l.p1).length
/-- `Line.angle` (`geom/line.py:97-99`). -/
def angle (l : Line K) : K := (l.p2.sub l.p1).angle
/-- `Line.midpoint` (`geom/line.py:128-134`). -/
def midpoint (l : Line K) : P K := (l.p1.add l.p2).mul (lit 5 1)
/-- `Line.bisector` (`geom/line.py:136-148`). -/
def bisector (l : Line K) : Line K :=
  let m := l.midpoint
  let a := l.p1.sub m
  let b := l.p2.sub m
  ⟨m.add ⟨a.y, PyFloat.neg a.x⟩, m.add ⟨b.y, PyFloat.neg b.x⟩⟩
/-- `Line.point_at` (`geom/line.py:203-214`). -/
def pointAt (l : Line K) (mu : K) : P K := l.p1.add ((l.p2.sub l.p1).mul mu)
/-- `Line.transform` (`geom/line.py:121-126`). -/
def transform (l : Line K) (m : Mat K) : Line K := ⟨l.p1.transform m, l.p2.transform m⟩
/-- `Line.reversed` (`geom/line.py:546-548`). -/
def reversed (l : Line K) : Line K := ⟨l.p2, l.p1⟩
/-- `Line.flipped` (`geom/line.py:550-553`). -/
def flipped (l : Line K) : Line K := ⟨l.p1, (l.p2.sub l.p1).neg.add l.p1⟩

/-- `Line.offset` (`geom/line.py:161-180`).  Division by `length` happens only when `length` is not close to zero. -/
def offset (eps : K) (l : Line K) (distance : K) : Line K :=
  let len := l.length
  if Geom.isZero eps distance || Geom.isZero eps len then l
  else
    let u := distance /. len
    let v1 := (l.p2.sub l.p1).mul u
    let v2 := (l.p1.sub l.p2).mul u
    ⟨(v1.normal true).add l.p1, (v2.normal false).add l.p2⟩

/-- `Line.mu` (`geom/line.py:182-187`). -/
def mu (l : Line K) (p : P K) : Except PyErr K := pdiv (l.p1.distance p) l.length

/-- `Line.subdivide` (`geom/line.py:189-201`): asserts `0 < mu < 1`. -/
def subdivide (l : Line K) (mu : K) : Except PyErr (Line K × Line K) :=
  if (zero <. mu) && (mu <. one) then .ok (⟨l.p1, l.pointAt mu⟩, ⟨l.pointAt mu, l.p2⟩) else .error .runtime

/-- `Line.normal_projection` (`geom/line.py:216-233`). -/
def normalProjection (eps : K) (l : Line K) (p : P K) : K :=
  if l.p1.eq eps l.p2 then zero else (l.p2.sub l.p1).normalProjection eps (p.sub l.p1)

/-- `Line.normal_projection_point` (`geom/line.py:235-252`). -/
def normalProjectionPoint (eps : K) (l : Line K) (p : P K) (segment : Bool := false) : P K :=
  let v1 := l.p2.sub l.p1
  let u := v1.normalProjection eps (p.sub l.p1)
  if segment && (u <=. zero) then l.p1
  else if segment && (one <=. u) then l.p2
  else l.p1.add (v1.mul u)

/-- `Line.distance_to_point` (`geom/line.py:254-271`). -/
def distanceToPoint (eps : K) (l : Line K) (p : P K) (segment : Bool := false) : K :=
  (l.normalProjectionPoint eps p segment).distance p

/-- numerator `a` of `intersection_mu` (`geom/line.py:308`). -/
def numA (l o : Line K) : K :=
  (o.p2.x -. o.p1.x) *. (l.p1.y -. o.p1.y) -. (o.p2.y -. o.p1.y) *. (l.p1.x -. o.p1.x)
/-- numerator `b` of `intersection_mu` (`geom/line.py:309`). -/
def numB (l o : Line K) : K :=
  (l.p2.x -. l.p1.x) *. (l.p1.y -. o.p1.y) -. (l.p2.y -. l.p1.y) *. (l.p1.x -. o.p1.x)
/-- `denom` of `intersection_mu` (`geom/line.py:310`). -/
def denom (l o : Line K) : K :=
  (o.p2.y -. o.p1.y) *. (l.p2.x -. l.p1.x) -. (o.p2.x -. o.p1.x) *. (l.p2.y -. l.p1.y)

/-- the range test of `intersection_mu` (`geom/line.py:317-322`). -/
def muOutside (eps mu : K) : Bool := (mu <. PyFloat.neg eps) || (one +. eps <. mu)

/-- `Line.intersection_mu` (`geom/line.py:273-324`). -/
def intersectionMu (eps : K) (l o : Line K) (segment segA segB : Bool := false) : Option K :=
  let segA := segment || segA
  let segB := segment || segB
  let d := l.denom o
  if PyFloat.abs d <. eps then none
  else
    let muA := l.numA o /. d
    let muB := l.numB o /. d
    if (segA && muOutside eps muA) || (segB && muOutside eps muB) then none else some muA

/-- `Line.intersection` (`geom/line.py:326-349`). -/
def intersection (eps : K) (l o : Line K) (segment segA segB : Bool := false) : Option (P K) :=
  (l.intersectionMu eps o segment segA segB).map l.pointAt

/-- `Line.intersects` (`geom/line.py:381-384`): calls the misspelled method `interection_mu`. -/
def intersects (_l _o : Line K) (_segment : Bool := false) : Except PyErr Bool := .error .attributeError

/-- `Line.is_coincident` (`geom/line.py:388-400`). -/
def isCoincident (tol : K) (l o : Line K) : Bool := l.p1.almostEq tol o.p1 && l.p2.almostEq tol o.p2

/-- `Line.is_parallel` (`geom/line.py:402-429`). -/
def isParallel (eps : K) (l o : Line K) (inline : Bool := false) : Bool :=
  if PyFloat.abs (l.denom o) <. eps then
    if inline then (PyFloat.abs (l.numA o) <. eps) && (PyFloat.abs (l.numB o) <. eps) else true
  else false

/-- `Line.extend` (`geom/line.py:431-464`). -/
def extend (l : Line K) (amount : K) (fromMid : Bool := false) : Except PyErr (Line K) := do
  let amount := if fromMid then amount /. ofInt 2 else amount
  let u ← pdiv amount l.length
  let d := (l.p2.sub l.p1).mul u
  pure (if fromMid then ⟨l.p1.sub d, l.p2.add d⟩ else ⟨l.p1, l.p2.add d⟩)

/-- `Line.shift` (`geom/line.py:466-478`). -/
def shift (l : Line K) (amount : K) : Except PyErr (Line K) := do
  let u ← pdiv amount l.length
  let d := (l.p2.sub l.p1).mul u
  pure ⟨l.p1.add d, l.p2.add d⟩

/-- `Line.which_side` (`geom/line.py:480-498`). -/
def whichSide (eps : K) (l : Line K) (p : P K) (inline : Bool := false) : Int :=
  let cp := (l.p2.sub l.p1).cross (p.sub l.p1)
  if inline && Geom.isZero eps cp then 0 else if zero <=. cp then 1 else -1

/-- `Line.which_side_angle` (`geom/line.py:500-514`). -/
def whichSideAngle (eps : K) (l : Line K) (angle : K) (inline : Bool := false) : Int :=
  l.whichSide eps ((P.fromPolar one angle).add l.p2) inline

/-- `Line.same_side` (`geom/line.py:516-526`): the first disjunct tests `c1` twice. -/
def sameSide (l : Line K) (pt1 pt2 : P K) : Bool :=
  let v1 := l.p2.sub l.p1
  let c1 := v1.cross (pt1.sub l.p1)
  let c2 := v1.cross (pt2.sub l.p1)
  ((zero <=. c1) && (zero <=. c1)) || ((c1 <. zero) && (c2 <. zero))

/-- `Line.point_on_line` (`geom/line.py:528-544`). -/
def pointOnLine (eps : K) (l : Line K) (p : P K) (segment : Bool := false) : Bool :=
  let coll := Geom.isZero eps ((l.p2.sub l.p1).cross (p.sub l.p1))
  if segment && coll then
    (pmin l.p1.x l.p2.x -. eps <=. p.x) && (p.x <=. pmax l.p1.x l.p2.x +. eps) &&
      ((pmin l.p1.y l.p2.y -. eps <=. p.y) && (p.y <=. pmax l.p1.y l.p2.y +. eps))
  else coll

/-- `Line.__eq__` (`geom/line.py:570-583`). -/
def eq (eps : K) (l o : Line K) : Bool :=
  (l.p1.eq eps o.p1 && l.p2.eq eps o.p2) || (l.p1.eq eps o.p2 && l.p2.eq eps o.p1)

end Line

namespace Arc

/-- `Arc.calc_center` (`geom/arc.py:125-160`): `ValueError` when the radius is too small for the chord. -/
def calcCenter (eps : K) (p1 p2 : P K) (radius angle : K) : Except PyErr (P K) :=
  if p1.eq eps p2 then .ok p1
  else
    let chord : Line K := ⟨p1, p2⟩
    let chordLen := chord.length
    let sign : K := if zero <. angle then ofInt 1 else ofInt (-1)
    let midp := chord.midpoint
    let q := radius *. radius -. chordLen *. chordLen /. ofInt 4
    if q <. zero then .error .valueError
    else do
      let c2m := sqrt q
      let uy ← pdiv (p2.y -. p1.y) chordLen
      let ux ← pdiv (p2.x -. p1.x) chordLen
      pure ⟨midp.x -. sign *. c2m *. uy, midp.y +. sign *. c2m *. ux⟩

/-- `Arc.__new__` (`geom/arc.py:49-68`). -/
def mk' (eps : K) (p1 p2 : P K) (radius angle : K) (center : Option (P K)) : Except PyErr (Arc K) :=
  match center with
  | some c => .ok ⟨p1, p2, radius, angle, c⟩
  | none => do let c ← calcCenter eps p1 p2 radius angle; pure ⟨p1, p2, radius, angle, c⟩

/-- `Arc.from_two_points_and_center` (`geom/arc.py:71-91`). -/
def fromTwoPointsAndCenter (eps : K) (p1 p2 center : P K) (largeArc : Bool := false) : Arc K :=
  let angle := center.angle2 eps p1 p2
  let angle := if largeArc then (if angle <. zero then PyFloat.neg tau else tau) -. angle else angle
  ⟨p1, p2, p1.distance center, angle, center⟩

/-- `Arc.from_two_points_and_tangent` (`geom/arc.py:93-123`).  `none` is the Python `None`. -/
def fromTwoPointsAndTangent (eps : K) (p1 ptan p2 : P K) (rev : Bool := false) : Except PyErr (Option (Arc K)) :=
  if p1.eq eps p2 || p1.eq eps (p1.add ptan) then .ok none
  else do
    let angle := ofInt 2 *. p1.angle2 eps ptan p2
    let r ← pdiv (p1.distance p2) (ofInt 2 *. sin (angle /. ofInt 2))
    let radius := PyFloat.abs r
    let a ← if rev then mk' eps p2 p1 radius (PyFloat.neg angle) none else mk' eps p1 p2 radius angle none
    pure (some a)

/-- `Arc.length` (`geom/arc.py:194-199`). -/
def length (a : Arc K) : K := PyFloat.abs (a.radius *. a.angle)

/-- `Arc.is_clockwise` (`geom/arc.py:219-224`). -/
def isClockwise (a : Arc K) : Bool := a.angle <. zero

/-- `Arc.start_tangent_angle` (`geom/arc.py:226-239`). -/
def startTangent (a : Arc K) : K :=
  let v := if a.isClockwise then a.center.sub a.p1 else a.p1.sub a.center
  normalizeAngle (v.angle +. pi /. ofInt 2) zero

/-- `Arc.end_tangent_angle` (`geom/arc.py:241-253`). -/
def endTangent (a : Arc K) : K :=
  let v := if a.isClockwise then a.center.sub a.p2 else a.p2.sub a.center
  normalizeAngle (v.angle +. pi /. ofInt 2) zero

/-- `Arc.area` (`geom/arc.py:201-208`). -/
def area (a : Arc K) : K := a.radius *. a.radius *. PyFloat.abs a.angle /. ofInt 2

/-- `Arc.height` (`geom/arc.py:255-262`). -/
def height (a : Arc K) : K := a.radius -. (Line.midpoint ⟨a.p1, a.p2⟩).distance a.center

/-- `Arc.transform` (`geom/arc.py:264-290`). -/
def transform (eps : K) (a : Arc K) (m : Mat K) : Except PyErr (Arc K) :=
  let np1 := a.p1.transform m
  let np2 := a.p2.transform m
  if !(PyTrig.beq (PyFloat.abs m.a) (PyFloat.abs m.e)) then .error .runtime
  else do
    let angle := if m.a *. m.e <. zero then PyFloat.neg a.angle else a.angle
    let ratio ← pdiv (np1.distance2 np2) (a.p1.distance2 a.p2)
    mk' eps np1 np2 (a.radius *. ratio) angle none

/-- `Arc.offset` (`geom/arc.py:292-318`) with `preserve_center=True`; with `preserve_center=False` the constructor is
called with the wrong number of arguments, modelled as the radius/angle/centre it actually receives. -/
def offset (a : Arc K) (distance : K) : Except PyErr (Arc K) := do
  let l1 ← Line.extend ⟨a.center, a.p1⟩ distance
  let l2 ← Line.extend ⟨a.center, a.p2⟩ distance
  pure ⟨l1.p2, l2.p2, a.radius +. distance, a.angle, a.center⟩

/-- `Arc.point_at_angle` (`geom/arc.py:480-510`); `none` is returned only if `segment`. -/
def pointAtAngle? (a : Arc K) (angle : K) (segment : Bool) : Option (P K) :=
  if segment && ((angle <. zero) || (PyFloat.abs a.angle <. angle)) then none
  else if angle <=. zero then some a.p1
  else if PyFloat.abs a.angle <=. angle then some a.p2
  else
    let p1a := (a.p1.sub a.center).angle
    let t := if a.angle <. zero then p1a -. angle else p1a +. angle
    some ⟨a.center.x +. a.radius *. cos t, a.center.y +. a.radius *. sin t⟩

/-- `Arc.point_at_angle` (`geom/arc.py:480-510`) with `segment=False`. -/
def pointAtAngle (a : Arc K) (angle : K) : P K :=
  if angle <=. zero then a.p1
  else if PyFloat.abs a.angle <=. angle then a.p2
  else
    let p1a := (a.p1.sub a.center).angle
    let t := if a.angle <. zero then p1a -. angle else p1a +. angle
    ⟨a.center.x +. a.radius *. cos t, a.center.y +. a.radius *. sin t⟩

/-- `Arc.point_at` (`geom/arc.py:408-417`). -/
def pointAt (a : Arc K) (mu : K) : P K := a.pointAtAngle (PyFloat.abs a.angle *. mu)

/-- `Arc.midpoint` (`geom/arc.py:419-424`). -/
def midpoint (a : Arc K) : P K := a.pointAt (lit 5 1)

/-- `Arc.mu` (`geom/arc.py:392-406`). -/
def mu (eps : K) (a : Arc K) (p : P K) : Except PyErr K := pdiv (a.center.angle2 eps a.p1 p) a.angle

/-- `Arc.subdivide_at_angle` (`geom/arc.py:441-462`). -/
def subdivideAtAngle (eps : K) (a : Arc K) (angle : K) : List (Arc K) :=
  if (angle <. eps) || (a.angle <=. angle) then [a]
  else
    let angle2 := PyFloat.abs a.angle -. angle
    let p := a.pointAtAngle angle
    let neg := a.angle <. zero
    let s1 := if neg then PyFloat.neg angle else angle
    let s2 := if neg then PyFloat.neg angle2 else angle2
    [⟨a.p1, p, a.radius, s1, a.center⟩, ⟨p, a.p2, a.radius, s2, a.center⟩]

/-- `Arc.subdivide` (`geom/arc.py:426-439`). -/
def subdivide (eps : K) (a : Arc K) (mu : K) : List (Arc K) :=
  if (mu <. eps) || (one <=. mu) then [a] else a.subdivideAtAngle eps (PyFloat.abs a.angle *. mu)

/-- `Arc.subdivide_at_point` (`geom/arc.py:464-478`). -/
def subdivideAtPoint (eps : K) (a : Arc K) (p : P K) : List (Arc K) :=
  let angle := a.center.angle2 eps a.p1 p
  if Geom.isZero eps angle || floatEq eps angle a.angle then [a]
  else [⟨a.p1, p, a.radius, angle, a.center⟩, ⟨p, a.p2, a.radius, a.angle -. angle, a.center⟩]

/-- `Arc.which_side_angle` (`geom/arc.py:375-390`). -/
def whichSideAngle (eps : K) (a : Arc K) (angle : K) (inline : Bool := false) : Int :=
  Line.whichSide eps ⟨a.p2, (P.fromPolar one a.endTangent).add a.p2⟩ ((P.fromPolar one angle).add a.p2) inline

/-- `Arc.point_on_arc` (`geom/arc.py:512-535`). -/
def pointOnArc (eps : K) (a : Arc K) (p : P K) : Bool :=
  if floatEq eps a.radius (a.center.distance p) then
    let ix := Line.intersection eps ⟨a.p1, a.p2⟩ ⟨a.center, p⟩ true
    let major := pi <. PyFloat.abs a.angle
    (major && ix.isNone) || (!major && ix.isSome)
  else false

/-- `Arc.intersect_line` (`geom/arc.py:537-583`). -/
def intersectLine (eps : K) (a : Arc K) (line : Line K) (onArc onLine : Bool := false) :
    Except PyErr (List (P K)) :=
  let lp1 := line.p1.sub a.center
  let lp2 := line.p2.sub a.center
  let dx := lp2.x -. lp1.x
  let dy := lp2.y -. lp1.y
  let dr2 := dx *. dx +. dy *. dy
  let det := lp1.cross lp2
  let dsc := a.radius *. a.radius *. dr2 -. det *. det
  if Geom.isZero eps dsc then .ok [line.normalProjectionPoint eps a.center]
  else if zero <. dsc then do
    let sgn : K := if dy <. zero then ofInt (-1) else ofInt 1
    let dscr := sqrt dsc
    let x1 ← pdiv (det *. dy +. sgn *. dx *. dscr) dr2
    let x2 ← pdiv (det *. dy -. sgn *. dx *. dscr) dr2
    let y1 ← pdiv (PyFloat.neg det *. dx +. PyFloat.abs dy *. dscr) dr2
    let y2 ← pdiv (PyFloat.neg det *. dx -. PyFloat.abs dy *. dscr) dr2
    let p1 : P K := P.add ⟨x1, y1⟩ a.center
    let p2 : P K := P.add ⟨x2, y2⟩ a.center
    let keep := fun p : P K => (!onArc || a.pointOnArc eps p) && (!onLine || line.pointOnLine eps p)
    pure ([p1, p2].filter keep)
  else .ok []

/-- `Arc.distance_to_point` (`geom/arc.py:325-373`): `-1` when the projection is off the arc and `segment`. -/
def distanceToPoint (eps : K) (a : Arc K) (p : P K) (segment : Bool := true) : Except PyErr K := do
  if (a.radius <. eps) || a.p1.eq eps a.p2 then return a.p1.distance p
  let aangle := PyFloat.abs a.angle
  let inside ←
    if floatEq eps aangle pi then
      let ws := Line.whichSide eps ⟨a.p1, a.p2⟩ p
      pure ((ws == 1 && (a.angle <. zero)) || (ws == -1 && (zero <. a.angle)))
    else if pi <. aangle then
      let phi := a.center.ccwAngle2 eps a.p1 p
      let phi := if a.angle <. zero then tau -. phi else phi
      pure (zero <. (aangle -. PyFloat.abs phi))
    else do
      let v1 := a.p1.sub a.center
      let v2 := a.p2.sub a.center
      let v3 := p.sub a.center
      let det := v1.cross v2
      let s ← pdiv (v1.cross v3) det
      let t ← pdiv (v3.cross v2) det
      pure ((zero <=. s) && (zero <=. t))
  if inside then pure (PyFloat.abs (a.center.distance p -. a.radius))
  else if segment then pure (ofInt (-1))
  else pure (pmin (a.p1.distance p) (a.p2.distance p))

/-- `Arc.reversed` (`geom/arc.py:613-618`). -/
def reversed (a : Arc K) : Arc K := ⟨a.p2, a.p1, a.radius, PyFloat.neg a.angle, a.center⟩

end Arc

namespace Bez

/-- `CubicBezier.from_quadratic` (`geom/bezier.py:47-62`). -/
def fromQuadratic (q1 q2 q3 : P K) : Bez K :=
  let third := fun v : P K => (⟨v.x /. ofInt 3, v.y /. ofInt 3⟩ : P K)
  ⟨q1, q1.add (third ((q2.sub q1).mul (ofInt 2))), q3.add (third ((q2.sub q3).mul (ofInt 2))), q3⟩

/-- `CubicBezier.transform` (`geom/bezier.py:84-88`). -/
def transform (b : Bez K) (m : Mat K) : Bez K :=
  ⟨b.p1.transform m, b.c1.transform m, b.c2.transform m, b.p2.transform m⟩

/-- `CubicBezier.point_at` (`geom/bezier.py:105-123`). -/
def pointAt (eps : K) (b : Bez K) (t : K) : P K :=
  if Geom.isZero eps t then b.p1
  else if floatEq eps t one then b.p2
  else
    let t2 := t *. t
    let mt := ofInt 1 -. t
    let mt2 := mt *. mt
    ((((b.p1.mul mt2).mul mt).add (((b.c1.mul (ofInt 3)).mul t).mul mt2)).add
      (((b.c2.mul (ofInt 3)).mul t2).mul mt)).add ((b.p2.mul t2).mul t)

/-- `CubicBezier.derivative1` (`geom/bezier.py:433-443`). -/
def derivative1 (b : Bez K) (t : K) : P K :=
  let t2 := t *. t
  (((b.c1.sub b.p1).mul (ofInt 3 *. (t2 -. ofInt 2 *. t +. ofInt 1))).add
    ((b.c2.sub b.c1).mul (ofInt 6 *. (t -. t2)))).add ((b.p2.sub b.c2).mul (ofInt 3 *. t2))

/-- `CubicBezier.tangent` (`geom/bezier.py:136-152`). -/
def tangent (eps : K) (b : Bez K) (t : K) : P K :=
  P.unit eps <|
    if Geom.isZero eps t then
      (if b.c1.eq eps b.p1 then b.c2.sub b.p1 else b.c1.sub b.p1)
    else if floatEq eps t one then
      (if b.c2.eq eps b.p2 then (b.c1.sub b.p2).neg else (b.c2.sub b.p2).neg)
    else b.derivative1 t

/-- `CubicBezier.start_tangent_angle` (`geom/bezier.py:90-97`). -/
def startTangent (eps : K) (b : Bez K) : K := (b.tangent eps zero).angle
/-- `CubicBezier.end_tangent_angle` (`geom/bezier.py:99-103`). -/
def endTangent (eps : K) (b : Bez K) : K := (b.tangent eps one).angle

/-- `CubicBezier.flatness` (`geom/bezier.py:159-173`). -/
def flatness (eps : K) (b : Bez K) : K :=
  if b.p1.eq eps b.c1 && b.p2.eq eps b.c2 then zero
  else
    let chord : Line K := ⟨b.p1, b.p2⟩
    pmax (chord.distanceToPoint eps b.c1 true) (chord.distanceToPoint eps b.c2 true)

/-- `CubicBezier.controlpoints_at` (`geom/bezier.py:406-431`). -/
def controlpointsAt (b : Bez K) (t : K) : P K × P K × P K × P K × P K :=
  let mt := ofInt 1 -. t
  let mix := fun p q : P K => (p.mul mt).add (q.mul t)
  let d01 := mix b.p1 b.c1
  let d12 := mix b.c1 b.c2
  let d23 := mix b.c2 b.p2
  let d012 := mix d01 d12
  let d123 := mix d12 d23
  (d01, d012, mix d012 d123, d123, d23)

/-- `CubicBezier.subdivide` (`geom/bezier.py:175-188`); the second component may be Python `None`. -/
def subdivide (b : Bez K) (t : K) : Bez K × Option (Bez K) :=
  if (t <=. zero) || (one <=. t) then (b, none)
  else
    let c := b.controlpointsAt t
    (⟨b.p1, c.1, c.2.1, c.2.2.1⟩, some ⟨c.2.2.1, c.2.2.2.1, c.2.2.2.2, b.p2⟩)

/-- `CubicBezier.reversed` (`geom/bezier.py:718-720`): the control points are passed in the wrong order. -/
def reversed (b : Bez K) : Bez K := ⟨b.p2, b.c2, b.p1, b.c1⟩

end Bez

namespace Box

/-- `Box.__new__` (`geom/box.py:31-38`). -/
def mk' (a b : P K) : Box K := ⟨⟨pmin a.x b.x, pmin a.y b.y⟩, ⟨pmax a.x b.x, pmax a.y b.y⟩⟩

/-- Python `min` of a non-empty sequence. -/
def minL : List K → K → K := fun l a => l.foldl pmin a
/-- Python `max` of a non-empty sequence. -/
def maxL : List K → K → K := fun l a => l.foldl pmax a

/-- `Box.from_points` (`geom/box.py:40-64`). -/
def fromPoints : List (P K) → Option (Box K)
  | [] => none
  | p :: ps => some (mk' ⟨minL (ps.map P.x) p.x, minL (ps.map P.y) p.y⟩
      ⟨maxL (ps.map P.x) p.x, maxL (ps.map P.y) p.y⟩)

/-- `Box.point_inside` (`geom/box.py:128-131`). -/
def pointInside (b : Box K) (p : P K) : Bool :=
  (b.p1.x <. p.x) && (p.x <. b.p2.x) && (b.p1.y <. p.y) && (p.y <. b.p2.y)

/-- `Box.line_inside` (`geom/box.py:133-135`). -/
def lineInside (b : Box K) (l : Line K) : Bool := b.pointInside l.p1 && b.pointInside l.p2

/-- `Box.all_points_inside` (`geom/box.py:137-142`). -/
def allPointsInside (b : Box K) (ps : List (P K)) : Bool := ps.all b.pointInside

/-- `Box.buffered` (`geom/box.py:144-152`). -/
def buffered (b : Box K) (d : K) : Box K := mk' (b.p1.subS d) (b.p2.addS d)

/-- `Box.transform` (`geom/box.py:154-160`). -/
def transform (b : Box K) (m : Mat K) : Box K := mk' (b.p1.transform m) (b.p2.transform m)

/-- `Box.center` (`geom/box.py:112-114`). -/
def center (b : Box K) : P K :=
  b.p1.add ⟨(b.p2.x -. b.p1.x) /. ofInt 2, (b.p2.y -. b.p1.y) /. ofInt 2⟩

/-- `Box._clipT` (`geom/box.py:204-222`): `none` means `False`, otherwise the updated parameter range. -/
def clipT (eps nQ nP : K) (u : K × K) : Option (K × K) :=
  if Geom.isZero eps nP then (if nQ <=. zero then some u else none)
  else
    let v := nQ /. nP
    if zero <. nP then
      (if u.2 <. v then none else if u.1 <. v then some (v, u.2) else some u)
    else
      (if v <. u.1 then none else if v <. u.2 then some (u.1, v) else some u)

/-- The clipping against the four edges (`geom/box.py:190-194`). -/
def clipRange (eps : K) (b : Box K) (l : Line K) : Option (K × K) := do
  let dx := l.p2.x -. l.p1.x
  let dy := l.p2.y -. l.p1.y
  let u ← clipT eps (b.p1.x -. l.p1.x) dx (zero, one)
  let u ← clipT eps (l.p1.x -. b.p2.x) (PyFloat.neg dx) u
  let u ← clipT eps (b.p1.y -. l.p1.y) dy u
  clipT eps (l.p1.y -. b.p2.y) (PyFloat.neg dy) u

/-- `Box.clip_line` (`geom/box.py:162-202`). -/
def clipLine (eps : K) (b : Box K) (l : Line K) : Option (Line K) :=
  if b.lineInside l then some l
  else
    match b.clipRange eps l with
    | none => none
    | some u =>
      let dx := l.p2.x -. l.p1.x
      let dy := l.p2.y -. l.p1.y
      let q2 : P K := if u.2 <. one then ⟨l.p1.x +. u.2 *. dx, l.p1.y +. u.2 *. dy⟩ else l.p2
      let q1 : P K := if zero <. u.1 then ⟨l.p1.x +. u.1 *. dx, l.p1.y +. u.1 *. dy⟩ else l.p1
      some ⟨q1, q2⟩

/-- `Box.intersection` (`geom/box.py:259-272`). -/
def intersection (b o : Box K) : Option (Box K) :=
  let xmin := pmax b.p1.x o.p1.x
  let xmax := pmin b.p2.x o.p2.x
  let ymin := pmax b.p1.y o.p1.y
  let ymax := pmin b.p2.y o.p2.y
  if (xmax <. xmin) || (ymax <. ymin) then none else some (mk' ⟨xmin, ymin⟩ ⟨xmax, ymax⟩)

/-- `Box.union` (`geom/box.py:274-282`). -/
def union (b o : Box K) : Box K :=
  mk' ⟨pmin b.p1.x o.p1.x, pmin b.p1.y o.p1.y⟩ ⟨pmax b.p2.x o.p2.x, pmax b.p2.y o.p2.y⟩

end Box

/-- `Line.bounding_box` (`geom/line.py:117-119`). -/
def Line.boundingBox (l : Line K) : Box K := Box.mk' l.p1 l.p2

end Verif.Geom
