import Verif.Geom.Biarc

/-!
# Model of `tcnc/geom/ellipse.py` and of the circle, ellipse and sine curves of `tcnc/geom/bezier.py`
-/

set_option linter.unusedSectionVars false

namespace Verif.Geom
open Verif PyFloat PyTrig

variable {K : Type} [PyTrig K]

/-- The attributes of an `Ellipse` (`geom/ellipse.py:44-67`). -/
structure Ell (K : Type) where
  center : P K
  rx : K
  ry : K
  phi : K
  deriving DecidableEq, Repr

namespace Ell

/-- `Ellipse.__init__` (`geom/ellipse.py:44-67`). -/
def mk' (eps : K) (center : P K) (rx : K) (ry : Option K) (phi : K) : Ell K :=
  let rx := PyFloat.abs rx
  let ry := match ry with
    | none => rx
    | some r => PyFloat.abs r
  let phi := if floatEq eps rx ry then zero else if rx <. ry then phi +. pi /. ofInt 2 else phi
  ⟨center, pmax rx ry, pmin rx ry, phi⟩

/-- `is_circle` (`geom/ellipse.py:69-70`). -/
def isCircle (eps : K) (e : Ell K) : Bool := floatEq eps e.rx e.ry

/-- `theta2t` (`geom/ellipse.py:72-85`). -/
def theta2t (eps : K) (e : Ell K) (theta : K) : Except PyErr K :=
  if e.isCircle eps then .ok theta
  else do
    let y ← pdiv (sin theta) e.ry
    let x ← pdiv (cos theta) e.rx
    pure (atan2 y x)

/-- `point_at` (`geom/ellipse.py:99-116`). -/
def pointAt (e : Ell K) (t : K) : P K :=
  e.center.add ⟨e.rx *. cos e.phi *. cos t -. e.ry *. sin e.phi *. sin t, e.rx *. sin e.phi *. cos t +. e.ry *. cos e.phi *. sin t⟩

/-- `pointt` (`geom/ellipse.py:87-97`). -/
def pointT (eps : K) (e : Ell K) (p : P K) : Except PyErr K := e.theta2t eps (e.center.angle2 eps (e.pointAt zero) p)

/-- `point_inside` (`geom/ellipse.py:118-135`). -/
def pointInside (eps : K) (e : Ell K) (p : P K) : Except PyErr Bool := do
  let v := if e.isCircle eps || isZero eps e.phi then p.sub e.center else (p.sub e.center).rotate (PyFloat.neg e.phi)
  let x ← pdiv v.x e.rx
  let y ← pdiv v.y e.ry
  pure (x *. x +. y *. y -. one <. zero)

/-- `all_points_inside` (`geom/ellipse.py:137-142`). -/
def allPointsInside (eps : K) (e : Ell K) : List (P K) → Except PyErr Bool
  | [] => .ok true
  | p :: ps => do
    let b ← e.pointInside eps p
    if b then e.allPointsInside eps ps else pure false

/-- `focus` (`geom/ellipse.py:144-150`); `ValueError` for a negative radicand. -/
def focus (e : Ell K) : Except PyErr K :=
  let q := e.rx *. e.rx -. e.ry *. e.ry
  if q <. zero then .error .valueError else .ok (sqrt q)

/-- `focus_points` (`geom/ellipse.py:152-160`). -/
def focusPoints (e : Ell K) : Except PyErr (P K × P K) := do
  let d ← e.focus
  let fp : P K := ⟨d *. cos e.phi, d *. sin e.phi⟩
  pure (e.center.sub fp, e.center.add fp)

/-- `area` (`geom/ellipse.py:162-164`). -/
def area (e : Ell K) : K := pi *. e.rx *. e.ry

/-- `derivative` (`geom/ellipse.py:180-201`); `second` is `d != 1`. -/
def derivative (e : Ell K) (t : K) (second : Bool := false) : P K :=
  if second then
    ⟨PyFloat.neg (e.rx *. cos e.phi *. cos t) +. e.ry *. sin e.phi *. sin t, PyFloat.neg (e.rx *. sin e.phi *. cos t) -. e.ry *. cos e.phi *. sin t⟩
  else
    ⟨PyFloat.neg (e.rx *. cos e.phi *. sin t) -. e.ry *. sin e.phi *. cos t, PyFloat.neg (e.rx *. sin e.phi *. sin t) +. e.ry *. cos e.phi *. cos t⟩

end Ell

/-- The attributes of an `EllipticalArc` (`geom/ellipse.py:223-250`). -/
structure EArc (K : Type) where
  ell : Ell K
  p1 : P K
  p2 : P K
  start : K
  sweep : K
  large : Bool
  flag : Bool
  deriving DecidableEq, Repr

/-- `EllipticalArc.__init__` (`geom/ellipse.py:223-250`): the axes are not normalised. -/
def EArc.mk' (center p1 p2 : P K) (rx ry start sweep : K) (large flag : Bool) (phi : K) : EArc K :=
  ⟨⟨center, PyFloat.abs rx, PyFloat.abs ry, phi⟩, p1, p2, start, sweep, large, flag⟩

/-- `EllipticalArc.from_center` (`geom/ellipse.py:252-279`): the end points are not rotated by `phi`. -/
def EArc.fromCenter (center : P K) (rx ry start sweep phi : K) : EArc K :=
  .mk' center (P.add ⟨rx *. cos start, ry *. sin start⟩ center) (P.add ⟨rx *. cos (start +. sweep), ry *. sin (start +. sweep)⟩ center) rx ry start sweep
    (pi <. PyFloat.abs sweep) (zero <. sweep) phi

/-- `math.sqrt`: `ValueError` for a negative number. -/
def psqrt (x : K) : Except PyErr K := if x <. zero then .error .valueError else .ok (sqrt x)

/-- Half the difference of the end points, turned (`geom/ellipse.py:315`). -/
def EArc.prime (p1 p2 : P K) (phi : K) : P K :=
  (⟨(p1.x -. p2.x) /. ofInt 2, (p1.y -. p2.y) /. ofInt 2⟩ : P K).rotate phi

/-- The radii, enlarged if the end points are too far apart (`geom/ellipse.py:311-321`). -/
def EArc.radii (v : P K) (rx ry : K) : Except PyErr (K × K) := do
  let rx := PyFloat.abs rx
  let ry := PyFloat.abs ry
  let a ← pdiv (v.x *. v.x) (rx *. rx)
  let b ← pdiv (v.y *. v.y) (ry *. ry)
  let zz := a +. b
  if one <. zz then pure (sqrt zz *. rx, sqrt zz *. ry) else pure (rx, ry)

/-- The turned centre relative to the middle of the end points (`geom/ellipse.py:322-335`). -/
def EArc.centerPrime (v : P K) (rx ry : K) (large flag : Bool) : Except PyErr (P K) := do
  let rx2 := rx *. rx
  let ry2 := ry *. ry
  let t1 := rx2 *. ry2 -. rx2 *. (v.y *. v.y) -. ry2 *. (v.x *. v.x)
  let t2 := rx2 *. (v.y *. v.y) +. ry2 *. (v.x *. v.x)
  let t3 ← pdiv t1 t2
  let t4 ← psqrt t3
  let cx := t4 *. ((rx *. v.y) /. ry)
  let cy := t4 *. PyFloat.neg ((ry *. v.x) /. rx)
  pure (if large = flag then ⟨PyFloat.neg cx, PyFloat.neg cy⟩ else ⟨cx, cy⟩)

/-- The arc built from the computed centre (`geom/ellipse.py:336-347`). -/
def EArc.build (eps : K) (p1 p2 : P K) (v c : P K) (rx ry : K) (large flag : Bool) (phi : K) : EArc K :=
  let midp : P K := ⟨(p1.x +. p2.x) /. ofInt 2, (p1.y +. p2.y) /. ofInt 2⟩
  let center := (c.rotate (PyFloat.neg phi)).add midp
  let v1 : P K := ⟨(v.x -. c.x) /. rx, (v.y -. c.y) /. rx⟩
  let v2 : P K := ⟨(PyFloat.neg v.x -. c.x) /. rx, (PyFloat.neg v.y -. c.y) /. rx⟩
  .mk' center p1 p2 rx ry (P.angle2 eps P.origin ⟨one, zero⟩ v1) (P.angle2 eps P.origin v1 v2) large flag phi

/-- `EllipticalArc.from_endpoints` (`geom/ellipse.py:282-348`). -/
def EArc.fromEndpoints (eps : K) (p1 p2 : P K) (rx ry : K) (large flag : Bool) (phi : K) : Except PyErr (Option (EArc K)) :=
  if isZero eps rx || isZero eps ry then .ok none
  else do
    let v := EArc.prime p1 p2 phi
    let r ← EArc.radii v rx ry
    let c ← EArc.centerPrime v r.1 r.2 large flag
    pure (some (EArc.build eps p1 p2 v c r.1 r.2 large flag phi))

/-! ## Bezier approximations -/

/-- `bezier_elliptical_arc` (`geom/bezier.py:828-854`). -/
def bezierEllipticalArc (e : Ell K) (t1 t2 : K) : Bez K :=
  let sweep := t2 -. t1
  let n1 := tan (sweep /. ofInt 2)
  let alpha := sin sweep *. (sqrt (ofInt 4 +. ofInt 3 *. (n1 *. n1)) -. one) /. ofInt 3
  let p1 := e.pointAt t1
  let p2 := e.pointAt t2
  ⟨p1, p1.add ((e.derivative t1).mul alpha), p2.sub ((e.derivative t2).mul alpha), p2⟩

/-- The loop of `bezier_ellipse` (`geom/bezier.py:815-825`); the first argument bounds the number of rounds (`none`: not
enough). -/
def bezierLoop (e : Ell K) : Nat → K → K → K → Option (List (Bez K))
  | 0, _, _, _ => none
  | n + 1, t1, t2, tEnd =>
    if t2 <=. tEnd then (bezierLoop e n t2 (t2 +. pi /. ofInt 2) tEnd).map (bezierEllipticalArc e t1 t2 :: ·)
    else some (if (t1 <. tEnd) && (tEnd <. t2) then [bezierEllipticalArc e t1 tEnd] else [])

/-- `bezier_ellipse` (`geom/bezier.py:800-825`) from parametric angle `start` over `sweep`. -/
def bezierEllipse (rounds : Nat) (e : Ell K) (start sweep : K) : Option (List (Bez K)) :=
  bezierLoop e rounds start (start +. pi /. ofInt 2) (start +. sweep)

/-- `bezier_circle` (`geom/bezier.py:743-771`). -/
def bezierCircle (center : P K) (radius : K) : List (Bez K) :=
  let k := lit 5522847498308 13 *. radius
  let n := PyFloat.neg
  let pt := fun x y : K => P.add ⟨x, y⟩ center
  [⟨pt radius zero, pt radius k, pt k radius, pt zero radius⟩,
   ⟨pt zero radius, pt (n k) radius, pt (n radius) k, pt (n radius) zero⟩,
   ⟨pt (n radius) zero, pt (n radius) (n k), pt (n k) (n radius), pt zero (n radius)⟩,
   ⟨pt zero (n radius), pt k (n radius), pt radius (n k), pt radius zero⟩]

/-- `bezier_circular_arc` (`geom/bezier.py:774-797`). -/
def bezierCircularArc (arc : Arc K) : Bez K :=
  let alpha := ofInt 4 *. tan (arc.angle /. ofInt 4) /. ofInt 3
  let v1 := arc.p1.sub arc.center
  let v2 := arc.p2.sub arc.center
  ⟨arc.p1, arc.p1.add (P.mul ⟨PyFloat.neg v1.y, v1.x⟩ alpha), arc.p2.sub (P.mul ⟨PyFloat.neg v2.y, v2.x⟩ alpha), arc.p2⟩

/-- The four quarters of `bezier_sine_wave` (`geom/bezier.py:893-918`). -/
def sineQuarters (amplitude wavelength : K) : List (Bez K) :=
  let m := Mat.scale ((wavelength /. ofInt 4) /. (pi /. ofInt 2)) (amplitude /. one) none
  let q0 := Bez.transform ⟨⟨zero, zero⟩, ⟨lit 512286623256592433 18, lit 512286623256592433 18⟩, ⟨lit 1002313685767898599 18, one⟩, ⟨pi /. ofInt 2, one⟩⟩ m
  let dx1 := q0.p1.x -. q0.c1.x
  let dx2 := q0.p2.x -. q0.c2.x
  let q1 : Bez K := ⟨q0.p2, ⟨q0.p2.x +. dx2, q0.c2.y⟩, ⟨q0.p2.x *. ofInt 2 +. dx1, q0.c1.y⟩, ⟨q0.p2.x *. ofInt 2, zero⟩⟩
  let q2 : Bez K := ⟨q1.p2, ⟨q1.p2.x -. dx1, PyFloat.neg q0.c1.y⟩, ⟨q0.p2.x *. ofInt 3 -. dx2, PyFloat.neg q0.c2.y⟩,
    ⟨q0.p2.x *. ofInt 3, PyFloat.neg q0.p2.y⟩⟩
  let q3 : Bez K := ⟨q2.p2, ⟨q2.p2.x +. dx2, PyFloat.neg q0.c2.y⟩, ⟨q0.p2.x *. ofInt 4 +. dx1, PyFloat.neg q0.c1.y⟩, ⟨q0.p2.x *. ofInt 4, zero⟩⟩
  [q0, q1, q2, q3]

/-- `bezier_sine_wave` (`geom/bezier.py:857-927`). -/
def sineWave (amplitude wavelength : K) (cycles : Nat) (origin : P K) : List (Bez K) :=
  (List.range cycles).flatMap fun i =>
    (sineQuarters amplitude wavelength).map fun q => q.transform (Mat.translate (wavelength *. ofInt i +. origin.x) origin.y)

end Verif.Geom
