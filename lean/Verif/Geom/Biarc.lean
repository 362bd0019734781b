import Verif.Geom.Shapes

/-!
# Model of the biarc approximation of `tcnc/geom/bezier.py`, of `geom/util.py:segments_are_g1` and of `intersect_circle`

The recursion depth is bounded by `max_depth`, so the recursion is structural.
-/

set_option linter.unusedSectionVars false

namespace Verif.Geom
open Verif PyFloat PyTrig

variable {K : Type} [PyTrig K]

/-- A path segment: one of the shapes of the `geom` package.  `other` stands for an object of any other class with two
end points. -/
inductive Shape (K : Type) where
  | line (l : Line K)
  | arc (a : Arc K)
  | bez (b : Bez K)
  | other (p1 p2 : P K)
  deriving DecidableEq, Repr

namespace Shape

/-- Attribute `p1`. -/
def p1 : Shape K → P K
  | line l => l.p1
  | arc a => a.p1
  | bez b => b.p1
  | other p _ => p

/-- Attribute `p2`. -/
def p2 : Shape K → P K
  | line l => l.p2
  | arc a => a.p2
  | bez b => b.p2
  | other _ p => p

/-- `start_tangent_angle()` of each class (`geom/line.py:101-107`, `geom/arc.py:226-239`, `geom/bezier.py:90-97`); an
`other` object is given the chord direction. -/
def startTangent (eps : K) : Shape K → K
  | line l => l.angle
  | arc a => a.startTangent
  | bez b => b.startTangent eps
  | other p q => Line.angle ⟨p, q⟩

/-- `end_tangent_angle()` of each class (`geom/line.py:109-115`, `geom/arc.py:241-253`, `geom/bezier.py:99-103`). -/
def endTangent (eps : K) : Shape K → K
  | line l => l.angle
  | arc a => a.endTangent
  | bez b => b.endTangent eps
  | other p q => Line.angle ⟨p, q⟩

/-- `reversed()` of each class (`geom/line.py:546-548`, `geom/arc.py:613-618`, `geom/bezier.py:718-720`). -/
def reversed : Shape K → Shape K
  | line l => line l.reversed
  | arc a => arc a.reversed
  | bez b => bez b.reversed
  | other p q => other q p

end Shape

/-- `segments_are_g1` (`geom/util.py:79-100`); `tol` is the tolerance actually used. -/
def segmentsAreG1 (eps tol : K) (s1 s2 : Shape K) : Bool :=
  s1.p2.almostEq tol s2.p1 && (PyFloat.abs (s1.endTangent eps -. s2.startTangent eps) <. tol)

namespace Bez

/-- The end of `find_inflections` (`geom/bezier.py:273-297`): drop roots outside the curve, and report nothing for a
single imaginary root. -/
def filterRoots (eps : K) (imaginary : Bool) (dis root1 root2 : K) : K × K :=
  let drift := fun r : K => (r <. eps) || (one -. eps <=. r)
  let r1 := if drift root1 then zero else root1
  let r2 := if drift root2 then zero else root2
  if !imaginary && (dis <. zero) && (PyTrig.beq r1 zero || PyTrig.beq r2 zero) then (zero, zero) else (r1, r2)

/-- `CubicBezier.find_inflections` (`geom/bezier.py:226-302`). -/
def findInflections (eps : K) (b : Bez K) (imaginary : Bool := false) : K × K :=
  let v1 := b.c1.sub b.p1
  if v1.eq eps (b.c2.sub b.p2).neg then (lit 5 1, zero)
  else
    let v2 := (b.c2.sub b.c1).sub v1
    let v3 := ((b.p2.sub b.c2).sub v1).sub (v2.mul (ofInt 2))
    let qa := v2.x *. v3.y -. v2.y *. v3.x
    let qb := v1.x *. v3.y -. v1.y *. v3.x
    let qc := v1.x *. v2.y -. v1.y *. v2.x
    let a2 := ofInt 2 *. qa
    if zero <. PyFloat.abs a2 then
      let dis := qb *. qb -. ofInt 4 *. qa *. qc
      let disroot := sqrt (PyFloat.abs dis)
      filterRoots eps imaginary dis ((PyFloat.neg qb -. disroot) /. a2) ((PyFloat.neg qb +. disroot) /. a2)
    else (zero, zero)

/-- The curves of a `subdivide` result, `None` entries dropped (the callers only subdivide strictly inside the curve,
where there are none). -/
def pieces (b : Bez K) (t : K) : List (Bez K) :=
  match b.subdivide t with
  | (c, none) => [c]
  | (c, some d) => [c, d]

/-- `CubicBezier.subdivide_inflections` (`geom/bezier.py:190-223`). -/
def subdivideInflections (eps : K) (b : Bez K) : List (Bez K) :=
  let t := b.findInflections eps
  if (zero <. t.1) && PyTrig.beq t.2 zero then b.pieces t.1
  else if PyTrig.beq t.1 zero && (zero <. t.2) then b.pieces t.2
  else if (zero <. t.1) && (zero <. t.2) then
    let u := if t.2 <. t.1 then t.2 else t.1
    match b.subdivide u with
    | (c, none) => [c]
    | (c1, some c2) =>
      let i1 := c1.findInflections eps true
      let m1 := pmax i1.1 i1.2
      if zero <. m1 then c1.pieces m1 ++ [c2]
      else
        let i2 := c2.findInflections eps true
        let m2 := pmax i2.1 i2.2
        if zero <. m2 then c1 :: c2.pieces m2 else [c1, c2]
  else [b]

/-- `CubicBezier._biarc_joint_arc` (`geom/bezier.py:653-687`). -/
def biarcJointArc (eps : K) (b : Bez K) : Option (Arc K) :=
  let chord : Line K := ⟨b.p1, b.p2⟩
  let u1 := b.tangent eps zero
  let u2 := (b.tangent eps one).neg
  let useg : Line K := ⟨b.p1.add u1, b.p2.add u2.neg⟩
  match chord.bisector.intersection eps useg.bisector with
  | some center =>
    let angle := center.angle2 eps b.p1 b.p2
    let angle := if center.eq eps chord.midpoint then PyFloat.neg angle else angle
    some ⟨b.p1, b.p2, center.distance b.p1, angle, center⟩
  | none => none

/-- The sampling loop of `_check_hausdorff` (`geom/bezier.py:708-716`).  The counter bounds the number of samples: with
`ndiv = 7` and exact arithmetic the Python loop takes six. -/
def checkSamples (eps : K) (b : Bez K) (arc : Arc K) (t2 step tol : K) : Nat → K → Except PyErr Bool
  | 0, _ => .ok true
  | n + 1, t =>
    if t <. t2 then do
      let d ← arc.distanceToPoint eps (b.pointAt eps t)
      if tol <. d then pure false else checkSamples eps b arc t2 step tol n (t +. step)
    else .ok true

/-- `CubicBezier._check_hausdorff` (`geom/bezier.py:689-716`) with `ndiv = 7`. -/
def checkHausdorff (eps : K) (b : Bez K) (arc : Arc K) (t1 t2 tol : K) : Except PyErr Bool :=
  let step := (t2 -. t1) *. (one /. ofInt 7)
  checkSamples eps b arc t2 step tol 8 (t1 +. step)

/-- The two arcs of a biarc with joint `pj` (`geom/bezier.py:617-621`): `None` has no `end_tangent_angle`
(`AttributeError`), and the tangents must agree (`AssertionError`). -/
def biarcArcs (eps : K) (b : Bez K) (pj : P K) : Except PyErr (Arc K × Arc K) := do
  let c1 := if b.c1.ne eps b.p1 then b.c1 else b.c2
  let c2 := if b.c2.ne eps b.p2 then b.c2 else b.c1
  let a1 ← Arc.fromTwoPointsAndTangent eps b.p1 c1 pj
  let a2 ← Arc.fromTwoPointsAndTangent eps b.p2 c2 pj true
  match a1, a2 with
  | some a1, some a2 => if floatEq eps a1.endTangent a2.startTangent then pure (a1, a2) else .error .runtime
  | _, _ => .error .attributeError

/-- The joint point (`geom/bezier.py:603-606`). -/
def biarcJoint (eps : K) (b : Bez K) (j : Arc K) : Except PyErr (P K) := do
  let v := (b.pointAt eps (lit 5 1)).sub j.center
  let k ← pdiv j.radius v.length
  pure ((v.mul k).add j.center)

/-- The tests of `geom/bezier.py:624-625`: `or` stops at the first failing check. -/
def biarcOff (eps : K) (b : Bez K) (a1 a2 : Arc K) (tol : K) : Except PyErr Bool := do
  let ok2 ← b.checkHausdorff eps a2 (lit 5 1) one tol
  if !ok2 then pure true
  else do
    let ok1 ← b.checkHausdorff eps a1 zero (lit 5 1) tol
    pure (!ok1)

/-- `_biarc_recurs_subdiv` (`geom/bezier.py:634-651`) and the other recursion `b1.biarc_approximation(…) + b2.biarc_approximation(…)`: the approximations of the two parts one
after the other (`geom/bezier.py:608-615`, `626-630`). -/
def joinHalves (l r : Except PyErr (List (Shape K))) : Except PyErr (List (Shape K)) := do
  let l ← l
  let r ← r
  pure (l ++ r)

/-- `CubicBezier.biarc_approximation` below the first level (`geom/bezier.py:536-632`); the counter is
`max_depth - _recurs_depth`. -/
def biarcCore (eps tol flat : K) : Nat → Bez K → Except PyErr (List (Shape K))
  | n, b =>
    if b.p1.eq eps b.p2 then .ok []
    else if b.flatness eps <. flat then .ok [.line ⟨b.p1, b.p2⟩]
    else match b.biarcJointArc eps with
      | none => .ok []
      | some j =>
        if (j.radius <. eps) || (j.length <. eps) then .ok []
        else do
          let pj ← b.biarcJoint eps j
          match n with
          | 0 => do
            let arcs ← b.biarcArcs eps pj
            pure [.arc arcs.1, .arc arcs.2]
          | n + 1 =>
            let halves := fun (_ : Unit) => joinHalves (biarcCore eps tol flat n (b.subdivide (lit 5 1)).1)
              ((b.subdivide (lit 5 1)).2.elim (.error .attributeError) fun d => biarcCore eps tol flat n d)
            if tol <. pj.distance (b.pointAt eps (lit 5 1)) then halves ()
            else do
              let arcs ← b.biarcArcs eps pj
              let off ← b.biarcOff eps arcs.1 arcs.2 tol
              if off then halves () else pure [.arc arcs.1, .arc arcs.2]

/-- `CubicBezier.biarc_approximation` (`geom/bezier.py:536-632`). -/
def biarcApproximation (eps tol : K) (maxDepth : Nat) (flat : K) (b : Bez K) : Except PyErr (List (Shape K)) :=
  if b.p1.eq eps b.p2 then .ok []
  else if b.flatness eps <. flat then .ok [.line ⟨b.p1, b.p2⟩]
  else
    let curves := b.subdivideInflections eps
    if 1 < curves.length then do
      let rs ← curves.mapM (biarcCore eps tol flat (maxDepth - 1))
      pure rs.flatten
    else biarcCore eps tol flat maxDepth b

end Bez

/-- `intersect_circle` (`geom/ellipse.py:421-479`); in the tangent case the midpoint of the centres is returned. -/
def intersectCircle (eps : K) (c1 : P K) (r1 : K) (c2 : P K) (r2 : K) : Except PyErr (List (P K)) :=
  let l : Line K := ⟨c1, c2⟩
  let d := l.length
  if r1 +. r2 <. d then .ok []
  else if d <. r1 -. r2 then .ok []
  else if isZero eps d then .ok []
  else if floatEq eps d (r1 +. r2) then .ok [l.midpoint]
  else do
    let rr1 := r1 *. r1
    let rr2 := r2 *. r2
    let x ← pdiv (d *. d -. rr2 +. rr1) (ofInt 2 *. d)
    let hr2 := rr1 -. x *. x
    if hr2 <. zero then pure []
    else
      let h := sqrt hr2
      let th := l.angle
      pure [c1.add (P.rotate ⟨x, h⟩ th), c1.add (P.rotate ⟨x, PyFloat.neg h⟩ th)]

/-- `Arc.intersect_arc` (`geom/arc.py:586-611`). -/
def Arc.intersectArc (eps : K) (a b : Arc K) (onArc : Bool := false) : Except PyErr (List (P K)) := do
  let l ← intersectCircle eps a.center a.radius b.center b.radius
  if onArc then
    let good := fun p : P K => a.pointOnArc eps p && b.pointOnArc eps p
    let l := match l with
      | [] => []
      | p :: r => if good p then p :: r else r
    pure (match l.getLast? with
      | none => []
      | some p => if good p then l else l.dropLast)
  else pure l

end Verif.Geom
