import Verif.Geom.Ellipse
import Verif.Geom.Biarc

/-!
# Model of the path smoothing of `tcnc/geom/bezier.py`
-/

set_option linter.unusedSectionVars false

namespace Verif.Geom
open Verif PyFloat PyTrig

variable {K : Type} [PyTrig K]

/-- `length()` of a line or an arc (`geom/line.py:56-58`, `geom/arc.py:194-199`).  The callers pass no other segments. -/
def Shape.lineArcLength : Shape K → Except PyErr K
  | .line l => .ok l.length
  | .arc a => .ok a.length
  | _ => .error .runtime

/-- `midpoint()` of a line or an arc (`geom/line.py:127-134`, `geom/arc.py:419-424`).  The callers pass no other segments. -/
def Shape.lineArcMidpoint : Shape K → Except PyErr (P K)
  | .line l => .ok l.midpoint
  | .arc a => .ok a.midpoint
  | _ => .error .runtime

/-- Magnitude of the control point next to an arc (`geom/bezier.py:986`, `999`). -/
def arcMag (a : Arc K) : K := a.radius *. tan (PyFloat.abs a.angle /. ofInt 2) *. lit 5522847498308 13

/-- Does the winding change after the arc (`geom/bezier.py:987-990`)? -/
def windingChange (eps : K) (a : Arc K) (p3 : P K) : Bool :=
  (a.isClockwise && (Line.whichSide eps ⟨a.p1, p3⟩ a.p2 < 0)) || (!a.isClockwise && (0 < Line.whichSide eps ⟨a.p1, p3⟩ a.p2))

/-- First control point and magnitude of the second one (`geom/bezier.py:985-995`). -/
def cp2Mag (eps : K) (seg1 seg2 : Shape K) (cp1 : P K) (matchArcs : Bool) (ratio len k : K) : P K × K :=
  match matchArcs, seg1 with
  | true, .arc a =>
    if windingChange eps a seg2.p2 then (a.p1.add ((cp1.sub a.p1).mul (lit 15 1)), arcMag a *. lit 5 1)
    else (cp1, arcMag a)
  | _, _ => (cp1, ratio *. len *. k)

/-- Magnitude of the first control point of the next curve (`geom/bezier.py:998-1001`). -/
def cp1NextMag (seg2 : Shape K) (matchArcs : Bool) (ratio len k : K) : K :=
  match matchArcs, seg2 with
  | true, .arc a => arcMag a
  | _, _ => (one -. ratio) *. len *. k

/-- The curve from its second control point (`geom/bezier.py:1009-1018`). -/
def startCurve (eps : K) (seg1 : Shape K) (cp1 cp2 : P K) : Bez K :=
  if cp1.eq eps seg1.p1 then
    match seg1 with
    | .arc a => ⟨a.p1, (bezierCircularArc a).c1, cp2, a.p2⟩
    | s => Bez.fromQuadratic s.p1 cp2 s.p2
  else ⟨seg1.p1, cp1, cp2, seg1.p2⟩

/-- `smoothing_curve` (`geom/bezier.py:930-1018`). -/
def smoothingCurve (eps : K) (seg1 : Shape K) (seg2 : Option (Shape K)) (cp1 : Option (P K)) (smoothness : K) (matchArcs : Bool := true) :
    Except PyErr (Bez K × P K) :=
  let cp := cp1.getD seg1.p1
  match seg2 with
  | none => .ok (Bez.fromQuadratic seg1.p1 cp seg1.p2, seg1.p2)
  | some seg2 => do
    let k := lit 12 1 *. smoothness
    let len1 ← seg1.lineArcLength
    let len2 ← seg2.lineArcLength
    let ratio ← pdiv len1 (len1 +. len2)
    let m1 ← seg1.lineArcMidpoint
    let m2 ← seg2.lineArcMidpoint
    let mid : Line K := ⟨m1, m2⟩
    let c := cp2Mag eps seg1 seg2 cp matchArcs ratio mid.length k
    let cp2 := seg1.p2.add (P.fromPolar c.2 (mid.angle +. pi))
    pure (startCurve eps seg1 c.1 cp2, seg1.p2.add (P.fromPolar (cp1NextMag seg2 matchArcs ratio mid.length k) mid.angle))

/-- Is the segment a Bezier curve? -/
def Shape.isBez : Shape K → Bool
  | .bez _ => true
  | _ => false

/-- Loop of `smooth_path` (`geom/bezier.py:1040-1048`): the curves so far, the last segment and its control point, or `none` if it stopped at a Bezier curve. -/
def smoothLoop (eps smoothness : K) : List (Bez K) → Shape K → P K → List (Shape K) → Except PyErr (List (Bez K) × Option (Shape K × P K))
  | acc, seg1, cp1, [] => .ok (acc, some (seg1, cp1))
  | acc, seg1, cp1, seg2 :: rest =>
    if seg1.isBez || seg2.isBez then .ok (acc, none)
    else do
      let c ← smoothingCurve eps seg1 (some seg2) (some cp1) smoothness
      smoothLoop eps smoothness (if c.1.p1.ne eps c.1.p2 then acc ++ [c.1] else acc) seg2 c.2 rest

/-- The result of `smooth_path`: a list of curves, or the path itself if it is too short. -/
inductive Smoothed (K : Type) where
  | same
  | curves (l : List (Bez K))

/-- `smooth_path[0] = curve0` (`geom/bezier.py:1056`). -/
def setFirst (l : List (Bez K)) (c : Bez K) : Except PyErr (List (Bez K)) :=
  match l with
  | [] => .error .indexError
  | _ :: l => .ok (c :: l)

/-- `smooth_path` (`geom/bezier.py:1021-1060`). -/
def smoothPath (eps smoothness : K) (path : List (Shape K)) : Except PyErr (Smoothed K) :=
  match path with
  | s0 :: s1 :: rest => do
    let r ← smoothLoop eps smoothness [] s0 s0.p1 (s1 :: rest)
    match r.2 with
    | none => pure (.curves r.1)
    | some (last, cp1) =>
      if last.p2.eq eps s0.p1 then do
        let c ← smoothingCurve eps last (some s0) (some cp1) smoothness
        let c0 ← smoothingCurve eps s0 (some s1) (some c.2) smoothness
        let l ← setFirst r.1 c0.1
        pure (.curves (if c.1.p1.ne eps c.1.p2 then l ++ [c.1] else l))
      else do
        let c ← smoothingCurve eps last none (some cp1) smoothness
        pure (.curves (if c.1.p1.ne eps c.1.p2 then r.1 ++ [c.1] else r.1))
  | _ => .ok .same

end Verif.Geom
