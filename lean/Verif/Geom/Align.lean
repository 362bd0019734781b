import Verif.Geom.Curve

/-!
# Model of the aligned extrema of `tcnc/geom/bezier.py`, and of the equations of lines in `tcnc/geom/line.py`

A list of vertices of a box is modelled as a list; Python makes no difference here.
-/

set_option linter.unusedSectionVars false

namespace Verif.Geom
open Verif PyFloat PyTrig

section
variable {K : Type} [PyTrig K]

/-- `CubicBezier.find_extrema_points` (`geom/bezier.py:342-351`). -/
def Bez.findExtremaPoints (eps : K) (b : Bez K) : Except PyErr (List (P K)) := b.findExtrema.map fun ts => ts.map (b.pointAt eps)

/-- `Box.vertices` (`geom/box.py:106-110`). -/
def Box.vertices (b : Box K) : List (P K) := [b.p1, ⟨b.p1.x, b.p2.y⟩, b.p2, ⟨b.p2.x, b.p1.y⟩]

/-- The angle of the chord (`geom/bezier.py:325`, `geom/line.py:98-100`). -/
def Bez.chordAngle (b : Bez K) : K := (b.p2.sub b.p1).angle

/-- The curve turned so that its ends are on a parallel to the X axis (`geom/bezier.py:325-327`). -/
def Bez.aligned (b : Bez K) : Bez K := b.transform (Mat.rotate (PyFloat.neg b.chordAngle) b.p1)

/-- The bounding box of points of the turned curve, turned back (`geom/bezier.py:335-337`). -/
def Bez.turnedBox (b : Bez K) (ps : List (P K)) : Option (List (P K)) :=
  (Box.fromPoints ps).map fun r => r.vertices.map fun p => p.rotate b.chordAngle b.p1

/-- `CubicBezier.find_extrema_align` (`geom/bezier.py:304-340`). -/
def Bez.findExtremaAlign (eps : K) (calcBbox : Bool) (b : Bez K) : Except PyErr (List (P K) × Option (List (P K))) :=
  match b.aligned.findExtremaPoints eps with
  | .error e => .error e
  | .ok [] => .ok ([], none)
  | .ok (p :: ps) =>
    .ok ((p :: ps).map fun p => p.rotate b.chordAngle b.p1,
      if calcBbox then b.turnedBox (p :: ps ++ [b.aligned.p1, b.aligned.p2]) else none)

/-- `Line.slope` (`geom/line.py:60-66`). -/
def Line.slope (eps : K) (l : Line K) : Except PyErr K :=
  let dx := l.p2.x -. l.p1.x
  let dy := l.p2.y -. l.p1.y
  if isZero eps dy then .ok zero else pdiv dy dx

/-- `Line.slope_intercept` (`geom/line.py:68-78`). -/
def Line.slopeIntercept (eps : K) (l : Line K) : Except PyErr (K × K) := do
  let m ← l.slope eps
  pure (m, m *. PyFloat.neg l.p1.x +. l.p1.y)

/-- `Line.general_equation` (`geom/line.py:80-95`): the three numbers are computed, and raised; what is raised must be an exception, so that is a `TypeError`.
(Python 2 would raise the first item of a tuple, which is a float here.) -/
def Line.generalEquation (l : Line K) : Except PyErr (K × K × K) :=
  let _a := l.p1.y -. l.p2.y
  let _b := l.p2.x -. l.p1.x
  let _c := l.p1.cross l.p2
  .error .typeError

/-- `Arc.start_angle` (`geom/arc.py:188-192`). -/
def Arc.startAngle (eps : K) (a : Arc K) : K := a.center.angle2 eps ⟨one, zero⟩ a.p1

/-- `Arc.segment_area` (`geom/arc.py:210-217`). -/
def Arc.segmentArea (a : Arc K) : K := a.radius *. a.radius *. PyFloat.abs (a.angle -. sin a.angle) /. ofInt 2

end
end Verif.Geom
