import Verif.Svg.Path
import Verif.Geom.Biarc

/-!
# Writing path data

The text of the `d` attribute that `SVGContext.create_line`, `create_circular_arc`, `create_curve`, `create_polygon`, `create_polypath`
and `create_ellipse` write (`svg/svg.py:526-545`, `526-696`).  `_scale` (`svg/svg.py:760-763`) returns its argument and is left out.
What is not modelled here: the element is appended to the parent (see `Svg/Layer.lean` for the tree).
-/

namespace Verif.Svg
open Verif PyFloat PyTrig Geom

section
variable {K : Type} [PyFloat K]

/-- `self._fmt_point % (x, y)` with precision `n` (`svg/svg.py:283`). -/
def fmtPoint (n : Nat) (p : P K) : Str := fmt n p.x ++ ',' :: fmt n p.y

/-- `self._fmt_move` (`svg/svg.py:284`). -/
def fmtMove (n : Nat) (p : P K) : Str := 'M' :: ' ' :: fmtPoint n p

/-- `self._fmt_line` (`svg/svg.py:285`). -/
def fmtLine (n : Nat) (p q : P K) : Str := 'M' :: ' ' :: fmtPoint n p ++ ' ' :: 'L' :: ' ' :: fmtPoint n q

/-- `self._fmt_arc` (`svg/svg.py:286-288`); the flags are printed with `%d`. -/
def fmtArc (n : Nat) (rx ry rot : K) (large sweep : Nat) (q : P K) : Str :=
  'A' :: ' ' :: fmtPoint n ⟨rx, ry⟩ ++ ' ' :: fmt n rot ++ ' ' :: natDigits large ++ ' ' :: natDigits sweep ++ ' ' :: fmtPoint n q

/-- `self._fmt_curve` (`svg/svg.py:289-290`) and `_format_curve` (`svg/svg.py:596-599`). -/
def fmtCurve (n : Nat) (c1 c2 p2 : P K) : Str :=
  'C' :: ' ' :: fmtPoint n c1 ++ ' ' :: fmtPoint n c2 ++ ' ' :: fmtPoint n p2

/-- The path data of `create_line` (`svg/svg.py:547-554`). -/
def lineText (n : Nat) (p1 p2 : P K) : Str := fmtLine n p1 p2

/-- The path data of `create_circular_arc` (`svg/svg.py:556-567`). -/
def arcText (n : Nat) (startp endp : P K) (radius : K) (sweep : Nat) : Str :=
  fmtMove n startp ++ ' ' :: fmtArc n radius radius zero 0 sweep endp

/-- The path data of `create_curve` (`svg/svg.py:569-594`). -/
def curveText (n : Nat) (b : Bez K) : Str := joinSp [fmtMove n b.p1, fmtCurve n b.c1 b.c2 b.p2]

/-- The items that `create_polygon` joins (`svg/svg.py:621-632`); `same` is the `==` of the points (`vertices[0] != vertices[-1]`). -/
def polygonItems (n : Nat) (same : P K → P K → Bool) (closePolygon closePath : Bool) (v0 : P K) (vs : List (P K)) : List Str :=
  ['M'] :: fmtPoint n v0 :: ['L'] :: vs.map (fmtPoint n) ++
    (if closePolygon && !same v0 ((v0 :: vs).getLast (by simp)) then [fmtPoint n v0] else []) ++ (if closePath then [['Z']] else [])

/-- The path data of `create_polygon` (`svg/svg.py:601-635`): nothing is created for an empty list. -/
def polygonText (n : Nat) (same : P K → P K → Bool) (closePolygon closePath : Bool) : List (P K) → Option Str
  | [] => none
  | v0 :: vs => some (joinSp (polygonItems n same closePolygon closePath v0 vs))

/-- `0 if angle < 0 else 1` (`svg/svg.py:686`). -/
def sweepFlag (angle : K) : Nat := if angle <. zero then 0 else 1

/-- The items for one segment of `create_polypath` (`svg/svg.py:665-690`): the kind is decided by the length of the tuple; another
length is skipped; the large-arc flag is always 0. -/
def segItems (n : Nat) : Shape K → List Str
  | .line l => [['L'], fmtPoint n l.p2]
  | .bez b => [fmtCurve n b.c1 b.c2 b.p2]
  | .arc a => [fmtArc n a.radius a.radius zero 0 (sweepFlag a.angle) a.p2]
  | .other .. => []

/-- The path data of `create_polypath` (`svg/svg.py:637-696`): nothing is created for an empty path. -/
def polypathText (n : Nat) (closePath : Bool) : List (Shape K) → Option Str
  | [] => none
  | s :: path => some (joinSp (['M'] :: fmtPoint n s.p1 :: (s :: path).flatMap (segItems n) ++ (if closePath then [['Z']] else [])))

/-- The text of `create_ellipse` for two points and an angle in degrees (`svg/svg.py:536-544`). -/
def twoArcs (n : Nat) (p1 p2 : P K) (rx ry deg : K) : Str :=
  fmtMove n p1 ++ ' ' :: fmtArc n rx ry deg 0 1 p2 ++ ' ' :: fmtArc n rx ry deg 0 1 p1

end

section
variable {K : Type} [PyTrig K]

/-- `angle - (2 * math.pi) * math.floor(angle / (2 * math.pi))` (`svg/svg.py:531`). -/
def ellipseAngle (angle : K) : K := angle -. ofInt 2 *. pi *. floor (angle /. (ofInt 2 *. pi))

/-- The two points between which `create_ellipse` draws its two arcs (`svg/svg.py:532-535`). -/
def ellipseEnd (center : P K) (rx angle : K) : P K := ⟨rx *. cos angle +. center.x, rx *. sin angle +. center.y⟩

/-- The path data of `create_ellipse` (`svg/svg.py:526-544`). -/
def ellipseText (n : Nat) (center : P K) (rx ry angle : K) : Str :=
  twoArcs n (ellipseEnd center rx (ellipseAngle angle)) (ellipseEnd center rx (ellipseAngle angle +. pi)) rx ry (degrees (ellipseAngle angle))

end
end Verif.Svg
