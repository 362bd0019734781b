import Verif.Geom.Polygon

/-!
# Model of the tolerance (`tcnc/geom/const.py`) and of polygon offsets (`tcnc/geom/polygon.py`)

`log10` stands for `math.log(_, 10)`.  `Inner` stands for `_OffsetInternal` of the vendored `contrib/clipper.py`; what `OffsetPolygons` does before
calling it is modelled, because it depends on how `offset_polygons` calls it.  The integers of Python are unbounded; numbers too large for a float, infinities and NaN are left out.
-/

set_option linter.unusedSectionVars false

namespace Verif.Geom
open Verif PyFloat PyTrig

section
variable {K : Type} [PyTrig K]

/-- The constants of the package (`geom/const.py:39-45`). -/
structure Tol (K : Type) where
  eps : K
  eps2 : K
  prec : Nat
  fmt : Str

/-- `round(x)` of Python 2: halves go away from zero (`geom/const.py:71`). -/
def roundAway (x : K) : Int := if x <. zero then trunc (x -. lit 5 1) else trunc (x +. lit 5 1)

/-- `EPSILON_FLOAT_FMT` (`geom/const.py:73`). -/
def floatFmt (n : Nat) : Str := '%' :: '.' :: (natDigits n ++ ['f'])

/-- `set_epsilon` (`geom/const.py:48-73`): the constants afterwards, and the exception; `math.log` raises it for a number that is not positive. -/
def setEpsilon (log10 : K → K) (t : Tol K) (v : K) : Tol K × Option PyErr :=
  if v <=. zero then ({ t with eps := v, eps2 := v *. v }, some .valueError)
  else
    let n := (max 0 (roundAway (PyFloat.abs (log10 v)))).toNat
    (⟨v, v *. v, n, floatFmt n⟩, none)

/-- `10 ** const.EPSILON_PRECISION` (`geom/polygon.py:427`). -/
def gridMult (n : Nat) : K := ofInt (10 ^ n)

/-- `float_round` (`geom/const.py:109-112`): `round(value, n)` rounds the exact value to `n` digits, halves away from zero. -/
def floatRound (t : Tol K) (v : K) : K := ofInt (roundAway (v *. gridMult t.prec)) /. gridMult t.prec

/-- One point of `poly2clipper` (`geom/polygon.py:444-446`). -/
def toGrid (n : Nat) (p : P K) : Int × Int := (trunc (p.x *. gridMult n), trunc (p.y *. gridMult n))

/-- `poly2clipper` (`geom/polygon.py:436-447`). -/
def poly2clipper (n : Nat) (poly : List (P K)) : List (Int × Int) := poly.map (toGrid n)

/-- One point of `clipper2poly` (`geom/polygon.py:458-460`). -/
def ofGrid (n : Nat) (p : Int × Int) : P K := ⟨ofInt p.1 /. gridMult n, ofInt p.2 /. gridMult n⟩

/-- "Close the polygon" (`geom/polygon.py:462-463`). -/
def closeRing (eps : K) (poly : List (P K)) : List (P K) :=
  match poly.head?, poly.getLast? with
  | some a, some z => if 2 < poly.length && P.ne eps a z then poly ++ [a] else poly
  | _, _ => poly

/-- `clipper2poly` (`geom/polygon.py:450-464`). -/
def clipper2poly (t : Tol K) (poly : List (Int × Int)) : List (P K) := closeRing t.eps (poly.map (ofGrid t.prec))

/-- The loop over `range(1, len(poly))` of `_StripDupPts`, for `k` more values from `i` on: the list gets shorter, the range does not
(`contrib/clipper.py:1942-1943`). -/
def stripLoop : Nat → Nat → List (Int × Int) → Except PyErr (List (Int × Int))
  | 0, _, l => .ok l
  | k + 1, i, l =>
    match l[i - 1]?, l[i]? with
    | some a, some b => stripLoop k (i + 1) (if a = b then l.eraseIdx i else l)
    | _, _ => .error .indexError

/-- The points at the end that are equal to the first one (`contrib/clipper.py:1944-1947`); the first argument is `i`. -/
def stripEnd : Nat → List (Int × Int) → List (Int × Int)
  | 0, l => l
  | i + 1, l => if l[i + 1]? = l[0]? then stripEnd i (l.eraseIdx (i + 1)) else l

/-- `_StripDupPts` (`contrib/clipper.py:1940-1948`). -/
def stripDups (l : List (Int × Int)) : Except PyErr (List (Int × Int)) :=
  (stripLoop (l.length - 1) 1 l).map fun l => stripEnd (l.length - 1) l

/-- A summand of `Area` (`contrib/clipper.py:121`). -/
def areaTerm (p q : Int × Int) : Int := (p.1 + q.1) * (q.2 - p.2)

/-- The sum over the edges but the last (`contrib/clipper.py:120-121`). -/
def areaOpen : List (Int × Int) → Int
  | p :: q :: l => areaTerm p q + areaOpen (q :: l)
  | _ => 0

/-- Twice `Area` (`contrib/clipper.py:116-122`). -/
def clipArea2 (l : List (Int × Int)) : Int :=
  match l.head?, l.getLast? with
  | some a, some z => areaTerm z a + areaOpen l
  | _, _ => 0

/-- `_OffsetInternal` for polygons, but for an offset of 0: polygons, offset, join type, limit (`contrib/clipper.py:1950`). -/
abbrev Inner (K : Type) := List (List (Int × Int)) → K → Int → K → List (List (Int × Int))

/-- `_OffsetInternal`, with its test for an offset of 0 (`contrib/clipper.py:2008`). -/
def offsetInternal (inner : Inner K) (polys : List (List (Int × Int))) (delta : K) (jt : Int) (limit : K) : List (List (Int × Int)) :=
  if PyTrig.beq delta zero then polys else inner polys delta jt limit

/-- `OffsetPolygons` called with a tuple of one polygon (`contrib/clipper.py:2150-2170`): turning a polygon round would assign to an item of the tuple. -/
def clipperOffset (inner : Inner K) (poly : List (Int × Int)) (delta : K) (jt : Int) (limit : K) : Except PyErr (List (List (Int × Int))) :=
  match stripDups poly with
  | .error e => .error e
  | .ok l => if l.length < 3 then .ok [] else if clipArea2 l < 0 then .error .typeError else .ok (offsetInternal inner [l] delta jt limit)

/-- `offset_polygons` (`geom/polygon.py:407-433`). -/
def offsetPolygons (inner : Inner K) (t : Tol K) (poly : List (P K)) (offset : K) (jt : Int) (limit : K) : Except PyErr (List (List (P K))) :=
  (clipperOffset inner (poly2clipper t.prec poly) (offset *. gridMult t.prec) jt (limit *. gridMult t.prec)).map fun ps => ps.map (clipper2poly t)

end
end Verif.Geom
