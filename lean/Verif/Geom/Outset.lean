import Verif.Geom.Grid

/-!
# Model of the outlines that the vendored `tcnc/contrib/clipper.py` makes for polygon offsets

`_OffsetInternal` moves every side and joins the moved sides at the corners; the outlines made so are given to `Clipper.Execute`, which unites them.  The outlines are modelled;
`Execute` (with what is done to its result) is an arbitrary function `Union`.  The points are whole numbers (`round` of Python 2 returns them as floats).
-/

set_option linter.unusedSectionVars false

namespace Verif.Geom
open Verif PyFloat PyTrig

section
variable {K : Type} [PyTrig K]

/-- `_GetUnitNormal` (`contrib/clipper.py:1902-1910`). -/
def unitNormal (p q : Int × Int) : P K :=
  if p = q then ⟨zero, zero⟩
  else
    let dx : K := ofInt (q.1 - p.1)
    let dy : K := ofInt (q.2 - p.2)
    let f := one /. PyFloat.hypot dx dy
    ⟨dy *. f, PyFloat.neg (dx *. f)⟩

/-- `GetSin` (`contrib/clipper.py:1987-1991`). -/
def cornerSin (nk nj : P K) : K :=
  let s := nk.x *. nj.y -. nj.x *. nk.y
  if one <. s then one else if s <. PyFloat.neg one then PyFloat.neg one else s

/-- `Point(round(x), round(y))` (`contrib/clipper.py:1956`). -/
def roundPt (x y : K) : Int × Int := (roundAway x, roundAway y)

/-- The point at a corner, moved along a normal (`contrib/clipper.py:1995-1996`). -/
def movedPt (pt : Int × Int) (n : P K) (delta : K) : Int × Int := roundPt (ofInt pt.1 +. n.x *. delta) (ofInt pt.2 +. n.y *. delta)

/-- `_DoSquare` (`contrib/clipper.py:1952-1962`). -/
def squareCorner (delta : K) (pt : Int × Int) (nk nj : P K) : List (Int × Int) :=
  let dx := tan (atan2 (cornerSin nk nj) (nk.x *. nj.x +. nk.y *. nj.y) /. ofInt 4)
  [roundPt (ofInt pt.1 +. delta *. (nk.x -. nk.y *. dx)) (ofInt pt.2 +. delta *. (nk.y +. nk.x *. dx)),
   roundPt (ofInt pt.1 +. delta *. (nj.x +. nj.y *. dx)) (ofInt pt.2 +. delta *. (nj.y -. nj.x *. dx))]

/-- `_DoMiter` (`contrib/clipper.py:1964-1969`). -/
def miterCorner (delta r : K) (pt : Int × Int) (nk nj : P K) : List (Int × Int) :=
  let q := delta /. r
  [roundPt (ofInt pt.1 +. (nk.x +. nj.x) *. q) (ofInt pt.2 +. (nk.y +. nj.y) *. q)]

/-- `_OffsetPoint` (`contrib/clipper.py:1993-2006`).  `_DoRound` calls `range` with the result of `round`, which is a float in Python 2: `TypeError` (`contrib/clipper.py:1972-1984`); for other
join types than the three, `step360` is not bound. -/
def cornerPts (jt : Int) (miterLim delta : K) (pt : Int × Int) (nk nj : P K) : Except PyErr (List (Int × Int)) :=
  if (cornerSin nk nj *. delta) <. zero then .ok [movedPt pt nk delta, pt, movedPt pt nj delta]
  else if jt = 2 then
    let r := one +. (nj.x *. nk.x +. nj.y *. nk.y)
    .ok (if miterLim <=. r then miterCorner delta r pt nk nj else squareCorner delta pt nk nj)
  else if jt = 0 then .ok (squareCorner delta pt nk nj)
  else .error (if jt = 1 then .typeError else .unboundLocal)

/-- `miterLim` (`contrib/clipper.py:2013-2014`). -/
def miterLimit (limit : K) : K := if ofInt 2 <. limit then ofInt 2 /. (limit *. limit) else lit 5 1

/-- The normals of the sides, each from a vertex to the next one and from the last to the first (`contrib/clipper.py:2058-2061`). -/
def normals (pts : List (Int × Int)) : List (P K) := List.zipWith unitNormal pts (pts.tail ++ pts.take 1)

/-- The loop over the corners (`contrib/clipper.py:2066-2070`): each with the normals of the sides before and after it. -/
def cornersLoop (jt : Int) (miterLim delta : K) : List ((Int × Int) × (P K × P K)) → Except PyErr (List (Int × Int))
  | [] => .ok []
  | (pt, nk, nj) :: rest => do
    let c ← cornerPts jt miterLim delta pt nk nj
    let out ← cornersLoop jt miterLim delta rest
    pure (c ++ out)

/-- `forceClose` (`contrib/clipper.py:2055-2056`): the vertices without a last one that is equal to the first. -/
def openPts (pts : List (Int × Int)) : List (Int × Int) :=
  match pts.head?, pts.getLast? with
  | some a, some z => if a = z then pts.dropLast else pts
  | _, _ => pts

/-- One polygon of `_OffsetInternal` (`contrib/clipper.py:2030-2070`); `none` if nothing is added to `res`. -/
def outsetRing (jt : Int) (miterLim delta : K) (pts : List (Int × Int)) : Except PyErr (Option (List (Int × Int))) :=
  if decide (pts.length = 0) || (decide (pts.length < 3) && (delta <=. zero)) then .ok none
  else if pts.length = 1 then (if jt = 1 then .error .typeError else .ok none)
  else do
    let c ← cornersLoop jt miterLim delta ((openPts pts).zip (cycPairs (normals (openPts pts))))
    pure (some c)

/-- The loop over the polygons (`contrib/clipper.py:2030`). -/
def outsetRings (jt : Int) (miterLim delta : K) : List (List (Int × Int)) → Except PyErr (List (List (Int × Int)))
  | [] => .ok []
  | p :: rest => do
    let c ← outsetRing jt miterLim delta p
    let out ← outsetRings jt miterLim delta rest
    pure (c.toList ++ out)

/-- The limit for round corners (`contrib/clipper.py:2018-2019`). -/
def roundLimit (limit delta : K) : K :=
  if limit <=. zero then lit 25 2 else if (PyFloat.abs delta *. lit 25 2) <. limit then PyFloat.abs delta *. lit 25 2 else limit

/-- The settings for round corners (`contrib/clipper.py:2017-2021`): `math.acos` raises `ValueError` for numbers below -1. -/
def roundSetup (jt : Int) (limit delta : K) : Except PyErr Unit :=
  if decide (jt = 1) && ((one -. roundLimit limit delta /. PyFloat.abs delta) <. PyFloat.neg one) then .error .valueError else .ok ()

/-- What is done with the outlines: `Clipper.Execute`, for a negative offset with an outer rectangle that is removed again (`contrib/clipper.py:2133-2148`). -/
abbrev Union (K : Type) := List (List (Int × Int)) → K → List (List (Int × Int))

/-- `_OffsetInternal` for polygons (`contrib/clipper.py:1950-2148`). -/
def outsetInternal (union : Union K) (polys : List (List (Int × Int))) (delta : K) (jt : Int) (limit : K) : Except PyErr (List (List (Int × Int))) :=
  if PyTrig.beq delta zero then .ok polys
  else do
    roundSetup jt limit delta
    let res ← outsetRings jt (miterLimit limit) delta polys
    pure (union res delta)

/-- `offset_polygons` with the library (`geom/polygon.py:407-433`, `contrib/clipper.py:2150-2170`). -/
def outsetPolygons (union : Union K) (t : Tol K) (poly : List (P K)) (offset : K) (jt : Int) (limit : K) : Except PyErr (List (List (P K))) :=
  match stripDups (poly2clipper t.prec poly) with
  | .error e => .error e
  | .ok l =>
    if l.length < 3 then .ok []
    else if clipArea2 l < 0 then .error .typeError
    else (outsetInternal union [l] (offset *. gridMult t.prec) jt (limit *. gridMult t.prec)).map fun ps => ps.map (clipper2poly t)

end
end Verif.Geom
