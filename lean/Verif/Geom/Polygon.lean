import Verif.Geom.Shapes

/-!
# Model of `tcnc/geom/polygon.py`

Law-free, over an arbitrary `PyTrig K`.
-/

set_option linter.unusedSectionVars false

namespace Verif.Geom
open Verif PyFloat PyTrig

/-- The pairs `(previous, v)` for the elements of a list, the element before the first being `prev`. -/
def pairsFrom {α : Type} (prev : α) : List α → List (α × α)
  | [] => []
  | v :: vs => (prev, v) :: pairsFrom v vs

/-- The pairs `(vertices[n], vertices[n + 1])` for `n` from `-1` to `len - 2` (`geom/polygon.py:195-197`):
every vertex with its cyclic predecessor. -/
def cycPairs {α : Type} (vs : List α) : List (α × α) :=
  match vs.getLast? with
  | none => []
  | some l => pairsFrom l vs

variable {K : Type} [PyTrig K]

/-- `cmp(a, 0)` for floats. -/
def pcmp0 (a : K) : Int := if a <. zero then -1 else if zero <. a then 1 else 0

/-- `turn` (`geom/polygon.py:40-48`). -/
def turn (p q r : P K) : Int := pcmp0 ((q.x -. p.x) *. (r.y -. p.y) -. (r.x -. p.x) *. (q.y -. p.y))

/-- `p1[0] * p2[1] - p2[0] * p1[1]` of a pair `(p2, p1)` (`geom/polygon.py:199`, `248`). -/
def pairCross (e : P K × P K) : K := e.2.x *. e.1.y -. e.1.x *. e.2.y

/-- `area` (`geom/polygon.py:184-200`). -/
def polyArea (vs : List (P K)) : K := (cycPairs vs).foldl (fun a e => a +. pairCross e) zero /. ofInt 2

/-- `area_triangle` (`geom/polygon.py:203-225`). -/
def areaTriangle (a b c : P K) : K :=
  PyFloat.abs ((b.x -. a.x) *. (c.y -. a.y) -. (b.y -. a.y) *. (c.x -. a.x)) /. ofInt 2

/-- The accumulators `(x, y, area)` of `centroid` (`geom/polygon.py:243-251`). -/
def centroidSums (vs : List (P K)) : K × K × K :=
  (cycPairs vs).foldl
    (fun s e => (s.1 +. (e.2.x +. e.1.x) *. pairCross e, s.2.1 +. (e.2.y +. e.1.y) *. pairCross e,
      s.2.2 +. pairCross e)) (zero, zero, zero)

/-- `centroid` (`geom/polygon.py:228-253`).  A polygon without vertices or with zero area divides by zero. -/
def polyCentroid (vs : List (P K)) : Except PyErr (P K) :=
  match vs with
  | [p] => .ok p
  | [p, q] => .ok (Line.midpoint ⟨p, q⟩)
  | _ => do
    let s := centroidSums vs
    let t := s.2.2 *. ofInt 3
    let x ← pdiv s.1 t
    let y ← pdiv s.2.1 t
    pure ⟨x, y⟩

/-- The edge test of `point_inside` (`geom/polygon.py:313`) for the edge `(p2, p1) = (vertices[j], vertices[i])`. -/
def edgeCrosses (p : P K) (e : P K × P K) : Bool :=
  ((p.y <. e.2.y) != (p.y <. e.1.y)) &&
    (p.x <. ((e.1.x -. e.2.x) *. (p.y -. e.2.y) /. (e.1.y -. e.2.y) +. e.2.x))

/-- `point_inside` (`geom/polygon.py:285-316`). -/
def polyPointInside (vs : List (P K)) (p : P K) : Bool :=
  (cycPairs vs).foldl (fun s e => if edgeCrosses p e then !s else s) false

/-- `is_closed` (`geom/polygon.py:373-378`); `IndexError` for no vertices. -/
def polyIsClosed (eps : K) (vs : List (P K)) : Except PyErr Bool :=
  match vs.head?, vs.getLast? with
  | some a, some b => .ok (floatEq eps a.x b.x && floatEq eps a.y b.y)
  | _, _ => .error .indexError

/-- The search for the farthest inner vertex in `simplify_polyline_rdp` (`geom/polygon.py:487-494`): `i` is the
enumeration index of the head of the list, `(dmax, dmax_index)` the running maximum. -/
def rdpFar (eps : K) (chord : Line K) : List (P K) → Nat → K × Nat → K × Nat
  | [], _, m => m
  | p :: ps, i, m =>
    let d := chord.distanceToPoint eps p true
    rdpFar eps chord ps (i + 1) (if m.1 <. d then (d, i + 1) else m)

/-- `simplify_polyline_rdp` with a bound on the recursion depth: `none` when the depth is exhausted
(`geom/polygon.py:467-510`). -/
def rdp (eps tol : K) : Nat → List (P K) → Option (List (P K))
  | 0, _ => none
  | fuel + 1, ps =>
    if ps.length < 3 then some ps
    else
      match ps.head?, ps.getLast? with
      | some a, some b =>
        let m := rdpFar eps ⟨a, b⟩ ((ps.drop 1).dropLast) 0 (zero, 0)
        if tol <. m.1 then
          if ps.length = 3 then some ps
          else do
            let l ← rdp eps tol fuel (ps.take (m.2 + 1))
            let r ← rdp eps tol fuel (ps.drop m.2)
            pure (l ++ r.drop 1)
        else some [a, b]
      | _, _ => none

end Verif.Geom
