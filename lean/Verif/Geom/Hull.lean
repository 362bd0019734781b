import Verif.Geom.Polygon
import Verif.Cam.Model

/-!
# Model of the convex hull functions of `tcnc/geom/polygon.py`

Law-free, over an arbitrary `PyTrig K`.  A hull under construction is a stack: the last element of the Python list is
the head of the model's list.
-/

set_option linter.unusedSectionVars false

namespace Verif.Geom
open Verif PyFloat PyTrig

variable {K : Type} [PyTrig K]

/-- `p < q` for points: `P` inherits the tuple comparison (`geom/point.py:23`). -/
def P.tupLt (p q : P K) : Bool := Cam.lexLt (p.x, p.y) (q.x, q.y)

/-- The `while` loop of `_keep_left` (`geom/polygon.py:68-69`). -/
def popRight (r : P K) : List (P K) → List (P K)
  | b :: a :: h => if turn a b r ≠ 1 then popRight r (a :: h) else b :: a :: h
  | h => h

/-- `_keep_left` (`geom/polygon.py:67-72`). -/
def keepLeft (eps : K) (hull : List (P K)) (r : P K) : List (P K) :=
  match popRight r hull with
  | [] => [r]
  | b :: h => if b.ne eps r then r :: b :: h else b :: h

/-- `reduce(_keep_left, points, [])`, in list order (`geom/polygon.py:60-61`). -/
def halfHull (eps : K) (ps : List (P K)) : List (P K) := (ps.foldl (keepLeft eps) []).reverse

/-- `convex_hull` (`geom/polygon.py:51-64`). -/
def convexHull (eps : K) (points : List (P K)) : List (P K) :=
  let s := Cam.pySort P.tupLt points
  halfHull eps s ++ ((halfHull eps s.reverse).drop 1).dropLast

/-- `_rtangent` (`geom/polygon.py:103-125`).  The module has true division, so the first probe `c = (l + r) / 2` is a
float and `hull[c]` raises `TypeError`; a hull without points raises `IndexError` before. -/
def rtangent (hull : List (P K)) (_p : P K) : Except PyErr Nat :=
  match hull with
  | [] => .error .indexError
  | _ => .error .typeError

/-- `points[i:i + m] for i in range(0, len(points), m)` (`geom/polygon.py:93-94`), `m > 0`. -/
def chunks (m : Nat) : Nat → List (P K) → List (List (P K))
  | 0, _ => []
  | _, [] => []
  | n + 1, p :: ps => (p :: ps).take m :: chunks m n ((p :: ps).drop m)

/-- `min(range(len(hull)), key=lambda j: hull[j])` (`geom/polygon.py:137`), `0` for an empty hull (`ValueError` there;
hulls are not empty). -/
def argminPt (h : List (P K)) : Nat :=
  (h.zipIdx.foldl (fun (m : Option (P K × Nat)) e => m.elim (some e) fun b => if e.1.tupLt b.1 then some e else some b)
    none).elim 0 (·.2)

/-- The point of an index pair. -/
def hullPt (hulls : List (List (P K))) (pair : Nat × Nat) : Option (P K) := (hulls[pair.1]?).bind (·[pair.2]?)

/-- Loop body of `_min_hull_pt_pair` (`geom/polygon.py:128-135`). -/
def minHullStep (hulls : List (List (P K))) (hp : Nat × Nat) (e : List (P K) × Nat) : Nat × Nat :=
  match e.1[argminPt e.1]?, hullPt hulls hp with
  | some a, some b => if a.tupLt b then (e.2, argminPt e.1) else hp
  | _, _ => hp

/-- `_min_hull_pt_pair` (`geom/polygon.py:128-135`); the hulls are not empty. -/
def minHullPtPair (hulls : List (List (P K))) : Nat × Nat := hulls.zipIdx.foldl (minHullStep hulls) (0, 0)

/-- `_dist2` (`geom/polygon.py:138-142`). -/
def dist2 (a b : P K) : K := (a.x -. b.x) *. (a.x -. b.x) +. (a.y -. b.y) *. (a.y -. b.y)

/-- Loop body of `_next_hull_pt_pair` (`geom/polygon.py:145-158`). -/
def nextHullStep (hulls : List (List (P K))) (p : P K) (np : Nat × Nat) (e : List (P K) × Nat) :
    Except PyErr (Nat × Nat) := do
  let s ← rtangent e.1 p
  match hullPt hulls np, e.1[s]? with
  | some q, some r =>
    if turn p q r = -1 ∨ (turn p q r = 0 ∧ (dist2 p q <. dist2 p r) = true) then pure (e.2, s) else pure np
  | _, _ => .error .indexError

/-- `_next_hull_pt_pair` (`geom/polygon.py:145-158`); every other hull is asked for its tangent. -/
def nextHullPtPair (hulls : List (List (P K))) (pair : Nat × Nat) : Except PyErr (Nat × Nat) :=
  match hullPt hulls pair with
  | none => .error .indexError
  | some p =>
    (hulls.zipIdx.filter fun e => decide (e.2 ≠ pair.1)).foldlM (nextHullStep hulls p)
      (pair.1, (pair.2 + 1) % ((hulls[pair.1]?).elim 0 List.length))

/-- The rounds of `convex_hull_chan` (`geom/polygon.py:92-99`): at most `n` more, the next one with `m` points per hull. -/
def chanRounds (eps : K) (points : List (P K)) : Nat → Nat → Except PyErr (List (P K))
  | 0, _ => .error .valueError
  | n + 1, m => do
    let hulls := (chunks m points.length points).map (convexHull eps)
    let first := minHullPtPair hulls
    let p ← nextHullPtPair hulls first
    if p = first then
      match hullPt hulls first with
      | some q => pure [q]
      | none => .error .indexError
    else if 1 < m then .error .typeError
    else chanRounds eps points n (2 * m)

/-- `convex_hull_chan` (`geom/polygon.py:79-100`).  `hull.append(P(p))` makes the index pair a pair of floats, so that
the next `_next_hull_pt_pair` raises `TypeError`: a second step of the inner loop is an error.  If every round ends
without closing the hull, the function returns the list of pairs of the last round (`UnboundLocalError` without
points); the model does not represent that list and reports it as `valueError`. -/
def convexHullChan (eps : K) (points : List (P K)) : Except PyErr (List (P K)) :=
  if points.length = 0 then .error .unboundLocal else chanRounds eps points points.length 1

end Verif.Geom
