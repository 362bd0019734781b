import Verif.Geom.Shapes

/-!
# Model of the rest of `CubicBezier`: derivatives, curvature, extrema, length
-/

set_option linter.unusedSectionVars false

namespace Verif.Geom
open Verif PyFloat PyTrig

variable {K : Type} [PyTrig K]

namespace Bez

/-- `CubicBezier.derivative2` (`geom/bezier.py:449-460`). -/
def derivative2 (b : Bez K) (t : K) : P K :=
  ((((b.p1.mul (ofInt 1 -. t)).add (b.c1.mul (ofInt 3 *. t -. ofInt 2))).add (b.c2.mul (ofInt 1 -. ofInt 3 *. t))).add (b.p2.mul t)).mul (ofInt 6)

/-- `CubicBezier.derivative3` (`geom/bezier.py:462-468`). -/
def derivative3 (b : Bez K) : P K :=
  (((b.p1.mul (ofInt (-6))).add (b.c1.mul (ofInt 18))).sub (b.c2.mul (ofInt 18))).add (b.p2.mul (ofInt 6))

/-- `CubicBezier.curvature_at` (`geom/bezier.py:470-485`); `math.pow(s, 3/2)` of a non-negative `s` is written `s·√s`. -/
def curvatureAt (b : Bez K) (t : K) : Except PyErr K :=
  let d1 := b.derivative1 t
  let d2 := b.derivative2 t
  let s := d1.x *. d1.x +. d1.y *. d1.y
  pdiv (d1.x *. d2.y -. d1.y *. d2.x) (s *. sqrt s)

/-- The coefficients of the derivative, `3·…` (`geom/bezier.py:388-390`). -/
def quadCoeffs (b : Bez K) : P K × P K × P K :=
  ((((b.p1.neg.add (b.c1.mul (ofInt 3))).sub (b.c2.mul (ofInt 3))).add b.p2).mul (ofInt 3),
   ((b.p1.sub (b.c1.mul (ofInt 2))).add b.c2).mul (ofInt 6), (b.c1.sub b.p1).mul (ofInt 3))

/-- The two roots of one coordinate (`geom/bezier.py:394-403`). -/
def coordRoots (a b c : K) : Except PyErr (List K) :=
  let disc := b *. b -. ofInt 4 *. a *. c
  if zero <=. disc then do
    let s := sqrt disc
    let t1 ← pdiv (PyFloat.neg b +. s) (ofInt 2 *. a)
    let t2 ← pdiv (PyFloat.neg b -. s) (ofInt 2 *. a)
    pure [t1, t2]
  else .ok []

/-- `CubicBezier.find_extrema` (`geom/bezier.py:378-403`). -/
def findExtrema (b : Bez K) : Except PyErr (List K) := do
  let q := b.quadCoeffs
  let tx ← coordRoots q.1.x q.2.1.x q.2.2.x
  let ty ← coordRoots q.1.y q.2.1.y q.2.2.y
  pure ((tx ++ ty).filter fun t => (zero <. t) && (t <. one))

/-- Length of the control polygon (`geom/bezier.py:521-523`). -/
def polyLen (b : Bez K) : K := b.p1.distance b.c1 +. b.c1.distance b.c2 +. b.c2.distance b.p2

/-- `CubicBezier.length` of a curve without cached length (`geom/bezier.py:487-534`); the first argument is what is left of Python's recursion limit. -/
def lengthRec (tol : K) : Nat → Bez K → Except PyErr K
  | 0, _ => .error .runtime
  | n + 1, b =>
    let l1 := b.polyLen
    let l0 := b.p1.distance b.p2
    if tol <. l1 -. l0 then
      match b.subdivide (lit 5 1) with
      | (b1, some b2) => do
        let len1 ← lengthRec tol n b1
        let len2 ← lengthRec tol n b2
        pure (len1 +. len2)
      | (_, none) => .error .attributeError
    else .ok (lit 5 1 *. l0 +. lit 5 1 *. l1)

/-- A `CubicBezier` object with its cached length (`geom/bezier.py:520,532-534`). -/
structure Obj (K : Type) where
  curve : Bez K
  cache : Option K

/-- A call of `length` (`geom/bezier.py:487-534`): the cached value if there is one. -/
def Obj.length (limit : Nat) (tol : K) (o : Obj K) : Except PyErr (K × Obj K) :=
  match o.cache with
  | some l => .ok (l, o)
  | none => do
    let l ← lengthRec tol limit o.curve
    pure (l, { o with cache := some l })

end Bez

end Verif.Geom
