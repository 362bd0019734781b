import Verif.Geom.Polygon

/-!
# Model of `intersect_line` of `tcnc/geom/polygon.py`
-/

set_option linter.unusedSectionVars false

namespace Verif.Geom
open Verif PyFloat PyTrig

variable {K : Type} [PyTrig K]

/-- Insert a number into a sorted list; helper for sorting (`geom/polygon.py:352-353`). -/
def insertNum (a : K) : List K → List K
  | [] => [a]
  | b :: l => if b <. a then b :: insertNum a l else a :: b :: l

/-- Sorting of the distances along the line (`geom/polygon.py:352-353`). -/
def sortNums : List K → List K
  | [] => []
  | a :: l => insertNum a (sortNums l)

/-- The edges `Line(vertices[i], vertices[i + 1])` that are tested (`geom/polygon.py:333-337`): the one from the last vertex to the first is left out if these are equal. -/
def clipEdges (eps : K) (vs : List (P K)) : Except PyErr (List (P K × P K)) :=
  match vs.head?, vs.getLast? with
  | some a, some b => .ok (if a.eq eps b then pairsFrom a vs.tail else cycPairs vs)
  | _, _ => .error .indexError

/-- The distances of the intersections along the line (`geom/polygon.py:334-341`). -/
def clipMus (eps : K) (l : Line K) (es : List (P K × P K)) : List K :=
  es.filterMap fun e => l.intersectionMu eps ⟨e.1, e.2⟩ true

/-- The loop that joins the intersections in pairs (`geom/polygon.py:361-368`); degenerate lines are dropped. -/
def clipLoop (eps : K) (l : Line K) : P K → List K → List (Line K)
  | _, [] => []
  | p1, [m] => if p1.ne eps (l.pointAt m) then [⟨p1, l.pointAt m⟩] else []
  | p1, m :: m' :: rest =>
    (if p1.ne eps (l.pointAt m) then [⟨p1, l.pointAt m⟩] else []) ++ clipLoop eps l (l.pointAt m') rest

/-- `intersect_line` (`geom/polygon.py:319-369`) for vertices given as points. -/
def polyIntersectLine (eps : K) (vs : List (P K)) (l : Line K) : Except PyErr (List (Line K)) := do
  let es ← clipEdges eps vs
  let in1 := polyPointInside vs l.p1
  let in2 := polyPointInside vs l.p2
  match sortNums (clipMus eps l es) with
  | [] => pure (if in1 && in2 then [l] else [])
  | m :: ms =>
    pure (if in1 then clipLoop eps l l.p1 (m :: ms)
      else if in2 then clipLoop eps l l.p2 (m :: ms).reverse
      else clipLoop eps l (l.pointAt m) ms)

end Verif.Geom
