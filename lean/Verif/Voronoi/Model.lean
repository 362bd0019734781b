import Verif.Geom.Point
import Verif.Graph.Model

/-!
# Model of `tcnc/geom/voronoi.py`: Fortune's sweep

Objects are represented as follows.  Half edges are numbered in the order in which they are made.  The doubly linked list of `_EdgeList` is the list `beach` of the half edges
between its two ends, from left to right.  The linked lists of `_PriorityQueue` are lists of half edge numbers; `half_edge.vertex` and `half_edge.ystar` are in
`ev`.  The end points of the edges are in `ends`, by the number of the edge.  `_vertices[sitenum]` of an end point is the end point itself, as `_add_vertex` just
put it there, and `_lines[edgenum]`, `_delaunay_edges[edgenum]` are those of the edge, as `_add_bisector` put them there when the edge was made.
-/

set_option linter.unusedSectionVars false

namespace Verif.Voronoi
open Verif PyFloat PyTrig Geom

section
variable {K : Type} [PyTrig K]

/-- `_Site` (`geom/voronoi.py:398-417`). -/
structure Site (K : Type) where
  x : K
  y : K
  num : Nat

/-- `_Site.__lt__` (`geom/voronoi.py:409-413`). -/
def siteLt (ax ay bx bY : K) : Bool := if PyTrig.beq ay bY then ax <. bx else ay <. bY

/-- `_Edge` (`geom/voronoi.py:439-477`), without its end points; `num` is `edgenum`. -/
structure Edge (K : Type) where
  num : Nat
  a : K
  b : K
  c : K
  s1 : Site K
  s2 : Site K

/-- `_HalfEdge` (`geom/voronoi.py:480-494`); `rightward`: the orientation is `RIGHT`. -/
structure Half (K : Type) where
  id : Nat
  edge : Edge K
  rightward : Bool

/-- `_float_eq` with the constant `EPSILON` (`geom/voronoi.py:60`, `751-759`). -/
def vEq (a b : K) : Bool :=
  (pmax (PyFloat.abs a) (PyFloat.abs b) <. lit 1 9) || (PyFloat.abs (a -. b) <. lit 1 9 *. pmax (PyFloat.abs a) (PyFloat.abs b))

/-- The constant of the line between two sites, there called `slope` (`geom/voronoi.py:453`). -/
def bisectorConst (s1 s2 : Site K) : K :=
  (s1.x *. (s2.x -. s1.x)) +. (s1.y *. (s2.y -. s1.y)) +. (((s2.x -. s1.x) *. (s2.x -. s1.x) +. (s2.y -. s1.y) *. (s2.y -. s1.y)) /. ofInt 2)

/-- `_Edge.__init__` (`geom/voronoi.py:448-471`). -/
def mkEdge (num : Nat) (s1 s2 : Site K) : Except PyErr (Edge K) :=
  if PyFloat.abs (s2.y -. s1.y) <. PyFloat.abs (s2.x -. s1.x) then do
    let b ← pdiv (s2.y -. s1.y) (s2.x -. s1.x)
    let c ← pdiv (bisectorConst s1 s2) (s2.x -. s1.x)
    pure ⟨num, ofInt 1, b, c, s1, s2⟩
  else do
    let a ← pdiv (s2.x -. s1.x) (s2.y -. s1.y)
    let c ← pdiv (bisectorConst s1 s2) (s2.y -. s1.y)
    pure ⟨num, a, ofInt 1, c, s1, s2⟩

/-- `left_site` of a half edge with an edge (`geom/voronoi.py:508-515`). -/
def Half.leftSite (h : Half K) : Site K := if h.rightward then h.edge.s2 else h.edge.s1

/-- `right_site` of a half edge with an edge (`geom/voronoi.py:517-524`). -/
def Half.rightSite (h : Half K) : Site K := if h.rightward then h.edge.s1 else h.edge.s2

/-- `left_site` of a half edge or of an end of the list (`geom/voronoi.py:508-515`). -/
def leftSiteOf (bottom : Site K) : Option (Half K) → Site K
  | none => bottom
  | some h => h.leftSite

/-- `right_site` of a half edge or of an end of the list (`geom/voronoi.py:517-524`). -/
def rightSiteOf (bottom : Site K) : Option (Half K) → Site K
  | none => bottom
  | some h => h.rightSite

/-- `is_left_of_site`, the slow test (`geom/voronoi.py:552-557`). -/
def aboveSlow (e : Edge K) (dxp dyp : K) : Except PyErr Bool := do
  let q ← pdiv (ofInt 2 *. dxp) (e.s2.x -. e.s1.x)
  let above := e.b *. (dxp *. dxp -. dyp *. dyp) <. (e.s2.x -. e.s1.x) *. dyp *. (ofInt 1 +. q +. e.b *. e.b)
  pure (if e.b <. zero then !above else above)

/-- `is_left_of_site`, an edge with `a = 1` (`geom/voronoi.py:538-557`). -/
def aboveSteep (e : Edge K) (right : Bool) (px py : K) : Except PyErr Bool :=
  if (!right && e.b <. zero) || (right && zero <=. e.b) then
    if e.b *. (px -. e.s2.x) <=. py -. e.s2.y then .ok true else aboveSlow e (px -. e.s2.x) (py -. e.s2.y)
  else
    let above := if e.b <. zero then !(e.c <. px +. py *. e.b) else (e.c <. px +. py *. e.b)
    if !above then .ok above else aboveSlow e (px -. e.s2.x) (py -. e.s2.y)

/-- `is_left_of_site`, an edge with `b = 1` (`geom/voronoi.py:558-563`). -/
def aboveFlat (e : Edge K) (px py : K) : Bool :=
  let yInt := e.c -. e.a *. px
  (px -. e.s2.x) *. (px -. e.s2.x) +. (yInt -. e.s2.y) *. (yInt -. e.s2.y) <. (py -. yInt) *. (py -. yInt)

/-- `is_left_of_site` (`geom/voronoi.py:526-568`). -/
def isLeftOf (h : Half K) (p : Site K) : Except PyErr Bool :=
  let right := h.edge.s2.x <. p.x
  if right && !h.rightward then .ok true
  else if !right && h.rightward then .ok false
  else do
    let above ← if vEq h.edge.a (ofInt 1) then aboveSteep h.edge right p.x p.y else pure (aboveFlat h.edge p.x p.y)
    pure (if h.rightward then !above else above)

/-- `intersect`, on which side of the upper site the point is (`geom/voronoi.py:589-600`). -/
def onHalf (h1 h2 : Half K) (x : K) : Bool :=
  let h := if siteLt h1.edge.s2.x h1.edge.s2.y h2.edge.s2.x h2.edge.s2.y then h1 else h2
  let right := h.edge.s2.x <=. x
  !((right && !h.rightward) || (!right && h.rightward))

/-- `intersect` of two half edges with edges (`geom/voronoi.py:570-602`). -/
def intersectHalf (h1 h2 : Half K) : Except PyErr (Option (P K)) :=
  if h1.edge.s2.num = h2.edge.s2.num then .ok none
  else
    let dst := h1.edge.a *. h2.edge.b -. h1.edge.b *. h2.edge.a
    if vEq dst zero then .ok none
    else do
      let x ← pdiv (h1.edge.c *. h2.edge.b -. h2.edge.c *. h1.edge.b) dst
      let y ← pdiv (h2.edge.c *. h1.edge.a -. h1.edge.c *. h2.edge.a) dst
      pure (if onHalf h1 h2 x then some ⟨x, y⟩ else none)

/-- `intersect` (`geom/voronoi.py:570-602`): the ends of the list have no edge. -/
def intersect : Option (Half K) → Option (Half K) → Except PyErr (Option (P K))
  | some h1, some h2 => intersectHalf h1 h2
  | _, _ => .ok none

/-- What the sweep keeps (`geom/voronoi.py:161-182`, `607-618`, `683-692`); `made`: the edges in the order in which they were made, `out`: the edges of the diagram with their end points, `tris`: the triangles. -/
structure State (K : Type) where
  beach : List (Half K)
  nextId : Nat
  made : List (Edge K)
  ev : Nat → Option (P K × K)
  buckets : List (List Nat)
  count : Nat
  minidx : Nat
  ends : Nat → Option (P K) × Option (P K)
  vertices : List (P K)
  out : List (Edge K × Option (P K) × Option (P K))
  tris : List (Site K × Site K × Site K)

/-- The constants of the sweep (`geom/voronoi.py:610-613`, `685-687`). -/
structure Env (K : Type) where
  xmin : K
  hashscale : K
  ymin : K
  deltay : K
  hashsize : Nat
  bottom : Site K

/-! ## The priority queue -/

/-- The bucket for a height (`geom/voronoi.py:740-745`). -/
def bucketOf (env : Env K) (ystar : K) : Except PyErr Nat := do
  let q ← pdiv (ystar -. env.ymin) env.deltay
  let b := trunc (q *. ofInt env.hashsize)
  pure (if (env.hashsize : Int) ≤ b then env.hashsize - 1 else b.toNat)

/-- `half_edge > other` (`geom/voronoi.py:496-506`). -/
def later (a b : P K × K) : Bool :=
  if b.2 <. a.2 then true else if a.2 <. b.2 then false else b.1.x <. a.1.x

/-- `later` for numbers of half edges; those in the queue have a vertex. -/
def laterId (ev : Nat → Option (P K × K)) (h q : Nat) : Bool :=
  match ev h, ev q with
  | some a, some b => later a b
  | _, _ => false

/-- The place in the linked list (`geom/voronoi.py:705-712`). -/
def insertEv (gt : Nat → Bool) (h : Nat) : List Nat → List Nat
  | [] => [h]
  | q :: l => if gt q then q :: insertEv gt h l else h :: q :: l

/-- `_PriorityQueue.insert` (`geom/voronoi.py:701-712`). -/
def State.push (env : Env K) (h : Nat) (v : P K) (offset : K) (s : State K) : Except PyErr (State K) := do
  let b ← bucketOf env (v.y +. offset)
  let ev := Function.update s.ev h (some (v, v.y +. offset))
  pure { s with ev := ev, buckets := s.buckets.modify b (insertEv (laterId ev h) h), count := s.count + 1, minidx := min s.minidx b }

/-- `_PriorityQueue.delete` (`geom/voronoi.py:714-722`): a half edge that is not in its list makes the loop run off the end. -/
def State.drop (env : Env K) (h : Nat) (s : State K) : Except PyErr (State K) :=
  match s.ev h with
  | none => .ok s
  | some (_, ystar) => do
    let b ← bucketOf env ystar
    if h ∈ (s.buckets[b]?).getD [] then
      pure { s with ev := Function.update s.ev h none, buckets := s.buckets.modify b (fun l => l.erase h), count := s.count - 1, minidx := min s.minidx b }
    else .error .attributeError

/-- The first list that is not empty, from a number on (`geom/voronoi.py:724-728`): its number and its first half edge. -/
def firstFrom : List (List Nat) → Nat → Option (Nat × Nat)
  | [], _ => none
  | [] :: l, i => firstFrom l (i + 1)
  | (h :: _) :: _, i => some (i, h)

/-- `pop_min_halfedge` (`geom/voronoi.py:731-736`) after `get_min_point` found the list `i`. -/
def State.popAt (i : Nat) (s : State K) : State K := { s with buckets := s.buckets.modify i List.tail, count := s.count - 1, minidx := i }

/-! ## Events -/

/-- `priority_queue.delete(h)`, then `insert(h, site, …)` if there is an intersection (`geom/voronoi.py:303-306`, `388-391`). -/
def State.repush (env : Env K) (h : Option (Half K)) (v : Option (P K)) (fx fy : K) (s : State K) : Except PyErr (State K) :=
  match h, v with
  | some h, some v => do
    let s ← s.drop env h.id
    s.push env h.id v (hypot (fx -. v.x) (fy -. v.y))
  | _, _ => .ok s

/-- `insert(h, site, …)` for a new half edge if there is an intersection (`geom/voronoi.py:314-318`, `395-397`). -/
def State.pushNew (env : Env K) (h : Half K) (v : Option (P K)) (fx fy : K) (s : State K) : Except PyErr (State K) :=
  match v with
  | some v => s.push env h.id v (hypot (fx -. v.x) (fy -. v.y))
  | none => .ok s

/-- `pop_leftbnd` (`geom/voronoi.py:632-670`): how many half edges are left of the site.  The bucket is always 0 (`edgeBucket_zero` in `Voronoi/Props1.lean`), where the left end of the list is, so that
the hash table is never filled, and the search goes from the left end to the right. -/
def leftCount (p : Site K) : List (Half K) → Except PyErr Nat
  | [] => .ok 0
  | h :: l => do
    if ← isLeftOf h p then
      let n ← leftCount p l
      pure (n + 1)
    else pure 0

/-- `_handle_event1` (`geom/voronoi.py:283-318`). -/
def State.siteEvent (env : Env K) (p : Site K) (s : State K) : Except PyErr (State K) := do
  let _ ← pdiv (p.x -. env.xmin) env.hashscale
  let n ← leftCount p s.beach
  let lbnd := (s.beach.take n).getLast?
  let rbnd := (s.beach.drop n).head?
  let edge ← mkEdge s.made.length (rightSiteOf env.bottom lbnd) p
  let l : Half K := ⟨s.nextId, edge, false⟩
  let r : Half K := ⟨s.nextId + 1, edge, true⟩
  let s := { s with beach := s.beach.take n ++ l :: r :: s.beach.drop n, nextId := s.nextId + 2, made := s.made ++ [edge] }
  let v ← intersect lbnd (some l)
  let s ← s.repush env lbnd v p.x p.y
  let w ← intersect (some r) rbnd
  s.pushNew env r w p.x p.y

/-- `set_endpoint` and `_add_edge` if both end points are set (`geom/voronoi.py:230-244`, `364-367`). -/
def State.setEnd (e : Edge K) (right : Bool) (v : P K) (s : State K) : State K :=
  let old := s.ends e.num
  let new := if right then (old.1, some v) else (some v, old.2)
  let s := { s with ends := Function.update s.ends e.num new }
  if (if right then old.1 else old.2).isSome then { s with out := s.out ++ [(e, new)] } else s

/-- What is to the left of half edge `h` in the list, `h` itself and its right neighbour, and what is right of that (`geom/voronoi.py:325-328`). -/
def around (h : Nat) : List (Half K) → List (Half K) → Option (List (Half K) × Half K × Half K × List (Half K))
  | pre, l :: r :: post => if l.id = h then some (pre, l, r, post) else around h (pre ++ [l]) (r :: post)
  | _, _ => none

/-- `_handle_event2` (`geom/voronoi.py:320-395`) for the half edge just taken from the queue; with the right end of the list as its right neighbour `rbnd.edge` is
`None`, and `set_endpoint` raises. -/
def State.circleEvent (env : Env K) (h : Nat) (s : State K) : Except PyErr (State K) :=
  match around h [] s.beach, s.ev h with
  | some (pre, lbnd, rbnd, post), some (v, _) => do
    let left := lbnd.leftSite
    let right := rbnd.rightSite
    let swap := right.y <. left.y
    let bot := if swap then right else left
    let top := if swap then left else right
    let s := { s with tris := s.tris ++ [(bot, top, lbnd.rightSite)], vertices := s.vertices ++ [v] }
    let s := s.setEnd lbnd.edge lbnd.rightward v
    let s := s.setEnd rbnd.edge rbnd.rightward v
    let s ← s.drop env rbnd.id
    let edge ← mkEdge s.made.length bot top
    let b : Half K := ⟨s.nextId, edge, swap⟩
    let s := { s with beach := pre ++ b :: post, nextId := s.nextId + 1, made := s.made ++ [edge] }
    let s := s.setEnd edge (!swap) v
    let w ← intersect pre.getLast? (some b)
    let s ← s.repush env pre.getLast? w bot.x bot.y
    let w ← intersect (some b) post.head?
    s.pushNew env b w bot.x bot.y
  | _, _ => .error .attributeError

/-! ## The sweep -/

/-- The outcome of a turn of the main loop. -/
inductive Turn (K : Type) where
  | done
  | go (sites : List (Site K)) (s : State K)

/-- One turn of the main loop without events (`geom/voronoi.py:261-275`). -/
def turnIdle (env : Env K) : List (Site K) → State K → Except PyErr (Turn K)
  | [], _ => .ok .done
  | p :: sites, s => do
    let s ← s.siteEvent env p
    pure (.go sites s)

/-- One turn of the main loop when half edge `h` in list `i` is the first (`geom/voronoi.py:261-275`). -/
def turnBusy (env : Env K) (i h : Nat) (v : P K) (ystar : K) (sites : List (Site K)) (s : State K) : Except PyErr (Turn K) :=
  match sites with
  | p :: rest =>
    if siteLt p.x p.y v.x ystar then do
      let s ← ({ s with minidx := i } : State K).siteEvent env p
      pure (.go rest s)
    else do
      let s ← (s.popAt i).circleEvent env h
      pure (.go sites s)
  | [] => do
    let s ← (s.popAt i).circleEvent env h
    pure (.go [] s)

/-- One turn of the main loop (`geom/voronoi.py:260-275`). -/
def turn (env : Env K) (sites : List (Site K)) (s : State K) : Except PyErr (Turn K) :=
  if s.count = 0 then turnIdle env sites s
  else
    match firstFrom (s.buckets.drop s.minidx) s.minidx with
    | none => .error .indexError
    | some (i, h) =>
      match s.ev h with
      | none => .error .attributeError
      | some (v, ystar) => turnBusy env i h v ystar sites s

/-- The main loop (`geom/voronoi.py:260-275`); `none`: still running. -/
def sweep (env : Env K) : Nat → List (Site K) → State K → Option (Except PyErr (State K))
  | 0, _, _ => none
  | fuel + 1, sites, s =>
    match turn env sites s with
    | .error e => some (.error e)
    | .ok .done => some (.ok s)
    | .ok (.go sites s) => sweep env fuel sites s

/-- The edges that are left at the end (`geom/voronoi.py:277-280`). -/
def State.finish (s : State K) : State K := { s with out := s.out ++ s.beach.map fun h => (h.edge, s.ends h.edge.num) }

/-- The sites, sorted by y and then by x (`geom/voronoi.py:427-438`). -/
def siteList (ps : List (P K)) : List (Site K) :=
  Graph.sortBy (fun a b => siteLt a.x a.y b.x b.y) (ps.zipIdx.map fun (p, i) => ⟨p.x, p.y, i⟩)

/-- The state at the start (`geom/voronoi.py:252-259`). -/
def State.init (hashsize : Nat) : State K := ⟨[], 0, [], fun _ => none, List.replicate hashsize [], 0, 0, fun _ => (none, none), [], [], []⟩

/-- The integer square root (`isqrt_eq` in `Voronoi/Props1.lean`), for `int(2 * math.sqrt(n))` and `int(4 * math.sqrt(n))` (`geom/voronoi.py:608`, `686`). -/
def isqrt (n : Nat) : Nat := (List.range n).countP fun k => decide ((k + 1) * (k + 1) ≤ n)

/-- The constants for a list of points (`geom/voronoi.py:430-437`, `608-610`, `684-687`); `int(2 * math.sqrt(n))` is the integer square root of `4 n`. -/
def envOf (p : P K) (ps : List (P K)) (bottom : Site K) : Env K :=
  let n := ps.length + 1
  let xmin := (p :: ps).foldl (fun m q => pmin q.x m) p.x
  let xmax := (p :: ps).foldl (fun m q => pmax q.x m) p.x
  let ymin := (p :: ps).foldl (fun m q => pmin q.y m) p.y
  let ymax := (p :: ps).foldl (fun m q => pmax q.y m) p.y
  ⟨xmin, (xmax -. xmin) *. ofInt (isqrt (4 * (n + 4))), ymin, ymax -. ymin, isqrt (16 * n), bottom⟩

/-- `VoronoiDiagram(input_points)` (`geom/voronoi.py:164-182`, `246-280`), without jiggling; `none`: still running after `fuel` turns of the main loop. -/
def voronoi (fuel : Nat) (ps : List (P K)) : Option (Except PyErr (State K)) :=
  if 4 < ps.length then
    match ps, siteList ps with
    | p :: rest, bottom :: sites =>
      (sweep (envOf p rest bottom) fuel sites (State.init (envOf p rest bottom).hashsize)).map fun r => r.map State.finish
    | _, _ => some (.error .indexError)
  else some (.ok (State.init 0))

/-- The bucket of `pop_leftbnd` (`geom/voronoi.py:635-639`) for `hashsize` buckets. -/
def edgeBucket (env : Env K) (hashsize : Nat) (x : K) : Except PyErr Nat := do
  let q ← pdiv (x -. env.xmin) env.hashscale
  pure (if (hashsize : Int) ≤ trunc q then hashsize - 1 else (trunc q).toNat)

/-- `jiggle` of one coordinate (`geom/voronoi.py:774-779`); `sign` is `random.choice((-1, 1))`, and `r` is what `random.random()` is for `random.uniform`. -/
def jiggle1 (sign r x : K) : K :=
  let norm := lit 1 9 *. PyFloat.abs x
  x +. (norm *. ofInt 10 +. (norm *. ofInt 100 -. norm *. ofInt 10) *. r) *. sign

/-- `jiggle` (`geom/voronoi.py:762-779`): the sign is the same for both coordinates. -/
def jiggle (sign rx ry : K) (p : P K) : P K := ⟨jiggle1 sign rx p.x, jiggle1 sign ry p.y⟩

/-- The property `p3` of `DelaunayTriangle` (`geom/voronoi.py:139-142`). -/
def triP3 (t : Site K × Site K × Site K) : Site K := t.2.1

end
end Verif.Voronoi
