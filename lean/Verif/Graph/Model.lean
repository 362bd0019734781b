import Verif.Py
import Mathlib.Logic.Function.Basic
import Mathlib.Data.List.Basic

/-!
# Model of `tcnc/geom/planargraph.py`: `Graph` and `GraphPathBuilder`

Vertices are values of an arbitrary type with decidable equality.  This stands for points that are either identical or
further apart than the comparison tolerance, for which `==` and `hash` are consistent (`vertices_of_points` in
`Graph/Props1.lean`); for closer points Python's `dict` and `set` give no guarantees at all (C44, C45).  The geometry enters only
through comparisons of sort keys (`GEnv`).  A graph node is identified with its vertex: `nodemap` holds one node object per
vertex, and the only reference to a node that is not in `nodemap` any more can be the one in `_bottom_node`.
-/

namespace Verif.Graph
open Verif

variable {V : Type} [DecidableEq V]

/-- The comparisons of floating point keys the graph code makes. -/
structure GEnv (V : Type) where
  /-- `a.y < b.y` -/
  yLt : V → V → Bool
  /-- order of the keys of `GraphNode.sort_edges` at a node (`geom/planargraph.py:61-69`) -/
  ccwLt : V → V → V → Bool
  /-- `straightLt prev curr a b`: order of the keys of `_get_exit_edge_node` (`geom/planargraph.py:499-501`) -/
  straightLt : V → V → V → V → Bool

/-- `_bottom_node`: the initial node at `P.max_point()`, a node of the graph, or `None`. -/
inductive Bottom (V : Type) where
  | maxPoint
  | node (v : V)
  | none
  deriving DecidableEq, Repr

/-- A `Graph` (`geom/planargraph.py:110-131`): `edges` lists the set of edges, `keys` the keys of `nodemap`, `adj v` is the
list of outgoing nodes of the node of `v`. -/
structure G (V : Type) where
  edges : List (V × V)
  keys : List V
  adj : V → List V
  bottom : Bottom V
  modified : Bool

/-- The empty graph (`geom/planargraph.py:110-131`). -/
def G.empty : G V := ⟨[], [], fun _ => [], .maxPoint, false⟩

/-- `Line.__eq__`: segments are equal in either direction (`geom/line.py:570-583`). -/
def sameEdge (e f : V × V) : Bool := (e.1 = f.1 ∧ e.2 = f.2) || (e.1 = f.2 ∧ e.2 = f.1)

/-- `edge in edges`. -/
def memEdge (e : V × V) (l : List (V × V)) : Bool := l.any (sameEdge e)

/-- `node1 = self.nodemap.get(p)`, or `_create_node(p)` if there is none (`geom/planargraph.py:149-154`, `284-288`). -/
def G.ensure (g : G V) (v : V) : G V :=
  if v ∈ g.keys then g else { g with keys := g.keys ++ [v], adj := Function.update g.adj v [] }

/-- `node1.add_edge_node(node2)` (`geom/planargraph.py:49-52`). -/
def G.link (g : G V) (a b : V) : G V := { g with adj := Function.update g.adj a (g.adj a ++ [b]) }

/-- `if p.y < self._bottom_node.vertex.y: self._bottom_node = node` (`geom/planargraph.py:158-162`). -/
def lowerBottom (env : GEnv V) (b : Bottom V) (v : V) : Except PyErr (Bottom V) :=
  match b with
  | .maxPoint => .ok (.node v)
  | .node w => .ok (if env.yLt v w then .node v else .node w)
  | .none => .error .attributeError

/-- The bookkeeping of `Graph.add_edge` for a new edge (`geom/planargraph.py:145-157`). -/
def G.withEdge (g : G V) (a b : V) : G V :=
  (((({ g with modified := true, edges := g.edges ++ [(a, b)] } : G V).ensure a).ensure b).link a b).link b a

/-- The update of the bottom node in `Graph.add_edge` (`geom/planargraph.py:158-162`). -/
def G.settle (env : GEnv V) (g : G V) (a b : V) : G V × Option PyErr :=
  match lowerBottom env g.bottom a with
  | .error e => (g, some e)
  | .ok b1 =>
    match lowerBottom env b1 b with
    | .error e => ({ g with bottom := b1 }, some e)
    | .ok b2 => ({ g with bottom := b2 }, none)

/-- `Graph.add_edge` (`geom/planargraph.py:133-162`): the new state, and the exception if one is raised. -/
def G.addEdge (env : GEnv V) (g : G V) (a b : V) : G V × Option PyErr :=
  if a = b then (g, none)
  else if memEdge (a, b) g.edges then (g, none)
  else (g.withEdge a b).settle env a b

/-- `node.remove(other)`; `ValueError` if it is not there. -/
def G.unlink (g : G V) (a b : V) : Except PyErr (G V) :=
  if b ∈ g.adj a then .ok { g with adj := Function.update g.adj a ((g.adj a).erase b) } else .error .valueError

/-- `if node.degree() == 0: del self.nodemap[v]` (`geom/planargraph.py:178-181`). -/
def G.dropIfIsolated (g : G V) (v : V) : Except PyErr (G V) :=
  if g.adj v = [] then
    if v ∈ g.keys then .ok { g with keys := g.keys.erase v } else .error .keyError
  else .ok g

/-- `Graph.remove_edge` (`geom/planargraph.py:164-182`). -/
def G.removeEdge (g : G V) (e : V × V) : Except PyErr (G V) :=
  if e.1 ∈ g.keys then
    if e.2 ∈ g.keys then do
      let g ← ({ g with modified := true } : G V).unlink e.1 e.2
      let g ← g.unlink e.2 e.1
      let g ← g.dropIfIsolated e.1
      let g ← g.dropIfIsolated e.2
      if memEdge e g.edges then .ok { g with edges := g.edges.filter fun f => !(sameEdge e f) } else .error .keyError
    else .error .keyError
  else .error .keyError

/-- Insert into a sorted list (see `Cam.sortInsert`). -/
def insertBy {α : Type} (lt : α → α → Bool) (a : α) : List α → List α
  | [] => [a]
  | b :: l => if lt b a then b :: insertBy lt a l else a :: b :: l

/-- `list.sort(key=…)`: stable. -/
def sortBy {α : Type} (lt : α → α → Bool) : List α → List α
  | [] => []
  | a :: l => insertBy lt a (sortBy lt l)

/-- `Graph._check_modified(modify=False)` (`geom/planargraph.py:290-297`): what `boundary_polygon`, `peel_boundary_polygon` and
`get_face_polygons` do to the graph before they read it. -/
def G.query (env : GEnv V) (g : G V) : G V :=
  if g.modified then
    { g with adj := fun v => if v ∈ g.keys then sortBy (env.ccwLt v) (g.adj v) else g.adj v, modified := false }
  else { g with modified := false }

/-- Is an edge open: one of its nodes has degree one (`geom/planargraph.py:253-255`).  The nodes of an edge are always in
`nodemap` (C65), so the `KeyError` of the lookup is not modelled. -/
def G.isOpen (g : G V) (e : V × V) : Bool := (g.adj e.1).length = 1 || (g.adj e.2).length = 1

/-- `for edge in open_edges: self.remove_edge(edge)` (`geom/planargraph.py:258-259`). -/
def G.removeAll (g : G V) : List (V × V) → Except PyErr (G V)
  | [] => .ok g
  | e :: l => do
    let g ← g.removeEdge e
    g.removeAll l

/-- `_find_bottom_node` (`geom/planargraph.py:298-315`) on the nodes in the order `order`. -/
def findBottom (env : GEnv V) (order : List V) : Bottom V :=
  match order with
  | [] => .none
  | v :: l => .node (l.foldl (fun b w => if env.yLt w b then w else b) v)

/-- The loop of `Graph.cull_open_edges` (`geom/planargraph.py:250-259`).  `iter n` is the order in which Python iterates over
the set of edges in round `n`; `none` means that `fuel` rounds were not enough. -/
def G.cullLoop (iter : Nat → List (V × V) → List (V × V)) : Nat → Nat → G V → Option (Except PyErr (G V))
  | 0, _, _ => none
  | fuel + 1, n, g =>
    let openEdges := (iter n g.edges).filter g.isOpen
    if openEdges = [] then some (.ok g)
    else match g.removeAll openEdges with
      | .error e => some (.error e)
      | .ok g' => g'.cullLoop iter fuel (n + 1)

/-- `Graph.cull_open_edges` (`geom/planargraph.py:248-260`); `korder` is the iteration order of the node map. -/
def G.cull (env : GEnv V) (iter : Nat → List (V × V) → List (V × V)) (korder : List V → List V) (fuel : Nat) (g : G V) :
    Option (Except PyErr (G V)) :=
  (g.cullLoop iter fuel 0).map fun r => r.map fun g => { g with bottom := findBottom env (korder g.keys) }

/-! ## `GraphPathBuilder` -/

/-- The path strategies (`geom/planargraph.py:403`). -/
inductive Strategy where
  | straightest | squiggly | random | random2
  deriving DecidableEq, Repr

/-- `random.choice(l)`: element number `k` (mod the length) for an arbitrary number `k`; `IndexError` on an empty list. -/
def choice {α : Type} (k : Nat) (l : List α) : Except PyErr α :=
  match l[k % l.length]? with
  | some a => .ok a
  | none => .error .indexError

/-- The choice among the sorted exits (`geom/planargraph.py:502-513`). -/
def pick (s : Strategy) (k : Nat) (l : List V) : Except PyErr (Option V) :=
  match l with
  | [] => .ok none
  | a :: tl =>
    match s with
    | .straightest => .ok (some a)
    | .squiggly => .ok (a :: tl).getLast?
    | .random => do let v ← choice k (a :: tl); pure (some v)
    | .random2 => do let v ← choice k ((a :: a :: tl).take 3); pure (some v)

/-- Candidates of `_get_exit_edge_node` (`geom/planargraph.py:490-496`). -/
def exits (g : G V) (visited : List (V × V)) (prev curr : V) : List V :=
  (g.adj curr).filter fun x => x ≠ prev && !(memEdge (curr, x) visited)

/-- `_get_exit_edge_node` (`geom/planargraph.py:481-513`); sorting with `reverse=True` is stable. -/
def getExit (env : GEnv V) (g : G V) (s : Strategy) (k : Nat) (visited : List (V × V)) (prev curr : V) :
    Except PyErr (Option V) :=
  if (g.adj curr).length = 1 then .ok none
  else pick s k (sortBy (fun a b => env.straightLt prev curr b a) (exits g visited prev curr))

/-- Loop of `_build_path_forward` (`geom/planargraph.py:464-479`) from `next_node = curr` on: the rest of the path and the
visited edges.  `rnd n` is the outcome of the `n`-th random choice; `none` means out of fuel. -/
def walk (env : GEnv V) (g : G V) (s : Strategy) (rnd : Nat → Nat) :
    Nat → Nat → List (V × V) → V → V → Option (Except PyErr (List V × List (V × V)))
  | 0, _, _, _, _ => none
  | fuel + 1, n, visited, prev, curr =>
    match getExit env g s (rnd n) visited prev curr with
    | .error e => some (.error e)
    | .ok next =>
      let visited' := visited ++ [(prev, curr)]
      match next with
      | none => some (.ok ([curr], visited'))
      | some x =>
        match walk env g s rnd fuel (n + 1) visited' curr x with
        | none => none
        | some (.error e) => some (.error e)
        | some (.ok (p, vis)) => some (.ok (curr :: p, vis))

/-- `_build_path_forward` (`geom/planargraph.py:464-479`). -/
def forward (env : GEnv V) (g : G V) (s : Strategy) (rnd : Nat → Nat) (fuel : Nat) (visited : List (V × V)) (a b : V) :
    Option (Except PyErr (List V × List (V × V))) :=
  (walk env g s rnd fuel 0 visited a b).map fun r => r.map fun pv => (a :: pv.1, pv.2)

/-- `_build_path` (`geom/planargraph.py:450-462`); `rnd 0`, `rnd 1` are the random sources of the two directions. -/
def buildPath (env : GEnv V) (g : G V) (s : Strategy) (rnd : Nat → Nat → Nat) (fuel : Nat) (visited : List (V × V))
    (e : V × V) : Option (Except PyErr (List V × List (V × V))) :=
  if e.1 ∈ g.keys ∧ e.2 ∈ g.keys then
    match forward env g s (rnd 0) fuel visited e.1 e.2 with
    | none => none
    | some (.error er) => some (.error er)
    | some (.ok (path, vis)) =>
      match forward env g s (rnd 1) fuel vis e.2 e.1 with
      | none => none
      | some (.error er) => some (.error er)
      | some (.ok (rev, vis2)) =>
        some (.ok (if 2 < rev.length then path.reverse ++ rev.drop 2 else path, vis2))
  else some (.error .keyError)

/-- Loop of `build_paths` (`geom/planargraph.py:431-437`). -/
def buildLoop (env : GEnv V) (g : G V) (s : Strategy) (rnd : Nat → Nat → Nat → Nat) :
    Nat → Nat → List (V × V) → List (V × V) → V × V → Option (Except PyErr (List (List V)))
  | 0, _, _, _, _ => none
  | fuel + 1, n, free, visited, start =>
    if free = [] then some (.ok [])
    else
      match buildPath env g s (rnd n) (g.edges.length + 1) visited start with
      | none => none
      | some (.error e) => some (.error e)
      | some (.ok (path, vis)) =>
        let free' := free.filter fun e => !(memEdge e vis)
        if free' = [] then some (.ok [path])
        else match choice (rnd n 2 0) free' with
          | .error e => some (.error e)
          | .ok next =>
            match buildLoop env g s rnd fuel (n + 1) free' vis next with
            | none => none
            | some (.error e) => some (.error e)
            | some (.ok ps) => some (.ok (path :: ps))

/-- `build_paths` (`geom/planargraph.py:411-438`); `rnd 0 2 1` picks the start edge if none is given.  The random choices
`rnd` are arbitrary, so the iteration order of the sets is covered as well. -/
def buildPaths (env : GEnv V) (g : G V) (s : Strategy) (rnd : Nat → Nat → Nat → Nat) (start : Option (V × V)) :
    Option (Except PyErr (List (List V))) :=
  match start with
  | none =>
    match choice (rnd 0 2 1) g.edges with
    | .error e => some (.error e)
    | .ok e => (buildLoop env g s rnd (g.edges.length + 1) 0 g.edges [] e).map
        fun r => r.map fun ps => sortBy (fun a b => b.length < a.length) ps
  | some e => (buildLoop env g s rnd (g.edges.length + 1) 0 g.edges [] e).map
        fun r => r.map fun ps => sortBy (fun a b => b.length < a.length) ps

end Verif.Graph
