import Verif.Graph.Model

/-!
# Model of the faces, the boundary and the longest paths of a graph (`tcnc/geom/planargraph.py`)

The nodes are those of `Graph/Model.lean`; the outgoing edges of every node are in the order `_check_modified` left them in, which the functions here call first
(`G.query`).
-/

namespace Verif.Graph
open Verif

variable {V : Type} [DecidableEq V]

/-- The element before `x` in the list, the last one if `x` is the first (`geom/planargraph.py:85-86`: an index of `-1`); `none`: `index` raises `ValueError`. -/
def before (l : List V) (x : V) : Option V :=
  if x ∈ l then l[(l.idxOf x + l.length - 1) % l.length]? else none

/-! ## Faces -/

/-- `find_free_edge_node` (`geom/planargraph.py:621-629`): all edges looked at are marked.  The marks are the pairs `(p1, p2)` for which
`visited_left(p2)` was called (`geom/planargraph.py:542-565`, `576-579`); the lookup of an edge never fails (C65). -/
def findFree (g : G V) (s : V) : List (V × V) → List V → Option V × List (V × V)
  | marks, [] => (none, marks)
  | marks, v :: l =>
    if (s, v) ∉ marks ∧ 1 < (g.adj v).length then (some v, (s, v) :: marks) else findFree g s ((s, v) :: marks) l

/-- The walk of `make_face` (`geom/planargraph.py:604-616`): the node it ends at, the face and the marks.  `none`: out of fuel. -/
def faceWalk (g : G V) (start : V) : Nat → V → V → List V → List (V × V) → Option (Except PyErr (V × List V × List (V × V)))
  | 0, _, _, _, _ => none
  | fuel + 1, prev, curr, face, marks =>
    if curr ≠ start ∧ 1 < (g.adj curr).length then
      match before (g.adj curr) prev with
      | none => some (.error .valueError)
      | some next => faceWalk g start fuel curr next (if (g.adj next).length = 1 then face else face ++ [next]) ((curr, next) :: marks)
    else some (.ok (curr, face, marks))

/-- Is a face kept (`geom/planargraph.py:594`, `617-619`)?  `clockwise`: the area is positive. -/
def keepFace (clockwise : List V → Bool) (start last : V) (face : List V) : Bool :=
  last = start && !(clockwise face) && 2 < face.length

/-- The faces found from one node (`geom/planargraph.py:590-597`). -/
def nodeFaces (g : G V) (clockwise : List V → Bool) (walkFuel : Nat) (start : V) : Nat → List (V × V) → Option (Except PyErr (List (List V) × List (V × V)))
  | 0, _ => none
  | fuel + 1, marks =>
    match findFree g start marks (g.adj start) with
    | (none, m) => some (.ok ([], m))
    | (some n, m) =>
      match faceWalk g start walkFuel start n [start, n] m with
      | none => none
      | some (.error e) => some (.error e)
      | some (.ok (last, face, m)) =>
        match nodeFaces g clockwise walkFuel start fuel m with
        | none => none
        | some (.error e) => some (.error e)
        | some (.ok (fs, m)) => some (.ok (if keepFace clockwise start last face then face :: fs else fs, m))

/-- `make_face_polygons` (`geom/planargraph.py:581-599`) over the nodes in the given order. -/
def makeFaces (g : G V) (clockwise : List V → Bool) (fuel : Nat) : List V → List (V × V) → Option (Except PyErr (List (List V)))
  | [], _ => some (.ok [])
  | s :: order, marks =>
    match nodeFaces g clockwise fuel s fuel marks with
    | none => none
    | some (.error e) => some (.error e)
    | some (.ok (fs, m)) =>
      match makeFaces g clockwise fuel order m with
      | none => none
      | some (.error e) => some (.error e)
      | some (.ok r) => some (.ok (fs ++ r))

/-- `get_face_polygons` (`geom/planargraph.py:262-269`); `korder`: the order in which the node map is iterated over. -/
def facePolygons (env : GEnv V) (g : G V) (clockwise : List V → Bool) (korder : List V → List V) : Option (Except PyErr (List (List V))) :=
  makeFaces (g.query env) clockwise (2 * g.edges.length + 1) (korder (g.query env).keys) []

/-! ## The boundary -/

/-- The loop of `ccw_edge_node` that skips dead ends (`geom/planargraph.py:87-89`), from the list index `i` counted from the end of the list rotated to start at `ref`:
`l` is what is left of the nodes, going backwards from `ref`. -/
def skipSpikes (g : G V) (ref : V) : List V → Option V
  | [] => none
  | v :: l => if (g.adj v).length = 1 ∧ v ≠ ref then skipSpikes g ref l else some v

/-- `ccw_edge_node` with `skip_spikes` (`geom/planargraph.py:71-90`): going backwards in the list, cyclically, from the reference node, which is reached again in the end
at the latest. -/
def ccwEdgeNode (g : G V) (node ref : V) : Except PyErr V :=
  if ref ∈ g.adj node then
    match skipSpikes g ref (((g.adj node).take ((g.adj node).idxOf ref)).reverse ++ ((g.adj node).drop ((g.adj node).idxOf ref)).reverse) with
    | some v => .ok v
    | none => .error .indexError
  else .error .valueError

/-- The walk of `_build_boundary_polygon` (`geom/planargraph.py:387-397`). -/
def boundaryWalk (g : G V) (start : V) : Nat → V → V → Except PyErr (List V)
  | 0, _, _ => .ok []
  | n + 1, prev, curr => do
    let next ← ccwEdgeNode g curr prev
    let rest ← if next = start then pure [] else boundaryWalk g start n curr next
    pure (if 1 < (g.adj next).length then next :: rest else rest)

/-- `_build_boundary_polygon` (`geom/planargraph.py:360-397`): in the loop over a chain the function `ccw_edge_node` is called without an argument; a start node
without edges has no `start_node[0]`. -/
def buildBoundary (g : G V) (start : V) (n : Nat) : Except PyErr (List V) :=
  match g.adj start with
  | [] => .error .indexError
  | [s] =>
    if (g.adj s).length = 2 then .error .typeError
    else if (g.adj s).length = 1 then .ok []
    else
      match g.adj s with
      | [] => .error .indexError
      | p :: _ => do
        let r ← boundaryWalk g s (n - 1) p s
        pure (s :: r)
  | p :: _ => do
    let r ← boundaryWalk g start n p start
    pure (start :: r)

/-- `boundary_polygon` (`geom/planargraph.py:213-217`). -/
def boundaryPolygon (env : GEnv V) (g : G V) : Except PyErr (List V) :=
  match (g.query env).bottom with
  | .node v => buildBoundary (g.query env) v (g.query env).keys.length
  | .maxPoint => .error .indexError
  | .none => .error .attributeError

/-! ## Longest paths -/

/-- The paths from every edge (`geom/planargraph.py:442-446`). -/
def pathsFromAll (env : GEnv V) (g : G V) (s : Strategy) (rnd : Nat → Nat → Nat → Nat) : Nat → List (V × V) → Option (Except PyErr (List (List V)))
  | _, [] => some (.ok [])
  | n, e :: es =>
    match buildPath env g s (rnd n) (g.edges.length + 1) [] e with
    | none => none
    | some (.error er) => some (.error er)
    | some (.ok (p, _)) =>
      match pathsFromAll env g s rnd (n + 1) es with
      | none => none
      | some (.error er) => some (.error er)
      | some (.ok ps) => some (.ok (p :: ps))

/-- How many different vertices of `p` are not in `q` (`geom/planargraph.py:521-522`). -/
def missing (p q : List V) : Nat := (p.dedup.filter fun v => v ∉ q).length

/-- The loop of `_dedupe_paths` (`geom/planargraph.py:515-525`): a path is compared to the one before it, kept or not. -/
def dedupeLoop : List V → List (List V) → List (List V)
  | _, [] => []
  | prev, p :: ps => if 2 < missing prev p then p :: dedupeLoop p ps else dedupeLoop p ps

/-- `_dedupe_paths` (`geom/planargraph.py:515-525`). -/
def dedupePaths : List (List V) → Except PyErr (List (List V))
  | [] => .error .indexError
  | p :: ps => .ok (p :: dedupeLoop p ps)

/-- `build_longest_paths` (`geom/planargraph.py:440-448`); `order`: the order in which the set of edges is iterated over. -/
def longestPaths (env : GEnv V) (g : G V) (s : Strategy) (rnd : Nat → Nat → Nat → Nat) (order : List (V × V)) : Option (Except PyErr (List (List V))) :=
  (pathsFromAll env g s rnd 0 order).map fun r => r.bind fun ps => dedupePaths (sortBy (fun a b => b.length < a.length) ps)

/-- The edges that `add_poly` adds from `p1` on (`geom/planargraph.py:193-196`); the exception of `add_edge` cannot occur unless all edges have been culled. -/
def addSides (env : GEnv V) (g : G V) : V → List V → G V × Option PyErr
  | _, [] => (g, none)
  | a, b :: l =>
    match g.addEdge env a b with
    | (g, none) => addSides env g b l
    | (g, some e) => (g, some e)

/-- `add_poly` (`geom/planargraph.py:184-199`). -/
def addPoly (env : GEnv V) (g : G V) (closePoly : Bool) (vs : List V) : G V × Option PyErr :=
  match vs with
  | [] => (g, some .indexError)
  | a :: l =>
    match addSides env g a l with
    | (g, some e) => (g, some e)
    | (g, none) => if closePoly ∧ a ≠ (a :: l).getLastD a then g.addEdge env ((a :: l).getLastD a) a else (g, none)

end Verif.Graph
