import Verif.Graph.Faces

/-!
# Model of `tcnc/geom/planargraph.py`: `peel_boundary_polygon`

The node map that is pruned is represented as a graph of which only `keys` and `adj` are used: `adj v` is the list that the node object of `v` is, also after `v` has been deleted from the map.
`inside` is `polygon.point_inside`; `iter n` is the order in which Python iterates over the values of the node map at the `n`-th time.
-/

set_option linter.unusedSectionVars false

namespace Verif.Graph
open Verif

variable {V : Type} [DecidableEq V]

/-- `_copy_nodemap` (`geom/planargraph.py:317-329`): equal nodes with equal lists; `KeyError` if a neighbour is not in the node map. -/
def copyNodemap (g : G V) : Except PyErr (G V) :=
  if g.keys.all fun v => (g.adj v).all fun w => w ∈ g.keys then .ok g else .error .keyError

/-- The loop over the neighbours in `_remove_node` (`geom/planargraph.py:275-280`). -/
def unlinkFrom (v : V) : List V → G V → Except PyErr (G V)
  | [], g => .ok g
  | w :: ws, g =>
    if w ∈ g.keys then do
      let g ← g.unlink w v
      let g ← g.dropIfIsolated w
      unlinkFrom v ws g
    else unlinkFrom v ws g

/-- `_remove_node` (`geom/planargraph.py:271-281`). -/
def removeNode (g : G V) (v : V) : Except PyErr (G V) :=
  if v ∈ g.keys then do
    let g ← unlinkFrom v (g.adj v) g
    if v ∈ g.keys then .ok { g with keys := g.keys.erase v } else .error .keyError
  else .ok g

/-- `for node in deleted_nodes: self._remove_node(nodemap, node)` (`geom/planargraph.py:341-342`, `358-359`), also with `nodemap.get` before (`geom/planargraph.py:344-347`), which skips vertices that are not in the
map as `_remove_node` does. -/
def removeNodes : List V → G V → Except PyErr (G V)
  | [], g => .ok g
  | v :: vs, g => do
    let g ← removeNode g v
    removeNodes vs g

/-- The loop of `_prune_nodes` that removes dead ends (`geom/planargraph.py:331-358`). -/
def pruneDeadEnds (iter : Nat → List V → List V) : Nat → Nat → G V → Option (Except PyErr (G V))
  | 0, _, _ => none
  | fuel + 1, n, g =>
    let dead := (iter n g.keys).filter fun v => (g.adj v).length < 2
    if dead = [] then some (.ok g)
    else match removeNodes dead g with
      | .error e => some (.error e)
      | .ok g' => pruneDeadEnds iter fuel (n + 1) g'

/-- The part of `_prune_nodes` for the polygon (`geom/planargraph.py:335-347`). -/
def prunePoly (iter : Nat → List V → List V) (inside : List V → V → Bool) (poly : List V) (g : G V) : Except PyErr (G V) :=
  if poly = [] then .ok g
  else do
    let g ← removeNodes ((iter 0 g.keys).filter fun v => !inside poly v) g
    removeNodes poly g

/-- `_prune_nodes` (`geom/planargraph.py:331-358`). -/
def pruneNodes (iter : Nat → List V → List V) (inside : List V → V → Bool) (fuel : Nat) (poly : List V) (g : G V) : Option (Except PyErr (G V)) :=
  match prunePoly iter inside poly g with
  | .error e => some (.error e)
  | .ok g => pruneDeadEnds iter fuel 1 g

/-- The loop of `peel_boundary_polygon` (`geom/planargraph.py:236-246`); `iters k` are the orders of iteration in round `k`. -/
def peelLoop (env : GEnv V) (iters : Nat → Nat → List V → List V) (inside : List V → V → Bool) (pfuel : Nat) : Nat → Nat → List V → G V → Option (Except PyErr (List (List V)))
  | 0, _, _, _ => none
  | fuel + 1, k, poly, g =>
    if 3 < g.keys.length ∧ 3 < poly.length then
      match findBottom env (iters k 0 g.keys) with
      | .node v =>
        match buildBoundary g v g.keys.length with
        | .error e => some (.error e)
        | .ok p =>
          match pruneNodes (fun n => iters k (n + 1)) inside pfuel p g with
          | none => none
          | some (.error e) => some (.error e)
          | some (.ok g') => (peelLoop env iters inside pfuel fuel (k + 1) p g').map fun r => r.map fun ps => if 2 < p.length then p :: ps else ps
      | _ => some (.error .attributeError)
    else some (.ok [])

/-- `peel_boundary_polygon` (`geom/planargraph.py:219-246`). -/
def peelBoundary (env : GEnv V) (iters : Nat → Nat → List V → List V) (inside : List V → V → Bool) (fuel : Nat) (poly : List V) (g : G V) : Option (Except PyErr (List (List V))) :=
  match copyNodemap (g.query env) with
  | .error e => some (.error e)
  | .ok g0 =>
    match pruneNodes (fun n => iters 0 (n + 1)) inside fuel poly g0 with
    | none => none
    | some (.error e) => some (.error e)
    | some (.ok g1) => peelLoop env iters inside fuel fuel 1 poly g1

end Verif.Graph
