import Verif.Geom.Shapes

/-!
# Model of `geom/quasi.py`: quasicrystal tilings

The plotter is an arbitrary object: it is told of each polygon and answers whether the polygon was drawn whole, as an arbitrary function of everything plotted so far.  `_round`
(`geom/quasi.py:308-310`), with the number of digits worked out from the tolerance (`geom/quasi.py:138`), is an arbitrary function.  The settings that `quasi.py` stores but never reads
(`color_fill`, `color_by_polytype`) and `_float_eq`, which nothing calls, are left out.
-/

set_option linter.unusedSectionVars false

namespace Verif.Ext
open Verif PyFloat PyTrig Geom

variable {K : Type} [PyTrig K]

/-- One call of the plotter (`geom/quasi.py:31-69`): `plot_polygon`, `plot_segment` or `plot_segpoly`. -/
inductive Call (K : Type) where
  | polygon (vertices : List (P K)) (color : K)
  | segment (p1 p2 : P K)
  | segpoly (vertices : List (P K)) (color : K)

/-- A `_QVector` (`geom/quasi.py:72-96`). -/
structure QVec (K : Type) where
  x : K
  y : K
  m : K
  b : List K
deriving DecidableEq

/-- The settings of a `Quasi` (`geom/quasi.py:123-163`), with the replies of the plotter. -/
structure Quasi (K : Type) where
  symmetry : Nat
  numlines : Nat
  saltX : K
  saltY : K
  tolerance : K
  ratio : K
  skinnyFat : K
  segSkinny : Int
  segFat : Int
  splitCross : Bool
  rnd : K → K
  accepts : List (Call K) → Bool

/-- `list[i]` for an index that is not negative: `IndexError` beyond the end. -/
def getIx {A : Type} (l : List A) (i : Nat) : Except PyErr A :=
  match l[i]? with
  | some a => .ok a
  | none => .error .indexError

/-- The Y intercept of one offset line (`geom/quasi.py:93-96`). -/
def qIntercept (x y m saltX saltY : K) (slot numlines r : Nat) : K :=
  let off := ofInt r -. (ofInt numlines /. ofInt 2)
  let y1 := (y *. (ofInt slot *. saltY)) -. (x *. off)
  let x1 := (x *. (ofInt slot *. saltX)) +. (y *. off)
  y1 -. (m *. x1)

/-- `_QVector.__init__` (`geom/quasi.py:76-96`). -/
def qVec (angle : K) (slot numlines : Nat) (saltX saltY : K) : Except PyErr (QVec K) := do
  let x := cos angle
  let y := sin angle
  let m ← pdiv y x
  pure ⟨x, y, m, (List.range numlines).map (qIntercept x y m saltX saltY slot numlines)⟩

/-- The vectors from the slot `t` on (`geom/quasi.py:219-223`). -/
def initFrom (q : Quasi K) (phi : K) : Nat → Nat → K → Except PyErr (List (QVec K))
  | 0, _, _ => .ok []
  | k + 1, t, angle => do
    let v ← qVec angle t q.numlines q.saltX q.saltY
    let rest ← initFrom q phi k (t + 1) (angle +. phi)
    pure (v :: rest)

/-- `_init_vectors` (`geom/quasi.py:207-224`). -/
def initVectors (q : Quasi K) : Except PyErr (List (QVec K)) := do
  let phi ← pdiv (ofInt 2 *. pi) (ofInt q.symmetry)
  let angle := if q.symmetry % 2 = 0 then q.tolerance *. ofInt 10 else zero
  initFrom q phi q.symmetry 0 angle

/-- The squares of the radii of the rings (`geom/quasi.py:171,174-177`): the loop `while minrad <= float(maxline)`, whose
variables do not depend on what is plotted.  `none` while it is still running. -/
def ringsFrom (maxline : Int) : Nat → K → Option (List (K × K))
  | 0, _ => none
  | fuel + 1, minrad =>
    if minrad <=. ofInt maxline then
      let next := minrad +. lit 4 1
      match ringsFrom maxline fuel next with
      | none => none
      | some l => some ((minrad *. minrad, next *. next) :: l)
    else some []

/-- The square of the distance of a pair of line numbers from the middle (`geom/quasi.py:169-170,179,181`). -/
def ringDist (numlines n m : Nat) : K :=
  let minline := ofInt ((numlines : Int) - 1) /. ofInt 2
  ((ofInt n -. minline) *. (ofInt n -. minline)) +. ((ofInt m -. minline) *. (ofInt m -. minline))

/-- The line numbers `range(1, maxline)` (`geom/quasi.py:178,180`). -/
def lineNumbers (numlines : Nat) : List Nat := List.range' 1 (numlines - 2)

/-- The pairs of line numbers looked at in one ring, in order (`geom/quasi.py:178-182`). -/
def ringPairs (numlines : Nat) (ring : K × K) : List (Nat × Nat) :=
  (lineNumbers numlines).flatMap fun n => ((lineNumbers numlines).filter fun m =>
    (ring.1 <=. ringDist numlines n m) && (ringDist numlines n m <. ring.2)).map fun m => (n, m)

/-- The pairs of directions, in order (`geom/quasi.py:186-187`). -/
def dirPairs (symmetry : Nat) : List (Nat × Nat) :=
  (List.range (symmetry - 1)).flatMap fun t => (List.range' (t + 1) (symmetry - (t + 1))).map fun r => (t, r)

/-- The crossing of a line of each of two directions (`geom/quasi.py:188-191`). -/
def crossing (v1 v2 : QVec K) (n m : Nat) : Except PyErr (P K) := do
  let b1 ← getIx v1.b n
  let b2 ← getIx v2.b m
  let x0 ← pdiv (b1 -. b2) (v2.m -. v1.m)
  pure ⟨x0, (v1.m *. x0) +. b1⟩

/-- The number stored in `index` for another direction (`geom/quasi.py:196-197`). -/
def ladderIndex (v : QVec K) (p : P K) : Except PyErr Int := do
  let b0 ← getIx v.b 0
  let dx := (PyFloat.neg p.x *. v.y) +. ((p.y -. b0) *. v.x)
  pure (trunc (PyFloat.neg dx))

/-- The inner loop over the directions (`geom/quasi.py:192-201`), from the direction `i` on: the numbers stored in `index`, and whether the tile is plotted. -/
def scanFrom (numlines : Nat) (p : P K) (t r : Nat) : List (QVec K) → Nat → List Int → Except PyErr (List Int × Bool)
  | [], _, index => .ok (index, true)
  | v :: vs, i, index =>
    if i ≠ t ∧ i ≠ r then do
      let k ← ladderIndex v p
      if k > (numlines : Int) - 3 ∨ k < 1 then pure (index.set i k, false)
      else scanFrom numlines p t r vs (i + 1) (index.set i k)
    else scanFrom numlines p t r vs (i + 1) index

/-- `_distance2` (`geom/quasi.py:317-323`). -/
def distance2 (p1 p2 : P K) : K :=
  let a := p1.x -. p2.x
  let b := p1.y -. p2.y
  (a *. a) +. (b *. b)

/-- The corner of the tile (`geom/quasi.py:227-231`). -/
def tileCorner (vectors : List (QVec K)) (index : List Int) : P K :=
  (vectors.zip index).foldl (fun p vi => ⟨p.x +. (vi.1.x *. ofInt vi.2), p.y +. (vi.1.y *. ofInt vi.2)⟩) ⟨zero, zero⟩

/-- The four corners (`geom/quasi.py:232-235`). -/
def tileVertices (p : P K) (v1 v2 : QVec K) : List (P K) :=
  [p, ⟨p.x +. v1.x, p.y +. v1.y⟩, ⟨(p.x +. v1.x) +. v2.x, (p.y +. v1.y) +. v2.y⟩, ⟨p.x +. v2.x, p.y +. v2.y⟩]

/-- The four points on the sides (`geom/quasi.py:247-261`). -/
def segPoly (ratio : K) (p : P K) (v1 v2 : QVec K) (dotp : K) : P K × P K × P K × P K :=
  let x1 := v1.x *. ratio
  let y1 := v1.y *. ratio
  let x2 := v2.x *. ratio
  let y2 := v2.y *. ratio
  if zero <. dotp then
    (⟨(p.x +. v1.x) +. x2, (p.y +. v1.y) +. y2⟩, ⟨(p.x +. v2.x) +. x1, (p.y +. v2.y) +. y1⟩,
      ⟨p.x +. x2, p.y +. y2⟩, ⟨p.x +. x1, p.y +. y1⟩)
  else
    (⟨p.x +. x1, p.y +. y1⟩, ⟨(p.x +. v1.x) +. x2, (p.y +. v1.y) +. y2⟩,
      ⟨(p.x +. v2.x) +. x1, (p.y +. v2.y) +. y1⟩, ⟨p.x +. x2, p.y +. y2⟩)

/-- The middle of two points (`geom/quasi.py:270-272,297-299`). -/
def midOf (a b : P K) : P K := ⟨(a.x +. b.x) *. lit 5 1, (a.y +. b.y) *. lit 5 1⟩

/-- The four half segments of a split cross (`geom/quasi.py:270-276,297-303`): `a`–`c` and `b`–`d`, split in the middle of `a` and `c`. -/
def splitSegs (a b c d : P K) : List (Call K) :=
  let mid := midOf a c
  [.segment a mid, .segment mid c, .segment b mid, .segment mid d]

/-- The segments between points of the sides (`geom/quasi.py:246-289`). -/
def midSegs (q : Quasi K) (segtype : Int) (p : P K) (v1 v2 : QVec K) (dotp : K) : Except PyErr (List (Call K)) :=
  let sp := segPoly q.ratio p v1 v2 dotp
  let a := sp.1
  let b := sp.2.1
  let c := sp.2.2.1
  let d := sp.2.2.2
  if segtype = 1 then .ok [.segment a b, .segment c d]
  else if segtype = 2 then .ok [.segment a d, .segment b c]
  else if segtype = 3 then
    if q.splitCross && beq q.ratio (lit 5 1) then .ok (splitSegs a b c d)
    else .ok [.segment a c, .segment b d]
  else if segtype = 4 then do
    let d1 := distance2 a b
    let d2 := distance2 b c
    let aspect ← pdiv (pmin d1 d2) (pmax d1 d2)
    pure [.segment a b, .segment c d, .segment a d, .segment b c, .segpoly [a, b, c, d] (q.rnd aspect)]
  else .ok []

/-- The segments between corners (`geom/quasi.py:290-306`). -/
def vertSegs (q : Quasi K) (segtype : Int) (p : P K) (v1 v2 : QVec K) : List (Call K) :=
  let a := p
  let b : P K := ⟨p.x +. v1.x, p.y +. v1.y⟩
  let c : P K := ⟨(p.x +. v1.x) +. v2.x, (p.y +. v1.y) +. v2.y⟩
  let d : P K := ⟨p.x +. v2.x, p.y +. v2.y⟩
  if segtype = 5 then [.segment b d]
  else if segtype = 6 then [.segment a c]
  else if segtype = 7 then
    if q.splitCross then splitSegs a b c d
    else [.segment a c, .segment b d]
  else []

/-- The segments of a tile that was drawn whole (`geom/quasi.py:242-306`). -/
def tileSegs (q : Quasi K) (p : P K) (v1 v2 : QVec K) : Except PyErr (List (Call K)) :=
  let dotp := (v1.x *. v2.x) +. (v1.y *. v2.y)
  if q.segSkinny > 0 ∨ q.segFat > 0 then
    let segtype := if q.skinnyFat <. PyFloat.abs dotp then q.segSkinny else q.segFat
    if 0 < segtype ∧ segtype < 5 then midSegs q segtype p v1 v2 dotp
    else .ok (vertSegs q segtype p v1 v2)
  else .ok []

/-- `_plot` (`geom/quasi.py:226-306`): what has been plotted so far, then the tile and its segments. -/
def plotTile (q : Quasi K) (vectors : List (QVec K)) (v1 v2 : QVec K) (index : List Int) (calls : List (Call K)) :
    Except PyErr (List (Call K)) := do
  let p := tileCorner vectors index
  let dotp := (v1.x *. v2.x) +. (v1.y *. v2.y)
  let calls := calls ++ [.polygon (tileVertices p v1 v2) (q.rnd (PyFloat.abs dotp))]
  if q.accepts calls then
    let segs ← tileSegs q p v1 v2
    pure (calls ++ segs)
  else pure calls

/-- What the loops carry along: the list `index`, which is never cleared, and what has been plotted. -/
structure QState (K : Type) where
  index : List Int
  calls : List (Call K)

/-- The body of the loops (`geom/quasi.py:188-205`), for line `n` of direction `t` and line `m` of direction `r`. -/
def quasiStep (q : Quasi K) (vectors : List (QVec K)) (st : QState K) (c : (Nat × Nat) × (Nat × Nat)) : Except PyErr (QState K) := do
  let n := c.1.1
  let m := c.1.2
  let t := c.2.1
  let r := c.2.2
  let v1 ← getIx vectors t
  let v2 ← getIx vectors r
  let p ← crossing v1 v2 n m
  let scan ← scanFrom q.numlines p t r vectors 0 st.index
  if scan.2 then
    let index := (scan.1.set t (n - 1)).set r (m - 1)
    let calls ← plotTile q vectors v1 v2 index st.calls
    pure ⟨index, calls⟩
  else pure { st with index := scan.1 }

/-- Everything the loops look at, in order: the rings, the pairs of lines in each, the pairs of directions for each. -/
def quasiPlaces (q : Quasi K) (rings : List (K × K)) : List ((Nat × Nat) × (Nat × Nat)) :=
  rings.flatMap fun ring => (ringPairs q.numlines ring).flatMap fun nm => (dirPairs q.symmetry).map fun tr => (nm, tr)

/-- `quasi` (`geom/quasi.py:165-205`): everything told to the plotter, in order.  `none` while the loop over the rings is still running. -/
def quasi (q : Quasi K) (fuel : Nat) : Option (Except PyErr (List (Call K))) :=
  match initVectors q with
  | .error e => some (.error e)
  | .ok vectors =>
    match ringsFrom ((q.numlines : Int) - 1) fuel zero with
    | none => none
    | some rings =>
      some (((quasiPlaces q rings).foldlM (quasiStep q vectors) ⟨List.replicate q.symmetry 0, []⟩).map QState.calls)

end Verif.Ext
