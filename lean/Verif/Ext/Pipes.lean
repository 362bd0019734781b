import Verif.Geom.Biarc
import Verif.Cam.Model

/-!
# The extension that draws lines between two paths: `pipelines.py`

The settings `--pipeline-fillet` and `--pipeline-fillet-radius` (`pipelines.py:41-44`) are read nowhere.  The guides drawn on the debug layer (`_draw_segments`) are not modelled.
-/

set_option linter.unusedSectionVars false

namespace Verif.Ext
open Verif PyFloat PyTrig Geom

section
variable {K : Type} [PyTrig K]

/-- `geom.util.reverse_path` of a list of lines (`geom/util.py:103-109`). -/
def reversePath (path : List (Line K)) : List (Line K) := path.reverse.map Line.reversed

/-- `P.bisector` (`geom/point.py:238-251`). -/
def pBisector (self p1 p2 : P K) : P K :=
  let a1 := (p1.sub self).angle
  let a2 := (p2.sub self).angle
  self.add (P.fromPolar one ((a1 +. a2) /. ofInt 2))

/-- `polygon.bounding_box` (`geom/polygon.py:161-177`). -/
def pointsBox (fmax fmin : K) (ps : List (P K)) : Box K :=
  Box.mk' ⟨ps.foldl (fun m p => pmin m p.x) fmax, ps.foldl (fun m p => pmin m p.y) fmax⟩
    ⟨ps.foldl (fun m p => pmax m p.x) fmin, ps.foldl (fun m p => pmax m p.y) fmin⟩

/-- `bbox.diagonal()` of the starts of the segments (`pipelines.py:114-115`, `geom/box.py:124-126`). -/
def pathsDiagonal (fmax fmin : K) (path1 path2 : List (Line K)) : K :=
  let b := pointsBox fmax fmin (path1.map Line.p1 ++ path2.map Line.p1)
  (b.p2.sub b.p1).length

/-- The bisector at a vertex, turned to the side given and made longer (`pipelines.py:130-135`, `144-148`). -/
def bisectorRay (eps : K) (side : Int) (diag : K) (p0 p1 p2 : P K) : Except PyErr (Line K) :=
  let b : Line K := ⟨p1, pBisector p1 p0 p2⟩
  let b := if (Line.mk p0 p1).whichSide eps b.p2 ≠ side then b.flipped else b
  b.extend diag

/-- The lines to where a ray meets the segments of a path (`pipelines.py:212-222`). -/
def rayHits (eps : K) (ray : Line K) (path : List (Line K)) : List (Line K) :=
  path.filterMap fun seg => (ray.intersection eps seg true).map fun px => ⟨ray.p1, px⟩

/-- The loop that looks for a line longer than `0.001`; without one the variable keeps the last line (`pipelines.py:228-230`). -/
def firstLong : List (Line K) → Option (Line K)
  | [] => none
  | [l] => some l
  | l :: m :: r => if lit 1 3 <. l.length then some l else firstLong (m :: r)

/-- `_linex_segment` (`pipelines.py:211-240`). -/
def linexSegment (eps : K) (ray : Line K) (path2 : List (Line K)) : Option (Line K) :=
  firstLong (Cam.pySort (fun a b => a.length <. b.length) (rayHits eps ray path2))

/-- The loop over the vertices of a path (`pipelines.py:127-140`, `143-152`); only for the first path are vertices without a bend left out. -/
def raysFrom (eps : K) (skip : Bool) (side : Int) (diag : K) (other : List (Line K)) : P K → List (Line K) → Except PyErr (List (Line K))
  | _, [] => .ok []
  | p0, s :: r =>
    if skip && !(eps <. PyFloat.abs (s.p1.angle2 eps p0 s.p2)) then raysFrom eps skip side diag other s.p1 r
    else do
      let ray ← bisectorRay eps side diag p0 s.p1 s.p2
      let rest ← raysFrom eps skip side diag other s.p1 r
      pure ((linexSegment eps ray other).toList ++ rest)

/-- `_pline_distance` (`pipelines.py:258-277`), with the distance so far. -/
def plineDistanceFrom (eps : K) (p : P K) : K → List (Line K) → K
  | d, [] => d
  | d, s :: r => if s.pointOnLine eps p true then d +. s.p1.distance p else plineDistanceFrom eps p (d +. s.length) r

/-- `_pline_distance` (`pipelines.py:258-277`). -/
def plineDistance (eps : K) (path : List (Line K)) (p : P K) : K := plineDistanceFrom eps p zero path

/-- `list.sort` of points by their distance on a path (`pipelines.py:159-160`). -/
def sortAlong (eps : K) (path : List (Line K)) (ps : List (P K)) : List (P K) := Cam.pySort (fun p q => plineDistance eps path p <. plineDistance eps path q) ps

/-- The end of a path: `path[-1].p2`. -/
def pathEnd (l : Line K) (path : List (Line K)) : P K := ((l :: path).getLastD l).p2

/-- The first path and the second one, reversed if needed (`pipelines.py:117-122`). -/
def aligned (path1 path2 : List (Line K)) : Except PyErr (List (Line K)) :=
  match path1, path2 with
  | s1 :: _, s2 :: r2 =>
    if s1.p1.distance (pathEnd s2 r2) <. s1.p1.distance s2.p1 then .ok (reversePath (s2 :: r2)) else .ok (s2 :: r2)
  | _, _ => .error .indexError

/-- The rays, before they are sorted (`pipelines.py:123-154`). -/
def pipeRays (eps diag : K) (path1 path2 : List (Line K)) : Except PyErr (List (Line K)) :=
  match path1, path2 with
  | s1 :: r1, s2 :: r2 => do
    let side := s1.whichSide eps s2.p1
    let one ← raysFrom eps true side diag path2 s1.p1 r1
    let two ← raysFrom eps false (-side) diag path1 s2.p1 r2
    pure (⟨s1.p1, s2.p1⟩ :: one ++ two.map Line.reversed ++ [⟨pathEnd s1 r1, pathEnd s2 r2⟩])
  | _, _ => .error .indexError

/-- `_get_segments` (`pipelines.py:111-174`): the guides, and the second path as it is afterwards (it is reversed in place). -/
def getSegments (eps fmax fmin : K) (path1 path2 : List (Line K)) : Except PyErr (List (Line K) × List (Line K)) := do
  let diag := pathsDiagonal fmax fmin path1 path2
  let path2 ← aligned path1 path2
  let rays ← pipeRays eps diag path1 path2
  pure (List.zipWith Line.mk (sortAlong eps path1 (rays.map Line.p1)) (sortAlong eps path2 (rays.map Line.p2)), path2)

/-- `int(round(x))` of Python 2: halves go away from zero. -/
def intRound (x : K) : Int := if x <. zero then trunc (x -. lit 5 1) else trunc (x +. lit 5 1)

/-- The loop for the longest guide (`pipelines.py:181-185`). -/
def longestGuide (segments : List (Line K)) : K := segments.foldl (fun m s => if m <. s.length then s.length else m) zero

/-- `_num_polylines` (`pipelines.py:176-187`). -/
def numPolylines (maxSpacing : K) (count : Int) (segments : List (Line K)) : Int :=
  if zero <. maxSpacing then intRound (longestGuide segments /. maxSpacing) else count

/-- The body of the inner loop (`pipelines.py:198-202`). -/
def addPoint (polylines : List (List (P K))) (n : Nat) (p : P K) : List (List (P K)) :=
  let polylines := if polylines.length < n + 1 then polylines ++ [[]] else polylines
  polylines.modify n (· ++ [p])

/-- The loop over the guides (`pipelines.py:195-202`). -/
def polylinesOver (count : Int) : List (List (P K)) → List (Line K) → Except PyErr (List (List (P K)))
  | polylines, [] => .ok polylines
  | polylines, seg :: r => do
    let len := seg.length
    let step ← pdiv len (ofInt (count + 1))
    let mu ← pdiv step len
    polylinesOver count ((List.range count.toNat).foldl (fun ps n => addPoint ps n (seg.pointAt (mu *. ofInt (n + 1)))) polylines) r

/-- `_get_polylines` (`pipelines.py:190-209`). -/
def getPolylines (maxSpacing : K) (count : Int) (segments : List (Line K)) : Except PyErr (List (List (P K))) :=
  polylinesOver (numPolylines maxSpacing count segments) [] segments

/-- The lines of a path; `for p1, p2 in path` raises `ValueError` for arcs and curves (`pipelines.py:114-115`). -/
def onlyLines : List (Shape K) → Except PyErr (List (Line K))
  | [] => .ok []
  | .line l :: r => do
    let ls ← onlyLines r
    pure (l :: ls)
  | _ :: _ => .error .valueError

/-- What `run` draws (`pipelines.py:96-109`, `252-256`): one polyline for each list of points; `none` stands for the message that two paths are needed. -/
def pipeLines (eps fmax fmin maxSpacing : K) (count : Int) : List (List (Shape K)) → Except PyErr (Option (List (List (P K))))
  | [p1, p2] => do
    let path1 ← onlyLines p1
    let path2 ← onlyLines p2
    let g ← getSegments eps fmax fmin path1 path2
    let lines ← getPolylines maxSpacing count g.1
    pure (some lines)
  | _ => .ok none

end

end Verif.Ext
