import Verif.Geom.Shapes

/-!
# Model of `lines.py`: grids of lines

Random numbers are arbitrary functions of the number of the line; `math.log` is an arbitrary function.  Logging is left out.
-/

set_option linter.unusedSectionVars false

namespace Verif.Ext
open Verif PyFloat PyTrig Geom

variable {K : Type} [PyTrig K]

/-- The arguments of `LineSet` (`lines.py:421-440`).  The formula is `linear`, `log`, `sine` or anything else. -/
structure LineArgs (K : Type) where
  cliprect : Box K
  spacing : K
  angle : K
  spacingJitter : K
  angleJitter : K
  formula : Str := []
  vmin : K
  vmax : K
  cycles : K
  invert : Bool := false

/-- The random numbers of a run (`lines.py:531-534,567-573`): the angle between -π and π and the normal variate drawn for the line of a number. -/
structure Noise (K : Type) where
  angle : Nat → K
  normal : Nat → K

/-- The normalised angle (`lines.py:442-448`). -/
def lineAngle (angle : K) : K :=
  let a := normalizeAngle angle zero
  if (pi /. ofInt 2) <. a then a -. pi
  else if a <. PyFloat.neg (pi /. ofInt 2) then a +. pi
  else a

/-- `is_vertical` (`lines.py:449-454`), of the normalised angle. -/
def lineVertical (a : K) : Bool := ((pi *. lit 25 2) <. a) && (a <. (pi *. lit 75 2))

/-- `axis_spacing` (`lines.py:457-463`). -/
def axisSpacing (eps spacing a : K) : Except PyErr K :=
  if isZero eps a then .ok spacing
  else if lineVertical a then pdiv spacing (sin a)
  else pdiv spacing (cos a)

/-- `varspace_min` (`lines.py:466-467`). -/
def spaceMin (eps v : K) : K := if isZero eps v then lit 1 1 else v

/-- `varspace_max` (`lines.py:468-469`). -/
def spaceMax (eps v axis : K) : K := if isZero eps v then axis else v

/-- `Box.width` (`geom/box.py:120-122`). -/
def boxWidth (b : Box K) : K := b.p2.x -. b.p1.x
/-- `Box.height` (`geom/box.py:116-118`). -/
def boxHeight (b : Box K) : K := b.p2.y -. b.p1.y

/-- The first line (`lines.py:476-495`). -/
def startLine (b : Box K) (a : K) : Line K :=
  if lineVertical a then
    let dx := PyFloat.abs (cos a *. boxHeight b)
    let x1 := b.p1.x -. dx
    let x2 := b.p1.x
    if a <. zero then ⟨⟨x2, b.p1.y⟩, ⟨x1, b.p2.y⟩⟩ else ⟨⟨x1, b.p1.y⟩, ⟨x2, b.p2.y⟩⟩
  else
    let dy := PyFloat.abs (sin a *. boxWidth b)
    let y1 := b.p1.y -. dy
    let y2 := b.p1.y
    if a <. zero then ⟨⟨b.p1.x, y2⟩, ⟨b.p2.x, y1⟩⟩ else ⟨⟨b.p1.x, y1⟩, ⟨b.p2.x, y2⟩⟩

/-- `max_extent` (`lines.py:479,488,503-505`). -/
def maxExtent (b : Box K) (a axis jitter : K) : K :=
  let e := if lineVertical a then boxWidth b +. PyFloat.abs (cos a *. boxHeight b) else boxHeight b +. PyFloat.abs (sin a *. boxWidth b)
  if zero <. jitter then e +. axis *. (one +. jitter) else e

/-- `a % b` on floats: the remainder has the sign of the divisor. -/
def pmod (a b : K) : K :=
  let r := fmod a b
  if (r <. zero && zero <. b) || (zero <. r && b <. zero) then r +. b else r

/-- The scale of the spacing (`lines.py:544-559`); `e` is `math.e`. -/
def spacingScale (log : K → K) (e : K) (c : LineArgs K) (t : K) : K :=
  let s := if c.formula = "linear".toList then t
    else if c.formula = "log".toList then log (t *. (e -. one) +. one)
    else if c.formula = "sine".toList then PyFloat.abs (sin (t *. pi *. ofInt 2))
    else one
  if c.invert then one -. s else s

/-- `scaled_spacing` (`lines.py:541-565`). -/
def scaledSpacing (log : K → K) (e : K) (c : LineArgs K) (axis vmin vmax offset extent : K) : Except PyErr K := do
  let interval ← pdiv extent c.cycles
  let t ← pdiv (pmod offset interval) interval
  pure (pmin (pmax (axis *. spacingScale log e c t) vmin) vmax)

/-- `angle_jittered_line` (`lines.py:526-539`), where `r` is the random angle. -/
def jitteredLine (eps : K) (c : LineArgs K) (r : K) (l : Line K) : Line K :=
  if isZero eps c.angleJitter then l
  else
    let a := r *. c.angleJitter /. pi
    if isZero eps a then l else l.transform (Mat.rotate a l.midpoint)

/-- `start_line + line_offset` (`lines.py:510-514`). -/
def movedLine (vertical : Bool) (l : Line K) (d : K) : Line K :=
  let v : P K := if vertical then ⟨d, zero⟩ else ⟨zero, d⟩
  ⟨l.p1.add v, l.p2.add v⟩

/-- The segment of a line that is kept, if any (`lines.py:515-517`). -/
def keptSegment (eps : K) (b : Box K) (l : Line K) : List (Line K) :=
  match b.clipLine eps l with
  | some s => if isZero eps s.length then [] else [s]
  | none => []

/-- The loop of `make_lines` (`lines.py:506-524`) with a bound on its rounds; `none` is a loop that goes on.  `n` is the number of the line. -/
def linesLoop (eps : K) (log : K → K) (e : K) (c : LineArgs K) (rnd : Noise K) (a axis vmin vmax extent : K) :
    Nat → Nat → K → K → Option (Except PyErr (List (Line K)))
  | 0, _, _, _ => none
  | fuel + 1, n, offset, jitter =>
    if offset <. extent then
      let l := jitteredLine eps c (rnd.angle n) (movedLine (lineVertical a) (startLine c.cliprect a) (offset +. jitter))
      match scaledSpacing log e c axis vmin vmax offset extent with
      | .error x => some (.error x)
      | .ok s =>
        let j := if zero <. c.spacingJitter then s *. (rnd.normal n *. c.spacingJitter) else jitter
        (linesLoop eps log e c rnd a axis vmin vmax extent fuel (n + 1) (offset +. s) j).map fun r =>
          r.map fun rest => keptSegment eps c.cliprect l ++ rest
    else some (.ok [])

/-- `LineSet.lines` (`lines.py:417-524`), with a bound on the rounds of the loop. -/
def lineSet (eps : K) (log : K → K) (e : K) (fuel : Nat) (rnd : Noise K) (c : LineArgs K) : Option (Except PyErr (List (Line K))) :=
  let a := lineAngle c.angle
  match axisSpacing eps c.spacing a with
  | .error x => some (.error x)
  | .ok axis =>
    linesLoop eps log e c rnd a axis (spaceMin eps c.vmin) (spaceMax eps c.vmax axis) (maxExtent c.cliprect a axis c.spacingJitter) fuel 0 zero zero

/-! ## Order, direction and connection of the lines -/

/-- Whether the line of this number is turned around (`lines.py:390-393`). -/
def turned (reverse alternate : Bool) (n : Nat) : Bool :=
  let odd := n % 2 != 0
  (!reverse && alternate && odd) || (reverse && (!alternate || !odd))

/-- The loop of `insert_reversed_lines` (`lines.py:387-402`). -/
def reversedLoop (doubled reverse alternate : Bool) : Nat → List (Line K) → List (Line K)
  | _, [] => []
  | n, l :: ls =>
    (if turned reverse alternate n then l.reversed :: (if doubled then [l] else [])
     else l :: (if doubled then [l.reversed] else [])) ++ reversedLoop doubled reverse alternate (n + 1) ls

/-- `insert_reversed_lines` (`lines.py:382-402`). -/
def insertReversed (doubled reverse alternate : Bool) (ls : List (Line K)) : List (Line K) :=
  if !doubled && !reverse && !alternate then ls else reversedLoop doubled reverse alternate 0 ls

/-- The loop of `insert_connectors` (`lines.py:407-414`). -/
def connectorLoop (eps : K) : Option (Line K) → List (Line K) → List (Line K)
  | _, [] => []
  | prev, l :: ls =>
    (match prev with
     | some p => if p.p2.ne eps l.p1 then [⟨p.p2, l.p1⟩] else []
     | none => []) ++ l :: connectorLoop eps (some l) ls

/-- `insert_connectors` (`lines.py:404-414`). -/
def insertConnectors (eps : K) (ls : List (Line K)) : List (Line K) := connectorLoop eps none ls

/-- The loop of `connected_paths` (`lines.py:357-366`); `path` is the current path, never empty, and `last` its last line. -/
def pathLoop (eps : K) : List (Line K) → Line K → List (Line K) → List (List (Line K))
  | path, _, [] => [path]
  | path, last, l :: ls =>
    if last.p2.eq eps l.p1 then pathLoop eps (path ++ [l]) l ls else path :: pathLoop eps [l] l ls

/-- `connected_paths` (`lines.py:350-366`). -/
def connectedPaths (eps : K) : List (Line K) → List (List (Line K))
  | [] => []
  | l :: ls => pathLoop eps [l] l ls

/-- The options of the order of one set of lines (`lines.py:275-280,294-299,301-306`). -/
structure OrderArgs where
  reverseOrder : Bool := true
  doubled : Bool := true
  reverse : Bool := false
  alternate : Bool := false
  connect : Bool := false

/-- The lines of a set as they are put in paths (`lines.py:275-311`); `both` is the option to alternate horizontal and vertical lines. -/
def orderedPaths (eps : K) (o : OrderArgs) (both : Bool) (ls : List (Line K)) : List (List (Line K)) :=
  let ls := if o.reverseOrder then ls.reverse else ls
  let ls := insertReversed o.doubled o.reverse o.alternate ls
  let ls := if !both && o.connect then insertConnectors eps ls else ls
  connectedPaths eps ls

/-- `itertools.izip_longest` of the two lists of paths, without the missing ones (`lines.py:333-341`): the order in which they are drawn. -/
def alternated {α : Type} : List α → List α → List α
  | [], vs => vs
  | hs, [] => hs
  | h :: hs, v :: vs => h :: v :: alternated hs vs

end Verif.Ext
