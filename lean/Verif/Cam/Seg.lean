import Verif.Geom.Smooth

/-!
# Model of tool path segments and of `tcnc/cam/util.py`, `cam/fillet.py`, `geom/fillet.py`, `cam/offset.py`

A tool path segment is a shape plus the hint attributes the CAM code attaches to it at run time.
-/

set_option linter.unusedSectionVars false

namespace Verif.Cam
open Verif PyFloat PyTrig Geom

/-- The hint attributes of a segment (`cam/simplecam.py:40-48`, `cam/util.py:45-57`): `none`/`false` means the attribute
does not exist. -/
structure Hints (K : Type) where
  /-- `inline_z` -/
  z : Option K := none
  /-- `inline_start_angle` -/
  startA : Option K := none
  /-- `inline_end_angle` -/
  endA : Option K := none
  /-- `inline_ignore_a` -/
  ignoreA : Bool := false
  /-- `ignore_g1` -/
  ignoreG1 : Bool := false
  /-- `g1` -/
  g1 : Bool := false
  deriving DecidableEq, Repr

/-- A segment object: geometry plus hint attributes. -/
structure Seg (K : Type) where
  shape : Shape K
  hints : Hints K := {}
  deriving DecidableEq, Repr

/-- A path: a list of segments. -/
abbrev Path (K : Type) := List (Seg K)

variable {K : Type} [PyTrig K]

namespace Seg

/-- Attribute `p1`. -/
def p1 (s : Seg K) : P K := s.shape.p1
/-- Attribute `p2`. -/
def p2 (s : Seg K) : P K := s.shape.p2

/-- `seg_start_angle` (`cam/util.py:58-62`). -/
def startAngle (eps : K) (s : Seg K) : K := s.hints.startA.getD (s.shape.startTangent eps)

/-- `seg_end_angle` (`cam/util.py:64-68`). -/
def endAngle (eps : K) (s : Seg K) : K := s.hints.endA.getD (s.shape.endTangent eps)

/-- `segment.reversed()`: a new object, so the hints are gone. -/
def reversed (s : Seg K) : Seg K := ⟨s.shape.reversed, {}⟩

/-- `_copy_segment_attrs` (`cam/fillet.py:127-131`): copies the attributes whose name starts with `inline_`. -/
def copyAttrs (src dst : Seg K) : Seg K :=
  { dst with hints :=
    { dst.hints with
      z := src.hints.z.or dst.hints.z
      startA := src.hints.startA.or dst.hints.startA
      endA := src.hints.endA.or dst.hints.endA
      ignoreA := src.hints.ignoreA || dst.hints.ignoreA } }

end Seg

/-! ## `cam/util.py` -/

/-- Loop of `split_path_g1` (`cam/util.py:32-41`); `cur` is `new_path`, `s1` is `seg1`. -/
def splitLoop (eps : K) : Path K → Seg K → Path K → List (Path K)
  | cur, s1, [] => [cur ++ [s1]]
  | cur, s1, s2 :: rest =>
    if !(floatEq eps (s1.shape.endTangent eps) (s2.shape.startTangent eps)) || s1.hints.ignoreG1 || s2.hints.ignoreG1
    then (cur ++ [s1]) :: splitLoop eps [] s2 rest
    else splitLoop eps (cur ++ [s1]) s2 rest

/-- `split_path_g1` (`cam/util.py:19-42`). -/
def splitPathG1 (eps : K) : Path K → Except PyErr (List (Path K))
  | [] => .error .indexError
  | s :: rest => .ok (splitLoop eps [] s rest)

/-! ## `geom/fillet.py` -/

/-- `fillet_line_line` (`geom/fillet.py:183-210`). -/
def filletLineLine (eps : K) (l1 l2 : Line K) (r : K) : Option (Arc K) :=
  let side := l1.whichSide eps l2.p2
  let off := r *. ofInt side
  match (l1.offset eps off).intersection eps (l2.offset eps off) with
  | none => none
  | some c =>
    let fp1 := l1.normalProjectionPoint eps c true
    let fp2 := l2.normalProjectionPoint eps c true
    if fp1.ne eps fp2 && floatEq eps (fp1.distance c) r && floatEq eps (fp2.distance c) r then
      some (Arc.fromTwoPointsAndCenter eps fp1 fp2 c)
    else none

/-- `fillet_arc_arc` (`geom/fillet.py:213-244`). -/
def filletArcArc (eps : K) (a1 a2 : Arc K) (r : K) : Except PyErr (Option (Arc K)) := do
  let side := a1.whichSideAngle eps a2.startTangent
  let cw1 : Int := if a1.isClockwise then 1 else -1
  let cw2 : Int := if a2.isClockwise then 1 else -1
  let o1 ← a1.offset (r *. ofInt side *. ofInt cw1)
  let o2 ← a2.offset (r *. ofInt side *. ofInt cw2)
  let ix ← o1.intersectArc eps o2 true
  match ix with
  | [] => pure none
  | c :: _ => do
    let ix1 ← a1.intersectLine eps ⟨c, a1.center⟩ true
    let ix2 ← a2.intersectLine eps ⟨c, a2.center⟩ true
    match ix1, ix2 with
    | q1 :: _, q2 :: _ => pure (some (Arc.fromTwoPointsAndCenter eps q1 q2 c))
    | _, _ => pure none

/-- `fillet_line_arc` (`geom/fillet.py:247-304`). -/
def filletLineArc (eps : K) (line : Line K) (arc : Arc K) (r : K) : Option (Arc K) :=
  let rev := (arc.p2.sub line.p1).length <. eps
  let line := if rev then line.reversed else line
  let arc := if rev then arc.reversed else arc
  let side := line.whichSideAngle eps arc.startTangent
  let outer := (0 < side && arc.isClockwise) || (side < 0 && !arc.isClockwise)
  let h := if outer then arc.radius +. r else arc.radius -. r
  let alpha1 := if outer then line.angle +. pi else line.angle
  let line3 := line.offset eps (r *. ofInt side)
  let p5 := line3.normalProjectionPoint eps arc.center
  let b := p5.distance arc.center
  let a2 := h *. h -. b *. b
  if a2 <. zero then none
  else
    let c := (Line.fromPolar p5 (sqrt a2) alpha1).p2
    let alpha2 := PyFloat.abs (arc.center.angle2 eps arc.p1 c)
    let fp1 := line.normalProjectionPoint eps c true
    match arc.pointAtAngle? alpha2 true with
    | none => none
    | some fp2 =>
      if fp1.ne eps fp2 && floatEq eps (c.distance fp1) (c.distance fp2) then
        some (if rev then Arc.fromTwoPointsAndCenter eps fp2 fp1 c else Arc.fromTwoPointsAndCenter eps fp1 fp2 c)
      else none

/-- `create_fillet_arc` (`geom/fillet.py:156-180`). -/
def createFilletArc (eps : K) (s1 s2 : Shape K) (r : K) : Except PyErr (Option (Arc K)) :=
  match s1, s2 with
  | .line l1, .line l2 => .ok (filletLineLine eps l1 l2 r)
  | .line l1, .arc a2 => .ok (filletLineArc eps l1 a2 r)
  | .arc a1, .line l2 => .ok (filletLineArc eps l2 a1 r)
  | .arc a1, .arc a2 => filletArcArc eps a1 a2 r
  | _, _ => .ok none

/-- First segment of `connect_fillet` (`geom/fillet.py:127-153`): shortened to end at the fillet. -/
def connectFirst (eps : K) (s1 : Shape K) (f : Arc K) : Shape K :=
  match s1 with
  | .line l => .line ⟨l.p1, f.p1⟩
  | .arc a => .arc ⟨a.p1, f.p1, a.radius, a.angle -. a.center.angle2 eps f.p1 a.p2, a.center⟩
  | s => s

/-- Second segment of `connect_fillet` (`geom/fillet.py:127-153`): shortened to start at the fillet. -/
def connectSecond (eps : K) (f : Arc K) (s2 : Shape K) : Shape K :=
  match s2 with
  | .line l => .line ⟨f.p2, l.p2⟩
  | .arc a => .arc ⟨f.p2, a.p2, a.radius, a.angle -. a.center.angle2 eps a.p1 f.p2, a.center⟩
  | s => s

/-! ## `cam/fillet.py` -/

/-- `segment.mu(p)` (`geom/line.py:182-187`, `geom/arc.py:392-406`). -/
def shapeMu (eps : K) (s : Shape K) (p : P K) : Except PyErr K :=
  match s with
  | .line l => l.mu p
  | .arc a => a.mu eps p
  | _ => .error .attributeError

/-- `_adjust_fillet_rotation_hints` (`cam/fillet.py:103-124`): the new `inline_end_angle` of the first segment (if set),
the start and end hints of the fillet, and the new `inline_start_angle` of the second segment (if set). -/
def adjustHints (eps : K) (s1 : Seg K) (f : Arc K) (s2 : Seg K) : Except PyErr (Option K × K × K × Option K) := do
  let a1 := s1.startAngle eps
  let a2 := s1.endAngle eps
  let m ← shapeMu eps s1.shape f.p1
  let off1 := calcRotation eps a1 a2 *. (one -. m)
  let b1 := s2.startAngle eps
  let b2 := s2.endAngle eps
  let m2 ← shapeMu eps s2.shape f.p2
  let off2 := calcRotation eps b1 b2 *. m2
  let e1 := if isZero eps off1 then none else some (a2 -. off1)
  let e2 := if isZero eps off2 then none else some (b1 +. off2)
  pure (e1, e1.getD a2, e2.getD b1, e2)

/-- `create_adjusted_fillet` (`cam/fillet.py:66-100`): `none` is the empty tuple. -/
def createAdjustedFillet (eps : K) (s1 s2 : Seg K) (r : K) (adjust mark : Bool) :
    Except PyErr (Option (Seg K × Seg K × Seg K)) :=
  if segmentsAreG1 eps eps s1.shape s2.shape then .ok none
  else do
    let f? ← createFilletArc eps s1.shape s2.shape r
    match f? with
    | none => pure none
    | some f => do
      let adj ← if adjust then (do let h ← adjustHints eps s1 f s2; pure (some h)) else pure none
      let s1' := match adj with
        | some (some e, _, _, _) => { s1 with hints := { s1.hints with endA := some e } }
        | _ => s1
      let s2' := match adj with
        | some (_, _, _, some e) => { s2 with hints := { s2.hints with startA := some e } }
        | _ => s2
      let fs : Seg K := ⟨.arc f, { startA := adj.map (·.2.1), endA := adj.map (·.2.2.1), ignoreG1 := mark }⟩
      pure (some (s1'.copyAttrs ⟨connectFirst eps s1.shape f, {}⟩, fs,
        s2'.copyAttrs ⟨connectSecond eps f s2.shape, {}⟩))

/-- Loop of `fillet_path` (`cam/fillet.py:42-52`): the new path, given the current `seg1` and the remaining segments. -/
def filletLoop (eps r : K) (adjust mark : Bool) : Seg K → Path K → Except PyErr (Path K)
  | s1, [] => .ok [s1]
  | s1, s2 :: rest => do
    let f ← createAdjustedFillet eps s1 s2 r adjust mark
    match f with
    | some (n1, fs, n2) => do
      let tl ← filletLoop eps r adjust mark n2 rest
      pure (n1 :: fs :: tl)
    | none => do
      let tl ← filletLoop eps r adjust mark s2 rest
      pure (s1 :: tl)

/-- Replace the last element. -/
def setLast {α : Type} (l : List α) (a : α) : List α := l.dropLast ++ [a]

/-- The closing fillet of `fillet_path` (`cam/fillet.py:53-61`). -/
def filletCloseStep (eps r : K) (adjust mark : Bool) (new : Path K) : Except PyErr (Path K) :=
  match new, new.getLast? with
  | first :: _, some last => do
    let f ← createAdjustedFillet eps last first r adjust mark
    match f with
    | some (n1, fs, n2) =>
      match setLast new n1 ++ [fs] with
      | _ :: tl => pure (n2 :: tl)
      | [] => pure []
    | none => pure new
  | _, _ => .ok new

/-- Is the path closed: `path[0].p1 == path[-1].p2`. -/
def pathClosed (eps : K) (path : Path K) : Bool :=
  match path.head?, path.getLast? with
  | some a, some b => a.p1.eq eps b.p2
  | _, _ => false

/-- `fillet_path` (`cam/fillet.py:20-63`). -/
def filletPath (eps : K) (path : Path K) (r : K) (close adjust mark : Bool) : Except PyErr (Path K) :=
  if (r <. eps) || path.length < 2 then .ok path
  else match path with
    | [] => .ok path
    | s :: rest => do
      let new ← filletLoop eps r adjust mark s rest
      let new ← if close && 2 < path.length && pathClosed eps path then filletCloseStep eps r adjust mark new
        else pure new
      pure (if path.length < new.length then new else path)

/-! ## `cam/offset.py` -/

/-- `offset_arc` (`cam/offset.py:100-111`). -/
def offsetArc (a : Arc K) (off : K) : Seg K :=
  let sa := a.startTangent
  let ea := a.endTangent
  ⟨.arc ⟨a.p1.add (P.fromPolar off sa), a.p2.add (P.fromPolar off ea), hypot off a.radius, a.angle, a.center⟩,
    { startA := some sa, endA := some ea }⟩

/-- The offset of one segment (`cam/offset.py:52-58`): `ToolpathException` for other types. -/
def offsetSeg (s : Seg K) (off : K) : Except PyErr (Seg K) :=
  match s.shape with
  | .line l => do let l' ← l.shift off; pure ⟨.line l', {}⟩
  | .arc a => .ok (offsetArc a off)
  | _ => .error .cam

/-- The segment that bridges a gap (`cam/offset.py:62-84`). -/
def connectSeg (eps g1tol minArc off : K) (prev : Seg K) (prevOff : Seg K) (s : Seg K) (o : Seg K) : Seg K :=
  let shape : Shape K :=
    if (prevOff.p2.distance o.p1 <. minArc) || segmentsAreG1 eps g1tol prevOff.shape o.shape then
      .line ⟨prevOff.p2, o.p1⟩
    else .arc ⟨prevOff.p2, o.p1, off, prev.p2.angle2 eps prevOff.p2 o.p1, prev.p2⟩
  ⟨shape, { startA := some (prev.shape.endTangent eps), endA := some (s.shape.startTangent eps) }⟩

/-- Loop of `offset_path` (`cam/offset.py:48-93`); `prev` is the previous input segment and its offset (already emitted
as the last element of `acc`). -/
def offsetLoop (eps g1tol minArc off : K) : Option (Seg K × Seg K) → Path K → Path K → Except PyErr (Path K)
  | _, acc, [] => .ok acc
  | prev, acc, s :: rest =>
    if s.p1.eq eps s.p2 then offsetLoop eps g1tol minArc off prev acc rest
    else do
      let o ← offsetSeg s off
      match prev with
      | none => offsetLoop eps g1tol minArc off (some (s, o)) (acc ++ [o]) rest
      | some (ps, po) =>
        if po.p2.ne eps o.p1 then
          offsetLoop eps g1tol minArc off (some (s, o))
            (acc ++ [connectSeg eps g1tol minArc off ps po s o, o]) rest
        else if segmentsAreG1 eps g1tol ps.shape s.shape && !ps.hints.ignoreG1 && !s.hints.ignoreG1 then
          offsetLoop eps g1tol minArc off (some (s, o))
            (setLast acc { po with hints := { po.hints with g1 := true } } ++ [o]) rest
        else offsetLoop eps g1tol minArc off (some (s, o)) (acc ++ [o]) rest

/-- `offset_path` (`cam/offset.py:22-97`). -/
def offsetPath (eps : K) (path : Path K) (off minArc : K) (g1tol : Option K := none) : Except PyErr (Path K) :=
  if floatEq eps off zero then .ok path
  else do
    let r ← offsetLoop eps (g1tol.getD eps) minArc off none [] path
    match r, path with
    | o :: tl, s :: _ =>
      pure ({ o with hints := { o.hints with startA := some ((o.p1.sub s.p1).angle) } } :: tl)
    | _, _ => .error .indexError

/-! ## Smoothing after offsetting -/

/-- The rotation hints of `smoothing_arcs` (`cam/offset.py:179-184`): from `a` on, each piece turns by its length times the scale. -/
def hintPieces (scale : K) : K → List (Shape K × K) → Path K
  | _, [] => []
  | a, (s, len) :: rest => ⟨s, { startA := some a, endA := some (a +. len *. scale) }⟩ :: hintPieces scale (a +. len *. scale) rest

/-- `smoothing_arcs` (`cam/offset.py:143-185`) with `max_depth = 1`; `match_arcs = True` is passed as the smoothness. -/
def smoothingArcs (eps tol flat : K) (seg1 : Seg K) (seg2 : Option (Seg K)) (cp1 : P K) : Except PyErr (Path K × P K) := do
  let c ← smoothingCurve eps seg1.shape (seg2.map Seg.shape) (some cp1) one
  let l ← c.1.biarcApproximation eps tol 1 flat
  if l.isEmpty then pure ([seg1], seg1.p2)
  else do
    let lens ← l.mapM Shape.lineArcLength
    let a := seg1.startAngle eps
    let scale ← pdiv (normalizeAngle (seg1.endAngle eps -. a) zero) (lens.foldl (fun x y : K => x +. y) zero)
    pure (hintPieces scale a (l.zip lens), c.2)

/-- Loop of `fix_G1_path` (`cam/offset.py:122-140`). -/
def fixG1Loop (eps tol flat : K) : Seg K → P K → Path K → Except PyErr (Path K)
  | seg1, cp1, [] =>
    if seg1.hints.g1 then do
      let r ← smoothingArcs eps tol flat seg1 none cp1
      pure r.1
    else .ok [seg1]
  | seg1, cp1, seg2 :: rest =>
    if seg1.hints.g1 then do
      let r ← smoothingArcs eps tol flat seg1 (some seg2) cp1
      let tl ← fixG1Loop eps tol flat seg2 r.2 rest
      pure (r.1 ++ tl)
    else do
      let tl ← fixG1Loop eps tol flat seg2 seg2.p1 rest
      pure (seg1 :: tl)

/-- `fix_G1_path` (`cam/offset.py:114-140`). -/
def fixG1Path (eps tol flat : K) (path : Path K) : Except PyErr (Path K) :=
  match path with
  | s0 :: s1 :: rest => fixG1Loop eps tol flat s0 s0.p1 (s1 :: rest)
  | _ => .ok path

end Verif.Cam
