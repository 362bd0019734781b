import Verif.Cam.Seg
import Verif.GCode.Model

/-!
# Model of `tcnc/cam/simplecam.py` and `tcnc/cam/paintcam.py`

The CAM object drives a G-code generator: its only effects are calls on the generator, recorded in `trace` in the order
they are made.  An exception stops code generation; `err` records it.

External to the model (`Env`): the tolerance `EPSILON`, the date text, the `%g` number format of comments and the numeric
arc length of Bezier curves (used only for the band width of the `optimize` sort; see C115).
-/

set_option linter.unusedSectionVars false

namespace Verif.Cam
open Verif PyFloat PyTrig Geom GCode

/-- Everything outside the modelled code. -/
structure Env (K : Type) where
  eps : K
  today : Str
  fmtG : K → Str
  bezLen : Bez K → K

/-- Brush settings of `PaintCAM` (`cam/paintcam.py:25-55`). -/
structure Brush (K : Type) where
  overshootEnable : Bool
  overshootAuto : Bool
  overshootDist : K
  softLanding : Bool
  landingStrip : K
  reloadEnable : Bool

/-- Settings of `SimpleCAM` (`cam/simplecam.py:57-126`); `brush` is present for a `PaintCAM` object. -/
structure Opts (K : Type) where
  homeWhenDone : Bool := false
  sortMethod : Option Str := none
  zStep : K
  zDepth : K
  toolWidth : K
  trailOffset : K
  biarcTol : K
  biarcMaxDepth : Nat := 4
  lineFlatness : K
  enableTangent : Bool := true
  toolFillet : Bool := false
  toolOffset : Bool := false
  preserveG1 : Bool := false
  splitCusps : Bool := false
  closePolygons : Bool := false
  smoothFillet : Bool := false
  smoothRadius : K
  pathCountStart : Int := 1
  brush : Option (Brush K) := none

/-- State of code generation. -/
structure Cam (K : Type) where
  gen : Gen K
  /-- the calls made on the generator, oldest first -/
  trace : List (Call K)
  /-- `current_angle` -/
  angle : K
  /-- `feed_distance` -/
  dist : K
  /-- the exception that stopped code generation, if any -/
  err : Option PyErr

variable {K : Type} [PyTrig K]

/-- State of a new `SimpleCAM` (`cam/simplecam.py:57-126`) on a given generator. -/
def Cam.init (g : Gen K) : Cam K := ⟨g, [], zero, zero, none⟩

/-- Call a generator method. -/
def Cam.emit (s : Cam K) (c : Call K) : Cam K :=
  if s.err.isSome then s
  else { s with gen := (s.gen.step c).1, trace := s.trace ++ [c], err := (s.gen.step c).2 }

/-- Raise an exception. -/
def Cam.raise (s : Cam K) (e : PyErr) : Cam K := if s.err.isSome then s else { s with err := some e }

/-- `segment.length()` (`geom/line.py:56-58`, `geom/arc.py:194-199`). -/
def Seg.length (e : Env K) (s : Seg K) : K :=
  match s.shape with
  | .line l => l.length
  | .arc a => a.length
  | .bez b => e.bezLen b
  | .other _ _ => zero

/-! ## Generating code for paths -/

/-- First part of `generate_segment_gcode` (`cam/simplecam.py:499-516`): turn the A axis to the start tangent; the state and
the angle at the end of the segment. -/
def Cam.turnTo (e : Env K) (o : Opts K) (s : Cam K) (seg : Seg K) : Cam K × K :=
  if seg.hints.ignoreA || !o.enableTangent then (s, s.angle)
  else
    let rot := calcRotation e.eps s.angle (seg.startAngle e.eps)
    let s := if isZero e.eps rot then s
      else Cam.emit { s with angle := s.angle +. rot } (.feed none none none (some (s.angle +. rot)) none none)
    (s, s.angle +. calcRotation e.eps s.angle (seg.endAngle e.eps))

/-- The feed of `generate_segment_gcode` (`cam/simplecam.py:521-535`). -/
def Cam.feedSeg (e : Env K) (s : Cam K) (seg : Seg K) (endAngle depth : K) : Cam K :=
  let straight := Call.feed (some seg.p2.x) (some seg.p2.y) (some depth) (some endAngle) none none
  match seg.shape with
  | .line _ => s.emit straight
  | .arc a =>
    match s.gen.last 'X', s.gen.last 'Y' with
    | some x, some y =>
      if floatEq e.eps (a.center.distance ⟨x, y⟩) a.radius then
        let v := a.center.sub a.p1
        s.emit (.feedArc a.isClockwise a.p2.x a.p2.y v.x v.y (some endAngle) (some depth) none none)
      else s.emit straight
    | _, _ => s.raise .typeError
  | _ => s

/-- `SimpleCAM.generate_segment_gcode` (`cam/simplecam.py:490-536`). -/
def Cam.genSegment (e : Env K) (o : Opts K) (depth : K) (s : Cam K) (seg : Seg K) : Cam K :=
  if s.err.isSome then s
  else
    let s := { s with dist := s.dist +. seg.length e }
    let depth := seg.hints.z.getD depth
    let t := s.turnTo e o seg
    let s := t.1.feedSeg e seg t.2 depth
    if s.err.isSome then s else { s with angle := t.2 }

/-- `SimpleCAM.plunge` (`cam/simplecam.py:371-382`). -/
def Cam.plunge (s : Cam K) (depth : K) (first : Seg K) : Cam K :=
  s.emit (.toolDown (if first.hints.z.isSome then zero else depth) none none none)

/-- `SimpleCAM.generate_rapid_move` (`cam/simplecam.py:396-406`). -/
def Cam.rapidTo (e : Env K) (o : Opts K) (s : Cam K) (first : Seg K) : Cam K :=
  if s.err.isSome then s
  else
    let s := if o.enableTangent then
        { s with angle := s.angle +. calcRotation e.eps s.angle (first.startAngle e.eps) }
      else s
    s.emit (.rapidMove (some first.p1.x) (some first.p1.y) none (some s.angle) none)

/-- `generate_rapid_move` of the object's class: `PaintCAM.generate_rapid_move` (`cam/paintcam.py:75-94`) reads the
attribute `_path_count`, which nothing sets, whenever brush reload is enabled. -/
def Cam.genRapid (e : Env K) (o : Opts K) (s : Cam K) (first : Seg K) : Cam K :=
  match o.brush with
  | some b => if b.reloadEnable then s.raise .attributeError else s.rapidTo e o first
  | none => s.rapidTo e o first

/-- The per-path comment text (`cam/simplecam.py:167-170`). -/
def pathComment (e : Env K) (g : Gen K) (count pass : Nat) (depth : K) : Str :=
  "Path: ".toList ++ natDigits count ++ ", pass: ".toList ++ natDigits pass ++ ", depth: ".toList
    ++ e.fmtG (depth *. g.cfg.unitScale) ++ g.cfg.gcUnit

/-- Code for one path (`cam/simplecam.py:160-179`): empty paths and paths before `path_count_start` are skipped. -/
def Cam.genPath (e : Env K) (o : Opts K) (depth : K) (pass : Nat) (s : Cam K) (p : Nat × Path K) : Cam K :=
  match p.2 with
  | [] => s
  | first :: rest =>
    if o.pathCountStart ≤ p.1 then
      let s := s.emit (.comment .none true)
      let s := s.emit (.comment (.one (pathComment e s.gen p.1 pass depth)) true)
      let s := s.genRapid e o first
      let s := s.plunge depth first
      let s := s.emit (.comment (.one "Start tool path".toList) true)
      (first :: rest).foldl (Cam.genSegment e o depth) s
    else s

/-- `enumerate(l, n)`. -/
def enumFrom {α : Type} : Nat → List α → List (Nat × α)
  | _, [] => []
  | n, a :: l => (n, a) :: enumFrom (n + 1) l

/-- One pass over all paths (`cam/simplecam.py:159-179`). -/
def Cam.genPass (e : Env K) (o : Opts K) (paths : List (Path K)) (depth : K) (pass : Nat) (s : Cam K) : Cam K :=
  (enumFrom 1 paths).foldl (Cam.genPath e o depth pass) s

/-- The effective step: `z_step`, or `z_depth` if `z_step` is close to zero (`cam/simplecam.py:137-138`). -/
def effStep (e : Env K) (o : Opts K) : K := if isZero e.eps o.zStep then o.zDepth else o.zStep

/-- Depth of the first pass (`cam/simplecam.py:153-156`). -/
def firstDepth (o : Opts K) (step : K) : K :=
  if (zero <. o.zDepth) || (step <. o.zDepth) then o.zDepth else step

/-- Depth of the next pass (`cam/simplecam.py:187-191`). -/
def nextDepth (o : Opts K) (step tol depth : K) : K :=
  let rdist := PyFloat.abs (o.zDepth -. depth)
  if (tol <. rdist) && (rdist <. step) then o.zDepth else depth +. step

/-- Big-step semantics of the depth loop (`cam/simplecam.py:157-192`): `DepthLoop e o paths pass depth s ds s'` holds iff the
loop, entered with `tool_depth = depth` and state `s`, ends in state `s'` after passes at the depths `ds`.  An exception
leaves the loop. -/
inductive DepthLoop (e : Env K) (o : Opts K) (paths : List (Path K)) : Nat → K → Cam K → List K → Cam K → Prop
  | done (n : Nat) (d : K) (s : Cam K) : (o.zDepth <=. d) = false → DepthLoop e o paths n d s [] s
  | raised (n : Nat) (d : K) (s : Cam K) : (o.zDepth <=. d) = true → (s.genPass e o paths d n).err.isSome →
      DepthLoop e o paths n d s [d] (s.genPass e o paths d n)
  | pass (n : Nat) (d : K) (s : Cam K) (ds : List K) (s' : Cam K) : (o.zDepth <=. d) = true →
      (s.genPass e o paths d n).err = none →
      DepthLoop e o paths (n + 1) (nextDepth o (effStep e o) (s.genPass e o paths d n).gen.cfg.tol d)
        (s.genPass e o paths d n) ds s' →
      DepthLoop e o paths n d s (d :: ds) s'

/-! ## Sorting -/

/-- Insert into a sorted list before the first element that is not smaller. -/
def sortInsert {α : Type} (lt : α → α → Bool) (a : α) : List α → List α
  | [] => [a]
  | b :: l => if lt b a then b :: sortInsert lt a l else a :: b :: l

/-- Python's `list.sort` is stable; modelled by (stable) insertion sort. -/
def pySort {α : Type} (lt : α → α → Bool) : List α → List α
  | [] => []
  | a :: l => sortInsert lt a (pySort lt l)

/-- Tuple comparison `(a, b) < (c, d)`. -/
def lexLt (p q : K × K) : Bool := (p.1 <. q.1) || (PyTrig.beq p.1 q.1 && (p.2 <. q.2))

/-- The key `cp[0].p1`, `IndexError` for an empty path. -/
def startPt (p : Path K) : Except PyErr (P K) :=
  match p with
  | [] => .error .indexError
  | s :: _ => .ok s.p1

/-- Sort by a key of the start point; `rev` is `reverse=True` (also stable). -/
def sortByStart (key : P K → K × K) (rev : Bool) (l : List (Path K)) : Except PyErr (List (Path K)) := do
  let keyed ← l.mapM fun p => do let q ← startPt p; pure (key q, p)
  pure ((pySort (fun a b => if rev then lexLt b.1 a.1 else lexLt a.1 b.1) keyed).map (·.2))

/-- `SimpleCAM._path_reversed` (`cam/simplecam.py:560-565`). -/
def pathReversed (p : Path K) : Path K := p.reverse.map Seg.reversed

/-- Loop of `_flip_paths` (`cam/simplecam.py:552-558`). -/
def flipLoop : P K → List (Path K) → Except PyErr (List (Path K))
  | _, [] => .ok []
  | endp, p :: rest =>
    match p.head?, p.getLast? with
    | some first, some last => do
      let p' := if endp.distance last.p2 <. endp.distance first.p1 then pathReversed p else p
      match p'.getLast? with
      | some l' => do
        let tl ← flipLoop l'.p2 rest
        pure (p' :: tl)
      | none => .error .indexError
    | _, _ => .error .indexError

/-- `SimpleCAM._flip_paths` (`cam/simplecam.py:546-558`). -/
def flipPaths (l : List (Path K)) : Except PyErr (List (Path K)) :=
  match l with
  | [] => .error .indexError
  | p :: _ =>
    match p.getLast? with
    | some s => flipLoop s.p2 l
    | none => .error .indexError

/-- Loop of `_sort_segment_paths_1` (`cam/simplecam.py:467-480`): the last batch is never appended. -/
def bandLoop (bw : K) : Nat → K → Bool → List (Path K) → List (Path K) → Except PyErr (List (Path K))
  | _, _, _, _, [] => .ok []
  | band, bmax, even, batch, p :: rest =>
    match p with
    | [] => .error .indexError
    | s :: _ =>
      if (s.p1.y <=. bmax) && (s.p2.y <=. bmax) then bandLoop bw band bmax even (batch ++ [p]) rest
      else do
        let even' := if band % 2 = 0 then !even else even
        let sorted ← sortByStart (fun q => (q.x, zero)) even' batch
        let tl ← bandLoop bw (band + 1) (bmax +. bw) even' [p] rest
        pure (sorted ++ tl)

/-- `SimpleCAM._sort_segment_paths_1` (`cam/simplecam.py:453-480`). -/
def sortOptimize (e : Env K) (l : List (Path K)) : Except PyErr (List (Path K)) :=
  match l[l.length / 2]? with
  | none => .error .indexError
  | some [] => .error .indexError
  | some (s :: _) => do
    let bw := s.length e *. lit 15 1
    let sorted ← sortByStart (fun q => (q.y, q.x)) false l
    let new ← bandLoop bw 1 bw false [] sorted
    flipPaths new

/-- `SimpleCAM.sort_paths` (`cam/simplecam.py:408-451`). -/
def sortPaths (e : Env K) (l : List (Path K)) (method : Str) : Except PyErr (List (Path K)) :=
  if method = "flip".toList then flipPaths l
  else if method = "optimize".toList then sortOptimize e l
  else if method = "y+".toList then sortByStart (fun q => (q.y, q.x)) false l
  else if method = "y-".toList then sortByStart (fun q => (q.y, q.x)) true l
  else if method = "x+".toList then sortByStart (fun q => (q.x, q.y)) false l
  else if method = "x-".toList then sortByStart (fun q => (q.x, q.y)) true l
  else .ok l

/-! ## Preprocessing -/

/-- One segment of `path_biarc_approximation` (`cam/simplecam.py:347-361`): the error branch reads `segment.__name__`, which
instances do not have. -/
def biarcSeg (e : Env K) (o : Opts K) (s : Seg K) : Except PyErr (Path K) :=
  match s.shape with
  | .bez b => do
    let l ← b.biarcApproximation e.eps o.biarcTol o.biarcMaxDepth o.lineFlatness
    pure (l.map fun sh => ⟨sh, {}⟩)
  | .line _ => .ok [s]
  | .arc _ => .ok [s]
  | .other _ _ => .error .attributeError

/-- `SimpleCAM.path_biarc_approximation` (`cam/simplecam.py:330-361`). -/
def biarcPath (e : Env K) (o : Opts K) : Path K → Except PyErr (Path K)
  | [] => .ok []
  | s :: rest => do
    let l ← biarcSeg e o s
    let tl ← biarcPath e o rest
    pure (l ++ tl)

/-- First part of `preprocess_paths` for one path (`cam/simplecam.py:260-281`). -/
def preFirst (e : Env K) (o : Opts K) (p : Path K) : Except PyErr (List (Path K)) := do
  let p ← biarcPath e o p
  let p ← if o.toolFillet && (zero <. o.toolWidth) then
      filletPath e.eps p (o.toolWidth /. ofInt 2) o.closePolygons false true
    else pure p
  if o.splitCusps then splitPathG1 e.eps p else pure [p]

/-- `SimpleCAM.preprocess_paths` (`cam/simplecam.py:199-328`). -/
def preprocessSimple (e : Env K) (o : Opts K) (l : List (Path K)) : Except PyErr (List (Path K)) := do
  let l ← l.mapM (preFirst e o)
  let l := l.flatten
  let l ← if o.toolOffset && (zero <. o.trailOffset) then do
      let l ← l.mapM fun p => offsetPath e.eps p o.trailOffset o.lineFlatness
      if o.preserveG1 then l.mapM (fixG1Path e.eps o.biarcTol o.lineFlatness) else pure l
    else pure l
  if o.smoothFillet && (zero <. o.smoothRadius) then
    l.mapM fun p => filletPath e.eps p o.smoothRadius o.closePolygons true false
  else pure l

/-- The segment prepended by `process_brush_path` (`cam/paintcam.py:103-107`, `111-115`), without the Z hint. -/
def landing (first : Seg K) (startAngle dist : K) : Seg K :=
  ⟨.line ⟨first.p1.add (P.fromPolar dist (startAngle +. pi)), first.p1⟩, { endA := first.hints.startA }⟩

/-- Landing strip and soft landing of `process_brush_path` (`cam/paintcam.py:100-123`). -/
def brushStart (e : Env K) (o : Opts K) (b : Brush K) (tol step : K) (first : Seg K) (rest : Path K) : Path K :=
  let sa := first.startAngle e.eps
  let p := if tol <. b.landingStrip then landing first sa b.landingStrip :: first :: rest else first :: rest
  if b.softLanding && (tol <. o.trailOffset) then
    match p with
    | [] => []
    | f :: tl =>
      let s := landing f sa o.trailOffset
      { s with hints := { s.hints with z := some step } } :: f :: tl
  else p

/-- Overshoot and lift-off of `process_brush_path` (`cam/paintcam.py:125-147`): `overshoot_endp` is unbound when the lift-off
needs it and no overshoot was made. -/
def brushEnd (e : Env K) (o : Opts K) (b : Brush K) (tol : K) (last : Seg K) : Except PyErr (Path K) :=
  if b.overshootEnable then
    let od := if b.overshootAuto then o.toolWidth /. ofInt 2 else b.overshootDist
    let dir := last.endAngle e.eps
    let overEnd := last.p2.add (P.fromPolar od dir)
    let lift := b.softLanding && (tol <. o.trailOffset)
    if tol <. od then
      let liftSeg : Seg K := ⟨.line ⟨overEnd, overEnd.add (P.fromPolar o.trailOffset dir)⟩, { z := some zero }⟩
      .ok (⟨.line ⟨last.p2, overEnd⟩, {}⟩ :: if lift then [liftSeg] else [])
    else if lift then .error .unboundLocal
    else .ok []
  else .ok []

/-- `PaintCAM.process_brush_path` (`cam/paintcam.py:96-147`); `tol` is `gc.tolerance`, `step` the effective `z_step`. -/
def brushPath (e : Env K) (o : Opts K) (b : Brush K) (tol step : K) (p : Path K) : Except PyErr (Path K) :=
  match p with
  | [] => .error .indexError
  | first :: rest =>
    let q := brushStart e o b tol step first rest
    match q.getLast? with
    | none => .error .indexError
    | some last => do
      let tl ← brushEnd e o b tol last
      pure (q ++ tl)

/-- `preprocess_paths` of the object's class (`cam/simplecam.py:199-328`, `cam/paintcam.py:57-73`). -/
def preprocess (e : Env K) (o : Opts K) (tol : K) (l : List (Path K)) : Except PyErr (List (Path K)) := do
  let l ← preprocessSimple e o l
  match o.brush with
  | none => pure l
  | some b =>
    if b.overshootEnable || b.softLanding then l.mapM (brushPath e o b tol (effStep e o)) else pure l

/-! ## The whole run -/

/-- Sorting and preprocessing as done by `generate_gcode` (`cam/simplecam.py:137-143`). -/
def prepare (e : Env K) (o : Opts K) (tol : K) (l : List (Path K)) : Except PyErr (List (Path K)) := do
  let l ← match o.sortMethod with
    | some m => sortPaths e l m
    | none => pure l
  preprocess e o tol l

/-- `generate_gcode` up to the depth loop (`cam/simplecam.py:144-148`, `generate_header` 363-369). -/
def Cam.start (e : Env K) (s : Cam K) (paths : List (Path K)) : Cam K :=
  let s := s.emit (.addHeaderComment (.many [[], "Path count: ".toList ++ natDigits paths.length]))
  let s := s.emit (.header e.today .none)
  s.emit (.toolUp true none none)

/-- `generate_gcode` after the depth loop (`cam/simplecam.py:128-197`). -/
def Cam.finish (o : Opts K) (s : Cam K) : Cam K :=
  let s := s.emit (.toolUp true none none)
  let s := if o.homeWhenDone then s.emit (.rapidMove (some zero) (some zero) none (some zero) none) else s
  s.emit .footer

/-- `SimpleCAM.generate_gcode` (`cam/simplecam.py:128-197`) as a relation between the state before, the depths of the passes
made and the state after.  No related result means that the call does not terminate. -/
inductive Generate (e : Env K) (o : Opts K) (l : List (Path K)) (s : Cam K) : List K → Cam K → Prop
  | fails (er : PyErr) : prepare e o s.gen.cfg.tol l = .error er → Generate e o l s [] (s.raise er)
  | noStart (paths : List (Path K)) : prepare e o s.gen.cfg.tol l = .ok paths → (s.start e paths).err.isSome →
      Generate e o l s [] (s.start e paths)
  | runs (paths : List (Path K)) (ds : List K) (s' : Cam K) : prepare e o s.gen.cfg.tol l = .ok paths →
      (s.start e paths).err = none →
      DepthLoop e o paths 1 (firstDepth o (effStep e o)) (s.start e paths) ds s' →
      Generate e o l s ds (s'.finish o)

end Verif.Cam
