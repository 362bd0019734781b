import Verif.GCode.Model
import Verif.Geom.Shapes

/-!
# Model of the preview plotter (`tcnc/cam/gcodesvg.py`) and of its calls from `tcnc/cam/gcode.py`

The outline and sub-path renderings at `plot_tool_up` (`cam/gcodesvg.py:251-261`, both options off here) are in `Cam/Outline.lean`.  Not modelled: layer
creation, styles and number formatting.  Drawn elements are recorded in drawing order.
-/

set_option linter.unusedSectionVars false

namespace Verif.Cam
open Verif PyFloat PyTrig Geom GCode

variable {K : Type} [PyTrig K]

/-- The 4-tuple `_endp` returns (`cam/gcode.py:917-923`); `none` is `None`. -/
structure Endp (K : Type) where
  x : Option K
  y : Option K
  z : Option K
  a : Option K
  deriving DecidableEq, Repr

/-- `_endp` (`cam/gcode.py:917-923`). -/
def endp (g : Gen K) (x y z a : Option K) : Endp K :=
  ⟨x.or (g.last 'X'), y.or (g.last 'Y'), z.or (g.last 'Z'), a.or (g.last 'A')⟩

/-- The calls a generator makes on its preview plotter (`cam/gcode.py:28-74`). -/
inductive Plot (K : Type) where
  | move (e : Endp K)
  | feed (e : Endp K)
  | arc (center : P K) (e : Endp K) (clockwise : Bool)
  | toolDown
  | toolUp
  deriving DecidableEq, Repr

/-- The plotter calls made during one (not raising) generator call from state `g`, ending in state `g'`
(`cam/gcode.py:572`, `606`, `685-689`, `703-716`, `735-755`).  The other methods make none. -/
def plots (g g' : Gen K) : Call K → List (Plot K)
  | .rapidMove x y z a _ => (if g.rapidLifts then [.toolUp] else []) ++ [.move (endp g' x y (some (maxZ g.cfg.zsafe z)) a)]
  | .feed x y z a f _ => if (g.cfg.pickFeed x y z a f).isSome then [.feed (endp g' x y z a)] else []
  | .feedArc cw x y i j a z _ _ =>
    match g.last 'X', g.last 'Y' with
    | some cx, some cy => [.arc ⟨i +. cx, j +. cy⟩ (endp g' (some x) (some y) z a) cw]
    | _, _ => []
  | .toolUp .. => [.toolUp]
  | .toolDown .. => [.toolDown]
  | _ => []

/-- Elements of the preview. -/
inductive Drawn (K : Type) where
  /-- `create_line` with style `moveline` -/
  | move (p q : P K)
  /-- `create_line` with style `feedline` -/
  | feed (p q : P K)
  /-- `create_circular_arc`: the large-arc flag is always 0 (`svg/svg.py:561-563`) -/
  | arc (p q : P K) (radius : K) (sweep : Bool)
  /-- `create_line` with style `toolmark` or `tooloffset` -/
  | mark (p q : P K)
  deriving DecidableEq, Repr

/-- Constructor arguments of `SVGPreviewPlotter` (`cam/gcodesvg.py:117-160`); `showMarks` is `self.show_toolmarks`; `eps`
is `const.EPSILON`, `tol` the tolerance of the generator; `fuel` bounds the marks of one segment. -/
structure PlotCfg (K : Type) where
  eps : K
  tol : K
  showMarks : Bool
  lineInterval : K
  rotInterval : K
  toolOffset : K
  toolWidth : K
  fuel : Nat

/-- State of an `SVGPreviewPlotter` (`cam/gcodesvg.py:174-208`). -/
structure Plotter (K : Type) where
  cur : P K
  z : Option K
  a : Option K
  toolmarks : List (Line K)
  drawn : List (Drawn K)

/-- Initial state (`cam/gcodesvg.py:175-177`, `208`). -/
def Plotter.start : Plotter K := ⟨⟨zero, zero⟩, some zero, some zero, [], []⟩

/-- `_update_location` (`cam/gcodesvg.py:474-477`), for known coordinates. -/
def Plotter.moveTo (p : Plotter K) (e : Endp K) (q : P K) : Plotter K := { p with cur := q, z := e.z, a := e.a }

/-- The loop of `_draw_tool_marks` (`cam/gcodesvg.py:276-281`): the pairs `(u, angle)`; `none` when out of fuel. -/
def markSteps (eps incr aincr : K) : Nat → K → K → Option (List (K × K))
  | 0, _, _ => none
  | n + 1, u, a =>
    if u <. (one +. eps) then (markSteps eps incr aincr n (u +. incr) (a +. aincr)).map ((u, a) :: ·) else some []

/-- The tool mark line of `_draw_tool_mark` (`cam/gcodesvg.py:284-299`) and the tool offset point. -/
def markLine (c : PlotCfg K) (p : P K) (angle : K) : P K × Line K :=
  let px := if PyFloat.abs (c.toolOffset -. zero) <. c.tol then p else p.add (P.fromPolar c.toolOffset (angle -. pi))
  let r := c.toolWidth /. ofInt 2
  (px, ⟨px.add (P.fromPolar r (angle +. pi /. ofInt 2)), px.add (P.fromPolar r (angle -. pi /. ofInt 2))⟩)

/-- `_draw_tool_mark` (`cam/gcodesvg.py:283-306`) at the point `p` of the segment; the caller has `show_toolmarks`. -/
def Plotter.mark (c : PlotCfg K) (pl : Plotter K) (p : P K) (angle : K) : Plotter K :=
  let m := markLine c p angle
  let off := if PyFloat.abs (c.toolOffset -. zero) <. c.tol then [] else [Drawn.mark p m.1]
  let new := match pl.toolmarks.getLast? with
    | none => true
    | some l => !m.2.isCoincident c.eps l
  { pl with
    drawn := pl.drawn ++ off ++ (if new then [Drawn.mark m.2.p1 m.2.p2] else [])
    toolmarks := pl.toolmarks ++ [m.2] }

/-- Number of intervals (`cam/gcodesvg.py:267-272`). -/
def numMarkers (c : PlotCfg K) (seglen rotation : K) : Except PyErr Int :=
  if zero <. seglen then do
    let q ← pdiv seglen c.lineInterval
    pure (max 1 (trunc q))
  else do
    let q ← pdiv (PyFloat.abs rotation) c.rotInterval
    pure (max 1 (trunc q))

/-- `_draw_tool_marks` (`cam/gcodesvg.py:263-281`): `None` angles raise `TypeError`; running out of fuel is `runtime`. -/
def Plotter.marks (c : PlotCfg K) (pl : Plotter K) (seglen : K) (pointAt : K → P K) (startA endA : Option K) :
    Except PyErr (Plotter K) :=
  match startA, endA with
  | some a0, some a1 => do
    let rotation := a1 -. a0
    let n ← numMarkers c seglen rotation
    match markSteps c.eps (one /. ofInt n) (rotation /. ofInt n) c.fuel zero a0 with
    | none => .error .runtime
    | some l => .ok (l.foldl (fun pl ua => pl.mark c (pointAt ua.1) ua.2) pl)
  | _, _ => .error .typeError

/-- `if self.show_toolmarks: self._draw_tool_marks(…)` (`cam/gcodesvg.py:218-219`, `240-241`). -/
def Plotter.maybeMarks (c : PlotCfg K) (pl : Plotter K) (seglen : K) (pointAt : K → P K) (endA : Option K) :
    Except PyErr (Plotter K) :=
  if c.showMarks then pl.marks c seglen pointAt pl.a endA else .ok pl

/-- `plot_move` (`cam/gcodesvg.py:204-207`); `None` coordinates raise `TypeError`. -/
def Plotter.plotMove (pl : Plotter K) (e : Endp K) : Except PyErr (Plotter K) :=
  match e.x, e.y with
  | some x, some y => .ok ({ pl with drawn := pl.drawn ++ [Drawn.move pl.cur ⟨x, y⟩] }.moveTo e ⟨x, y⟩)
  | _, _ => .error .typeError

/-- `plot_feed` (`cam/gcodesvg.py:209-218`). -/
def Plotter.plotFeed (c : PlotCfg K) (pl : Plotter K) (e : Endp K) : Except PyErr (Plotter K) :=
  match e.x, e.y with
  | some x, some y =>
    match pl.maybeMarks c (Line.length ⟨pl.cur, ⟨x, y⟩⟩) (Line.pointAt ⟨pl.cur, ⟨x, y⟩⟩) e.a with
    | .error er => .error er
    | .ok pl1 =>
      .ok (Plotter.moveTo (if c.eps <. pl.cur.distance ⟨x, y⟩ then
        { pl1 with drawn := pl1.drawn ++ [Drawn.feed pl.cur ⟨x, y⟩] } else pl1) e ⟨x, y⟩)
  | _, _ => .error .typeError

/-- The geometric arc of `plot_arc` (`cam/gcodesvg.py:236-239`). -/
def plotArcGeom (c : PlotCfg K) (cur center : P K) (x y : K) : Arc K :=
  ⟨cur, ⟨x, y⟩, center.distance cur, center.angle2 c.eps cur ⟨x, y⟩, center⟩

/-- `plot_arc` (`cam/gcodesvg.py:220-241`). -/
def Plotter.plotArc (c : PlotCfg K) (pl : Plotter K) (center : P K) (e : Endp K) (cw : Bool) : Except PyErr (Plotter K) :=
  match e.x, e.y with
  | some x, some y =>
    match pl.maybeMarks c (plotArcGeom c pl.cur center x y).length (plotArcGeom c pl.cur center x y).pointAt e.a with
    | .error er => .error er
    | .ok pl1 =>
      .ok (Plotter.moveTo { pl1 with drawn := pl1.drawn ++ [Drawn.arc pl.cur ⟨x, y⟩ (center.distance pl.cur) (!cw)] }
        e ⟨x, y⟩)
  | _, _ => .error .typeError

/-- One call on the plotter; also `plot_tool_down` (`cam/gcodesvg.py:243-249`) and `plot_tool_up` (`cam/gcodesvg.py:251-261`,
options off). -/
def Plotter.plot (c : PlotCfg K) (pl : Plotter K) : Plot K → Except PyErr (Plotter K)
  | .move e => pl.plotMove e
  | .feed e => pl.plotFeed c e
  | .arc center e cw => pl.plotArc c center e cw
  | .toolDown => .ok { pl with toolmarks := [] }
  | .toolUp => .ok pl

/-- A generator with its plotter. -/
structure Session (K : Type) where
  gen : Gen K
  pl : Plotter K

/-- One generator call, with the plotter calls it makes. -/
def Session.step (c : PlotCfg K) (s : Session K) (call : Call K) : Except PyErr (Session K) :=
  match s.gen.step call with
  | (_, some e) => .error e
  | (g', none) => do
    let pl ← (plots s.gen g' call).foldlM (Plotter.plot c) s.pl
    pure ⟨g', pl⟩

/-- A history of calls none of which raises. -/
def Session.run (c : PlotCfg K) (s : Session K) : List (Call K) → Except PyErr (Session K)
  | [] => .ok s
  | call :: cs => do
    let s' ← s.step c call
    s'.run c cs

end Verif.Cam
