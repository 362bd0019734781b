import Verif.Arith

/-!
# Model of `tcnc/cam/gcode.py`: the G-code generator

Every public method of `GCodeGenerator` is a function on the state record `Gen K`.
The output stream is a list of `Out K`; `Out.render` gives the exact text written.
The preview plotter (`cam/gcode.py:28-74`) is not modelled: the default plotter does nothing and no
plotter method writes to the G-code output.  `gettext` (`_`) is the identity.
-/

namespace Verif.GCode
open Verif PyFloat

variable {K : Type} [PyFloat K]

/-- A number as it is formatted into the output text. -/
inductive Val (K : Type) where
  /-- `'%.<digits>f' % v` -/
  | num (digits : Nat) (v : K)
  /-- `'%d' % n` -/
  | int (n : Int)
  /-- text that is passed through as is (`params`, `cam/gcode.py:878-880`) -/
  | none
  deriving DecidableEq, Repr

/-- One word of a G-code line: a name immediately followed by its value. -/
structure Word (K : Type) where
  name : Str
  val : Val K
  deriving DecidableEq, Repr

/-- The machine-relevant content of a line: command plus words. -/
structure Block (K : Type) where
  cmd : Str
  words : List (Word K)
  deriving DecidableEq, Repr

/-- One item written to the output stream. -/
inductive Out (K : Type) where
  /-- plain text written with `_write` (percent lines, blank lines) or `_write_comment` -/
  | raw (s : Str)
  /-- a line written by `_write_line` with non-empty `line` -/
  | line (num : Option Nat) (b : Block K) (comment : Option Str)
  deriving DecidableEq, Repr

/-- Comment argument of `comment()`/`header()`: `None`, a string, or a list of strings
(an entry of such a list may itself be `None`, see `_write_comment`; entries are strings here). -/
inductive CommentArg where
  | none
  | one (s : Str)
  | many (l : List Str)
  deriving DecidableEq, Repr

/-- Public configuration attributes of a generator, set in `__init__` (`cam/gcode.py:121-226`) and by the `set_…`
methods.  The emitting methods never change these. -/
structure Cfg (K : Type) where
  xyfeed : K
  zsafe : K
  zfeed : K
  afeed : K
  unitScale : K
  tol : K
  angleTol : K
  waitDown : K
  waitUp : K
  altUp : Option Str
  altDown : Option Str
  spWaitOn : K
  spWaitOff : K
  spCw : Bool
  spSpeed : K
  spAuto : Bool
  wrapAngles : Bool
  showComments : Bool
  showLineNumbers : Bool
  headerComments : List CommentArg
  /-- `blend_mode`: `None`, `'exact'` or `'blend'` -/
  blendMode : Option Str
  blendTol : Option K
  blendQTol : Option K
  gcUnit : Str
  /-- number of digits of `_fmt_float` -/
  digits : Nat
  axisScale : Char → Option K
  axisOffset : Char → Option K
  axisMap : Char → Option Str

/-- Generator state (`cam/gcode.py:121-226`): configuration plus the attributes that change while code is
generated. -/
structure Gen (K : Type) where
  cfg : Cfg K
  /-- `_last_val` -/
  last : Char → Option K
  /-- `_is_tool_up` -/
  isToolUp : Bool
  /-- `_axis_offset_reset` -/
  offsetReset : Bool
  /-- `line_number` -/
  lineNumber : Nat
  /-- everything written so far, oldest first -/
  out : List (Out K)

/-- `_GCODE_ORDERED_PARAMS` (`cam/gcode.py:101`). -/
def orderedParams : List Char := "XYZUVWABCIJKRDHLPQSF".toList

/-- `_GCODE_NONMODAL_GROUP` (`cam/gcode.py:103`). -/
def nonmodalGroup : List Str :=
  ["G04".toList, "G10".toList, "G28".toList, "G30".toList, "G53".toList, "G92".toList]

/-- `_GCODE_MOTION` and `_GCODE_MODAL_MOTION` (`cam/gcode.py:107,109`; the two tuples are equal). -/
def motionGroup : List Str := ["G00".toList, "G01".toList, "G02".toList, "G03".toList]

/-- The keys `gcode_command` looks at, in its order (`cam/gcode.py:834`). -/
def posKeys : List Char := ['X', 'Y', 'Z', 'I', 'J', 'R', 'A', 'F']

/-- Functional update of a letter-indexed map (dict assignment). -/
def upd {α : Type} (f : Char → α) (k : Char) (v : α) : Char → α := fun c => if c = k then v else f c

/-- `__init__` (`cam/gcode.py:121-226`): `zfeed`/`afeed` default to `xyfeed`; the tolerance is a
parameter here (`_DEFAULT_TOLERANCE` is `1e-6`), the initial precision is `6 = round(|log10 1e-6|)`. -/
def Gen.init (xyfeed zsafe : K) (zfeed afeed : Option K) (tol : K) : Gen K where
  cfg :=
    { xyfeed := xyfeed
      zsafe := zsafe
      zfeed := zfeed.getD xyfeed
      afeed := afeed.getD xyfeed
      unitScale := one
      tol := tol
      angleTol := tol
      waitDown := zero
      waitUp := zero
      altUp := none
      altDown := none
      spWaitOn := zero
      spWaitOff := zero
      spCw := true
      spSpeed := zero
      spAuto := false
      wrapAngles := false
      showComments := true
      showLineNumbers := false
      headerComments := []
      blendMode := none
      blendTol := none
      blendQTol := none
      gcUnit := "in".toList
      digits := 6
      axisScale := fun _ => none
      axisOffset := fun _ => none
      axisMap := fun _ => none }
  last := fun _ => none
  isToolUp := false
  offsetReset := false
  lineNumber := 0
  out := []

/-! ## Writing -/

/-- `_write` of plain text (`cam/gcode.py:913-915`). -/
def Gen.writeRaw (g : Gen K) (s : Str) : Gen K := { g with out := g.out ++ [.raw s] }

/-- `_write_line` with a non-empty line (`cam/gcode.py:884-899`): numbers the line if numbering is on,
appends the comment if comments are shown and the comment is non-empty.
(The two calls of `_write_line` with an empty line that exist in Python, none in the repository, are not
modelled.) -/
def Gen.writeLine (g : Gen K) (b : Block K) (comment : Option Str) : Gen K :=
  let num := if g.cfg.showLineNumbers then some g.lineNumber else none
  let com := if g.cfg.showComments then comment.filter (fun c => !c.isEmpty) else none
  { g with
    lineNumber := if g.cfg.showLineNumbers then g.lineNumber + 1 else g.lineNumber
    out := g.out ++ [.line num b com] }

/-- `_write_comment` (`cam/gcode.py:901-911`). -/
def Gen.writeComment (g : Gen K) (comment : Option Str) (useSemi : Bool) : Gen K :=
  match comment with
  | none => g.writeRaw ['\n']
  | some c =>
    if c.isEmpty then g.writeRaw [';', '\n']
    else if useSemi then g.writeRaw (';' :: ' ' :: c ++ ['\n'])
    else g.writeRaw ('(' :: c ++ [')', '\n'])

/-- `comment()` (`cam/gcode.py:415-434`). -/
def Gen.comment (g : Gen K) (c : CommentArg) (useSemi : Bool := true) : Gen K :=
  if g.cfg.showComments then
    match c with
    | .none => g.writeComment none useSemi
    | .one s => g.writeComment (some s) useSemi
    | .many l => l.foldl (fun g s => g.writeComment (some s) useSemi) g
  else g

/-! ## Text -/

/-- Text of one value. -/
def Val.render : Val K → Str
  | .num d v => fmt d v
  | .int n => intDigits n
  | .none => []

/-- Text of one word. -/
def Word.render (w : Word K) : Str := w.name ++ w.val.render

/-- Text of a block: command and words joined by single spaces (`cam/gcode.py:872`). -/
def Block.render (b : Block K) : Str :=
  joinWith ' ' ((if b.cmd.isEmpty then [] else [b.cmd]) ++ b.words.map Word.render)

/-- Text written by `_write_line` (`cam/gcode.py:890-899`). -/
def Out.render : Out K → Str
  | .raw s => s
  | .line num b com =>
    (match num with | some n => 'N' :: natDigits n ++ [' '] | none => [])
    ++ b.render
    ++ (match com with | some c => ' ' :: '(' :: c ++ [')'] | none => [])
    ++ ['\n']

/-- The complete text of the output stream. -/
def Gen.text (g : Gen K) : Str := (g.out.map Out.render).flatten

/-! ## The central method: `gcode_command` -/

/-- Keyword arguments of `gcode_command`. -/
structure Kw (K : Type) where
  args : Char → Option K := fun _ => none
  params : Option Str := none
  force : Str := []
  comment : Option Str := none

/-- Keyword arguments `X=…, Y=…` given as a list. -/
def kwOf (l : List (Char × Option K)) : Char → Option K :=
  fun c => (l.find? (fun p => p.1 = c)).bind (·.2)

/-- `_canonical_cmd` (`cam/gcode.py:932-938`). -/
def canonicalCmd (cmd : Str) : Str :=
  match upperS cmd with
  | [a, b] => if b.isDigit then [a, '0', b] else [a, b]
  | s => s

/-- `command.split('.')[0]` (`cam/gcode.py:822`). -/
def baseCmd (cmd : Str) : Str := cmd.takeWhile (· ≠ '.')

/-- The value after the axis transforms of `gcode_command` (`cam/gcode.py:851-860`): scale, offset, then
degrees for `A`/`B`/`C` or unit scale for `X Y Z I J`; `R` and `F` are left in place. -/
def Cfg.outVal (g : Cfg K) (k : Char) (v : K) : K :=
  let w := v *. (g.axisScale k).getD one +. (g.axisOffset k).getD zero
  if k = 'A' ∨ k = 'B' ∨ k = 'C' then degrees w
  else if k ∈ ['X', 'Y', 'Z', 'I', 'J'] then w *. g.unitScale
  else w

/-- The value scaled and offset but not unit-scaled, used by the tool height check (`cam/gcode.py:857`). -/
def Cfg.axisVal (g : Cfg K) (k : Char) (v : K) : K :=
  v *. (g.axisScale k).getD one +. (g.axisOffset k).getD zero

/-- The value compared and stored for key `k` (`cam/gcode.py:837-841`): angles are reduced when `wrap_angles` is on. -/
def Cfg.effVal (g : Cfg K) (k : Char) (v : K) : K :=
  if k = 'A' ∧ g.wrapAngles then fmod v (ofInt 2 *. pi) else v

/-- `value_has_changed` (`cam/gcode.py:837-847`); the angle tolerance applies to `A`. -/
def Gen.hasChanged (g : Gen K) (k : Char) (v : K) : Bool :=
  match g.last k with
  | none => true
  | some l => (if k = 'A' then g.cfg.angleTol else g.cfg.tol) <. abs (v -. l)

/-- One round of the parameter loop (`cam/gcode.py:834-861`).  `pp` is `pos_params`. -/
def Gen.paramStep (g : Gen K) (base : Str) (kw : Kw K) (pp : Char → Option K) (k : Char) :
    Gen K × (Char → Option K) :=
  match kw.args k with
  | none => (g, pp)
  | some v0 =>
    let v := g.cfg.effVal k v0
    if k ∈ kw.force ∨ g.hasChanged k v = true ∨ base ∈ nonmodalGroup then
      let up := if k = 'Z' ∧ g.isToolUp ∧ (g.cfg.axisVal k v <. g.cfg.zsafe) = true then false else g.isToolUp
      ({ g with last := upd g.last k (some v), isToolUp := up },
       upd pp k (some (g.cfg.outVal k v)))
    else (g, pp)

/-- The whole parameter loop. -/
def Gen.paramLoop (g : Gen K) (base : Str) (kw : Kw K) : Gen K × (Char → Option K) :=
  posKeys.foldl (fun s k => s.1.paramStep base kw s.2 k) (g, fun _ => none)

/-- The words of the line in canonical order with axis renaming (`cam/gcode.py:867-872`). -/
def Cfg.wordsOf (g : Cfg K) (pp : Char → Option K) : List (Word K) :=
  orderedParams.filterMap fun k => (pp k).map fun v => ⟨(g.axisMap k).getD [k], .num g.digits v⟩

/-- Letters present in `pos_params`. -/
def presentKeys (pp : Char → Option K) : List Char := posKeys.filter fun k => (pp k).isSome

/-- `gcode_command` after the opaque-motion check (`cam/gcode.py:830-882`); `command` is canonical. -/
def Gen.gcodeCore (g : Gen K) (command : Str) (kw : Kw K) : Gen K :=
  let base := baseCmd command
  let (g', pp) := g.paramLoop base kw
  let keys := presentKeys pp
  if keys.length > 0 then
    if keys.length > 1 ∨ 'F' ∉ keys then
      g'.writeLine ⟨command, g'.cfg.wordsOf pp⟩ kw.comment
    else g'
  else if base ∉ motionGroup then
    let ws := match kw.params with
      | some p => if p.isEmpty then [] else [⟨p, .none⟩]
      | none => []
    g'.writeLine ⟨command, ws⟩ kw.comment
  else g'

/-- `params is not None and params` (`cam/gcode.py:826`). -/
def Kw.hasParams (kw : Kw K) : Bool :=
  match kw.params with
  | some p => !p.isEmpty
  | none => false

/-- `gcode_command` (`cam/gcode.py:792-882`): ignores an empty command, refuses opaque motion. -/
def Gen.gcodeCommand (g : Gen K) (command : Str) (kw : Kw K) : Gen K × Option PyErr :=
  if command.isEmpty then (g, none)
  else
    let c := canonicalCmd command
    if c ∈ motionGroup ∧ kw.hasParams = true then
      (g, some .gcode)
    else (g.gcodeCore c kw, none)

/-- `gcode_command(command, …)` without `params`: cannot raise. -/
def Gen.command (g : Gen K) (command : Str) (kw : Kw K) : Gen K :=
  if command.isEmpty then g else g.gcodeCore (canonicalCmd command) { kw with params := none }

/-! ## Public methods -/

/-- `'%.4f' % seconds` comment of `dwell`. -/
def dwellComment (sec : K) : Str := "Pause tool for ".toList ++ fmt 4 sec ++ " seconds".toList

/-- `dwell` (`cam/gcode.py:519-538`), target `linuxcnc`. -/
def Gen.dwell (g : Gen K) (ms : K) (comment : Option Str := none) : Gen K :=
  if zero <. ms then
    let sec := ms /. ofInt 1000
    g.writeLine ⟨"G04".toList, [⟨['P'], .num 4 sec⟩]⟩ (some (comment.getD (dwellComment sec)))
  else g

/-- `spindle_on` (`cam/gcode.py:608-628`). -/
def Gen.spindleOn (g : Gen K) (speed : Option K := none) (clockwise : Option Bool := none)
    (wait : Option K := none) (comment : Option Str := none) : Gen K :=
  let speed := speed.getD g.cfg.spSpeed
  let cw := clockwise.getD g.cfg.spCw
  let wait := wait.getD g.cfg.spWaitOn
  let g := g.writeLine ⟨if cw then "M3".toList else "M4".toList, [⟨['S'], .int (trunc speed)⟩]⟩ comment
  if zero <. wait then g.dwell wait else g

/-- `spindle_off` (`cam/gcode.py:631-643`). -/
def Gen.spindleOff (g : Gen K) (wait : Option K := none) (comment : Option Str := none) : Gen K :=
  let g := g.writeLine ⟨"M5".toList, []⟩ comment
  let wait := wait.getD g.cfg.spWaitOff
  if zero <. wait then g.dwell wait else g

/-- The retract move of `tool_up` (`cam/gcode.py:559-564`). -/
def Gen.toolUpMove (g : Gen K) (rapid : Bool) (comment : Option Str) : Gen K :=
  match g.cfg.altUp with
  | some alt => g.command alt {}
  | none => g.command (if rapid then "G00".toList else "G01".toList)
      { args := kwOf [('Z', some g.cfg.zsafe)], force := ['Z'], comment := comment }

/-- `tool_up` (`cam/gcode.py:540-572`). -/
def Gen.toolUp (g : Gen K) (rapid : Bool := true) (wait : Option K := none)
    (comment : Option Str := none) : Gen K :=
  let g := g.toolUpMove rapid comment
  let g := if g.cfg.spAuto then g.spindleOff else g
  let wait := wait.getD g.cfg.waitUp
  let g := if zero <. wait then g.dwell wait else g
  { g with isToolUp := true }

/-- The plunge move of `tool_down` (`cam/gcode.py:599-602`). -/
def Gen.toolDownMove (g : Gen K) (z feed : K) (comment : Option Str) : Gen K :=
  match g.cfg.altDown with
  | some alt => g.command alt {}
  | none => g.command "G01".toList
      { args := kwOf [('Z', some z), ('F', some feed)], comment := comment }

/-- `tool_down` (`cam/gcode.py:574-606`). -/
def Gen.toolDown (g : Gen K) (z : K) (feed : Option K := none) (wait : Option K := none)
    (comment : Option Str := none) : Gen K :=
  let feed := feed.getD g.cfg.zfeed
  let wait := wait.getD g.cfg.waitDown
  let g := if g.cfg.spAuto then g.spindleOn else g
  let g := g.toolDownMove z feed comment
  let g := { g with isToolUp := false }
  if zero <. wait then g.dwell wait else g

/-- Python 2 `max(zsafe, z)` with `z` possibly `None` (`None` is less than every number); `max` keeps its first
argument on ties (`cam/gcode.py:687`). -/
def maxZ (zsafe : K) : Option K → K
  | none => zsafe
  | some z => if zsafe <. z then z else zsafe

/-- The condition under which `rapid_move` lifts the tool first (`cam/gcode.py:684-686`; note the last disjunct is
`self._is_tool_up`, as in the source). -/
def Gen.rapidLifts (g : Gen K) : Bool :=
  (match g.last 'Z' with
    | none => true
    | some zp => zp <. g.cfg.zsafe) || g.isToolUp

/-- `rapid_move` (`cam/gcode.py:669-689`). -/
def Gen.rapidMove (g : Gen K) (x y z a : Option K) (comment : Option Str := none) : Gen K :=
  let g := if g.rapidLifts then g.toolUp else g
  let zt := maxZ g.cfg.zsafe z
  g.command "G00".toList { args := kwOf [('X', x), ('Y', y), ('Z', some zt), ('A', a)], comment := comment }

/-- The feed rate `feed` uses (`cam/gcode.py:704-714`): the given one, else the default for the kind of move; `none` means
there is nothing to feed. -/
def Cfg.pickFeed (g : Cfg K) (x y z a feed : Option K) : Option K :=
  match feed with
  | some f => some f
  | none =>
    if x.isSome || y.isSome then some g.xyfeed
    else if z.isSome then some g.zfeed
    else if a.isSome then some g.afeed
    else none

/-- `feed` (`cam/gcode.py:691-716`). -/
def Gen.feed (g : Gen K) (x y z a : Option K) (feed : Option K := none) (comment : Option Str := none) : Gen K :=
  match g.cfg.pickFeed x y z a feed with
  | none => g
  | some f => g.command "G01".toList
      { args := kwOf [('X', x), ('Y', y), ('Z', z), ('A', a), ('F', some f)], comment := comment }

/-- `float_eq` (`cam/gcode.py:925-929`). -/
def Gen.floatEq (g : Gen K) (a b : K) : Bool := abs (a -. b) <. g.cfg.tol

/-- `feed_arc` (`cam/gcode.py:718-755`).  `None + float` raises `TypeError` (line 737). -/
def Gen.feedArc (g : Gen K) (clockwise : Bool) (x y arcX arcY : K) (a z : Option K := none)
    (feed : Option K := none) (comment : Option Str := none) : Gen K × Option PyErr :=
  match g.last 'X', g.last 'Y' with
  | some cx, some cy =>
    let ctrX := arcX +. cx
    let ctrY := arcY +. cy
    let startRadius := hypot (cx -. ctrX) (cy -. ctrY)
    let endRadius := hypot arcX arcY
    if !g.floatEq startRadius endRadius then (g, some .gcode)
    else
      (g.command (if clockwise then "G02".toList else "G03".toList)
        { args := kwOf [('X', some x), ('Y', some y), ('Z', z), ('I', some arcX), ('J', some arcY), ('A', a),
            ('F', some (feed.getD g.cfg.xyfeed))]
          force := ['I', 'J'], comment := comment }, none)
  | _, _ => (g, some .typeError)

/-- `feed_rate` (`cam/gcode.py:491-501`): `self.float_eq(feed_rate - last)` passes one argument to a
two-argument method, so it raises `TypeError` whenever a feed rate is already known. -/
def Gen.feedRate (g : Gen K) (f : K) : Gen K × Option PyErr :=
  match g.last 'F' with
  | none =>
    let g := g.writeLine ⟨[], [⟨['F'], .num g.cfg.digits f⟩]⟩ none
    ({ g with last := upd g.last 'F' (some f) }, none)
  | some _ => (g, some .typeError)

/-- `pause` (`cam/gcode.py:503-517`). -/
def Gen.pause (g : Gen K) (conditional : Bool := false) (comment : Option Str := some "Pause".toList) : Gen K :=
  g.command (if conditional then "M1".toList else "M0".toList) { comment := comment }

/-- `'needle' in 'ABC'` for strings: substring test (`cam/gcode.py:656`). -/
def inABC (s : Str) : Bool :=
  s ∈ [[], ['A'], ['B'], ['C'], ['A', 'B'], ['B', 'C'], ['A', 'B', 'C']]

/-- The normalised angle computed by `normalize_axis_angle` (`cam/gcode.py:661`): note
`angle / 2 * math.pi` is `(angle / 2) * pi`. -/
def normAngle (angle : K) : K := angle -. ofInt 2 *. pi *. floor (angle /. ofInt 2 *. pi)

/-- `normalize_axis_angle` (`cam/gcode.py:645-667`). -/
def Gen.normalizeAxisAngle (g : Gen K) (axis : Str) : Gen K × Option PyErr :=
  let ax := upperS axis
  if !inABC ax then (g, some .gcode)
  else match ax with
    | [c] =>
      match g.last c with
      | none => (g, some .typeError)           -- abs(None)
      | some angle =>
        if ofInt 2 *. pi <. abs angle then
          let angle' := normAngle angle
          let g := g.writeLine ⟨"G92".toList, [⟨[c, '='], .num g.cfg.digits (degrees angle')⟩]⟩
            (some "Normalize axis angle".toList)
          ({ g with last := upd g.last c (some angle'), offsetReset := true }, none)
        else (g, none)
    | _ => (g, some .keyError)                 -- '' and 'AB' pass the substring test

/-- The dashed separator comment of the header. -/
def headerDashes : Str := "--------------------------------------------------------".toList

/-- The path blending line of `header` (`cam/gcode.py:464-477`). -/
def Gen.headerBlend (g : Gen K) : Gen K :=
  if g.cfg.blendMode = some "blend".toList then
    match g.cfg.blendTol with
    | none => g.writeLine ⟨"G64".toList, []⟩ (some "Blend with highest speed".toList)
    | some p =>
      match g.cfg.blendQTol with
      | some q => g.writeLine ⟨"G64".toList, [⟨['P'], .num g.cfg.digits p⟩, ⟨['Q'], .num g.cfg.digits q⟩]⟩
          (some "Blend with tolerances".toList)
      | none => g.writeLine ⟨"G64".toList, [⟨['P'], .num g.cfg.digits p⟩]⟩ (some "Blend with tolerance".toList)
  else if g.cfg.blendMode = some "exact".toList then
    g.writeLine ⟨"G61".toList, []⟩ (some "Exact path mode".toList)
  else g

/-- The optional comment argument of `header` (`cam/gcode.py:451-452`). -/
def Gen.headerComment (g : Gen K) (comment : CommentArg) : Gen K :=
  match comment with
  | .none => g
  | c => g.comment c

/-- `header` (`cam/gcode.py:436-481`); `today` is the current date text (external). -/
def Gen.header (g : Gen K) (today : Str) (comment : CommentArg := .none) : Gen K × Option PyErr :=
  let g := g.writeRaw ['%', '\n']
  let g := g.comment (.one headerDashes)
  let g := g.comment (.one ("Creation date: ".toList ++ today))
  let g := g.comment (.one "Target machine: LinuxCNC, version 2.4+".toList)
  let g := g.cfg.headerComments.foldl (fun g c => g.comment c) g
  let g := g.headerComment comment
  let g := g.comment (.one headerDashes)
  let g := g.writeRaw ['\n']
  let g := g.writeLine ⟨"G17".toList, []⟩ (some "XY plane".toList)
  let g := if g.cfg.gcUnit = "mm".toList then g.writeLine ⟨"G21".toList, []⟩ (some "Units are in millimeters".toList)
    else g.writeLine ⟨"G20".toList, []⟩ (some "Units are in inches".toList)
  let g := g.writeLine ⟨"G90".toList, []⟩ (some "Use absolute positioning".toList)
  let g := g.writeLine ⟨"G40".toList, []⟩ (some "Cancel tool diameter compensation".toList)
  let g := g.writeLine ⟨"G49".toList, []⟩ (some "Cancel tool length compensation".toList)
  let g := g.headerBlend
  let g := g.writeRaw ['\n']
  let g := g.comment (.one "Default feed rate".toList)
  match g.feedRate g.cfg.xyfeed with
  | (g, some e) => (g, some e)
  | (g, none) => (g.writeRaw ['\n', '\n'], none)

/-- `footer` (`cam/gcode.py:483-489`). -/
def Gen.footer (g : Gen K) : Gen K :=
  let g := g.writeRaw ['\n']
  let g := if g.offsetReset then
      g.command "G92.1".toList { comment := some "Reset axis offsets to zero".toList }
    else g
  let g := g.writeLine ⟨"M2".toList, []⟩ (some "End program.".toList)
  g.writeRaw ['%', '\n']

/-- `position` (`cam/gcode.py:778-790`). -/
def Gen.position (g : Gen K) (axis : Str) : Except PyErr (Option K) :=
  match upperS axis with
  | [c] => if c ∈ orderedParams then .ok (g.last c) else .error .gcode
  | _ => .error .gcode

/-! ## Configuration methods -/

/-- `set_tolerance` (`cam/gcode.py:259-271`). -/
def Gen.setTolerance (g : Gen K) (t : K) (at' : Option K := none) : Gen K :=
  { g with cfg.tol := t, cfg.angleTol := at'.getD t }

/-- `set_output_precision` (`cam/gcode.py:273-286`): `max(min(int(p), 15), 2)`. -/
def Gen.setOutputPrecision (g : Gen K) (p : Int) : Gen K :=
  { g with cfg.digits := (max (min p 15) 2).toNat }

/-- `units` property setter (`cam/gcode.py:233-237`). -/
def Gen.setUnitProp (g : Gen K) (u : Str) : Gen K × Option PyErr :=
  if u ∈ ["in".toList, "mm".toList] then ({ g with cfg.gcUnit := u }, none) else (g, some .gcode)

/-- `set_units` (`cam/gcode.py:288-305`). -/
def Gen.setUnits (g : Gen K) (u : Str) (scale : K) : Gen K × Option PyErr :=
  if u ∈ ["in".toList, "mm".toList] then ({ g with cfg.gcUnit := u, cfg.unitScale := scale }, none) else (g, some .gcode)

/-- `set_spindle_defaults` (`cam/gcode.py:307-326`). -/
def Gen.setSpindleDefaults (g : Gen K) (speed : K) (cw : Bool) (waitOn waitOff : K) (auto : Bool) : Gen K :=
  { g with cfg.spSpeed := speed, cfg.spCw := cw, cfg.spWaitOn := waitOn, cfg.spWaitOff := waitOff, cfg.spAuto := auto }

/-- Normalisation of the mode name in `set_path_blending` (`cam/gcode.py:340-343`). -/
def blendName (mode : Str) : Str :=
  if upperS mode = "G61".toList then "exact".toList
  else if upperS mode = "G64".toList then "blend".toList else mode

/-- `set_path_blending` (`cam/gcode.py:328-348`). -/
def Gen.setPathBlending (g : Gen K) (mode : Str) (t q : Option K) : Gen K :=
  let mode := blendName mode
  if mode ∈ ["exact".toList, "blend".toList] then { g with cfg.blendMode := some mode, cfg.blendTol := t, cfg.blendQTol := q }
  else g

/-- `set_axis_offset` for one axis (`cam/gcode.py:351-373`). -/
def Gen.setAxisOffset (g : Gen K) (k : Char) (v : K) : Gen K :=
  { g with cfg.axisOffset := upd g.cfg.axisOffset (upperC k) (some v) }

/-- `set_axis_scale` for one axis (`cam/gcode.py:375-391`). -/
def Gen.setAxisScale (g : Gen K) (k : Char) (v : K) : Gen K :=
  { g with cfg.axisScale := upd g.cfg.axisScale (upperC k) (some v) }

/-- `map_axis` (`cam/gcode.py:393-405`). -/
def Gen.mapAxis (g : Gen K) (k : Char) (name : Str) : Gen K :=
  { g with cfg.axisMap := upd g.cfg.axisMap (upperC k) (some (upperS name)) }

/-- `add_header_comment` (`cam/gcode.py:407-413`). -/
def Gen.addHeaderComment (g : Gen K) (c : CommentArg) : Gen K :=
  { g with cfg.headerComments := g.cfg.headerComments ++ [c] }

/-! ## Call histories -/

/-- Every call a client can make on a generator (public methods and public attributes). -/
inductive Call (K : Type) where
  | rapidMove (x y z a : Option K) (comment : Option Str)
  | feed (x y z a feed : Option K) (comment : Option Str)
  | feedArc (cw : Bool) (x y i j : K) (a z feed : Option K) (comment : Option Str)
  | toolUp (rapid : Bool) (wait : Option K) (comment : Option Str)
  | toolDown (z : K) (feed wait : Option K) (comment : Option Str)
  | spindleOn (speed : Option K) (cw : Option Bool) (wait : Option K) (comment : Option Str)
  | spindleOff (wait : Option K) (comment : Option Str)
  | dwell (ms : K) (comment : Option Str)
  | pause (conditional : Bool) (comment : Option Str)
  | comment (c : CommentArg) (useSemi : Bool)
  | header (today : Str) (c : CommentArg)
  | footer
  | feedRate (f : K)
  | normalizeAxisAngle (axis : Str)
  | gcodeCommand (cmd : Str) (kw : Kw K)
  -- configuration
  | setTolerance (t : K) (at' : Option K)
  | setOutputPrecision (p : Int)
  | setUnitProp (u : Str)
  | setUnits (u : Str) (scale : K)
  | setSpindleDefaults (speed : K) (cw : Bool) (waitOn waitOff : K) (auto : Bool)
  | setPathBlending (mode : Str) (t q : Option K)
  | setAxisOffset (k : Char) (v : K)
  | setAxisScale (k : Char) (v : K)
  | mapAxis (k : Char) (name : Str)
  | addHeaderComment (c : CommentArg)
  | setZsafe (v : K)
  | setFeeds (xy z a : K)
  | setWaits (down up : K)
  | setAlt (down up : Option Str)
  | setWrapAngles (b : Bool)
  | setShowComments (b : Bool)
  | setShowLineNumbers (b : Bool)

/-- Perform one call. -/
def Gen.step (g : Gen K) : Call K → Gen K × Option PyErr
  | .rapidMove x y z a c => (g.rapidMove x y z a c, none)
  | .feed x y z a f c => (g.feed x y z a f c, none)
  | .feedArc cw x y i j a z f c => g.feedArc cw x y i j a z f c
  | .toolUp r w c => (g.toolUp r w c, none)
  | .toolDown z f w c => (g.toolDown z f w c, none)
  | .spindleOn s cw w c => (g.spindleOn s cw w c, none)
  | .spindleOff w c => (g.spindleOff w c, none)
  | .dwell ms c => (g.dwell ms c, none)
  | .pause b c => (g.pause b c, none)
  | .comment c s => (g.comment c s, none)
  | .header t c => g.header t c
  | .footer => (g.footer, none)
  | .feedRate f => g.feedRate f
  | .normalizeAxisAngle ax => g.normalizeAxisAngle ax
  | .gcodeCommand cmd kw => g.gcodeCommand cmd kw
  | .setTolerance t a => (g.setTolerance t a, none)
  | .setOutputPrecision p => (g.setOutputPrecision p, none)
  | .setUnitProp u => g.setUnitProp u
  | .setUnits u s => g.setUnits u s
  | .setSpindleDefaults s c w1 w2 a => (g.setSpindleDefaults s c w1 w2 a, none)
  | .setPathBlending m t q => (g.setPathBlending m t q, none)
  | .setAxisOffset k v => (g.setAxisOffset k v, none)
  | .setAxisScale k v => (g.setAxisScale k v, none)
  | .mapAxis k n => (g.mapAxis k n, none)
  | .addHeaderComment c => (g.addHeaderComment c, none)
  | .setZsafe v => ({ g with cfg.zsafe := v }, none)
  | .setFeeds xy z a => ({ g with cfg.xyfeed := xy, cfg.zfeed := z, cfg.afeed := a }, none)
  | .setWaits d u => ({ g with cfg.waitDown := d, cfg.waitUp := u }, none)
  | .setAlt d u => ({ g with cfg.altDown := d, cfg.altUp := u }, none)
  | .setWrapAngles b => ({ g with cfg.wrapAngles := b }, none)
  | .setShowComments b => ({ g with cfg.showComments := b }, none)
  | .setShowLineNumbers b => ({ g with cfg.showLineNumbers := b }, none)

/-- A client that catches exceptions and carries on: the state after a list of calls. -/
def Gen.run (g : Gen K) : List (Call K) → Gen K
  | [] => g
  | c :: cs => ((g.step c).1).run cs

end Verif.GCode
