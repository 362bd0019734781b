import Verif.Cam.Model
import Verif.Svg.Context

/-!
# Model of the settings of `tcnc.py`

How the options of the extension become the settings of the G-code generator and of the CAM object
(`Tcnc._init_gcode`, `Tcnc._init_cam`), and how options of type `docunits` become user units
(`InkscapeExtension._post_process_options`).

Left out: the preview plotter (modelled in `Cam/Preview.lean`), option parsing by `optparse`, the log file.
-/

set_option linter.unusedSectionVars false

namespace Verif.Cam
open Verif PyFloat PyTrig Geom GCode

/-- The option values after parsing (`tcnc.py:52-195`), those read by `_init_gcode` and `_init_cam`; also those that are read and then
have no effect.  `settings` are the texts of the settings that differ from their defaults, in the order of `OPTIONSPEC`
(`tcnc.py:277-288`; `str` of a value is not modelled). -/
structure TOpts (K : Type) where
  writeSettings : Bool := false
  settings : List Str := []
  aFeedMatch : Bool := false
  xyFeed : K
  zFeed : K
  aFeed : K
  zSafe : K
  toolWidth : K
  trailOffset : K
  gcodeUnits : Str
  tolerance : K
  blendMode : Str := []
  blendTol : K
  spindleSpeed : K
  spindleWaitOn : K
  spindleCw : Bool := true
  spindleMode : Str := []
  toolWait : K
  disableTangent : Bool := false
  zDepth : K
  zStep : K
  sortMethod : Str
  biarcTol : K
  biarcMaxDepth : Nat := 4
  lineFlatness : K
  toolFillet : Bool := false
  toolOffset : Bool := false
  preserveG1 : Bool := false
  closePolygons : Bool := false
  smoothFillet : Bool := false
  smoothRadius : K
  splitCusps : Bool := false
  skipPathCount : Nat := 0
  toolReversal : Bool := false
  reloadEnable : Bool := false
  softLanding : Bool := false
  landingStrip : K
  overshootMode : Str := []
  overshootDist : K

/-- What the settings need of the document: `docUnits` is `svg.get_document_units()`, `viewScale` the view scale of the SVG context
(`svg/svg.py:184-187`), `conv` the table of unit sizes. -/
structure DocInfo (K : Type) where
  docUnits : Str
  conv : Svg.Conv K
  viewScale : K

/-- The outside of the settings: reading numbers, and `math.log(x, 10)`. -/
structure TEnv (K : Type) where
  num : Svg.NumEnv K
  log10 : K → K
  version : Str

/-- `_IMPERIAL_UNITS` (`tcnc.py:197`). -/
def imperialUnits : List Str := ["in".toList, "ft".toList, "yd".toList, "pc".toList, "pt".toList, "px".toList]

/-- `_METRIC_UNITS` (`tcnc.py:199`). -/
def metricUnits : List Str := ["mm".toList, "cm".toList, "m".toList, "km".toList]

/-- The unit of the G code (`tcnc.py:290-305`); the plain `Exception` is written `runtime`. -/
def gcodeUnit (units docUnits : Str) : Except PyErr Str :=
  if units = "doc".toList then
    if docUnits ≠ "in".toList ∧ docUnits ≠ "mm".toList then
      if docUnits ∈ imperialUnits then .ok "in".toList
      else if docUnits ∈ metricUnits then .ok "mm".toList
      else .error .runtime
    else .ok docUnits
  else .ok units

variable {K : Type} [PyTrig K]

/-- The angular feed rate (`tcnc.py:245-251`). -/
def angularFeed (o : TOpts K) : Except PyErr K :=
  if o.aFeedMatch then
    if Svg.isZeroF o.toolWidth then .error .zeroDivision
    else .ok (degrees (o.xyFeed /. o.toolWidth /. ofInt 2))
  else .ok o.aFeed

/-- The number of output digits asked for (`tcnc.py:315`): `round` goes half away from zero, which for non-negative numbers is the floor
of the number plus one half. -/
def outputDigits (env : TEnv K) (tol : K) : Except PyErr Int :=
  if zero <. tol then .ok (max 0 (trunc (floor (PyFloat.abs (env.log10 tol) +. lit 5 1))))
  else .error .valueError

/-- The header comments of `_init_gcode` (`tcnc.py:273-288`). -/
def headerTexts (env : TEnv K) (o : TOpts K) : List CommentArg :=
  [CommentArg.many ["Generated by TCNC Version ".toList ++ env.version, []]] ++
    (if o.writeSettings then CommentArg.one "Settings:".toList :: o.settings.map CommentArg.one else [])

/-- The generator as created by `_init_gcode` (`tcnc.py:267-288`). -/
def newGen (env : TEnv K) (o : TOpts K) (afeed : K) : Gen K :=
  (headerTexts env o).foldl Gen.addHeaderComment (Gen.init o.xyFeed o.zSafe (some o.zFeed) (some afeed) (lit 1 6))

/-- The rest of the settings of the generator (`tcnc.py:314-326`). -/
def finishGen (o : TOpts K) (digits : Int) (g : Gen K) : Gen K :=
  let g := g.setTolerance o.tolerance
  let g := g.setOutputPrecision digits
  let g := if o.blendMode = [] then g else g.setPathBlending o.blendMode (some o.blendTol) none
  { g with cfg.spSpeed := o.spindleSpeed, cfg.spWaitOn := o.spindleWaitOn *. ofInt 1000, cfg.spCw := o.spindleCw,
           cfg.spAuto := o.spindleMode = "path".toList, cfg.waitDown := o.toolWait, cfg.waitUp := o.toolWait }

/-- `Tcnc._init_gcode` (`tcnc.py:242-326`). -/
def initGcode (env : TEnv K) (doc : DocInfo K) (o : TOpts K) : Except PyErr (Gen K) := do
  let afeed ← angularFeed o
  let units ← gcodeUnit o.gcodeUnits doc.docUnits
  let scale ← Svg.uu2unit env.num doc.conv doc.viewScale (.text "1.0".toList) units
  let r := (newGen env o afeed).setUnits units scale
  match r.2 with
  | some e => .error e
  | none => do
    let digits ← outputDigits env o.tolerance
    pure (finishGen o digits r.1)

/-- The smaller in magnitude of two negative numbers, Python's `max`. -/
def pyMax (a b : K) : K := if a <. b then b else a

/-- The brush settings of `_init_cam` (`tcnc.py:328-381`). -/
def initBrush (o : TOpts K) : Brush K where
  overshootEnable := o.overshootMode = "auto".toList ∨ o.overshootMode = "manual".toList
  overshootAuto := o.overshootMode = "auto".toList
  overshootDist :=
    if o.overshootMode = "auto".toList then o.toolWidth /. ofInt 2
    else if o.overshootMode = "manual".toList then o.overshootDist else zero
  softLanding := o.softLanding
  landingStrip := o.landingStrip
  reloadEnable := o.reloadEnable

/-- `Tcnc._init_cam` (`tcnc.py:328-381`): the settings of the CAM object.  `skip_path_count` and `allow_tool_reversal` are set on the object
and never read. -/
def initCam (o : TOpts K) : Opts K where
  homeWhenDone := false
  sortMethod := if o.sortMethod = "none".toList then none else some o.sortMethod
  zDepth := o.zDepth
  zStep := pyMax (neg (PyFloat.abs o.zStep)) o.zDepth
  toolWidth := o.toolWidth
  trailOffset := o.trailOffset
  biarcTol := o.biarcTol
  biarcMaxDepth := o.biarcMaxDepth
  lineFlatness := o.lineFlatness
  enableTangent := !o.disableTangent
  toolFillet := o.toolFillet && !o.disableTangent
  toolOffset := o.toolOffset && !o.disableTangent
  preserveG1 := o.preserveG1 && !o.disableTangent
  splitCusps := o.splitCusps
  closePolygons := o.closePolygons && !o.disableTangent
  smoothFillet := o.smoothFillet
  smoothRadius := o.smoothRadius
  pathCountStart := 1
  brush := some (initBrush o)

/-- Conversion and code generation by `Tcnc.run` (`tcnc.py:232-237`): `Generated env doc e o l ds s` holds iff for the paths `l` the program
is generated, with passes at the depths `ds`, ending in state `s` of the CAM object. -/
def Generated (env : TEnv K) (doc : DocInfo K) (e : Env K) (o : TOpts K) (l : List (Path K)) (ds : List K) (s : Cam K) : Prop :=
  ∃ g, initGcode env doc o = .ok g ∧ Generate e (initCam o) l (Cam.init g) ds s

/-- The value of one option of type `docunits`: given on the command line or not (then the default stays)
(`inkscape/inkext.py:267-272,285-302`).  `svg` is the context of the document, absent when there is no input file
(`inkscape/inkext.py:156-172`). -/
def docunitOption (num : Svg.NumEnv K) (svg : Option (DocInfo K)) (docUnits : Str) (given : Option K) (default : K) : Except PyErr K :=
  match given with
  | none => .ok default
  | some v =>
    match svg with
    | none => .error .attributeError
    | some d => Svg.unit2uu num d.conv d.viewScale (.num v) (if docUnits = [] then "px".toList else docUnits)

end Verif.Cam
