import Verif.Cam.Settings

/-!
# Options of the extensions

`inkscape/inkext.py:30-82` (types of options), `inkscape/inkext.py:262-303` (parsing), and the table of options of `tcnc.py`.  Options are
written with their full names; the rules of `optparse` that matter here are: a default that is a text is converted like a value that is given,
any other default is used as it is; values are converted in the order they are given; `OptionValueError` (and an unknown option) while values are
read ends the program with a usage message, any other exception is passed on.  Options with the action `append` (`--id`, `--selected-nodes`)
are left out.
-/

namespace Verif.Cam
open Verif PyFloat PyTrig

/-- The types of options in use (`inkscape/inkext.py:68`, and those of `optparse`). -/
inductive OptType
  | string
  | int
  | float
  | inkbool
  | degrees
  | docunits
  deriving DecidableEq

/-- The value of an option. -/
inductive OptVal (K : Type)
  | none
  | text (s : Str)
  | int (n : Int)
  | num (x : K)
  | bool (b : Bool)
  deriving DecidableEq

/-- One `ExtOption` (`inkscape/inkext.py:61-74`): its name, type and default. -/
structure OptSpec (K : Type) where
  name : Str
  type : OptType
  default : OptVal K

/-- Why reading the options ends: a usage message with the name of the option and its value, or an exception. -/
inductive OptFail
  | usage (name text : Str)
  | raised (e : PyErr)
  deriving DecidableEq

/-- `float(text)` and the integers of `optparse`; `none` for `ValueError`. -/
structure Reader (K : Type) where
  float : Str → Option K
  int : Str → Option Int

/-- What is known while options are read: the values, and `docunit_options` (`inkscape/inkext.py:266`). -/
structure Parsed (K : Type) where
  values : List (Str × OptVal K)
  lengths : List (Str × K)

/-- `d[key] = value` (and `setattr(options, key, value)`). -/
def setOpt {α : Type} (l : List (Str × α)) (key : Str) (v : α) : List (Str × α) :=
  match l with
  | [] => [(key, v)]
  | (k, w) :: r => if k = key then (key, v) :: r else (k, w) :: setOpt r key v

variable {K : Type} [PyTrig K]

/-- `_check_inkbool` (`inkscape/inkext.py:30-39`). -/
def checkInkbool (name text : Str) : Except OptFail Bool :=
  let boolstr := upperS text
  if boolstr ∈ ["TRUE".toList, "T".toList, "YES".toList, "Y".toList] then .ok true
  else if boolstr ∈ ["FALSE".toList, "F".toList, "NO".toList, "N".toList] then .ok false
  else .error (.usage name text)

/-- `_check_degrees` (`inkscape/inkext.py:42-49`). -/
def checkDegrees (rd : Reader K) (name text : Str) : Except OptFail K :=
  match rd.float text with
  | some x => .ok (Svg.radians x)
  | none => .error (.usage name text)

/-- `_check_docunits` (`inkscape/inkext.py:268-272`): the number is kept for later, the value is the text until then; `float` may raise
`ValueError`, which is not an `OptionValueError`. -/
def checkDocunits (rd : Reader K) (text : Str) : Except OptFail K :=
  match rd.float text with
  | some x => .ok x
  | none => .error (.raised .valueError)

/-- The number of an option of type `float` or `int` (`optparse`). -/
def orUsage {α : Type} (name text : Str) (r : Option α) : Except OptFail α :=
  match r with
  | some x => .ok x
  | none => .error (.usage name text)

/-- `option.check_value` and storing the result (`optparse`, with the type checkers of `inkscape/inkext.py:69-72`). -/
def storeText (rd : Reader K) (o : OptSpec K) (text : Str) (p : Parsed K) : Except OptFail (Parsed K) :=
  match o.type with
  | .string => .ok { p with values := setOpt p.values o.name (.text text) }
  | .int => (orUsage o.name text (rd.int text)).map fun n => { p with values := setOpt p.values o.name (.int n) }
  | .float => (orUsage o.name text (rd.float text)).map fun x => { p with values := setOpt p.values o.name (.num x) }
  | .inkbool => (checkInkbool o.name text).map fun b => { p with values := setOpt p.values o.name (.bool b) }
  | .degrees => (checkDegrees rd o.name text).map fun x => { p with values := setOpt p.values o.name (.num x) }
  | .docunits => (checkDocunits rd text).map fun x =>
      { values := setOpt p.values o.name (.text text), lengths := setOpt p.lengths o.name x }

/-- The default of one option (`optparse`: `get_default_values`); called at `inkscape/inkext.py:282`. -/
def storeDefault (rd : Reader K) (p : Parsed K) (o : OptSpec K) : Except OptFail (Parsed K) :=
  match o.default with
  | .text s => storeText rd o s p
  | v => .ok { p with values := setOpt p.values o.name v }

/-- One option given on the command line, with its value (`inkscape/inkext.py:282`). -/
def storeGiven (rd : Reader K) (specs : List (OptSpec K)) (p : Parsed K) (g : Str × Str) : Except OptFail (Parsed K) :=
  match specs.find? (fun o => decide (o.name = g.1)) with
  | some o => storeText rd o g.2 p
  | none => .error (.usage g.1 g.2)

/-- All options of a list, in order. -/
def readAll {α : Type} (f : Parsed K → α → Except OptFail (Parsed K)) : Parsed K → List α → Except OptFail (Parsed K)
  | p, [] => .ok p
  | p, a :: r =>
    match f p a with
    | .ok q => readAll f q r
    | .error e => .error e

/-- `_process_options` (`inkscape/inkext.py:262-284`). -/
def processOptions (rd : Reader K) (specs : List (OptSpec K)) (given : List (Str × Str)) : Except OptFail (Parsed K) :=
  match readAll (storeDefault rd) ⟨[], []⟩ specs with
  | .ok p => readAll (storeGiven rd specs) p given
  | .error e => .error e

/-- The loop of `_post_process_options` (`inkscape/inkext.py:286-301`). -/
def convertLengths (num : Svg.NumEnv K) (svg : Option (DocInfo K)) (docUnits : Str) : List (Str × OptVal K) → List (Str × K) →
    Except OptFail (List (Str × OptVal K))
  | vs, [] => .ok vs
  | vs, (k, x) :: r =>
    match docunitOption num svg docUnits (some x) x with
    | .ok u => convertLengths num svg docUnits (setOpt vs k (.num u)) r
    | .error e => .error (.raised e)

/-- The values of all options (`inkscape/inkext.py:150-166`, `inkscape/inkext.py:262-303`); `order` is the order in which Python runs through a
dictionary. -/
def optionValues (rd : Reader K) (num : Svg.NumEnv K) (svg : Option (DocInfo K)) (docUnits : Str) (order : List (Str × K) → List (Str × K))
    (specs : List (OptSpec K)) (given : List (Str × Str)) : Except OptFail (List (Str × OptVal K)) :=
  match processOptions rd specs given with
  | .ok p => convertLengths num svg docUnits p.values (order p.lengths)
  | .error e => .error e

/-- The value of one option. -/
def optLookup {α : Type} (l : List (Str × α)) (key : Str) : Option α :=
  match l with
  | [] => none
  | (k, v) :: r => if k = key then some v else optLookup r key

/-- A text option. -/
def optS (name default : String) : OptSpec K := ⟨name.toList, .string, .text default.toList⟩
/-- A number option. -/
def optF (name : String) (default : K) : OptSpec K := ⟨name.toList, .float, .num default⟩
/-- An integer option. -/
def optI (name : String) (default : Int) : OptSpec K := ⟨name.toList, .int, .int default⟩
/-- A yes/no option. -/
def optB (name : String) (default : Bool) : OptSpec K := ⟨name.toList, .inkbool, .bool default⟩
/-- An angle option. -/
def optD (name : String) (default : K) : OptSpec K := ⟨name.toList, .degrees, .num default⟩
/-- A length option. -/
def optL (name : String) (default : K) : OptSpec K := ⟨name.toList, .docunits, .num default⟩

/-- The options all extensions have, without the two lists (`inkscape/inkext.py:103-126`). -/
def commonOptions : List (OptSpec K) :=
  [⟨"active-tab".toList, .string, .none⟩, ⟨"output-file".toList, .string, .none⟩, optF "doc-width" (ofInt 500), optF "doc-height" (ofInt 500),
   optS "doc-units" "px", optB "create-debug-layer" false, optB "log-create" false, optS "log-level" "DEBUG", optS "log-filename" "~/inkext.log"]

/-- The options of tcnc (`tcnc.py:51-194`). -/
def tcncOptions : List (OptSpec K) :=
  [optS "origin-ref" "doc", optS "path-sort-method" "none", optL "biarc-tolerance" (lit 1 2), optI "biarc-max-depth" 4,
   optL "line-flatness" (lit 1 3), optD "min-arc-radius" (lit 1 2), optF "tolerance" (lit 1 5), optS "gcode-units" "in",
   optF "xy-feed" (ofInt 10), optF "z-feed" (ofInt 10), optF "a-feed" (ofInt 60), optF "z-safe" (ofInt 1), optF "z-wait" (ofInt 500),
   optS "blend-mode" "", ⟨"blend-tolerance".toList, .float, .text "0".toList⟩, optB "disable-tangent" false, optF "z-depth" (lit (-125) 3),
   optF "z-step" (lit (-125) 3), optL "tool-width" (ofInt 1), optB "a-feed-match" false, optL "tool-trail-offset" (lit 25 2),
   optD "a-offset" zero, optB "allow-tool-reversal" false, optF "tool-wait" zero, optS "spindle-mode" "", optI "spindle-speed" 0,
   optF "spindle-wait-on" zero, optB "spindle-clockwise" true, optI "skip-path-count" 0, optB "ignore-segment-angle" false,
   optB "path-tool-fillet" false, optB "path-tool-offset" false, optB "path-preserve-g1" false, optB "path-smooth-fillet" false,
   optL "path-smooth-radius" zero, optB "path-close-polygons" false, optB "path-split-cusps" false, optB "brush-reload-enable" false,
   optB "brush-reload-rotate" false, optS "brush-pause-mode" "", optI "brush-reload-max-paths" 1, optF "brush-reload-dwell" zero,
   optD "brush-reload-angle" (ofInt 90), optS "brush-overshoot-mode" "", optL "brush-overshoot-distance" zero, optB "brush-soft-landing" false,
   optL "brush-landing-strip" zero, optL "brushstroke-max" zero, optS "output-path" "~/output.ngc", optB "append-suffix" false,
   optB "separate-layers" false, optB "preview-toolmarks" false, optB "preview-toolmarks-outline" false, optS "preview-scale" "medium",
   optB "write-settings" false, optB "x-subpath-render" false, optL "x-subpath-offset" zero, optF "x-subpath-smoothness" zero,
   optS "x-subpath-layer" "subpaths (tcnc)"]

end Verif.Cam
