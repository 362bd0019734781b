import Verif.Cam.Options

/-!
# The settings listed in the header of the program

`tcnc.py:273-288`: with `--write-settings`, the options whose values are not their defaults are listed in the header.
-/

namespace Verif.Cam
open Verif PyFloat PyTrig

/-- `optparse`: the attribute for an option, its name with underscores (`option.dest`, `tcnc.py:280`). -/
def destOf (name : Str) : Str := name.map fun c => if c = '-' then '_' else c

/-- `option.dest.replace('_', '-')` (`tcnc.py:287`). -/
def shownName (dest : Str) : Str := dest.map fun c => if c = '_' then '-' else c

variable {K : Type} [PyTrig K]

/-- Python's `==` between values of options (`tcnc.py:282`).  Numbers are compared as numbers, a text differs from every number; a switch is only ever
compared with a switch here. -/
def OptVal.same : OptVal K → OptVal K → Bool
  | .none, .none => true
  | .text a, .text b => decide (a = b)
  | .int a, .int b => decide (a = b)
  | .num a, .num b => PyTrig.beq a b
  | .int a, .num b => PyTrig.beq (ofInt a) b
  | .num a, .int b => PyTrig.beq a (ofInt b)
  | .bool a, .bool b => decide (a = b)
  | _, _ => false

/-- The line for one option, if there is one (`tcnc.py:280-288`); `str` is Python's `str`. -/
def settingLine (str : OptVal K → Str) (vals : List (Str × OptVal K)) (o : OptSpec K) : Option Str :=
  match optLookup vals o.name with
  | none => none
  | some .none => none
  | some v => if v.same o.default then none else some ("--".toList ++ shownName (destOf o.name) ++ " = ".toList ++ str v)

/-- The lines for all options of a table, in the order of the table (`tcnc.py:279-288`). -/
def settingLines (str : OptVal K → Str) (vals : List (Str × OptVal K)) (specs : List (OptSpec K)) : List Str :=
  specs.filterMap (settingLine str vals)

/-- The values of the options when the settings are listed: `a_feed` has been replaced if it is to match (`tcnc.py:245-251,278`). -/
def valuesShown (vals : List (Str × OptVal K)) (o : TOpts K) (afeed : K) : List (Str × OptVal K) :=
  if o.aFeedMatch then setOpt vals "a-feed".toList (.num afeed) else vals

/-- The settings of tcnc in the header (`tcnc.py:276-288`); nothing before the angular feed is known. -/
def tcncSettings (str : OptVal K → Str) (vals : List (Str × OptVal K)) (o : TOpts K) : Except PyErr (List Str) := do
  let afeed ← angularFeed o
  pure (settingLines str (valuesShown vals o afeed) tcncOptions)

end Verif.Cam
