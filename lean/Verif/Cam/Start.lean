import Verif.Cam.Options
import Verif.Cam.Main
import Verif.Svg.NewDoc

/-!
# Model of `InkscapeExtension.main` up to `run`

`inkscape/inkext.py:142-170`: reading the options, opening the document or making a new one.
-/

set_option linter.unusedSectionVars false

namespace Verif.Cam
open Verif PyFloat PyTrig
open Verif.Svg (XNode NumEnv Conv)

variable {K : Type} [PyTrig K]

/-- What an extension finds when it is run: the values of its options and the document. -/
structure Started (K : Type) where
  values : List (Str × OptVal K)
  doc : XNode
  opened : Opened K

/-- An exception of the document as the end of reading options. -/
def raising {α : Type} : Except PyErr α → Except OptFail α
  | .ok a => .ok a
  | .error e => .error (.raised e)

/-- The value of a text option; every extension has the common options, so there is one. -/
def textOf (vs : List (Str × OptVal K)) (name : String) : Str :=
  match optLookup vs name.toList with
  | some (.text s) => s
  | _ => []

/-- The value of a number option. -/
def numOf (vs : List (Str × OptVal K)) (name : String) : K :=
  match optLookup vs name.toList with
  | some (.num x) => x
  | some (.int n) => ofInt n
  | _ => zero

/-- The document made when no file is given (`inkscape/inkext.py:166-169`). -/
def blankDoc (vs : List (Str × OptVal K)) (docId : Str) : Svg.NewDoc K where
  width := numOf vs "doc-width"
  height := numOf vs "doc-height"
  units := textOf vs "doc-units"
  docId := docId

/-- `main` with a file (`inkscape/inkext.py:151-161`). -/
def startFile (rd : Reader K) (env : NumEnv K) (conv : Conv K) (eps : K) (order : List (Str × K) → List (Str × K)) (specs : List (OptSpec K))
    (given : List (Str × Str)) (doc : XNode) : Except OptFail (Started K) := do
  let p ← processOptions rd specs given
  let d ← raising (openDoc env conv eps doc)
  let vs ← convertLengths env (some d.info) d.info.docUnits p.values (order p.lengths)
  pure ⟨vs, doc, d⟩

/-- `main` without a file (`inkscape/inkext.py:151,162-170`): `self.svg` is still `None` when lengths are converted. -/
def startBlank (rd : Reader K) (env : NumEnv K) (conv : Conv K) (eps : K) (order : List (Str × K) → List (Str × K)) (specs : List (OptSpec K))
    (given : List (Str × Str)) (docId : Str) : Except OptFail (Started K) := do
  let p ← processOptions rd specs given
  let vs ← convertLengths env none (textOf p.values "doc-units") p.values (order p.lengths)
  let d ← raising (openDoc env conv eps (Svg.newInkscape (blankDoc vs docId)))
  pure ⟨vs, Svg.newInkscape (blankDoc vs docId), d⟩

/-- `main` up to the debug layer (`inkscape/inkext.py:150-170`). -/
def startMain (rd : Reader K) (env : NumEnv K) (conv : Conv K) (eps : K) (order : List (Str × K) → List (Str × K)) (specs : List (OptSpec K))
    (given : List (Str × Str)) (docId : Str) : Option XNode → Except OptFail (Started K)
  | some doc => startFile rd env conv eps order specs given doc
  | none => startBlank rd env conv eps order specs given docId

end Verif.Cam
