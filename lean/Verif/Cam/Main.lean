import Verif.Cam.Settings
import Verif.Svg.Tree

/-!
# Model of `Tcnc.run`: from the document to the program

Opening the document (`svg/svg.py`, `inkscape/inksvg.py`), collecting and converting the shapes, generating the program.
-/

set_option linter.unusedSectionVars false

namespace Verif.Cam
open Verif PyFloat PyTrig Geom GCode
open Verif.Svg (XNode NumEnv Conv)

variable {K : Type} [PyTrig K]

/-- `re.compile('[,\s\t]+').split(text)` (`svg/svg.py:164-165`): the pieces between runs of separators; `inSep` says that the last character was one. -/
def splitRuns (sep : Char → Bool) (inSep : Bool) (cur : Str) : Str → List Str
  | [] => [cur]
  | c :: s =>
    if sep c then
      if inSep then splitRuns sep true cur s else cur :: splitRuns sep true [] s
    else splitRuns sep false (cur ++ [c]) s

/-- `[float(value) for value in …]` (`svg/svg.py:165`). -/
def floats (env : NumEnv K) : List Str → Except PyErr (List K)
  | [] => .ok []
  | w :: ws => do
    let x ← env.float w
    let xs ← floats env ws
    pure (x :: xs)

/-- The numbers of the `viewBox` attribute (`svg/svg.py:162-165`). -/
def viewBoxOf (env : NumEnv K) (doc : XNode) : Except PyErr (Option (List K)) :=
  match doc.get "viewBox".toList with
  | none => .ok none
  | some t => do
    let l ← floats env (splitRuns (fun c => c = ',' || Svg.isReWs c) false [] t)
    pure (some l)

/-- `self.find('//sodipodi:namedview')` (`inkscape/inksvg.py:71`): the first such element in document order.  Elements of other name
spaces are told apart by their local name only. -/
def namedView (doc : XNode) : Option XNode :=
  (doc.places []).findSome? fun a =>
    match a.node with
    | .elem .other t at' k => if t = "namedview".toList then some (.elem .other t at' k) else none
    | _ => none

/-- What is known of an open document: its units, the table of unit sizes, the view scale; its width and height in user units. -/
structure Opened (K : Type) where
  info : DocInfo K
  width : K
  height : K

/-- `InkscapeSVGContext(document)` (`svg/svg.py:139-187`, `inkscape/inksvg.py:65-88`).  A document without `width` or `height` raises `TypeError`, one without
`namedview` raises `AttributeError`; when several exceptions are possible, which one is raised is not modelled. -/
def openDoc (env : NumEnv K) (conv : Conv K) (eps : K) (doc : XNode) : Except PyErr (Opened K) := do
  let conv := conv.afterInit none none
  match doc.get "width".toList, doc.get "height".toList with
  | some w, some h => do
    let vb ← viewBoxOf env doc
    let ctx ← Svg.viewOf env conv eps w h vb
    match namedView doc with
    | none => .error .attributeError
    | some n => do
      let units := (n.get "inkscape:document-units".toList).getD ((n.get "units".toList).getD "px".toList)
      pure ⟨⟨units, conv, ctx.viewScale⟩, ctx.viewWidth, ctx.viewHeight⟩
  | _, _ => .error .typeError

/-- The element as `geomsvg` sees it: its tag without name space and its attributes (`svg/geomsvg.py:66-73`). -/
def elemOf : XNode → Svg.Elem
  | .elem _ t a _ => ⟨t, a⟩
  | .comment => ⟨[], []⟩

/-- A path for the CAM object: segments without hints.  (A bare line is never left over: with a parent transform it raises.) -/
def pathOf : Svg.Sub K → Path K
  | .path l => l.map fun s => ⟨s, {}⟩
  | .bare l => [⟨.line l, {}⟩]

/-- The transform that flips the Y axis (`tcnc.py:212-215`). -/
def flipY (height : K) : Mat K := Mat.scaleTranslate one (neg one) zero height

/-- The paths that are cut (`tcnc.py:220-228`); `none` if there is nothing to cut and no file is written. -/
def runPaths (env : NumEnv K) (eps : K) (rounds limit : Nat) (doc : XNode) (ids : List Str) (height : K) : Except PyErr (Option (List (Path K))) := do
  let shapes ← Svg.tcncShapes env doc limit ids
  if shapes.isEmpty then pure none
  else do
    let subs ← Svg.svgToGeometry env eps rounds (some (flipY height)) (shapes.map fun x => (elemOf x.1.node, some x.2))
    pure (some (subs.map pathOf))

/-- `Tcnc.run` (`tcnc.py:205-240`) on an opened document; the tolerance of the geometry is that of the options.  The result is `none` if
nothing is cut, otherwise the depths of the passes and the last state of the CAM object, whose generator holds the program. -/
inductive Ran (env : TEnv K) (e : Env K) (rounds limit : Nat) (doc : XNode) (d : Opened K) (ids : List Str) (o : TOpts K) : Option (List K × Cam K) → Prop
  | nothing : runPaths env.num o.tolerance rounds limit doc ids d.height = .ok none → Ran env e rounds limit doc d ids o none
  | cut (paths : List (Path K)) (ds : List K) (s : Cam K) : runPaths env.num o.tolerance rounds limit doc ids d.height = .ok (some paths) →
      Generated env d.info { e with eps := o.tolerance } o paths ds s → Ran env e rounds limit doc d ids o (some (ds, s))

end Verif.Cam
