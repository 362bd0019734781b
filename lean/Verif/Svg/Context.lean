import Verif.Svg.Path
import Verif.Svg.Css

/-!
# Model of `SVGContext` of `tcnc/svg/svg.py`: units, visibility, transforms
-/

set_option linter.unusedSectionVars false

namespace Verif.Svg
open Verif PyFloat PyTrig Geom Css

/-! ## Units -/

section
variable {K : Type} [PyTrig K]

/-- `_UU_CONV` (`svg/svg.py:67-74`).  It is a class attribute, shared by all contexts; only the entries `em` and `ex` are ever
changed. -/
structure Conv (K : Type) where
  em : K
  ex : K

/-- Initial value of the shared table (`svg/svg.py:67-74`). -/
def Conv.default : Conv K := ⟨lit 125 1, lit 125 1⟩

/-- The unit names (`svg/svg.py:67-74`). -/
def unitNames : List Str := ["em".toList, "ex".toList, "px".toList, "pt".toList, "pc".toList, "mm".toList, "cm".toList, "in".toList,
  "m".toList, "ft".toList, "yd".toList]

/-- The entries of `_UU_CONV` that never change (`svg/svg.py:67-74`). -/
def fixedUnits : List (Str × K) :=
  [("px".toList, lit 10 1), ("pt".toList, lit 125 2), ("pc".toList, lit 150 1), ("mm".toList, lit 3543307 6), ("cm".toList, lit 3543307 5),
   ("in".toList, lit 900 1), ("m".toList, lit 3543307 3), ("ft".toList, lit 1080 0), ("yd".toList, lit 3240 0)]

/-- `_UU_CONV.get(unit)`. -/
def Conv.get (c : Conv K) (u : Str) : Option K :=
  if u = "em".toList then some c.em else if u = "ex".toList then some c.ex else fixedUnits.lookup u

/-- The exponent matched by `([eE][-+]?[0-9]+)?` at the start of the text. -/
def matchExp : Str → Str
  | c :: s =>
    if c = 'e' ∨ c = 'E' then
      match s with
      | d :: r =>
        if d = '-' ∨ d = '+' then
          let ds := r.takeWhile isDig
          if ds.isEmpty then [] else c :: d :: ds
        else
          let ds := s.takeWhile isDig
          if ds.isEmpty then [] else c :: ds
      | [] => []
    else []
  | [] => []

/-- The mantissa matched by `([-+]?[0-9]+(\.[0-9]*)?|[-+]?\.[0-9]+)` after its sign, and the text after it. -/
def matchMant (s : Str) : Option (Str × Str) :=
  let ip := s.takeWhile isDig
  if ip.isEmpty then
    match s with
    | '.' :: t => if (t.takeWhile isDig).isEmpty then none else some ('.' :: t.takeWhile isDig, t.dropWhile isDig)
    | _ => none
  else
    match s.dropWhile isDig with
    | '.' :: t => some (ip ++ '.' :: t.takeWhile isDig, t.dropWhile isDig)
    | r => some (ip, r)

/-- `_UU_FLOAT.match(value)` (`svg/svg.py:77,248`): the text of the number at the start of the value. -/
def matchFloat (s : Str) : Option Str :=
  let sg := match s with
    | '-' :: t => (['-'], t)
    | '+' :: t => (['+'], t)
    | t => ([], t)
  (matchMant sg.2).map fun m => sg.1 ++ m.1 ++ matchExp m.2

/-- `_UU_UNIT.search(value)` (`svg/svg.py:76,251`): the longest suffix that is a unit (the leftmost match).  That `$` also
matches before a final newline is left out. -/
def unitOf : Str → Option Str
  | [] => none
  | c :: s => if (c :: s) ∈ unitNames then some (c :: s) else unitOf s

/-- Is the number zero (division by it raises)? -/
def isZeroF (x : K) : Bool := !(x <. zero) && !(zero <. x)

/-- A table entry, or the string given as default, with which the arithmetic then raises `TypeError`. -/
def Conv.factor (c : Conv K) (u : Str) : Except PyErr K :=
  match c.get u with
  | some f => .ok f
  | none => .error .typeError

/-- `unit_convert` (`svg/svg.py:227-261`) of a text. -/
def unitConvert (env : NumEnv K) (c : Conv K) (value toUnit fromUnit : Str) : Except PyErr K :=
  match matchFloat value with
  | none => .ok zero
  | some t => do
    let v ← env.float t
    let src ← c.factor ((unitOf value).getD fromUnit)
    let dst ← c.factor toUnit
    if isZeroF dst then throw .zeroDivision
    pure (v *. (src /. dst))

/-- An argument: a number or a text. -/
inductive Val (K : Type)
  | num (x : K)
  | text (s : Str)

/-- `unit2uu` (`svg/svg.py:189-211`); `viewScale` is `self.view_scale`. -/
def unit2uu (env : NumEnv K) (c : Conv K) (viewScale : K) (v : Val K) (fromUnit : Str) : Except PyErr K :=
  match v with
  | .num x =>
    match c.get fromUnit with
    | some f => .ok (x *. f *. viewScale)
    | none => .error .keyError
  | .text s => do
    let uu ← unitConvert env c s "px".toList fromUnit
    pure (uu *. viewScale)

/-- `uu2unit` (`svg/svg.py:213-225`): `unit_convert` matches a regular expression against the value, which raises `TypeError`
for a number. -/
def uu2unit (env : NumEnv K) (c : Conv K) (viewScale : K) (v : Val K) (toUnit : Str) : Except PyErr K :=
  match v with
  | .num _ => .error .typeError
  | .text s => do
    let x ← unitConvert env c s toUnit "px".toList
    if isZeroF viewScale then throw .zeroDivision
    pure (x /. viewScale)

/-- What a context remembers (`svg/svg.py:184-187`). -/
structure Ctx (K : Type) where
  viewWidth : K
  viewHeight : K
  viewScale : K
  deriving DecidableEq

/-- The table after `__init__` has set `em` and `ex` (`svg/svg.py:146-151`). -/
def Conv.afterInit (c : Conv K) (fontSize xHeight : Option K) : Conv K :=
  let em := fontSize.getD c.em
  ⟨em, xHeight.getD em⟩

/-- The part of `SVGContext.__init__` that determines the scale (`svg/svg.py:157-187`); the numbers of the `viewBox` attribute are
given already parsed; `eps` is `self._epsilon`. -/
def viewOf (env : NumEnv K) (c : Conv K) (eps : K) (width height : Str) (viewBox : Option (List K)) : Except PyErr (Ctx K) := do
  let vw ← unitConvert env c width "px".toList "px".toList
  let vh ← unitConvert env c height "px".toList "px".toList
  let vb := viewBox.getD [zero, zero, vw, vh]
  match vb with
  | x0 :: y0 :: x1 :: y1 :: _ =>
    let w := x1 -. x0
    let h := y1 -. y0
    if isZeroF vw || isZeroF vh then throw .zeroDivision
    if PyFloat.abs ((w /. vw) -. (h /. vh)) <. eps then pure ⟨w, h, w /. vw⟩ else throw .runtime
  | _ => throw .indexError

/-- A history of creating contexts: what each leaves in the shared table (`svg/svg.py:146-151`). -/
def convAfter (c : Conv K) (inits : List (Option K × Option K)) : Conv K :=
  inits.foldl (fun c x => c.afterInit x.1 x.2) c

/-! ## Transforms -/

/-- `math.radians`. -/
def radians (x : K) : K := x *. pi /. ofInt 180

/-- One transform of a list (`svg/svg.py:406-432`): `none` for a name that is matched but not known (case differs). -/
def transformMatrix (name : Str) (v : List K) : Except PyErr (Option (Mat K)) :=
  if name = "translate".toList then
    match v with
    | [] => .error .indexError
    | [x] => .ok (some (Mat.translate x zero))
    | x :: y :: _ => .ok (some (Mat.translate x y))
  else if name = "scale".toList then
    match v with
    | [] => .error .indexError
    | [x] => .ok (some (Mat.scale x x none))
    | x :: y :: _ => .ok (some (Mat.scale x y none))
  else if name = "rotate".toList then
    match v with
    | [] => .error .indexError
    | [a] => .ok (some (Mat.rotate (radians a) ⟨zero, zero⟩))
    | [a, cx] => .ok (some (Mat.rotate (radians a) ⟨cx, zero⟩))
    | a :: cx :: cy :: _ => .ok (some (Mat.rotate (radians a) ⟨cx, cy⟩))
  else if name = "skewX".toList then
    match v with
    | [] => .error .indexError
    | a :: _ => .ok (some (Mat.skewX (radians a)))
  else if name = "skewY".toList then
    match v with
    | [] => .error .indexError
    | a :: _ => .ok (some (Mat.skewY (radians a)))
  else if name = "matrix".toList then
    match v with
    | a :: b :: c :: d :: e :: f :: _ => .ok (some ⟨a, c, e, b, d, f⟩)
    | _ => .error .indexError
  else .ok none

/-- The names of `_TRANSFORM_RE` (`svg/svg.py:79`). -/
def transformNames : List Str := ["matrix".toList, "translate".toList, "scale".toList, "rotate".toList, "skewX".toList, "skewY".toList]

/-- Blanks of a regular expression. -/
def isReWs (c : Char) : Bool := c ∈ [' ', '\t', '\n', '\r', '\x0b', '\x0c']

/-- The part of a match of `_TRANSFORM_RE` after the name: arguments and the text after the match (`svg/svg.py:79`). -/
def matchArgs (s : Str) : Option (Str × Str) :=
  match s.dropWhile isReWs with
  | '(' :: r =>
    match r.dropWhile (· ≠ ')') with
    | ')' :: t =>
      match t.dropWhile isReWs with
      | ',' :: u => some (r.takeWhile (· ≠ ')'), u)
      | u => some (r.takeWhile (· ≠ ')'), u)
    | _ => none
  | _ => none

/-- A match of `_TRANSFORM_RE` at the start of the text (`svg/svg.py:79`): the name as written, the arguments and the rest. -/
def matchTransform (s : Str) : Option (Str × Str × Str) :=
  transformNames.findSome? fun n =>
    if lowerS (s.take n.length) = lowerS n then (matchArgs (s.drop n.length)).map fun m => (s.take n.length, m.1, m.2) else none

/-- `_TRANSFORM_RE.findall` (`svg/svg.py:402`); the first argument bounds the number of steps (the length of the text is
enough). -/
def findTransforms : Nat → Str → List (Str × Str)
  | 0, _ => []
  | _, [] => []
  | n + 1, c :: s =>
    match matchTransform (c :: s) with
    | some (name, args, rest) => (name, args) :: findTransforms n rest
    | none => findTransforms n s

/-- `str.split()` (and `replace(',', ' ')` before it). -/
def splitArgs (cur : Str) : Str → List Str
  | [] => if cur.isEmpty then [] else [cur]
  | c :: s => if isWs c || c = ',' then (if cur.isEmpty then splitArgs [] s else cur :: splitArgs [] s) else splitArgs (cur ++ [c]) s

/-- `[float(n) for n in args.replace(',', ' ').split()]` (`svg/svg.py:406`). -/
def floats (env : NumEnv K) : List Str → Except PyErr (List K)
  | [] => .ok []
  | s :: r => do
    let v ← env.float s
    let vs ← floats env r
    pure (v :: vs)

/-- The matrices of the found transforms (`svg/svg.py:404-432`). -/
def transformList (env : NumEnv K) : List (Str × Str) → Except PyErr (List (Mat K))
  | [] => .ok []
  | (name, args) :: r => do
    let vs ← floats env (splitArgs [] args)
    let m ← transformMatrix name vs
    let ms ← transformList env r
    pure (match m with
      | some m => m :: ms
      | none => ms)

/-- `parse_transform_attr` (`svg/svg.py:390-439`). -/
def parseTransform (env : NumEnv K) (attr : Option Str) : Except PyErr (Mat K) :=
  match attr with
  | none => .ok Mat.ident
  | some s => do
    let t := strip s
    let ms ← transformList env (findTransforms t.length t)
    pure (ms.foldl Mat.compose Mat.ident)

/-- The loop of `get_parent_transform` (`svg/svg.py:350-355`) over the `transform` attributes of the ancestors, nearest first. -/
def parentLoop (env : NumEnv K) (m : Mat K) : List (Option Str) → Except PyErr (Mat K)
  | [] => .ok m
  | a :: r =>
    match a with
    | none => parentLoop env m r
    | some s => do
      let pm ← parseTransform env (some s)
      parentLoop env (pm.compose m) r

/-- `get_parent_transform` (`svg/svg.py:337-356`): the `transform` attributes of the ancestors below the root, nearest first. -/
def parentTransform (env : NumEnv K) (ancestors : List (Option Str)) : Except PyErr (Mat K) := parentLoop env Mat.ident ancestors

/-- `get_element_transform` (`svg/svg.py:317-334`). -/
def elementTransform (env : NumEnv K) (attr : Option Str) (ancestors : List (Option Str)) : Except PyErr (Mat K) := do
  let m ← parentTransform env ancestors
  match attr with
  | none => pure m
  | some s => if s.isEmpty then pure m else do
    let nm ← parseTransform env (some s)
    pure (m.compose nm)

end

/-! ## Visibility -/

/-- The attributes of an element that decide its visibility. -/
structure Node where
  style : Option Str
  visibility : Option Str

/-- `node_is_visible` (`svg/svg.py:358-388`); the list is the node and its ancestors, the node first; the call on the parent of
the root element has no node. -/
def nodeVisible (checkParent recurs : Bool) : List Node → Except PyErr Bool
  | [] => .ok recurs
  | n :: ns => do
    let styles ← inlineStyleToDict n.style
    if styles.get "display".toList = some "none".toList then return false
    let vis := match styles.get "visibility".toList with
      | some v => some v
      | none => n.visibility
    if vis = some "inherit".toList && !checkParent then nodeVisible true true ns
    else if vis = some "hidden".toList || vis = some "collapse".toList then return false
    else if checkParent then nodeVisible true true ns
    else return true

end Verif.Svg
