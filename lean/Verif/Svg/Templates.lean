import Verif.Svg.Context

/-!
# Model of the style templates of `tcnc/svg/svg.py`

`styles_from_templates`, with `string.Template.substitute` of the Python library, and `scale_inline_style`.
Python writes a number with `'%s'` or `str`; `fmt` stands for that.
-/

set_option linter.unusedSectionVars false

namespace Verif.Svg
open Verif PyFloat PyTrig Geom Css

/-! ## `string.Template` -/

/-- `[_a-z]`, upper case too. -/
def isIdStart (c : Char) : Bool := c = '_' || ('a' ≤ c && c ≤ 'z') || ('A' ≤ c && c ≤ 'Z')

/-- `[_a-z0-9]`, upper case too. -/
def isIdChar (c : Char) : Bool := isIdStart c || isDig c

/-- Where `Template.substitute` is in the text. -/
inductive Scan
  | plain
  | dollar
  | named (acc : Str)
  | opened
  | braced (acc : Str)

/-- `string.Template(text).substitute(mapping)` (called in `svg/svg.py:494-495`): `$$` is a dollar sign, `$name` and `${name}` are looked up, anything else after a dollar sign raises
`ValueError`. -/
def subst (look : Str → Except PyErr Str) : Scan → Str → Except PyErr Str
  | .plain, [] => .ok []
  | .plain, c :: s =>
    if c = '$' then subst look .dollar s
    else do
      let r ← subst look .plain s
      pure (c :: r)
  | .dollar, [] => .error .valueError
  | .dollar, c :: s =>
    if c = '$' then do
      let r ← subst look .plain s
      pure ('$' :: r)
    else if c = '{' then subst look .opened s
    else if isIdStart c then subst look (.named [c]) s
    else .error .valueError
  | .named acc, [] => look acc
  | .named acc, c :: s =>
    if isIdChar c then subst look (.named (acc ++ [c])) s
    else do
      let v ← look acc
      if c = '$' then do
        let r ← subst look .dollar s
        pure (v ++ r)
      else do
        let r ← subst look .plain s
        pure (v ++ c :: r)
  | .opened, [] => .error .valueError
  | .opened, c :: s => if isIdStart c then subst look (.braced [c]) s else .error .valueError
  | .braced _, [] => .error .valueError
  | .braced acc, c :: s =>
    if isIdChar c then subst look (.braced (acc ++ [c])) s
    else if c = '}' then do
      let v ← look acc
      let r ← subst look .plain s
      pure (v ++ r)
    else .error .valueError

/-! ## `styles_from_templates` -/

section
variable {K : Type} [PyTrig K]

/-- `key.endswith(('width', 'height', 'size'))` (`svg/svg.py:449`, `486`). -/
def isSizeKey (k : Str) : Bool := ("width".toList).isSuffixOf k || ("height".toList).isSuffixOf k || ("size".toList).isSuffixOf k

/-- The value of a template key (`svg/svg.py:478-483`): the one of the options if there is one that is not `None`, otherwise the default. -/
def chosen (opts : Option (Str → Option (Val K))) (k : Str) (dflt : Option (Val K)) : Option (Val K) :=
  match opts.bind (fun o => o k) with
  | some v => some v
  | none => dflt

/-- What goes into the mapping (`svg/svg.py:484-491`); `unit` is `self.unit2uu`. -/
def mapEntry (unit : Str → Except PyErr K) (k : Str) : Option (Val K) → Except PyErr (Option (Val K))
  | none => .ok none
  | some (.num x) => .ok (some (.num x))
  | some (.text s) =>
    if isSizeKey k then do
      let x ← unit s
      pure (some (.num x))
    else .ok (some (.text s))

/-- The mapping (`svg/svg.py:475-491`), with the defaults in any order. -/
def templateMap (unit : Str → Except PyErr K) (opts : Option (Str → Option (Val K))) : List (Str × Option (Val K)) → Except PyErr (List (Str × Val K))
  | [] => .ok []
  | (k, d) :: r => do
    let v ← mapEntry unit k (chosen opts k d)
    let m ← templateMap unit opts r
    match v with
    | some v => pure ((k, v) :: m)
    | none => pure m

/-- `'%s' % (value,)` in `Template.substitute`. -/
def showVal (fmt : K → Str) : Val K → Str
  | .num x => fmt x
  | .text s => s

/-- `mapping[name]`. -/
def lookVal (fmt : K → Str) (m : List (Str × Val K)) (name : Str) : Except PyErr Str :=
  match m.lookup name with
  | some v => .ok (showVal fmt v)
  | none => .error .keyError

/-- The loop over the templates (`svg/svg.py:492-495`), in any order. -/
def fillAll (look : Str → Except PyErr Str) : List (Str × Str) → Except PyErr (List (Str × Str))
  | [] => .ok []
  | (n, t) :: r => do
    let s ← subst look .plain t
    let ss ← fillAll look r
    pure ((n, s) :: ss)

/-- `styles_from_templates` (`svg/svg.py:454-496`). -/
def stylesFromTemplates (unit : Str → Except PyErr K) (fmt : K → Str) (templates : List (Str × Str)) (defaults : List (Str × Option (Val K)))
    (opts : Option (Str → Option (Val K))) : Except PyErr (List (Str × Str)) := do
  let m ← templateMap unit opts defaults
  fillAll (lookVal fmt m) templates

/-- The loop of `scale_inline_style` (`svg/svg.py:448-451`). -/
def scaleProps (unit : Str → Except PyErr K) (fmt : K → Str) : Style → Except PyErr Style
  | [] => .ok []
  | (n, v) :: r => do
    let w ← if isSizeKey n then (unit v).map fmt else .ok v
    let rest ← scaleProps unit fmt r
    pure ((n, w) :: rest)

/-- `scale_inline_style` (`svg/svg.py:441-452`), with the items in the order given. -/
def scaleInlineStyle (unit : Str → Except PyErr K) (fmt : K → Str) (s : Str) : Except PyErr Str := do
  let d ← inlineStyleToDict (some s)
  let d ← scaleProps unit fmt d
  pure (dictToInlineStyle d)

end

end Verif.Svg
