import Verif.Geom.Point

/-!
# Model of the path data parser of `tcnc/svg/svg.py`: `path_tokenizer`, `parse_path`, `explode_path`

A generator is modelled by the list of everything it yields plus the exception that ends it, if any.
-/

set_option linter.unusedSectionVars false

namespace Verif.Svg
open Verif PyFloat PyTrig Geom

/-! ## `path_tokenizer` -/

/-- A token: its text, and whether it is a command (`svg/svg.py:771-827`). -/
abbrev Tok := Str × Bool

/-- `DIGIT_EXP` (`svg/svg.py:792`). -/
def digitExp : List Char := "0123456789eE".toList
/-- `COMMA_WSP` (`svg/svg.py:793`). -/
def commaWsp : List Char := [',', ' ', '\t', '\n', '\r', '\x0c', '\x0b']
/-- `DRAWTO_COMMAND` (`svg/svg.py:794`). -/
def drawto : List Char := "MmZzLlHhVvCcSsQqTtAa".toList

/-- `yield (entity, False)` if there is an entity. -/
def flush (entity : Str) : List Tok := if entity.isEmpty then [] else [(entity, false)]

/-- The loop of `path_tokenizer` (`svg/svg.py:799-827`); `inFloat` and `entity` are its variables. -/
def tokLoop (inFloat : Bool) (entity : Str) : Str → List Tok
  | [] => flush entity
  | c :: rest =>
    if c ∈ digitExp then tokLoop inFloat (entity ++ [c]) rest
    else if c ∈ commaWsp && !entity.isEmpty then (entity, false) :: tokLoop false [] rest
    else if c ∈ drawto then flush entity ++ ([c], true) :: tokLoop (inFloat && entity.isEmpty) [] rest
    else if c = '.' then
      if inFloat then (entity, false) :: tokLoop inFloat ['.'] rest
      else tokLoop true (entity ++ ['.']) rest
    else if c = '+' ∨ c = '-' then
      if !entity.isEmpty && !(entity.getLast? = some 'e' ∨ entity.getLast? = some 'E') then
        (entity, false) :: tokLoop false [c] rest
      else tokLoop inFloat (entity ++ [c]) rest
    else tokLoop inFloat entity rest

/-- `path_tokenizer` (`svg/svg.py:771-827`). -/
def tokenize (s : Str) : List Tok := tokLoop false [] s

/-! ## Reading numbers -/

/-- Is the character a decimal digit? -/
def isDig (c : Char) : Bool := '0' ≤ c && c ≤ '9'

/-- Value of a digit string. -/
def natOf (s : Str) : Nat := s.foldl (fun n c => 10 * n + (c.toNat - '0'.toNat)) 0

/-- Split off an optional sign: is it negative, and the rest. -/
def takeSign : Str → Bool × Str
  | '-' :: s => (true, s)
  | '+' :: s => (false, s)
  | s => (false, s)

/-- The exponent part of a number: nothing, or `e`/`E`, an optional sign and digits up to the end of the text. -/
def readExp : Str → Option Int
  | [] => some 0
  | c :: s =>
    if c = 'e' ∨ c = 'E' then
      let t := takeSign s
      if t.2.isEmpty || !(t.2.all isDig) then none
      else some (if t.1 then -(natOf t.2 : Int) else natOf t.2)
    else none

/-- The fraction digits after the digits of the integer part, and what follows them. -/
def takeFrac : Str → Str × Str
  | '.' :: s => (s.takeWhile isDig, s.dropWhile isDig)
  | s => ([], s)

/-- The syntax accepted by the builtin `float()` on the text of a token: sign, mantissa digits `m`, and decimal exponent; the
number is `±m · 10^e`.  Text that `float()` also accepts but that cannot occur in a token (blanks, `inf`, `nan`) is
left out. -/
def readDec (s : Str) : Option (Bool × Nat × Int) :=
  let t := takeSign s
  let ip := t.2.takeWhile isDig
  let f := takeFrac (t.2.dropWhile isDig)
  if (ip ++ f.1).isEmpty then none
  else (readExp f.2).map fun e => (t.1, natOf (ip ++ f.1), e - f.1.length)

/-- The syntax accepted by the builtin `int()` on the text of a token. -/
def readInt (s : Str) : Option Int :=
  let t := takeSign s
  if t.2.isEmpty || !(t.2.all isDig) then none else some (if t.1 then -(natOf t.2 : Int) else natOf t.2)

/-- `float(text)`: the float nearest to `±m · 10^e`, given as a parameter of the model. -/
structure NumEnv (K : Type) where
  ofDec : Bool → Nat → Int → K

variable {K : Type} [PyFloat K]

/-- `float(token)`; `ValueError` for text that is not a number. -/
def NumEnv.float (env : NumEnv K) (s : Str) : Except PyErr K :=
  match readDec s with
  | some d => .ok (env.ofDec d.1 d.2.1 d.2.2)
  | none => .error .valueError

/-- `int(token)`, used as a number afterwards. -/
def intVal (s : Str) : Except PyErr K :=
  match readInt s with
  | some n => .ok (ofInt n)
  | none => .error .valueError

/-! ## `parse_path` -/

/-- A parameter of a path command: its cast (`int` or `float`) and its axis (`0`, `1`, or none). -/
structure Param where
  isInt : Bool
  axis : Option Bool        -- false: x, true: y
  deriving DecidableEq, Repr

/-- A float coordinate on the x axis. -/
def pX : Param := ⟨false, some false⟩
/-- A float coordinate on the y axis. -/
def pY : Param := ⟨false, some true⟩

/-- `_PATHDEFS` (`svg/svg.py:842-854`): canonical command and parameters. -/
def pathDef (c : Char) : Option (Char × List Param) :=
  if c = 'M' then some ('M', [pX, pY])
  else if c = 'L' then some ('L', [pX, pY])
  else if c = 'H' then some ('L', [pX])
  else if c = 'V' then some ('L', [pY])
  else if c = 'C' then some ('C', [pX, pY, pX, pY, pX, pY])
  else if c = 'S' then some ('C', [pX, pY, pX, pY])
  else if c = 'Q' then some ('Q', [pX, pY, pX, pY])
  else if c = 'T' then some ('Q', [pX, pY])
  else if c = 'A' then
    some ('A', [⟨false, none⟩, ⟨false, none⟩, ⟨false, none⟩, ⟨true, none⟩, ⟨true, none⟩, pX, pY])
  else if c = 'Z' then some ('L', [])
  else none

/-- Variables of `parse_path` (`svg/svg.py:875-895`); `pathdef` is always the definition of `current_cmd` once that is set. -/
structure PS (K : Type) where
  cmd : Option Char
  moveto : P K
  pen : P K
  ctrl : P K
  rel : Bool
  expecting : Bool
  params : List K

/-- Initial values (`svg/svg.py:875-895`). -/
def PS.init : PS K := ⟨none, ⟨zero, zero⟩, ⟨zero, zero⟩, ⟨zero, zero⟩, false, true, []⟩

/-- `(params[-2], params[-1])`. -/
def last2 (l : List K) : Option (P K) :=
  match l.reverse with
  | y :: x :: _ => some ⟨x, y⟩
  | _ => none

/-- `(params[-4], params[-3])`. -/
def last4 (l : List K) : Option (P K) :=
  match l.reverse with
  | _ :: _ :: b :: a :: _ => some ⟨a, b⟩
  | _ => none

/-- The parameters completed according to the command (`svg/svg.py:941-953`). -/
def PS.complete (st : PS K) (c : Char) (params : List K) : List K :=
  if c = 'Z' then params ++ [st.moveto.x, st.moveto.y]
  else if c = 'H' then params ++ [st.pen.y]
  else if c = 'V' then st.pen.x :: params
  else if c = 'S' ∨ c = 'T' then
    (st.pen.x +. (st.pen.x -. st.ctrl.x)) :: (st.pen.y +. (st.pen.y -. st.ctrl.y)) :: params
  else params

/-- All parameters are there: yield a canonical command (`svg/svg.py:939-965`). -/
def PS.finish (st : PS K) (c out : Char) (params : List K) : Except PyErr (PS K × List (Char × List K)) :=
  match (if c = 'M' then last2 params else some st.moveto) with
  | none => .error .indexError
  | some mv =>
    let full := st.complete c params
    match (if c = 'C' ∨ c = 'Q' then last4 full else some st.pen), last2 full with
    | some ctl, some p => .ok ({ st with moveto := mv, ctrl := ctl, pen := p, params := [], expecting := true }, [(out, full)])
    | _, _ => .error .indexError

/-- The cast of a parameter token, made absolute (`svg/svg.py:927-936`). -/
def PS.value (env : NumEnv K) (st : PS K) (p : Param) (t : Str) : Except PyErr K := do
  let v ← if p.isInt then intVal t else env.float t
  pure (match st.rel, p.axis with
    | true, some false => v +. st.pen.x
    | true, some true => v +. st.pen.y
    | _, _ => v)

/-- A number token while parameters are accumulated (`svg/svg.py:923-965`). -/
def PS.accept (env : NumEnv K) (st : PS K) (c : Char) (t : Str) : Except PyErr (PS K × List (Char × List K)) :=
  match pathDef c with
  | none => .error .keyError
  | some (out, ps) => do
    let params ← match ps[st.params.length]? with
      | some p => do let v ← st.value env p t; pure (st.params ++ [v])
      | none => pure st.params
    if params.length = ps.length then st.finish c out params else pure ({ st with params := params }, [])

/-- A command token where a command is expected (`svg/svg.py:908-914`); `Z` has no parameters, so it is processed at once. -/
def PS.command (env : NumEnv K) (st : PS K) (t : Char) : Except PyErr (PS K × List (Char × List K)) :=
  let st := { st with rel := decide (t ≠ upperC t), cmd := some (upperC t), expecting := false }
  match pathDef (upperC t) with
  | none => .error .keyError
  | some _ => if upperC t = 'Z' then st.accept env 'Z' [] else .ok (st, [])

/-- One token (`svg/svg.py:897-965`): `none` means that parsing stops. -/
def PS.step (env : NumEnv K) (st : PS K) (tok : Tok) : Except PyErr (Option (PS K × List (Char × List K))) :=
  if st.expecting then
    match tok.2, tok.1 with
    | true, t :: _ =>
      if st.cmd = none ∧ upperC t ≠ 'M' then .ok none else (st.command env t).map some
    | true, [] => .ok none
    | false, t =>
      match st.cmd with
      | none => .ok none
      | some c =>
        let c' := if c = 'M' then 'L' else c
        (PS.accept env { st with cmd := some c', expecting := false } c' t).map some
  else if tok.2 then .ok none
  else match st.cmd with
    | some c => (st.accept env c tok.1).map some
    | none => .ok none

/-- The loop of `parse_path` (`svg/svg.py:897-965`): what is yielded, and the exception. -/
def parseLoop (env : NumEnv K) (st : PS K) : List Tok → List (Char × List K) × Option PyErr
  | [] => ([], none)
  | t :: ts =>
    match st.step env t with
    | .error e => ([], some e)
    | .ok none => ([], none)
    | .ok (some (st', out)) =>
      let r := parseLoop env st' ts
      (out ++ r.1, r.2)

/-- `parse_path` (`svg/svg.py:856-967`) on the tokens. -/
def parseTokens (env : NumEnv K) (ts : List Tok) : List (Char × List K) × Option PyErr := parseLoop env PS.init ts

/-- `parse_path` (`svg/svg.py:856-967`). -/
def parsePath (env : NumEnv K) (s : Str) : List (Char × List K) × Option PyErr := parseTokens env (tokenize s)

/-! ## `explode_path` -/

/-- Number formatting: `str(float)`, `'%f' % float` and `str(int)`. -/
structure TextEnv (K : Type) where
  strF : K → Str
  fmtF : K → Str
  strI : K → Str

/-- `' '.join(...)`. -/
def joinSp : List Str → Str
  | [] => []
  | [s] => s
  | s :: r => s ++ ' ' :: joinSp r

/-- `[str(param) for param in params]`: the two flags of an arc are integers, everything else is a float
(`svg/svg.py:987`). -/
def TextEnv.strs (te : TextEnv K) (c : Char) (params : List K) : List Str :=
  match c, params with
  | 'A', [rx, ry, rot, large, sweep, x, y] =>
    [te.strF rx, te.strF ry, te.strF rot, te.strI large, te.strI sweep, te.strF x, te.strF y]
  | _, ps => ps.map te.strF

/-- `'M %f %f %s %s' % (p1[0], p1[1], cmd, paramstr)` (`svg/svg.py:987-988`). -/
def TextEnv.piece (te : TextEnv K) (p : P K) (c : Char) (params : List K) : Str :=
  'M' :: ' ' :: te.fmtF p.x ++ ' ' :: te.fmtF p.y ++ ' ' :: c :: ' ' :: joinSp (te.strs c params)

/-- The loop of `explode_path` (`svg/svg.py:981-990`). -/
def explodeLoop (te : TextEnv K) (p1 : Option (P K)) : List (Char × List K) → Except PyErr (List Str)
  | [] => .ok []
  | (c, params) :: cs =>
    match last2 params with
    | none => .error .indexError
    | some p2 =>
      if c = 'M' then explodeLoop te (some p2) cs
      else do
        let r ← explodeLoop te (some p2) cs
        pure (match p1 with
          | some p => te.piece p c params :: r
          | none => r)

/-- `explode_path` (`svg/svg.py:970-991`); an exception of the parser ends it. -/
def explodePath (env : NumEnv K) (te : TextEnv K) (s : Str) : Except PyErr (List Str) :=
  match explodeLoop te none (parsePath env s).1, (parsePath env s).2 with
  | .error e, _ => .error e
  | .ok _, some e => .error e
  | .ok r, none => .ok r

/-- The number environment of exact decimal arithmetic. -/
def exactQ : NumEnv ℚ := ⟨fun neg m e => (if neg then -(m : ℚ) else m) * (10 : ℚ) ^ e⟩

end Verif.Svg
