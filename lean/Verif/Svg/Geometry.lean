import Verif.Svg.Css
import Verif.Svg.Path
import Verif.Geom.Ellipse

/-!
# Model of `tcnc/svg/geomsvg.py`

Text attributes are ASCII; `float(text)` is `NumEnv.float` of the text without surrounding blanks.
-/

set_option linter.unusedSectionVars false

namespace Verif.Svg
open Verif PyFloat PyTrig Geom Css

variable {K : Type} [PyTrig K]

/-- An element: its tag without name space, and its attributes. -/
structure Elem where
  tag : Str
  attr : List (Str × Str)

/-- `element.get(name)`. -/
def Elem.get (e : Elem) (name : Str) : Option Str := e.attr.lookup name

/-- `float(element.get(name, 0))` (`svg/geomsvg.py:197-200`). -/
def Elem.num (env : NumEnv K) (e : Elem) (name : String) : Except PyErr K :=
  match e.get name.toList with
  | none => .ok zero
  | some s => env.float (strip s)

/-! ## `parse_path_geom` -/

/-- What an arc command draws (`svg/geomsvg.py:149-171`).  `from_endpoints` only tests whether the flags are equal, and nothing later
uses them, so `beq` of them is passed on. -/
def arcShapes (eps : K) (rounds : Nat) (toBez : Bool) (p1 p2 : P K) (rx ry phi large sweep : K) : Except PyErr (List (Shape K)) := do
  let ea ← EArc.fromEndpoints eps p1 p2 rx ry (PyTrig.beq large sweep) true phi
  match ea with
  | none => pure [.line ⟨p1, p2⟩]
  | some e =>
    if floatEq eps rx ry then do
      let a ← Arc.mk' eps p1 p2 rx e.sweep (some e.ell.center)
      pure [.arc a]
    else if toBez then
      match bezierEllipse rounds e.ell e.start e.sweep with
      | some bs => pure (bs.map .bez)
      | none => .error .runtime
    else pure [.other p1 p2]

/-- What a command draws from the pen position (`svg/geomsvg.py:146-177`); `none` for a move. -/
def cmdShapes (eps : K) (rounds : Nat) (toBez : Bool) (p1 : P K) (c : Char) (params : List K) : Except PyErr (Option (List (Shape K))) :=
  match last2 params with
  | none => .error .indexError
  | some p2 =>
    if c = 'M' then .ok none
    else if c = 'L' then .ok (some [.line ⟨p1, p2⟩])
    else if c = 'A' then
      match params with
      | rx :: ry :: phi :: large :: sweep :: _ => do
        let l ← arcShapes eps rounds toBez p1 p2 rx ry phi large sweep
        pure (some l)
      | _ => .error .indexError
    else if c = 'C' then
      match params with
      | a :: b :: x :: y :: _ => .ok (some [.bez ⟨p1, ⟨a, b⟩, ⟨x, y⟩, p2⟩])
      | _ => .error .indexError
    else if c = 'Q' then
      match params with
      | a :: b :: _ => .ok (some [.bez (Bez.fromQuadratic p1 ⟨a, b⟩ p2)])
      | _ => .error .indexError
    else .ok (some [])

/-- The loop of `parse_path_geom` (`svg/geomsvg.py:133-180`) over what `parse_path` yields; `sub` is `subpath`. -/
def geomLoop (eps : K) (rounds : Nat) (toBez : Bool) (p1 : P K) (sub : List (Shape K)) :
    List (Char × List K) → Option PyErr → Except PyErr (List (List (Shape K)))
  | [], some e => .error e
  | [], none => .ok (if sub.isEmpty then [] else [sub])
  | (c, params) :: rest, err => do
    let s ← cmdShapes eps rounds toBez p1 c params
    let p2 := (last2 params).getD p1
    match s with
    | none => do
      let l ← geomLoop eps rounds toBez p2 [] rest err
      pure (if sub.isEmpty then l else sub :: l)
    | some l => geomLoop eps rounds toBez p2 (sub ++ l) rest err

/-- `parse_path_geom` (`svg/geomsvg.py:119-180`). -/
def parsePathGeom (env : NumEnv K) (eps : K) (rounds : Nat) (toBez : Bool) (s : Str) : Except PyErr (List (List (Shape K))) :=
  geomLoop eps rounds toBez ⟨zero, zero⟩ [] (parsePath env s).1 (parsePath env s).2

/-! ## Shapes -/

/-- `convert_rect` (`svg/geomsvg.py:183-203`). -/
def convertRect (env : NumEnv K) (e : Elem) : Except PyErr (List (Shape K)) := do
  let x1 ← e.num env "x"
  let y1 ← e.num env "y"
  let w ← e.num env "width"
  let h ← e.num env "height"
  let x2 := x1 +. w
  let y2 := y1 +. h
  pure [.line ⟨⟨x1, y1⟩, ⟨x1, y2⟩⟩, .line ⟨⟨x1, y2⟩, ⟨x2, y2⟩⟩, .line ⟨⟨x2, y2⟩, ⟨x2, y1⟩⟩, .line ⟨⟨x2, y1⟩, ⟨x1, y1⟩⟩]

/-- `convert_line` (`svg/geomsvg.py:206-220`): a `Line`, not a list. -/
def convertLine (env : NumEnv K) (e : Elem) : Except PyErr (Line K) := do
  let x1 ← e.num env "x1"
  let y1 ← e.num env "y1"
  let x2 ← e.num env "x2"
  let y2 ← e.num env "y2"
  pure ⟨⟨x1, y1⟩, ⟨x2, y2⟩⟩

/-- `convert_circle` (`svg/geomsvg.py:223-245`). -/
def convertCircle (env : NumEnv K) (e : Elem) : Except PyErr (List (Shape K)) := do
  let r ← e.num env "r"
  let r := PyFloat.abs r
  let cx ← e.num env "cx"
  let cy ← e.num env "cy"
  let c : P K := ⟨cx, cy⟩
  let p1 : P K := ⟨cx +. r, cy⟩
  let p2 : P K := ⟨cx, cy +. r⟩
  let p3 : P K := ⟨cx -. r, cy⟩
  let p4 : P K := ⟨cx, cy -. r⟩
  let q := pi /. ofInt 2
  pure [.arc ⟨p1, p2, r, q, c⟩, .arc ⟨p2, p3, r, q, c⟩, .arc ⟨p3, p4, r, q, c⟩, .arc ⟨p4, p1, r, q, c⟩]

/-- `convert_ellipse` (`svg/geomsvg.py:248-262`). -/
def convertEllipse (env : NumEnv K) (eps : K) (e : Elem) : Except PyErr (Ell K) := do
  let rx ← e.num env "rx"
  let ry ← e.num env "ry"
  let cx ← e.num env "cx"
  let cy ← e.num env "cy"
  pure (Ell.mk' eps ⟨cx, cy⟩ rx (some ry) zero)

/-- `text.split()`: the words between blanks; `cur` is the current word. -/
def wordsFrom (cur : Str) : Str → List Str
  | [] => if cur.isEmpty then [] else [cur]
  | c :: r => if isWs c then (if cur.isEmpty then wordsFrom [] r else cur :: wordsFrom [] r) else wordsFrom (cur ++ [c]) r

/-- `sx, sy = point.split(',')` and the conversion of both (`svg/geomsvg.py:278-283`). -/
def pointOf (env : NumEnv K) (w : Str) : Except PyErr (P K) :=
  match splitC ',' w with
  | [sx, sy] => do
    let x ← env.float sx
    let y ← env.float sy
    pure ⟨x, y⟩
  | _ => .error .valueError

/-- The loop of `convert_polyline` (`svg/geomsvg.py:281-285`). -/
def polyLoop (env : NumEnv K) (prev : P K) : List Str → Except PyErr (List (Line K))
  | [] => .ok []
  | w :: ws => do
    let p ← pointOf env w
    let l ← polyLoop env p ws
    pure (⟨prev, p⟩ :: l)

/-- `convert_polyline` (`svg/geomsvg.py:265-285`). -/
def convertPolyline (env : NumEnv K) (e : Elem) : Except PyErr (List (Line K)) :=
  match wordsFrom [] ((e.get "points".toList).getD []) with
  | [] => .error .indexError
  | w :: ws => do
    let p ← pointOf env w
    polyLoop env p ws

/-- `convert_polygon` (`svg/geomsvg.py:288-302`): `!=` on lines compares the points with `P.__eq__`; the added line is made of two lines instead of two points,
which raises `TypeError` in `P.__new__`. -/
def convertPolygon (env : NumEnv K) (eps : K) (e : Elem) : Except PyErr (List (Line K)) := do
  let segs ← convertPolyline env e
  match segs.head?, segs.getLast? with
  | some a, some z =>
    if 1 < segs.length && !(z.p1.eq eps a.p1 && z.p2.eq eps a.p2) then .error .typeError else pure segs
  | _, _ => pure segs

/-! ## `svg_element_to_geometry` -/

/-- A subpath that is returned: a list of segments, or (for a `line` element) a bare `Line`, which is a tuple of two points. -/
inductive Sub (K : Type)
  | path (l : List (Shape K))
  | bare (l : Line K)

/-- The subpaths of an element before transforming (`svg/geomsvg.py:74-96`). -/
def rawSubs (env : NumEnv K) (eps : K) (rounds : Nat) (e : Elem) : Except PyErr (List (Sub K)) :=
  let wrap := fun (l : List (Shape K)) => if l.isEmpty then [] else [Sub.path l]
  if e.tag = "path".toList then
    match e.get "d".toList with
    | some (c :: s) => do
      let l ← parsePathGeom env eps rounds true (c :: s)
      pure (l.map .path)
    | _ => .ok []
  else if e.tag = "line".toList then do
    let l ← convertLine env e
    pure [.bare l]
  else if e.tag = "ellipse".toList then do
    let el ← convertEllipse env eps e
    match bezierEllipse rounds el zero (pi *. ofInt 2) with
    | some bs => pure (wrap (bs.map .bez))
    | none => .error .runtime
  else if e.tag = "rect".toList then do
    let l ← convertRect env e
    pure (wrap l)
  else if e.tag = "circle".toList then do
    let l ← convertCircle env e
    pure (wrap l)
  else if e.tag = "polyline".toList then do
    let l ← convertPolyline env e
    pure (wrap (l.map .line))
  else if e.tag = "polygon".toList then do
    let l ← convertPolygon env eps e
    pure (wrap (l.map .line))
  else .ok []

/-- `segment.transform(matrix)` of each class (`geom/line.py:535-544`, `geom/arc.py:264-290`, `geom/bezier.py:84-88`); an elliptical arc does not occur here. -/
def shapeTransform (eps : K) (m : Mat K) : Shape K → Except PyErr (Shape K)
  | .line l => .ok (.line (l.transform m))
  | .arc a => do
    let b ← a.transform eps m
    pure (.arc b)
  | .bez b => .ok (.bez (b.transform m))
  | .other _ _ => .error .attributeError

/-- The inner loop: zero length segments are left out (`svg/geomsvg.py:108-113`). -/
def transformShapes (eps : K) (m : Mat K) : List (Shape K) → Except PyErr (List (Shape K))
  | [] => .ok []
  | s :: r =>
    if s.p1.eq eps s.p2 then transformShapes eps m r
    else do
      let t ← shapeTransform eps m s
      let l ← transformShapes eps m r
      pure (t :: l)

/-- The outer loop (`svg/geomsvg.py:106-115`): the points of a bare line have no attribute `p1`. -/
def transformSubs (eps : K) (m : Mat K) : List (Sub K) → Except PyErr (List (Sub K))
  | [] => .ok []
  | .bare _ :: _ => .error .attributeError
  | .path l :: r => do
    let l' ← transformShapes eps m l
    let r' ← transformSubs eps m r
    pure (.path l' :: r')

/-- `svg_element_to_geometry` (`svg/geomsvg.py:53-116`). -/
def elementGeometry (env : NumEnv K) (eps : K) (rounds : Nat) (e : Elem) (elemT parentT : Option (Mat K)) : Except PyErr (List (Sub K)) := do
  let subs ← rawSubs env eps rounds e
  if subs.isEmpty then pure subs
  else
    match parentT, elemT with
    | some _, none => .error .typeError
    | some p, some m => transformSubs eps (p.compose m) subs
    | none, some m => transformSubs eps m subs
    | none, none => pure subs

/-- `svg_to_geometry` (`svg/geomsvg.py:26-50`). -/
def svgToGeometry (env : NumEnv K) (eps : K) (rounds : Nat) (parentT : Option (Mat K)) : List (Elem × Option (Mat K)) → Except PyErr (List (Sub K))
  | [] => .ok []
  | (e, m) :: r => do
    let l ← elementGeometry env eps rounds e m parentT
    let l' ← svgToGeometry env eps rounds parentT r
    pure (l ++ l')

end Verif.Svg
