import Verif.Arith

/-!
# Model of `tcnc/svg/css.py`: colours and inline styles

Text is ASCII: the Unicode blanks and digits that Python also knows are left out.
-/

set_option linter.unusedSectionVars false

namespace Verif.Css
open Verif PyFloat

/-! ## Text -/

/-- Blanks of `str.strip()`. -/
def isWs (c : Char) : Bool := c ∈ [' ', '\t', '\n', '\r', '\x0b', '\x0c', '\x1c', '\x1d', '\x1e', '\x1f']

/-- `str.strip(chars)`. -/
def stripBy (p : Char → Bool) (s : Str) : Str := ((s.dropWhile p).reverse.dropWhile p).reverse

/-- `str.strip()`. -/
def strip (s : Str) : Str := stripBy isWs s

/-- `str.split(sep)` for one character. -/
def splitC (sep : Char) : Str → List Str
  | [] => [[]]
  | c :: s =>
    if c = sep then [] :: splitC sep s
    else match splitC sep s with
      | [] => [[c]]
      | p :: ps => (c :: p) :: ps

/-- `s.startswith(prefix)`. -/
def startsWith (pre s : Str) : Bool := pre.isPrefixOf s

/-! ## Colours -/

/-- A hexadecimal digit. -/
def hexVal (c : Char) : Option Nat :=
  if '0' ≤ c ∧ c ≤ '9' then some (c.toNat - '0'.toNat)
  else if 'a' ≤ c ∧ c ≤ 'f' then some (c.toNat - 'a'.toNat + 10)
  else if 'A' ≤ c ∧ c ≤ 'F' then some (c.toNat - 'A'.toNat + 10)
  else none

/-- Value of hexadecimal digits. -/
def hexNat (s : Str) : Option Nat := s.foldlM (fun n c => (hexVal c).map fun d => 16 * n + d) 0

/-- `int(text, 16)` on a text of at most two characters (so the prefix `0x` cannot occur): blanks around, a sign, digits. -/
def intHex (s : Str) : Option Int :=
  match strip s with
  | [] => none
  | '-' :: t => if t.isEmpty then none else (hexNat t).map fun n => -(n : Int)
  | '+' :: t => if t.isEmpty then none else (hexNat t).map fun n => (n : Int)
  | t => (hexNat t).map fun n => (n : Int)

/-- A tuple or a list of channels. -/
structure Rgb where
  vals : List Int
  isTuple : Bool
  deriving DecidableEq, Repr

/-- `(0, 0, 0)`. -/
def black : Rgb := ⟨[0, 0, 0], true⟩

/-- `csshex_to_rgb` (`svg/css.py:244-270`). -/
def csshexToRgb (s : Str) : Rgb :=
  let h := (strip s).dropWhile (· = '#')
  match h with
  | [a, b, c, d, e, f] =>
    match intHex [a, b], intHex [c, d], intHex [e, f] with
    | some r, some g, some b => ⟨[r, g, b], true⟩
    | _, _, _ => black
  | [a, b, c] =>
    match intHex [a], intHex [b], intHex [c] with
    | some r, some g, some b => ⟨[r * 16 + r, g * 16 + g, b * 16 + b], true⟩
    | _, _, _ => black
  | _ => black

/-- What `int((float(text) / 100.0) * 255)` gives: `ValueError`, `OverflowError` (infinity), or an integer. -/
inductive Pct
  | bad
  | overflow
  | val (n : Int)

/-- `float()` of a percentage, as a parameter of the model. -/
structure CssEnv where
  pct : Str → Pct

/-- Is the text a digit string (`unicode.isnumeric`, ASCII)? -/
def isNumeric (s : Str) : Bool := !s.isEmpty && s.all fun c => '0' ≤ c && c ≤ '9'

/-- Value of a digit string. -/
def decNat (s : Str) : Nat := s.foldl (fun n c => 10 * n + (c.toNat - '0'.toNat)) 0

/-- `max(min(n, 255), 0)`. -/
def clampC (n : Int) : Int := max (min n 255) 0

/-- `parse_channel_value` (`svg/css.py:296-316`); `OverflowError` is not caught. -/
def parseChannel (env : CssEnv) (s : Str) : Except PyErr Int :=
  let v := strip s
  if v.getLast? = some '%' then
    match env.pct ((v.reverse.dropWhile (· = '%')).reverse) with
    | .bad => .ok (clampC 0)
    | .overflow => .error .runtime
    | .val n => .ok (clampC n)
  else if isNumeric v then .ok (clampC (decNat v))
  else .ok (clampC 0)

/-- The channels of a list of texts. -/
def channels (env : CssEnv) : List Str → Except PyErr (List Int)
  | [] => .ok []
  | s :: r => do
    let n ← parseChannel env s
    let ns ← channels env r
    pure (n :: ns)

/-- `cssrgb_to_rgb` (`svg/css.py:273-293`). -/
def cssrgbToRgb (env : CssEnv) (s : Str) : Except PyErr Rgb := do
  let parts := (splitC ',' (stripBy (· ∈ ['r', 'g', 'b', 'a', '(', ')', ' ']) (strip s))).take 4
  let rgb ← channels env parts
  pure ⟨rgb ++ List.replicate (3 - rgb.length) 0, false⟩

/-- `CSS_COLORS` (`svg/css.py:16-163`), generated from the source. -/
def cssColors : List (Str × Int × Int × Int) := [
  ("aliceblue".toList, 240, 248, 255),
  ("antiquewhite".toList, 250, 235, 215),
  ("aqua".toList, 0, 255, 255),
  ("aquamarine".toList, 127, 255, 212),
  ("azure".toList, 240, 255, 255),
  ("beige".toList, 245, 245, 220),
  ("bisque".toList, 255, 228, 196),
  ("black".toList, 0, 0, 0),
  ("blanchedalmond".toList, 255, 235, 205),
  ("blue".toList, 0, 0, 255),
  ("blueviolet".toList, 138, 43, 226),
  ("brown".toList, 165, 42, 42),
  ("burlywood".toList, 222, 184, 135),
  ("cadetblue".toList, 95, 158, 160),
  ("chartreuse".toList, 127, 255, 0),
  ("chocolate".toList, 210, 105, 30),
  ("coral".toList, 255, 127, 80),
  ("cornflowerblue".toList, 100, 149, 237),
  ("cornsilk".toList, 255, 248, 220),
  ("crimson".toList, 220, 20, 60),
  ("cyan".toList, 0, 255, 255),
  ("darkblue".toList, 0, 0, 139),
  ("darkcyan".toList, 0, 139, 139),
  ("darkgoldenrod".toList, 184, 134, 11),
  ("darkgray".toList, 169, 169, 169),
  ("darkgreen".toList, 0, 100, 0),
  ("darkgrey".toList, 169, 169, 169),
  ("darkkhaki".toList, 189, 183, 107),
  ("darkmagenta".toList, 139, 0, 139),
  ("darkolivegreen".toList, 85, 107, 47),
  ("darkorange".toList, 255, 140, 0),
  ("darkorchid".toList, 153, 50, 204),
  ("darkred".toList, 139, 0, 0),
  ("darksalmon".toList, 233, 150, 122),
  ("darkseagreen".toList, 143, 188, 143),
  ("darkslateblue".toList, 72, 61, 139),
  ("darkslategray".toList, 47, 79, 79),
  ("darkslategrey".toList, 47, 79, 79),
  ("darkturquoise".toList, 0, 206, 209),
  ("darkviolet".toList, 148, 0, 211),
  ("deeppink".toList, 255, 20, 147),
  ("deepskyblue".toList, 0, 191, 255),
  ("dimgray".toList, 105, 105, 105),
  ("dimgrey".toList, 105, 105, 105),
  ("dodgerblue".toList, 30, 144, 255),
  ("firebrick".toList, 178, 34, 34),
  ("floralwhite".toList, 255, 250, 240),
  ("forestgreen".toList, 34, 139, 34),
  ("fuchsia".toList, 255, 0, 255),
  ("gainsboro".toList, 220, 220, 220),
  ("ghostwhite".toList, 248, 248, 255),
  ("gold".toList, 255, 215, 0),
  ("goldenrod".toList, 218, 165, 32),
  ("gray".toList, 128, 128, 128),
  ("green".toList, 0, 128, 0),
  ("greenyellow".toList, 173, 255, 47),
  ("grey".toList, 128, 128, 128),
  ("honeydew".toList, 240, 255, 240),
  ("hotpink".toList, 255, 105, 180),
  ("indianred".toList, 205, 92, 92),
  ("indigo".toList, 75, 0, 130),
  ("ivory".toList, 255, 255, 240),
  ("khaki".toList, 240, 230, 140),
  ("lavender".toList, 230, 230, 250),
  ("lavenderblush".toList, 255, 240, 245),
  ("lawngreen".toList, 124, 252, 0),
  ("lemonchiffon".toList, 255, 250, 205),
  ("lightblue".toList, 173, 216, 230),
  ("lightcoral".toList, 240, 128, 128),
  ("lightcyan".toList, 224, 255, 255),
  ("lightgoldenrodyellow".toList, 250, 250, 210),
  ("lightgray".toList, 211, 211, 211),
  ("lightgreen".toList, 144, 238, 144),
  ("lightgrey".toList, 211, 211, 211),
  ("lightpink".toList, 255, 182, 193),
  ("lightsalmon".toList, 255, 160, 122),
  ("lightseagreen".toList, 32, 178, 170),
  ("lightskyblue".toList, 135, 206, 250),
  ("lightslategray".toList, 119, 136, 153),
  ("lightslategrey".toList, 119, 136, 153),
  ("lightsteelblue".toList, 176, 196, 222),
  ("lightyellow".toList, 255, 255, 224),
  ("lime".toList, 0, 255, 0),
  ("limegreen".toList, 50, 205, 50),
  ("linen".toList, 250, 240, 230),
  ("magenta".toList, 255, 0, 255),
  ("maroon".toList, 128, 0, 0),
  ("mediumaquamarine".toList, 102, 205, 170),
  ("mediumblue".toList, 0, 0, 205),
  ("mediumorchid".toList, 186, 85, 211),
  ("mediumpurple".toList, 147, 112, 219),
  ("mediumseagreen".toList, 60, 179, 113),
  ("mediumslateblue".toList, 123, 104, 238),
  ("mediumspringgreen".toList, 0, 250, 154),
  ("mediumturquoise".toList, 72, 209, 204),
  ("mediumvioletred".toList, 199, 21, 133),
  ("midnightblue".toList, 25, 25, 112),
  ("mintcream".toList, 245, 255, 250),
  ("mistyrose".toList, 255, 228, 225),
  ("moccasin".toList, 255, 228, 181),
  ("navajowhite".toList, 255, 222, 173),
  ("navy".toList, 0, 0, 128),
  ("oldlace".toList, 253, 245, 230),
  ("olive".toList, 128, 128, 0),
  ("olivedrab".toList, 107, 142, 35),
  ("orange".toList, 255, 165, 0),
  ("orangered".toList, 255, 69, 0),
  ("orchid".toList, 218, 112, 214),
  ("palegoldenrod".toList, 238, 232, 170),
  ("palegreen".toList, 152, 251, 152),
  ("paleturquoise".toList, 175, 238, 238),
  ("palevioletred".toList, 219, 112, 147),
  ("papayawhip".toList, 255, 239, 213),
  ("peachpuff".toList, 255, 218, 185),
  ("peru".toList, 205, 133, 63),
  ("pink".toList, 255, 192, 203),
  ("plum".toList, 221, 160, 221),
  ("powderblue".toList, 176, 224, 230),
  ("purple".toList, 128, 0, 128),
  ("red".toList, 255, 0, 0),
  ("rosybrown".toList, 188, 143, 143),
  ("royalblue".toList, 65, 105, 225),
  ("saddlebrown".toList, 139, 69, 19),
  ("salmon".toList, 250, 128, 114),
  ("sandybrown".toList, 244, 164, 96),
  ("seagreen".toList, 46, 139, 87),
  ("seashell".toList, 255, 245, 238),
  ("sienna".toList, 160, 82, 45),
  ("silver".toList, 192, 192, 192),
  ("skyblue".toList, 135, 206, 235),
  ("slateblue".toList, 106, 90, 205),
  ("slategray".toList, 112, 128, 144),
  ("slategrey".toList, 112, 128, 144),
  ("snow".toList, 255, 250, 250),
  ("springgreen".toList, 0, 255, 127),
  ("steelblue".toList, 70, 130, 180),
  ("tan".toList, 210, 180, 140),
  ("teal".toList, 0, 128, 128),
  ("thistle".toList, 216, 191, 216),
  ("tomato".toList, 255, 99, 71),
  ("turquoise".toList, 64, 224, 208),
  ("violet".toList, 238, 130, 238),
  ("wheat".toList, 245, 222, 179),
  ("white".toList, 255, 255, 255),
  ("whitesmoke".toList, 245, 245, 245),
  ("yellow".toList, 255, 255, 0),
  ("yellowgreen".toList, 154, 205, 50)]

/-- `CSS_COLORS.get(name)`. -/
def namedColor (s : Str) : Option Rgb := (cssColors.lookup s).map fun c => ⟨[c.1, c.2.1, c.2.2], true⟩

/-- `csscolor_to_rgb` (`svg/css.py:209-241`). -/
def csscolorToRgb (env : CssEnv) (s : Str) : Except PyErr Rgb :=
  let c := lowerS (strip s)
  if startsWith "#".toList c then .ok (csshexToRgb c)
  else if startsWith "rgb".toList c then cssrgbToRgb env c
  else if startsWith "hsl".toList c then .ok black
  else match namedColor c with
    | some rgb => .ok rgb
    | none => if c.all fun x => (hexVal x).isSome then .ok (csshexToRgb c) else .ok black

/-- `'%02x' % n`. -/
def hex2 (n : Int) : Str :=
  match n with
  | .ofNat n => let d := Nat.toDigits 16 n; List.replicate (2 - d.length) '0' ++ d
  | .negSucc n => '-' :: Nat.toDigits 16 (n + 1)

/-- `'#%02x%02x%02x' % rgb`: needs a tuple of exactly three numbers. -/
def formatRgb (rgb : Rgb) : Except PyErr Str :=
  if rgb.isTuple then
    match rgb.vals with
    | [r, g, b] => .ok ('#' :: hex2 r ++ hex2 g ++ hex2 b)
    | _ => .error .typeError
  else .error .typeError

/-- A colour argument: text or a number. -/
inductive Color (K : Type)
  | text (s : Str)
  | num (x : K)

/-- The gray value of a number (`svg/css.py:334-339`); the infinities are left out. -/
def grayOf {K : Type} [PyFloat K] (x : K) : Int :=
  if (zero <. x) && (x <. one) then trunc (x *. ofInt 255)
  else if x <. ofInt 256 then trunc x
  else 0

/-- `csscolor_to_cssrgb` (`svg/css.py:319-345`). -/
def csscolorToCssrgb {K : Type} [PyFloat K] (env : CssEnv) : Color K → Except PyErr Str
  | .num x => formatRgb ⟨[grayOf x, grayOf x, grayOf x], true⟩
  | .text s => do
    let rgb ← csscolorToRgb env s
    formatRgb rgb

/-! ## Inline styles -/

/-- A style dictionary: names and values; a name occurs once. -/
abbrev Style := List (Str × Str)

/-- `d[name] = value`. -/
def Style.set (d : Style) (name value : Str) : Style :=
  match d with
  | [] => [(name, value)]
  | (n, v) :: r => if n = name then (name, value) :: r else (n, v) :: Style.set r name value

/-- `d.get(name)`. -/
def Style.get (d : Style) (name : Str) : Option Str := d.lookup name

/-- `_SVG_WS` (`svg/css.py:180`). -/
def isSvgWs (c : Char) : Bool := c ∈ [' ', '\t', '\r', '\n', '\x0c']

/-- The loop of `inline_style_to_dict` (`svg/css.py:183-189`). -/
def styleLoop (d : Style) : List Str → Except PyErr Style
  | [] => .ok d
  | p :: ps =>
    if p.isEmpty then styleLoop d ps
    else match splitC ':' p with
      | [n, v] =>
        let name := stripBy isSvgWs n
        let value := stripBy isSvgWs v
        styleLoop (if !name.isEmpty && !value.isEmpty then d.set name value else d) ps
      | _ => .error .valueError

/-- `inline_style_to_dict` (`svg/css.py:170-190`). -/
def inlineStyleToDict : Option Str → Except PyErr Style
  | none => .ok []
  | some [] => .ok []
  | some s => styleLoop [] (splitC ';' s)

/-- `dict_to_inline_style` (`svg/css.py:193-205`), with the items in the order given (Python 2 lists them in an arbitrary order). -/
def dictToInlineStyle (d : Style) : Str := joinWith ';' (d.map fun x => x.1 ++ ':' :: x.2)

end Verif.Css
