/-!
# Python runtime conventions shared by all models

The code base is Python 2.7 (`/repo/tcnc/cam/gcode.py:1-25` and siblings: `StringIO`,
`__future__` imports).  Text is a list of characters, exceptions are values.
-/

namespace Verif

/-- Python `str` values. -/
abbrev Str := List Char

/-- The exceptions the modelled code can raise. -/
inductive PyErr where
  | gcode        -- cam.gcode.GCodeException   (cam/gcode.py:77-79)
  | cam          -- cam.util.CAMException      (cam/util.py)
  | typeError
  | valueError
  | attributeError
  | indexError
  | keyError
  | unboundLocal
  | zeroDivision
  | runtime      -- unittest assertions, RuntimeError
  deriving DecidableEq, Repr

/-- ASCII `str.upper()` on one character (the code only upper-cases G-code letters). -/
def upperC (c : Char) : Char := if 'a' ≤ c ∧ c ≤ 'z' then Char.ofNat (c.toNat - 32) else c

/-- ASCII `str.upper()`. -/
def upperS (s : Str) : Str := s.map upperC

/-- ASCII `str.lower()` on one character. -/
def lowerC (c : Char) : Char := if 'A' ≤ c ∧ c ≤ 'Z' then Char.ofNat (c.toNat + 32) else c

/-- ASCII `str.lower()`. -/
def lowerS (s : Str) : Str := s.map lowerC

/-- `' '.join(parts)` for a one-character separator. -/
def joinWith (sep : Char) : List Str → Str
  | [] => []
  | [p] => p
  | p :: q :: ps => p ++ sep :: joinWith sep (q :: ps)

/-- Decimal digits of a natural number (`'%d' % n`). -/
def natDigits (n : Nat) : Str := (Nat.toDigits 10 n)

/-- `'%d' % n` for an integer. -/
def intDigits : Int → Str
  | .ofNat n => natDigits n
  | .negSucc n => '-' :: natDigits (n + 1)

end Verif
