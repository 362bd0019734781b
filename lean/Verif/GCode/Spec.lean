import Verif.GCode.Model

/-!
# Reference G-code machine (specification)

A deliberately small RS274/LinuxCNC-style controller, written without reference to the generator's
internals.  It executes one block (command plus words) at a time and remembers where each axis is, the feed rate in
force and whether the spindle was commanded on.  `none` means "unknown".
-/

namespace Verif.GCode
open Verif

variable {K : Type}

/-- Controller state. -/
structure Machine (K : Type) where
  /-- commanded position per axis letter, in program units (linear) or degrees (rotary) -/
  pos : Char → Option K
  /-- modal feed rate -/
  feed : Option K
  /-- spindle commanded on? -/
  spindle : Bool

/-- Power-on state: nothing is known about the axes, no feed rate, spindle off. -/
def Machine.off : Machine K := ⟨fun _ => none, none, false⟩

/-- The axis letters of the controller. -/
def axisLetters : List Char := ['X', 'Y', 'Z', 'A', 'B', 'C', 'U', 'V', 'W']

/-- A word is a single letter followed by a number; anything else cannot be read. -/
def Word.read (w : Word K) : Option (Char × K) :=
  match w.name, w.val with
  | [c], .num _ v => some (c, v)
  | _, _ => none

/-- Give up knowledge of the position. -/
def Machine.lost (m : Machine K) : Machine K := { m with pos := fun _ => none }

/-- Apply one word of a motion block: axis words set the axis target, `F` sets the feed rate, other
letters (`I`, `J`, `R`, …) do not affect where the motion ends.  An unreadable word is a fault. -/
def Machine.word (m : Machine K) (w : Word K) : Machine K :=
  match w.read with
  | none => m.lost
  | some (c, v) =>
    if c ∈ axisLetters then { m with pos := fun d => if d = c then some v else m.pos d }
    else if c = 'F' then { m with feed := some v }
    else m

/-- Motion commands. -/
def isMotion (cmd : Str) : Bool := cmd ∈ ["G00".toList, "G01".toList, "G02".toList, "G03".toList]

/-- Feed motion commands: executed at the feed rate in force. -/
def isFeed (cmd : Str) : Bool := cmd ∈ ["G01".toList, "G02".toList, "G03".toList]

/-- Commands known not to move any axis (`words` of these are parameters, not targets). -/
def isStationary (cmd : Str) : Bool :=
  cmd ∈ ["G04".toList, "G17".toList, "G20".toList, "G21".toList, "G40".toList, "G49".toList, "G61".toList,
    "G64".toList, "G90".toList, "M0".toList, "M00".toList, "M1".toList, "M01".toList, "M2".toList, "M02".toList,
    "M3".toList, "M03".toList, "M4".toList, "M04".toList, "M5".toList, "M05".toList]

/-- Execute one block. -/
def Machine.exec (m : Machine K) (b : Block K) : Machine K :=
  if isMotion b.cmd || b.cmd = "G92".toList || b.cmd.isEmpty then b.words.foldl Machine.word m
  else
    let m := if b.cmd ∈ ["M3".toList, "M03".toList, "M4".toList, "M04".toList] then { m with spindle := true }
      else if b.cmd ∈ ["M5".toList, "M05".toList, "M2".toList, "M02".toList] then { m with spindle := false }
      else m
    if isStationary b.cmd then m else m.lost

/-- The machine-relevant blocks of an output stream (comments, numbering and blank lines dropped). -/
def blocksOf (out : List (Out K)) : List (Block K) :=
  out.filterMap fun o => match o with
    | .raw _ => none
    | .line _ b _ => some b

/-- Run a whole program. -/
def Machine.run (m : Machine K) (bs : List (Block K)) : Machine K := bs.foldl Machine.exec m

/-- The controller after executing everything the generator has written so far. -/
def Gen.machine (g : Gen K) : Machine K := Machine.off.run (blocksOf g.out)

end Verif.GCode
