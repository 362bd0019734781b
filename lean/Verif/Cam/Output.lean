import Verif.Svg.Css
import Verif.Svg.Path

/-!
# Model of `tcnc/cam/output.py`: names of output files
-/

set_option linter.unusedSectionVars false

namespace Verif.Output
open Verif Css Svg

/-- `os.path.splitext` of a name without directory: the last point splits the name, unless only points stand before it. -/
def splitext (s : Str) : Str × Str :=
  let r := s.reverse
  match r.dropWhile (· ≠ '.') with
  | [] => (s, [])
  | _ :: pre => if pre.all (· = '.') then (s, []) else (pre.reverse, '.' :: (r.takeWhile (· ≠ '.')).reverse)

/-- The rest of a text after a given start. -/
def afterPrefix : Str → Str → Option Str
  | [], s => some s
  | _ :: _, [] => none
  | a :: p, c :: s => if a = c then afterPrefix p s else none

/-- `fnmatch` with the pattern `root_[0-9]*ext` (`cam/output.py:53-54`), for a root and extension without the characters `*?[`
(which would be taken as pattern characters), on a system where file names are case sensitive. -/
def isNumbered (root ext name : Str) : Bool :=
  match afterPrefix (root ++ ['_']) name with
  | some (d :: more) => isDig d && ext.isSuffixOf more
  | _ => false

/-- `'%04d' % n`. -/
def pad4 : Int → Str
  | .ofNat n => let d := natDigits n; List.replicate (4 - d.length) '0' ++ d
  | .negSucc n => let d := natDigits (n + 1); '-' :: (List.replicate (3 - d.length) '0' ++ d)

/-- The number after that at the end of a name (`cam/output.py:64-67`). -/
def nextSuffix (digits : Str) : Int :=
  match readInt (strip digits) with
  | some n => n + 1
  | none => 0

/-- The name after the last listed file of the series (`cam/output.py:61-68`). -/
def nameAfter (last : Str) : Except PyErr Str :=
  let le := splitext last
  if 4 < le.1.length then
    .ok (le.1.take (le.1.length - 4) ++ pad4 (nextSuffix (le.1.drop (le.1.length - 4))) ++ le.2)
  else .error .unboundLocal

/-- The name with a number (`cam/output.py:50-70`). -/
def withSuffix (root ext : Str) (files : List Str) : Except PyErr Str :=
  match (files.filter (isNumbered root ext)).getLast? with
  | some last => nameAfter last
  | none => .ok (root ++ "_0000".toList ++ ext)

/-- `create_pathname` (`cam/output.py:25-72`), the name without its directory.  `basename` is the last component of the requested path and
`files` is what `os.listdir` returns for its directory, in any order. -/
def createBasename (basename : Str) (appendSuffix : Bool) (files : List Str) : Except PyErr Str :=
  let re := splitext basename
  let root := if re.1.isEmpty then "output".toList else re.1
  let ext := if re.2.isEmpty then ".ngc".toList else re.2
  if appendSuffix then withSuffix root ext files
  else .ok (root ++ ext)

end Verif.Output
