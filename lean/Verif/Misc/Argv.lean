/-
Splitting a line into an argument vector and putting it together again (misc.c `argv_split`,
`argv_assemble`).  Strings are byte lists without their terminating NUL.
-/
import Verif.Base

namespace Verif.Misc.Argv
open Verif

/-- ' ' or '\t' -/
def isBlank (c : UInt8) : Bool := c = 32 || c = 9

/-- misc.c:2091-2094: may this character follow a backslash, given the quote state? -/
def escapable (quote d : UInt8) : Bool := d = 39 || d = 34 || d = 92 || (quote = 0 && d = 32)

/-- misc.c:2089-2111: the inner loop.  Gives the argument copied, the quote state at the end and the text
from the position where the loop stopped. -/
def token : UInt8 → Bytes → Bytes × UInt8 × Bytes
  | quote, [] => ([], quote, [])
  | quote, [c] =>
    if c = 92 then ([92], quote, [])
    else if quote = 0 && isBlank c then ([], quote, [c])
    else if quote = 0 && (c = 34 || c = 39) then ([], c, [])
    else if quote ≠ 0 && c = quote then ([], 0, [])
    else ([c], quote, [])
  | quote, c :: d :: r =>
    if c = 92 then
      if escapable quote d then (d :: (token quote r).1, (token quote r).2)
      else (92 :: (token quote (d :: r)).1, (token quote (d :: r)).2)
    else if quote = 0 && isBlank c then ([], quote, c :: d :: r)
    else if quote = 0 && (c = 34 || c = 39) then token c (d :: r)
    else if quote ≠ 0 && c = quote then token 0 (d :: r)
    else (c :: (token quote (d :: r)).1, (token quote (d :: r)).2)

/-- misc.c:2074-2119: the outer loop; every round uses up at least one character. -/
def splitLoop (comment : Bool) : Nat → Bytes → Option (List Bytes)
  | 0, _ => some []
  | _ + 1, [] => some []
  | fuel + 1, c :: r =>
    if isBlank c then splitLoop comment fuel r
    else if comment && c = 35 then some []
    else match token 0 (c :: r) with
      | (arg, quote, []) => if quote ≠ 0 then none else some [arg]
      | (arg, _, _ :: rest) => (splitLoop comment fuel rest).map (arg :: ·)

/-- misc.c:2063-2131 `argv_split`: `none` is `SSH_ERR_INVALID_FORMAT`. -/
def argvSplit (s : Bytes) (comment : Bool) : Option (List Bytes) := splitLoop comment (s.length + 1) s

/-- misc.c:2150-2170: one argument with its escapes. -/
def escapeArg : Bytes → Bytes
  | [] => []
  | c :: r =>
    if c = 32 || c = 9 then c :: escapeArg r
    else if c = 92 || c = 39 || c = 34 then 92 :: c :: escapeArg r
    else c :: escapeArg r

/-- misc.c:2171-2175: one argument as it is appended. -/
def quoteArg (a : Bytes) : Bytes :=
  if a.any isBlank then 34 :: escapeArg a ++ [34] else escapeArg a

/-- misc.c:2137-2185 `argv_assemble` -/
def argvAssemble : List Bytes → Bytes
  | [] => []
  | [a] => quoteArg a
  | a :: b :: t => quoteArg a ++ 32 :: argvAssemble (b :: t)

end Verif.Misc.Argv
