/-
Which names given to scp and sftp are of remote files: misc.c.
-/
import Verif.Target.Model

namespace Verif.Operand
open Verif
open _root_.Verif.Target (splitLast)

/-- misc.c:815-816 `flag` after a character -/
def flagged (flag : Bool) (c : UInt8) (l : Bytes) : Bool := flag || (c = 64 && l.head? = some 91)

/-- misc.c:814-824 the loop of `colon`: what is before the colon and what is after -/
def colonGo (flag : Bool) (seen : Bytes) : Bytes → Option (Bytes × Bytes)
  | [] => none
  | c :: l =>
    if c = 93 ∧ l.head? = some 58 ∧ flagged flag c l then some (seen ++ [c], l.tail)
    else if c = 58 ∧ flagged flag c l = false then some (seen, l)
    else if c = 47 then none
    else colonGo (flagged flag c l) (seen ++ [c]) l

/-- misc.c:805-826 `colon` -/
def colon (s : Bytes) : Option (Bytes × Bytes) := if s.head? = some 58 then none else colonGo (s.head? = some 91) [] s

/-- misc.c:795-803 `cleanhostname` -/
def cleanHost (h : Bytes) : Bytes := if h.head? = some 91 ∧ h.getLast? = some 93 then h.tail.dropLast else h

structure Remote where
  user : Option Bytes
  host : Bytes
  path : Bytes
  deriving DecidableEq

/-- misc.c:857-861 the path -/
def pathOf (a : Bytes) : Bytes := if a = [] then b!"." else a

/-- misc.c:863-873 user and host -/
def remoteOf (b a : Bytes) : Remote :=
  match splitLast 64 b with
  | some (u, h) => ⟨if u = [] then none else some u, cleanHost h, pathOf a⟩
  | none => ⟨none, cleanHost b, pathOf a⟩

/-- misc.c:837-895 `parse_user_host_path`, none for a local file -/
def parse (s : Bytes) : Option Remote := (colon s).map fun r => remoteOf r.1 r.2

end Verif.Operand
