/-
Specification of pattern matching and list selection, independent of the code's loops.
-/
import Verif.Match.Model

namespace Verif.Match
open Verif Text

/-- `Glob pattern s`: the manual's meaning of wildcards (ssh_config(5), PATTERNS): `*` stands for any
run of characters, `?` for exactly one, anything else for itself. -/
inductive Glob : Bytes → Bytes → Prop
  | nil : Glob [] []
  | star {p s : Bytes} (u : Bytes) : Glob p s → Glob (STAR :: p) (u ++ s)
  | any {p s : Bytes} (x : UInt8) : Glob p s → Glob (QUEST :: p) (x :: s)
  | lit {p s : Bytes} (c : UInt8) : c ≠ STAR → c ≠ QUEST → Glob p s → Glob (c :: p) (c :: s)

/-- The entries of a comma separated pattern list; a comma at the very end starts no entry. -/
def entries (p : Bytes) : List Bytes :=
  if (split COMMA p).getLast? = some [] then (split COMMA p).dropLast else split COMMA p

/-- An entry with a leading `!` is negated. -/
def isNeg (e : Bytes) : Prop := e.head? = some BANG
/-- The pattern of an entry. -/
def body (e : Bytes) : Bytes := if e.head? = some BANG then e.tail else e
/-- Entries of 1023 characters or more are refused. -/
def short (e : Bytes) : Prop := (body e).length < 1023
/-- The entry's pattern (lower-cased on request) matches the string. -/
def hits (s : Bytes) (dolower : Bool) (e : Bytes) : Prop :=
  Glob (if dolower then (body e).map toLower else body e) s

/-- The names of a proposal: comma separated, ending at the first empty one. -/
def names (s : Bytes) : List Bytes := (split COMMA s).takeWhile (· ≠ [])

end Verif.Match
