/-
Percent and environment expansion (misc.c `vdollar_percent_expand` and its callers).
-/
import Verif.Base

namespace Verif.Misc.Expand
open Verif

/-- The outcome: a string; NULL without a parse error (a variable was not set); NULL with a parse error; or
the process exits. -/
inductive Res where
  | ok (s : Bytes)
  | missing
  | bad
  | fatal
  deriving Repr, DecidableEq

/-- misc.c:1368-1375: the replacement of the first key string that contains the character. -/
def lookup (c : UInt8) : List (Bytes × Bytes) → Option Bytes
  | [] => none
  | (k, v) :: r => if c ∈ k then some v else lookup c r

/-- Put a variable's value in front of what the rest expands to; note a missing one. -/
def putVar (val : Option Bytes) : Option (Bytes × Bool) → Option (Bytes × Bool)
  | none => none
  | some (out, miss) => match val with
    | some v => some (v ++ out, miss)
    | none => some (out, true)

/-- Put text in front of what the rest expands to. -/
def put (v : Bytes) : Option (Bytes × Bool) → Option (Bytes × Bool)
  | none => none
  | some (out, miss) => some (v ++ out, miss)

/-- misc.c:1320-1381: the loop over the string.  `none` is a parse error; otherwise the buffer and whether a
variable was missing. -/
def loop (keys : List (Bytes × Bytes)) (env : Bytes → Option Bytes) (dollar percent : Bool) :
    Nat → Bytes → Option (Bytes × Bool)
  | 0, _ => some ([], false)
  | _ + 1, [] => some ([], false)
  | fuel + 1, c :: r =>
    if dollar && c = 36 && r.head? = some 123 then
      match r.tail.dropWhile (· ≠ 125) with
      | [] => none
      | _ :: rest =>
        if r.tail.takeWhile (· ≠ 125) = [] then none
        else putVar (env (r.tail.takeWhile (· ≠ 125))) (loop keys env dollar percent fuel rest)
    else if c ≠ 37 || !percent then put [c] (loop keys env dollar percent fuel r)
    else match r with
      | [] => none
      | d :: r =>
        if d = 37 then put [37] (loop keys env dollar percent fuel r)
        else match lookup d keys with
          | none => none
          | some v => put v (loop keys env dollar percent fuel r)

/-- `EXPAND_MAX_KEYS` -/
scoped notation "maxKeys" => (64 : Nat)

/-- misc.c:1281-1391 `vdollar_percent_expand`.  The buffer is taken to be large enough (a result over 128
MB is fatal in the code). -/
def expand (keys : List (Bytes × Bytes)) (env : Bytes → Option Bytes) (dollar percent : Bool) (s : Bytes) : Res :=
  if percent && (keys.isEmpty || keys.length > maxKeys) then .fatal
  else match loop keys env dollar percent (s.length + 1) s with
    | none => .bad
    | some (_, true) => .missing
    | some (out, false) => .ok out

/-- misc.c:1418-1432 `percent_expand`: a parse error is fatal. -/
def percentExpand (keys : List (Bytes × Bytes)) (s : Bytes) : Res :=
  match expand keys (fun _ => none) false true s with
  | .bad => .fatal
  | r => r

end Verif.Misc.Expand
