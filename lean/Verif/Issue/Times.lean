/-
When a certificate that ssh-keygen issues is valid: ssh-keygen.c.

Simplified: `fatal` is `none`; numbers are natural numbers, and 64 bits are made explicit where they matter; the clock is at least 59 seconds after the
epoch; `parse_absolute_time` is the parameter of KeyOpts.
-/
import Verif.Issue.Model
import Verif.Misc.Time

namespace Verif.Issue
open Verif
open _root_.Verif.KeyOpts (World)
open _root_.Verif.Misc.Time (convtime)

/-- ssh-keygen.c:1958-1970 `parse_relative_time`; `s` begins with a sign -/
def relTime (now : Nat) (s : Bytes) : Option Nat :=
  if convtime (s.drop 1) = -1 then none
  else if s.head? = some 45 then if convtime (s.drop 1) > now then none else some (now - (convtime (s.drop 1)).toNat)
  else some ((now + (convtime (s.drop 1)).toNat) % 18446744073709551616)

/-- A digit, for `strtoull` with base 16 -/
def digit16 (c : UInt8) : Option Nat :=
  if 48 ≤ c ∧ c ≤ 57 then some (c.toNat - 48) else if 97 ≤ c ∧ c ≤ 102 then some (c.toNat - 87) else if 65 ≤ c ∧ c ≤ 70 then some (c.toNat - 55) else none

/-- the digits to the end -/
def digits16 : Nat → Bytes → Option Nat
  | n, [] => some n
  | n, c :: l => (digit16 c).bind fun d => digits16 (16 * n + d) l

/-- ssh-keygen.c:1972-1985 `parse_hex_u64`; `s` begins with "0x" -/
def hexTime (s : Bytes) : Option Nat :=
  if s.drop 2 = [] then none else (digits16 0 (s.drop 2)).bind fun n => if n ≥ 18446744073709551616 then none else some n

/-- ssh-keygen.c:2018-2025, 2027-2034: one end; `word` is "always" or "forever" -/
def point (w : World) (now : Nat) (word : Bytes) (value : Nat) (s : Bytes) : Option Nat :=
  if s.head? = some 45 ∨ s.head? = some 43 then relTime now s
  else if s = word then some value
  else if s.take 2 = b!"0x" then hexTime s
  else w.time s

/-- ssh-keygen.c:1987-2039 `parse_cert_times`: from when and until when -/
def times (w : World) (now : Nat) (spec : Bytes) : Option (Nat × Nat) :=
  if spec.head? = some 43 ∧ (58 : UInt8) ∉ spec then
    if convtime (spec.drop 1) = -1 then none else some ((now - 59) / 60 * 60, now + (convtime (spec.drop 1)).toNat)
  else if (58 : UInt8) ∉ spec ∨ spec.takeWhile (· ≠ 58) = [] ∨ (spec.dropWhile (· ≠ 58)).drop 1 = [] then none
  else match point w now b!"always" 0 (spec.takeWhile (· ≠ 58)) with
    | none => none
    | some f =>
      match point w now b!"forever" 18446744073709551615 ((spec.dropWhile (· ≠ 58)).drop 1) with
      | none => none
      | some t => if t ≤ f then none else some (f, t)

end Verif.Issue
