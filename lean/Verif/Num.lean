/-
Decimal number parsing (openbsd-compat/strtonum.c), shared by several areas.
-/
import Verif.Base

namespace Verif.Num
open Verif

/-- `isspace` in the C locale. -/
def isSpace (c : UInt8) : Bool := c = 32 || (9 ≤ c && c ≤ 13)
/-- `isdigit` -/
def isDigit (c : UInt8) : Bool := 48 ≤ c && c ≤ 57

/-- The number denoted by a digit string, continuing from `acc`. -/
def digitsVal (acc : Nat) : Bytes → Nat
  | [] => acc
  | c :: r => digitsVal (acc * 10 + (c.toNat - 48)) r

/-- The longest prefix of digits and the rest. -/
def spanDigits : Bytes → Bytes × Bytes
  | [] => ([], [])
  | c :: r => if isDigit c then (c :: (spanDigits r).1, (spanDigits r).2) else ([], c :: r)

/-- `strtoll(s, &ep, 10)`: value and unread rest; `none` when there are no digits (then `ep` is the
start).  The value is not saturated to 64 bits: saturated values are out of range for every caller of
`strtonum` in the code. -/
def strtoll (s : Bytes) : Option (Int × Bytes) :=
  let s := s.dropWhile isSpace
  let (neg, s) := match s with
    | c :: r => if c = 45 then (true, r) else if c = 43 then (false, r) else (false, s)
    | [] => (false, s)
  match spanDigits s with
  | ([], _) => none
  | (ds, rest) => some (if neg then -(digitsVal 0 ds : Int) else (digitsVal 0 ds : Int), rest)

/-- openbsd-compat/strtonum.c:33-67 `strtonum(s, lo, hi, &errstr)`: `none` iff `errstr` is set. -/
def strtonum (s : Bytes) (lo hi : Int) : Option Int :=
  if lo > hi then none
  else match strtoll s with
    | none => none
    | some (v, rest) => if rest ≠ [] then none else if v < lo ∨ v > hi then none else some v

end Verif.Num
