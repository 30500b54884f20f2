/-
Time specifications (misc.c `convtime`).
-/
import Verif.Num

namespace Verif.Misc.Time
open Verif Verif.Num

/-- `INT_MAX` -/
scoped notation "intMax" => (2147483647 : Int)

/-- misc.c:649-673: the multiplier chosen by the character after the digits (`none` is the end of the
string); `none` for the default case. -/
def multiplier : Option UInt8 → Option Int
  | none => some 1
  | some c =>
    if c = 115 || c = 83 then some 1
    else if c = 109 || c = 77 then some (1 * 60)
    else if c = 104 || c = 72 then some (1 * 60 * 60)
    else if c = 100 || c = 68 then some (1 * 60 * 60 * 24)
    else if c = 119 || c = 87 then some (1 * 60 * 60 * 24 * 7)
    else none

/-- misc.c:638-677: the loop; every round but the last uses up at least one character (the unit), and the
last one ends the string.  `secs` and `total` are unbounded integers here; every value assigned to them is
proved to fit an `int` by the checks: `secs * m` and the sum are only formed after the comparisons that bound them. -/
def convLoop : Nat → Bytes → Int → Option Int
  | 0, _, total => some total
  | _ + 1, [], total => some total
  | fuel + 1, c :: r, total =>
    match strtonum (spanDigits (c :: r)).1 0 intMax with
    | none => none
    | some secs =>
      match multiplier (spanDigits (c :: r)).2.head? with
      | none => none
      | some m =>
        if secs > intMax / m then none
        else if total > intMax - secs * m then none
        else if total + secs * m < 0 then none
        else convLoop fuel (spanDigits (c :: r)).2.tail (total + secs * m)

/-- misc.c:616-682 `convtime`; -1 for anything that is not a duration. -/
def convtime (s : Bytes) : Int :=
  if s = [] then -1
  else match convLoop (s.length + 1) s 0 with
    | none => -1
    | some t => t

end Verif.Misc.Time
