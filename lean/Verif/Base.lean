/-
Shared notation and small definitions used by every area of the model.
-/
import Lean

namespace Verif

/-- A byte. C `u_char` / `char` values are modelled as `UInt8`. -/
abbrev Byte := UInt8

/-- A byte string. C strings are modelled without their terminating NUL. -/
abbrev Bytes := List UInt8

/-- `b!"text"` is the list of byte values of an ASCII string literal (expanded at elaboration
time, so that the kernel only ever sees a list of numerals). -/
syntax:max (name := bytesLit) "b!" str : term

macro_rules
  | `(b! $s:str) => do
    let cs := s.getString.toList
    let elems ← cs.mapM fun c => `(($(Lean.quote c.toNat) : UInt8))
    let elems := elems.toArray
    `(([$elems,*] : List UInt8))

/-- 64-bit `size_t`: one more than `SIZE_MAX`. -/
notation "sizeMod" => (18446744073709551616 : Nat)

/-- `size_t` addition (wraps modulo `2^64`). -/
def szAdd (a b : Nat) : Nat := (a + b) % sizeMod

example : b!"ab," = [97, 98, 44] := rfl

end Verif
