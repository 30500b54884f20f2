/-
What is promised about the choice of a Diffie-Hellman group and about public values, in terms of the lines of
the moduli file and of plain numbers.
-/
import Verif.Dh.Model

namespace Verif.Dh
open Verif

/-- A number of an acceptable size. -/
def Fits (min max n : Nat) : Prop := min ≤ n ∧ n ≤ max

/-- `b` serves the wish `want` as well as any of `sizes` does: if it is too small it is the largest, and if it is
too large no other that is too large is closer. -/
structure Serves (want : Nat) (sizes : List Nat) (b : Nat) : Prop where
  mem : b ∈ sizes
  below : b < want → ∀ n ∈ sizes, n ≤ b
  above : want < b → ∀ n ∈ sizes, want < n → b ≤ n

/-- The sizes that may be used, in the order of the file. -/
def fitting (min max : Nat) (gs : List Group) : List Nat :=
  (gs.map Group.size).filter fun n => decide (min ≤ n ∧ n ≤ max)

/-- The length in bits of the groups of RFC 3526 that are used. -/
def fixedBits : Nat → Nat
  | 14 => 2048
  | 16 => 4096
  | _ => 8192

/-- The fields of a line that may be used, written in decimal apart from the last two. -/
structure LineOk (type tests tries size : Bytes) (bits : Nat) (g p : Int) : Prop where
  safe : Num.strtonum type 0 5 = some 2
  tested : ∃ n : Int, Num.strtonum tests 0 31 = some n ∧ n ≠ 0 ∧ n % 2 = 0
  tried : ∃ n : Int, Num.strtonum tries 0 1073741824 = some n ∧ n ≠ 0
  sized : ∃ n : Int, Num.strtonum size 0 65536 = some n ∧ n ≠ 0 ∧ bits = n.toNat + 1
  prime : 2 ^ (bits - 1) ≤ p.natAbs ∧ p.natAbs < 2 ^ bits
  generator : 2 ≤ g

/-- The value of a string of hexadecimal digits, most significant first. -/
def hexOf (ds : List Nat) : Nat := ds.foldl (fun a d => a * 16 + d) 0

/-- NIST SP 800-57 part 1, table 2: length of the prime and strength in bits of a symmetric cipher. -/
def nist : List (Nat × Nat) := [(1024, 80), (2048, 112), (3072, 128), (7680, 192), (15360, 256)]

/-- `size` is the least length of the table that offers `bits` bits of strength, apart from lengths below 2048 (RFC 8270). -/
structure Offers (bits size : Nat) : Prop where
  enough : ∃ e ∈ nist, e.1 = size ∧ bits ≤ e.2
  least : ∀ e ∈ nist, bits ≤ e.2 → 2048 ≤ e.1 → size ≤ e.1

/-- The number of one bits. -/
def ones : Nat → Nat
  | 0 => 0
  | n + 1 => (n + 1) % 2 + ones ((n + 1) / 2)

end Verif.Dh
