/-
X25519 as RFC 7748 defines it (section 5), on natural numbers.
-/
import Verif.Base

namespace Verif.Curve25519
open Verif

/-- The prime, 2^255 - 19 -/
def P : Nat := 2 ^ 255 - 19

/-- The number given by bytes, least significant first. -/
def ofLE : Bytes → Nat
  | [] => 0
  | b :: bs => b.toNat + 256 * ofLE bs

/-- `n` bytes of a number, least significant first. -/
def toLE : Nat → Nat → Bytes
  | 0, _ => []
  | n + 1, v => UInt8.ofNat (v % 256) :: toLE n (v / 256)

/-- `decodeScalar25519` -/
def decodeScalar (k : Bytes) : Nat :=
  ofLE ((k.set 0 (k.getD 0 0 &&& 248)).set 31 ((k.getD 31 0 &&& 127) ||| 64))

/-- `decodeUCoordinate`: the most significant bit is masked; the RFC then reads the number modulo the prime. -/
def decodeU (u : Bytes) : Nat := ofLE u % 2 ^ 255

def fadd (a b : Nat) : Nat := (a + b) % P
def fsub (a b : Nat) : Nat := (a + (P - b % P)) % P
def fmul (a b : Nat) : Nat := a * b % P

/-- `x_2`, `z_2`, `x_3`, `z_3` -/
structure Ladder where
  x2 : Nat
  z2 : Nat
  x3 : Nat
  z3 : Nat
  deriving DecidableEq, Repr

/-- `cswap` on both pairs -/
def cswap (b : Bool) (s : Ladder) : Ladder :=
  if b then { x2 := s.x3, z2 := s.z3, x3 := s.x2, z3 := s.z2 } else s

/-- The body of the loop after the conditional swap. -/
def ladderStep (x1 : Nat) (s : Ladder) : Ladder :=
  let A := fadd s.x2 s.z2
  let AA := fmul A A
  let B := fsub s.x2 s.z2
  let BB := fmul B B
  let E := fsub AA BB
  let C := fadd s.x3 s.z3
  let D := fsub s.x3 s.z3
  let DA := fmul D A
  let CB := fmul C B
  { x3 := fmul (fadd DA CB) (fadd DA CB)
    z3 := fmul x1 (fmul (fsub DA CB) (fsub DA CB))
    x2 := fmul AA BB
    z2 := fmul E (fadd AA (fmul 121665 E)) }

/-- The loop: `t` counts down to 0, `swap` is the bit used last. -/
def ladderLoop (k x1 : Nat) : Nat → Bool → Ladder → Ladder
  | 0, swap, s => cswap swap s
  | t + 1, swap, s => ladderLoop k x1 t (k.testBit t) (ladderStep x1 (cswap (swap ^^ k.testBit t) s))

/-- `X25519` on numbers -/
def x25519 (k u : Nat) : Nat :=
  let s := ladderLoop k u 255 false { x2 := 1, z2 := 0, x3 := u, z3 := 1 }
  fmul s.x2 (s.z2 ^ (P - 2) % P)

/-- `X25519` on strings of bytes -/
def X25519 (k u : Bytes) : Bytes := toLE 32 (x25519 (decodeScalar k) (decodeU u))

end Verif.Curve25519
