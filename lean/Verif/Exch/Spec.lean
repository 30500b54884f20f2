/-
What a key exchange should do, independently of how the code keeps track of it.
-/
import Verif.Exch.Model

namespace Verif.Exch
open Verif Wire Text

/-- The packets among the events. -/
def received : List Ev → List (Nat × Bytes)
  | [] => []
  | .packet t p _ _ _ :: es => (t, p) :: received es
  | _ :: es => received es

/-- The messages an end receives after KEXINIT and before NEWKEYS (RFC 4253 section 8, RFC 5656 section 4,
RFC 4419 section 3). -/
def expected (server : Bool) : Method → List Nat
  | .gen => if server then [30] else [31]
  | .gex => if server then [34, 32] else [31, 33]

/-- The messages an end sends after KEXINIT and before NEWKEYS. -/
def replies (server : Bool) : Method → List Nat
  | .gen => if server then [31] else [30]
  | .gex => if server then [31, 33] else [34, 32]

/-- A number whose encoding fits the 32-bit length field. -/
def Small (n : Nat) : Prop := numBits n < 8 * 268435456

/-- The exchange hash's input for the methods of RFC 4253 section 8, RFC 5656 section 4 and RFC 8731: strings one
after the other, the KEXINIT messages with their message number, and the encoded secret. -/
def rfcGen (vc vs ic is k qc qs secret : Bytes) : Bytes :=
  [vc, vs, 20 :: ic, 20 :: is, k, qc, qs].flatMap str ++ secret

/-- RFC 4419 section 3. -/
def rfcGex (vc vs ic is k : Bytes) (min nbits max p g e f : Nat) (secret : Bytes) : Bytes :=
  [vc, vs, 20 :: ic, 20 :: is, k].flatMap str ++ [min, nbits, max].flatMap (be 4) ++ [p, g, e, f].flatMap mpint ++ secret

/-- The number RFC 4251 section 5 gives to the bytes of an mpint: two's complement, most significant byte first. -/
def twos : Bytes → Int
  | [] => 0
  | x :: l => (if x.toNat < 128 then (x.toNat : Int) else (x.toNat : Int) - 256) * 256 ^ l.length + (ofBE l : Int)

end Verif.Exch
