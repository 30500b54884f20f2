/-
What "an address lies in a network" means, bit by bit.
-/
import Verif.Addr.Model
import Verif.Match.Spec

namespace Verif.Addr
open Verif Text

/-- The number of bits in an address. -/
def width : Family → Nat
  | .inet => 32
  | .inet6 => 128
  | .other _ => 0

/-- The 32-bit words of an address. -/
def word (a : XAddr) : Nat → UInt32
  | 0 => a.w0
  | 1 => a.w1
  | 2 => a.w2
  | _ => a.w3

/-- Bit `i` of an address, counted from the most significant one. -/
def bit (a : XAddr) (i : Nat) : Bool := (word a (i / 32)).toBitVec.getLsbD (31 - i % 32)

/-- `host` lies in the network `net/l`: same family, a legal length, equal leading `l` bits. -/
def InNet (host net : XAddr) (l : Nat) : Prop :=
  host.af = net.af ∧ l ≤ width net.af ∧ ∀ i < l, bit host i = bit net i

/-- No bits set beyond the first `l`. -/
def HostBitsZero (net : XAddr) (l : Nat) : Prop := ∀ i, l ≤ i → i < width net.af → bit net i = false

/-- The address as a number. -/
def value (a : XAddr) : Nat :=
  match a.af with
  | .inet => a.w0.toNat
  | .inet6 => ((a.w0.toNat * 4294967296 + a.w1.toNat) * 4294967296 + a.w2.toNat) * 4294967296 + a.w3.toNat
  | .other _ => 0

/-- The address families the code knows. -/
def Known (a : XAddr) : Prop := a.af = .inet ∨ a.af = .inet6

/-- An address list entry is negated by a leading `!`. -/
def eNeg (e : Bytes) : Prop := e.head? = some 33
/-- The entry without its negation sign. -/
def eBody (e : Bytes) : Bytes := if e.head? = some 33 then e.tail else e
/-- Empty entries and networks whose length does not fit the address make the list invalid. -/
def eBad (pton : Bytes → Option XAddr) (e : Bytes) : Prop := eBody e = [] ∨ ptonCidr pton (eBody e) = .inconsistent
/-- The entry covers the address: by network when it denotes one, otherwise as a wildcard pattern. -/
def eHit (pton : Bytes → Option XAddr) (s : Bytes) (a : XAddr) (e : Bytes) : Prop :=
  (∃ n l, ptonCidr pton (eBody e) = .ok n l ∧ InNet a n l ∧ (a.af = .inet6 → a.scope = n.scope)) ∨
  (ptonCidr pton (eBody e) = .parseError ∧ Match.Glob (eBody e) s)

end Verif.Addr
