/-
How private keys are kept in memory: sshkey.c.

Keys, how they are written and read (see `Verif.PrivKey`), SHA-512 and AES in counter mode are parameters. Simplified: there is always memory.
-/
import Verif.PrivKey.Model

namespace Verif.Shield
open Verif
open _root_.Verif.PrivKey (pad checkPadding)

structure World (K P : Type) where
  /-- sshkey.c:2546-2588 `sshkey_private_serialize_opt` with SSHKEY_SERIALIZE_SHIELD -/
  ser : K → Bytes
  /-- sshkey.c:2615-2690 `sshkey_private_deserialize`: the key and what follows it -/
  deser : Bytes → Option (K × Bytes)
  /-- sshkey.c:1609-1634 `sshkey_from_private` -/
  pub : K → P
  /-- `sk_flags` -/
  flags : K → UInt8
  hash : Bytes → Bytes
  /-- the cipher with key and initial value, both ways -/
  enc : Bytes → Bytes → Bytes → Bytes
  dec : Bytes → Bytes → Bytes → Bytes

/-- `struct sshkey`: a whole key, or the public part with `shielded_private` and `shield_prekey` -/
inductive Held (K P : Type) where
  | plain (k : K)
  | shielded (pub : P) (flags : UInt8) (data prekey : Bytes)

variable {K P : Type}

/-- sshkey.c:1670-1682 the key for the cipher -/
def keyOf (w : World K P) (prekey : Bytes) : Bytes := (w.hash prekey).take 32
/-- the initial value -/
def ivOf (w : World K P) (prekey : Bytes) : Bytes := ((w.hash prekey).drop 32).take 16

/-- sshkey.c:1777-1864 `sshkey_unshield_private`, none for an error, which leaves the key as it was -/
def unshield (w : World K P) : Held K P → Option (Held K P)
  | .plain k => some (.plain k)
  | .shielded _ _ data prekey =>
    if data.length < 16 ∨ data.length % 16 ≠ 0 then none
    else match w.deser (w.dec (keyOf w prekey) (ivOf w prekey) data) with
      | none => none
      | some (k, rest) => if checkPadding 0 rest = false then none else some (.plain k)

/-- sshkey.c:1691-1734 what is put in place of a key -/
def wrap (w : World K P) (prekey : Bytes) (k : K) : Held K P :=
  .shielded (w.pub k) (w.flags k) (w.enc (keyOf w prekey) (ivOf w prekey) (w.ser k ++ pad 16 16 (w.ser k).length 0)) prekey

/-- sshkey.c:1642-1750 `sshkey_shield_private`, none for an error; `prekey` is random -/
def shield (w : World K P) (prekey : Bytes) (h : Held K P) : Option (Held K P) :=
  match unshield w h with
  | some (.plain k) => some (wrap w prekey k)
  | _ => none

inductive Op where
  | shield (prekey : Bytes)
  | unshield

def apply (w : World K P) (h : Held K P) : Op → Option (Held K P)
  | .shield pk => shield w pk h
  | .unshield => unshield w h

/-- calls one after the other; none if one fails -/
def run (w : World K P) : Held K P → List Op → Option (Held K P)
  | h, [] => some h
  | h, o :: l => (apply w h o).bind fun h => run w h l

end Verif.Shield
