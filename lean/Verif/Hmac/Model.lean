/-
Message authentication codes by hashing: hmac.c, and mac.c for those of type SSH_DIGEST.

The hash is a parameter; what a hash has been fed with stands for its state (digest-openssl.c, digest-libc.c). Simplified: there is always memory, and the
library does not fail.
-/
import Verif.Wire

namespace Verif.Hmac
open Verif Verif.Wire

structure Hash where
  f : Bytes → Bytes
  /-- `ssh_digest_bytes` -/
  len : Nat
  /-- `ssh_digest_blocksize` -/
  block : Nat

/-- hmac.c:28-35 `struct ssh_hmac_ctx`; no `digest`: it is finished, and nothing may be added -/
structure Ctx where
  ictx : Bytes
  octx : Bytes
  digest : Option Bytes
  buf : Bytes
  deriving DecidableEq

/-- hmac.c:44-63 `ssh_hmac_start` -/
def start (H : Hash) : Ctx := ⟨[], [], some [], List.replicate H.block 0⟩

/-- memcpy to the beginning of a buffer -/
def overlay (new buf : Bytes) : Bytes := new ++ buf.drop new.length

/-- hmac.c:65-92 `ssh_hmac_init` without a key -/
def restart (c : Ctx) : Ctx := { c with digest := some c.ictx }

/-- hmac.c:65-92 `ssh_hmac_init` with a key; none for an error -/
def init (H : Hash) (c : Ctx) (key : Bytes) : Option Ctx :=
  if key.length > H.block ∧ H.block < H.len then none
  else
    let buf := if key.length ≤ H.block then overlay key c.buf else overlay (H.f key) c.buf
    let b1 := buf.map (· ^^^ 0x36)
    let b2 := b1.map (· ^^^ (0x36 ^^^ 0x5c))
    some (restart ⟨c.ictx ++ b1, c.octx ++ b2, c.digest, List.replicate H.block 0⟩)

/-- hmac.c:94-98 `ssh_hmac_update`, hmac.c:100-104 `ssh_hmac_update_buffer` -/
def update (c : Ctx) (m : Bytes) : Option Ctx :=
  match c.digest with
  | none => none
  | some d => some { c with digest := some (d ++ m) }

/-- hmac.c:106-121 `ssh_hmac_final`; `dlen` is the room for the code -/
def final (H : Hash) (c : Ctx) (dlen : Nat) : Option (Ctx × Bytes) :=
  if dlen < H.len then none
  else match c.digest with
    | none => none
    | some d => some ({ c with digest := none, buf := overlay (H.f d) c.buf }, H.f (c.octx ++ H.f d))

inductive Op where
  | restart
  | update (m : Bytes)
  | final (dlen : Nat)

/-- one call, and the code that it gives, if any; one that fails changes nothing -/
def step (H : Hash) (c : Ctx) : Op → Ctx × Option Bytes
  | .restart => (restart c, none)
  | .update m => ((update c m).getD c, none)
  | .final dlen =>
    match final H c dlen with
    | none => (c, none)
    | some (c, d) => (c, some d)

/-- the codes given by calls -/
def run (H : Hash) : Ctx → List Op → Ctx × List Bytes
  | c, [] => (c, [])
  | c, o :: l => ((run H (step H c o).1 l).1, (step H c o).2.toList ++ (run H (step H c o).1 l).2)

/-- mac.c:163-207 `mac_compute`, SSH_DIGEST; `macLen` is `mac_len`, and 64 SSH_DIGEST_MAX_LENGTH -/
def macCompute (H : Hash) (macLen : Nat) (c : Ctx) (seqno : Nat) (data : Bytes) (dlen : Nat) : Option (Ctx × Bytes) :=
  if macLen > 64 then none
  else match update (restart c) (be 4 seqno) with
    | none => none
    | some c => match update c data with
      | none => none
      | some c => match final H c 64 with
        | none => none
        | some (c, d) => some (c, d.take (if dlen > macLen then macLen else dlen))

/-- mac.c:209-225 `mac_check`: whether the code is the right one; none for an error -/
def macCheck (H : Hash) (macLen : Nat) (c : Ctx) (seqno : Nat) (data theirs : Bytes) : Option (Ctx × Bool) :=
  if macLen > theirs.length then none
  else match macCompute H macLen c seqno data 64 with
    | none => none
    | some (c, ours) => some (c, ours.take macLen == theirs.take macLen)

end Verif.Hmac
