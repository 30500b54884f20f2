/-
Concrete cases for C81 and C82, and what the check does not promise.
-/
import Verif.HostKey.Address

namespace Verif.HostKey
open Verif Verif.Hostfile

def k1 : Key := { pub := [1], type := 3 }
def k2 : Key := { pub := [2], type := 3 }
def ca : Key := { pub := [9], type := 3 }
/-- A certificate for `k1` signed by `ca`. -/
def c1 : Key := { pub := [1], type := 7, cert := some ([7, 7], [9]) }

def line (m : Marker) (k : Key) : Ent := ⟨⟨k, m⟩, b!"u", false⟩

/-- `h` has the key `k1`; `old` has the key `k2`; `rev` has `k1`, but revoked; `ca` has the authority;
the address `10.0.0.1` has the key `k2` and `10.0.0.2` has `k1` revoked. -/
def toyWorld : World where
  known n := if n = b!"h" then [line .none k1]
    else if n = b!"old" then [line .none k2]
    else if n = b!"rev" then [line .none k1, line .revoke k1]
    else if n = b!"ca" then [line .ca ca]
    else if n = b!"10.0.0.1" then [line .none k2]
    else if n = b!"10.0.0.2" then [line .revoke k1]
    else []
  cmd _ _ _ := some []
  certOk _ n := n = b!"ca"
  keyName k := if k.cert.isSome then b!"ssh-ed25519-cert-v01@openssh.com" else b!"ssh-ed25519"
  fp k := b!"SHA256:" ++ k.pub.map (· + 64)
  addOk _ := true

def cfg (st : Strict) : Cfg where
  strict := st
  hostkeyAlgs := b!"ssh-ed25519,ssh-ed25519-cert-v01@openssh.com"
  userFiles := [b!"u"]
  sysFiles := [b!"s"]

def srv (n a : Bytes) (p : Nat) : Srv := ⟨n, a, false, p⟩

def st (rs : List Bytes) : St := { opts := { agent := true, lfwd := 2 }, replies := rs }
def stIp (rs : List Bytes) : St := { opts := { checkIp := true }, replies := rs }

def outcome (c : Strict) (n a : Bytes) (p : Nat) (k : Key) (s : St) : Res × List (Bytes × Key) × Opts :=
  ((check (cfg c) toyWorld (srv n a p) k s).1, (check (cfg c) toyWorld (srv n a p) k s).2.adds,
    (check (cfg c) toyWorld (srv n a p) k s).2.opts)

/-! Known, unknown, changed and revoked keys. -/

example : (outcome .yes b!"h" b!"10.0.0.9" 22 k1 (st [])).1 = .accept := by rfl
example : (outcome .yes b!"x" b!"10.0.0.9" 22 k1 (st [b!"yes"])).1 = .refuse := by rfl
example : (outcome .ask b!"x" b!"10.0.0.9" 22 k1 (st [b!"hm", b!" YES "])).1 = .accept := by rfl
example : (outcome .ask b!"x" b!"10.0.0.9" 22 k1 (st [b!"SHA256:A"])).2.1 = [(b!"x", k1)] := by rfl
example : (outcome .ask b!"x" b!"10.0.0.9" 22 k1 (st [b!"SHA256:B", b!"no", b!"yes"])).1 = .refuse := by rfl
example : (outcome .ask b!"old" b!"10.0.0.9" 22 k1 (st [b!"yes"])).1 = .refuse := by rfl
example : (outcome .new b!"old" b!"10.0.0.9" 22 k1 (st [])).1 = .refuse := by rfl
example : (outcome .new b!"x" b!"10.0.0.9" 2222 k1 (st [])).2.1 = [(b!"[x]:2222", k1)] := by rfl
example : (outcome .new b!"rev" b!"10.0.0.9" 22 k1 (st [])).1 = .refuse := by rfl
/-- With checking off, a changed key is accepted, but nothing is forwarded and no password sent. -/
example : (outcome .off b!"old" b!"10.0.0.9" 22 k1 (st [])).1 = .accept ∧
    (outcome .off b!"old" b!"10.0.0.9" 22 k1 (st [])).2.2 =
      { password := false, kbdint := false, agent := false, x11 := false, lfwd := 0, rfwd := 0, tun := false
        update := false, checkIp := false } := by exact ⟨rfl, rfl⟩
/-- A certificate by the authority; one whose plain key is known; one nobody knows. -/
example : (outcome .yes b!"ca" b!"10.0.0.9" 22 c1 (st [])).1 = .accept := by rfl
example : (outcome .yes b!"h" b!"10.0.0.9" 22 c1 (st [])).1 = .accept := by rfl
example : (outcome .yes b!"x" b!"10.0.0.9" 22 c1 (st [])).1 = .refuse := by rfl
/-- The name without its port. -/
example : (outcome .yes b!"h" b!"10.0.0.9" 2222 k1 (st [])).1 = .accept := by rfl
/-- The key of the name is recorded for the address too. -/
example : (outcome .yes b!"h" b!"10.0.0.9" 22 k1 (stIp [])).2.1 = [(b!"10.0.0.9", k1)] := by rfl
example : (outcome .new b!"x" b!"10.0.0.9" 22 k1 (stIp [])).2.1 = [(b!"x,10.0.0.9", k1)] := by rfl
/-- The address has another key. -/
example : (outcome .yes b!"h" b!"10.0.0.1" 22 k1 (stIp [])).1 = .refuse := by rfl
example : (outcome .ask b!"h" b!"10.0.0.1" 22 k1 (stIp [b!"yes"])).1 = .accept := by rfl

example : OwnLines (cfg .yes) toyWorld (srv b!"old" b!"10.0.0.9" 22) k1 [line .none k2] := rfl
example : Changed [line .none k2] k1 := by
  refine ⟨rfl, ?_, line .none k2, by simp, rfl⟩
  rintro ⟨e, he, h⟩
  simp at he
  subst he
  rcases h with ⟨_, _, _, h⟩ | ⟨b, s, h, _⟩
  · exact absurd h (by decide)
  · cases h

/-! ## What is not promised -/

/-- A key revoked for the server's address, but not for its name, is accepted without a word. -/
theorem C81_address_revoked_false :
    Revoked (toyWorld.known b!"10.0.0.2") k1 ∧ (outcome .yes b!"h" b!"10.0.0.2" 22 k1 (stIp [])).1 = .accept :=
  ⟨⟨line .revoke k1, by decide, rfl, .inl rfl⟩, rfl⟩

/-- A key revoked for the bare name is a new key for the name with another port: it is even recorded. -/
theorem C81_port_revoked_false :
    Revoked (toyWorld.known b!"rev") k1 ∧ (outcome .new b!"rev" b!"10.0.0.9" 2222 k1 (st [])).1 = .accept ∧
    (outcome .new b!"rev" b!"10.0.0.9" 2222 k1 (st [])).2.1 = [(b!"[rev]:2222", k1)] :=
  ⟨⟨line .revoke k1, by decide, rfl, .inl rfl⟩, rfl, rfl⟩

/-- A server that offers a certificate of an unknown authority for its key is not checked by its address: the
plain key is refused, the certificate gets it accepted. -/
theorem C82_certificate_skips_address :
    (outcome .new b!"x" b!"10.0.0.1" 22 k1 (stIp [])).1 = .refuse ∧
    (outcome .new b!"x" b!"10.0.0.1" 22 c1 (stIp [])).1 = .accept := ⟨rfl, rfl⟩

/-- And in the first case the key is recorded for the name although the connection is refused. -/
theorem C82_recorded_and_refused :
    (outcome .new b!"x" b!"10.0.0.1" 22 k1 (stIp [])).1 = .refuse ∧
    (outcome .new b!"x" b!"10.0.0.1" 22 k1 (stIp [])).2.1 = [(b!"x", k1)] := ⟨rfl, rfl⟩

/-- A changed key for the name that is revoked for the address: the message uses a null pointer. -/
theorem C82_null_pointer_false : (outcome .yes b!"old" b!"10.0.0.2" 22 k1 (stIp [])).1 = .crash := rfl

/-- The exact rule, for a certificate whose plain key is known. -/
example : EitherForm (cfg .yes) toyWorld b!"h" (toyWorld.known b!"h") c1 (fun _ => False) := by
  have := C81_strict_iff (cfg .yes) toyWorld (srv b!"h" b!"10.0.0.9" 22) c1 (st []) _ rfl rfl rfl
    (fun h => by cases h.1)
  have h2 := this.mp rfl
  rcases h2 with h2 | ⟨h2, raw, h3, h4⟩
  · rcases h2 with h2 | ⟨_, _, h, _⟩
    · exact .inl (.inl h2)
    · exact absurd rfl h.2.2
  · refine .inr ⟨h2, raw, h3, ?_⟩
    rcases h4 with h4 | ⟨_, _, h, _⟩
    · exact .inl h4
    · exact absurd rfl h.2.2

end Verif.HostKey
