/-
Host keys in the DNS (dns.c), what the client makes of them (sshconnect.c), and the reading of answers
(openbsd-compat/getrrsetbyname.c).
-/
import Verif.Wire
import Verif.Scp.Model

namespace Verif.Dns
open Verif Verif.Wire
open _root_.Verif.Scp (dec)

/-! ## Fingerprints -/

/-- Kinds of keys, as far as dns.c distinguishes them; `other` are the kinds of security keys and certificates. -/
inductive Kind where
  | rsa | dsa | ecdsa | ed25519 | xmss | other
  deriving DecidableEq

/-- A key: its kind and what `sshkey_fingerprint_raw` (sshkey.c:987-1026) returns with SHA-1 (1) and SHA-256 (2); `none`
if it fails. -/
structure Key where
  kind : Kind
  fp : Nat → Option Bytes

/-- dns.c:87-105, dns.h:31-38 -/
def algorithm : Kind → UInt8
  | .rsa => 1
  | .dsa => 2
  | .ecdsa => 3
  | .ed25519 => 4
  | .xmss => 5
  | .other => 0

/-- What `dns_read_key` does: it ends the program, fails, or yields algorithm and digest. -/
inductive KeyRes where
  | fatal
  | no
  | ok (alg : UInt8) (digest : Bytes)

/-- dns.c:80-129 `dns_read_key` -/
def readKey (k : Key) (t : UInt8) : KeyRes :=
  if algorithm k.kind ≠ 0 ∧ (t = 1 ∨ t = 2) then
    match k.fp t.toNat with
    | none => .fatal
    | some d => .ok (algorithm k.kind) d
  else .no

/-- dns.c:134-159 `dns_read_rdata` -/
def readRdata : Bytes → Option (UInt8 × UInt8 × Bytes)
  | a :: t :: d => some (a, t, d)
  | _ => none

/-- dns.h:50-53: the flags -/
structure Flags where
  found : Bool
  matched : Bool
  secure : Bool
  failed : Bool
  deriving DecidableEq

/-- `verify_host_key_dns` ends the program, returns -1, or returns 0 with flags. -/
inductive Res where
  | fatal
  | error
  | ok (f : Flags)
  deriving DecidableEq

/-- dns.c:266-279 -/
def compare (alg : UInt8) (digest : Bytes) (alg' : UInt8) (digest' : Bytes) (f : Flags) : Flags :=
  if alg = alg' ∧ digest.length = digest'.length then
    if digest = digest' then { f with matched := true } else { f with failed := true }
  else f

/-- dns.c:242-282: the loop over the records -/
def records (k : Key) : Flags → List Bytes → Res
  | f, [] => .ok f
  | f, r :: l =>
    match readRdata r with
    | none => records k f l
    | some (a, t, d) =>
      match readKey k t with
      | .fatal => .fatal
      | .no => .error
      | .ok alg digest => records k (compare alg digest a d f) l

/-- dns.c:286-288 -/
def conclude (f : Flags) : Flags := if f.failed then { f with matched := false } else f

/-- dns.c:195-299 `verify_host_key_dns`: `numeric` is what `is_numeric_hostname` (dns.c:165-189) says, `answer` what
`getrrsetbyname` yields: whether the answer is validated, and the records; `none` if it fails. -/
def verifyDns (numeric : Bool) (answer : Option (Bool × List Bytes)) (k : Key) : Res :=
  if numeric then .error
  else match answer with
    | none => .error
    | some (valid, l) =>
      match records k ⟨decide (l ≠ []), false, valid, false⟩ l with
      | .ok f => .ok (conclude f)
      | r => r

/-- `VerifyHostKeyDNS`: no (0), yes (1) or ask (2) (readconf.c:1335-1338) -/
inductive Opt where
  | no | yes | ask
  deriving DecidableEq

/-- What `verify_host_key` makes of it: the key is accepted at once; it is noted for the question to the user that a
fingerprint matches; the user is warned; nothing. -/
inductive Says where
  | fatal | accept | noted | warned | nothing
  deriving DecidableEq

/-- sshconnect.c:1538-1562, in `verify_host_key` -/
def dnsSays (o : Opt) (r : Res) : Says :=
  if o = .no then .nothing
  else match r with
    | .fatal => .fatal
    | .error => .nothing
    | .ok f =>
      if f.found then
        if o = .yes ∧ f.matched ∧ f.secure then .accept
        else if f.matched then .noted
        else .warned
      else .nothing

/-! ## Records for a zone -/

/-- One digit of `%02x` -/
def hexDigit (n : Nat) : UInt8 := if n < 10 then UInt8.ofNat (48 + n) else UInt8.ofNat (87 + n)

/-- `%02x` of every byte (dns.c:330-331) -/
def hex : Bytes → Bytes
  | [] => []
  | c :: l => hexDigit (c.toNat / 16) :: hexDigit (c.toNat % 16) :: hex l

/-- dns.c:321-332: one line -/
def zoneLine (host : Bytes) (generic : Bool) (alg t : UInt8) (digest : Bytes) : Bytes :=
  (if generic then
    host ++ b!" IN TYPE" ++ dec 44 ++ b!" \\# " ++ dec (2 + digest.length) ++ [32] ++ hex [alg] ++ [32] ++ hex [t] ++ [32]
  else host ++ b!" IN SSHFP " ++ dec alg.toNat ++ [32] ++ dec t.toNat ++ [32]) ++ hex digest ++ [10]

/-- dns.c:315-336: the lines for the digests `ts`, restricted to `only` (-1, no restriction, is `none`); `none` if the
program ends -/
def zoneLines (host : Bytes) (k : Key) (generic : Bool) (only : Option Nat) : List UInt8 → Option (List Bytes)
  | [] => some []
  | t :: ts =>
    if only.any fun a => decide (t.toNat ≠ a) then zoneLines host k generic only ts
    else match readKey k t with
      | .fatal => none
      | .no => zoneLines host k generic only ts
      | .ok alg digest => (zoneLines host k generic only ts).map (zoneLine host generic alg t digest :: ·)

/-- dns.c:304-344 `export_dns_rr` -/
def exportRR (host : Bytes) (k : Key) (generic : Bool) (only : Option Nat) : Option (List Bytes) :=
  zoneLines host k generic only [1, 2]

/-! ## Answers -/

/-- The outcome of reading: undefined behaviour (a read outside of the message, or through a null pointer), failure,
or a value. -/
inductive Out (α : Type) where
  | ub
  | fail
  | ok (a : α)

/-- openbsd-compat/getrrsetbyname.c:130-137 `_getshort` at `cp` -/
def short (m : Bytes) (cp : Nat) : Out Nat :=
  if cp + 2 ≤ m.length then .ok (ofBE ((m.drop cp).take 2)) else .ub

/-- openbsd-compat/getrrsetbyname.c:139-146 `_getlong` at `cp` -/
def long (m : Bytes) (cp : Nat) : Out Nat :=
  if cp + 4 ≤ m.length then .ok (ofBE ((m.drop cp).take 4)) else .ub

/-- `memcpy` of `n` bytes from `cp` -/
def copy (m : Bytes) (cp n : Nat) : Out Bytes :=
  if cp + n ≤ m.length then .ok ((m.drop cp).take n) else .ub

/-- `a` and then `f`, if `a` is a value -/
def Out.andThen {α β : Type} (a : Out α) (f : α → Out β) : Out β :=
  match a with
  | .ub => .ub
  | .fail => .fail
  | .ok a => f a

/-- openbsd-compat/getrrsetbyname.c:463-467, 522-526 `NEED` -/
def need {α : Type} (m : Bytes) (cp n : Nat) (f : Out α) : Out α := if cp + n > m.length then .fail else f

/-- What `dn_expand` returns for the name at an offset: its length in the message, `none` for an error. -/
abbrev Expand := Nat → Option Nat

/-- A question: type and class -/
abbrev Query := Nat × Nat

/-- openbsd-compat/getrrsetbyname.c:470-507: one question at `cp` -/
def query (x : Expand) (m : Bytes) (cp : Nat) : Out (Query × Nat) :=
  if cp ≥ m.length then .fail
  else match x cp with
    | none => .fail
    | some n =>
      need m cp n <| need m (cp + n) 2 <| (short m (cp + n)).andThen fun t =>
        need m (cp + n + 2) 2 <| (short m (cp + n + 2)).andThen fun c => .ok ((t, c), cp + n + 4)

/-- openbsd-compat/getrrsetbyname.c:160-168 `struct dns_rr`, without name and ttl -/
structure RR where
  type : Nat
  class_ : Nat
  rdata : Bytes
  deriving DecidableEq

/-- openbsd-compat/getrrsetbyname.c:529-588: one record at `cp` -/
def record (x : Expand) (m : Bytes) (cp : Nat) : Out (RR × Nat) :=
  if cp ≥ m.length then .fail
  else match x cp with
    | none => .fail
    | some n =>
      need m cp n <| need m (cp + n) 2 <| (short m (cp + n)).andThen fun t =>
        need m (cp + n + 2) 2 <| (short m (cp + n + 2)).andThen fun c =>
          need m (cp + n + 4) 4 <| (long m (cp + n + 4)).andThen fun _ =>
            need m (cp + n + 8) 2 <| (short m (cp + n + 8)).andThen fun z =>
              need m (cp + n + 10) z <| (copy m (cp + n + 10) z).andThen fun d => .ok (⟨t, c, d⟩, cp + n + 10 + z)

/-- openbsd-compat/getrrsetbyname.c:456-512 `parse_dns_qsection`, 514-593 `parse_dns_rrsection`: `count` items from `cp` -/
def items {α : Type} (one : Nat → Out (α × Nat)) : Nat → Nat → Out (List α × Nat)
  | 0, cp => .ok ([], cp)
  | count + 1, cp =>
    (one cp).andThen fun a => (items one count a.2).andThen fun r => .ok (a.1 :: r.1, r.2)

/-- openbsd-compat/getrrsetbyname.c:170-176 `struct dns_response` -/
structure Response where
  /-- the bit AD of the header -/
  ad : Bool
  queries : List Query
  answers : List RR
  authority : List RR
  additional : List RR

/-- openbsd-compat/getrrsetbyname.c:388-454 `parse_dns_response`.  The header of 12 bytes: two of identification, two of
flags (AD is bit 5 of the second), then the four counts. -/
def parse (x : Expand) (m : Bytes) : Out Response :=
  if m.length < 12 then .fail
  else
    (short m 4).andThen fun qd => (short m 6).andThen fun an => (short m 8).andThen fun ns => (short m 10).andThen fun ar =>
      if qd < 1 then .fail
      else
        (items (query x m) qd 12).andThen fun q =>
          (items (record x m) an q.2).andThen fun a =>
            (items (record x m) ns a.2).andThen fun u =>
              (items (record x m) ar u.2).andThen fun v =>
                .ok ⟨(m.getD 3 0) &&& 32 ≠ 0, q.1, a.1, u.1, v.1⟩

/-- openbsd-compat/getrrsetbyname.c:263-340: class and type are those of the question in the response; without answers
lines 276 and 286 read through a null pointer.  A record is copied as signature if its type is 46, and then not as answer. -/
def rrset (r : Response) : Out (Bool × List Bytes) :=
  match r.queries with
  | [(t, c)] =>
    if r.answers = [] then .ub
    else .ok (r.ad, (r.answers.filter fun a => decide (a.class_ = c ∧ a.type = t)).map fun a => if t = 46 then [] else a.rdata)
  | _ => .fail

/-- openbsd-compat/getrrsetbyname.c:190-352 `getrrsetbyname` from the answer `m` of `res_query` on (with
`HAVE_HEADER_AD`); allocations do not fail -/
def answer (x : Expand) (m : Bytes) : Out (Bool × List Bytes) := (parse x m).andThen rrset

end Verif.Dns
