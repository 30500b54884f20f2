/-
What accepting a host key should mean, in terms of the lines of the known hosts files, the options and what
the user types.
-/
import Verif.HostKey.Model
import Verif.Hostfile.Props

namespace Verif.HostKey
open Verif Verif.Hostfile

/-- Among the lines, one marks the key (or its authority) as revoked. -/
def Revoked (es : List Ent) (k : Key) : Prop := ∃ e ∈ es, Revokes e.entry k

/-- Among the lines, one vouches for the key: the key itself, or the authority of a certificate. -/
def Listed (es : List Ent) (k : Key) : Prop := ∃ e ∈ es, Vouches e.entry k

/-- The lines give some plain key. -/
def Some_ (es : List Ent) : Prop := ∃ e ∈ es, e.entry.marker = .none

/-- The lines give a key, but not this one. -/
def Changed (es : List Ent) (k : Key) : Prop := k.cert = none ∧ ¬ Listed es k ∧ Some_ es

/-- The lines know no key to compare this one with. -/
def Unknown (es : List Ent) (k : Key) : Prop := ¬ Revoked es k ∧ ¬ Listed es k ∧ (k.cert = none → ¬ Some_ es)

/-- The lines support the key, and it may be used: its algorithm is accepted and a certificate is valid
for the name `who`. -/
def Good (C : Cfg) (W : World) (who : Bytes) (es : List Ent) (k : Key) : Prop :=
  algOk C W k = true ∧ ¬ Revoked es k ∧ Listed es k ∧ (k.cert ≠ none → W.certOk k who = true)

/-- The key as offered, or the plain key of the certificate offered. -/
def Form (k k' : Key) : Prop := k' = k ∨ dropCert k = some k'

/-- The reply does not settle the question. -/
def Unclear (fp : Option Bytes) (r : Bytes) : Prop :=
  replyWord r ≠ [] ∧ (replyWord r).map lower ≠ b!"no" ∧ (replyWord r).map lower ≠ b!"yes" ∧ fp ≠ some (replyWord r)

/-- The replies start with some that settle nothing and one that agrees. -/
def Agrees (fp : Option Bytes) (rs : List Bytes) : Prop :=
  ∃ pre r rest, rs = pre ++ r :: rest ∧ (∀ x ∈ pre, Unclear fp x) ∧ replyWord r ≠ [] ∧
    (replyWord r).map lower ≠ b!"no" ∧ ((replyWord r).map lower = b!"yes" ∨ fp = some (replyWord r))

/-- Nothing is left that someone in the middle could profit from. -/
def Harmless (o : Opts) : Prop :=
  o.password = false ∧ o.kbdint = false ∧ o.agent = false ∧ o.x11 = false ∧ o.lfwd = 0 ∧ o.rfwd = 0 ∧
    o.tun = false ∧ o.update = false

/-- Host authentication is waived for this server. -/
def Waived (C : Cfg) (H : Srv) : Prop := C.noHostAuth = true ∧ H.isLocal = true ∧ C.alias = none

/-- The name used for a certificate. -/
def who (C : Cfg) (H : Srv) : Bytes := C.alias.getD H.hostname

/-- The lines for the name with its port, including those of the command. -/
def OwnLines (C : Cfg) (W : World) (H : Srv) (k : Key) (es : List Ent) : Prop :=
  lines C W false b!"HOSTNAME" k (hostName C H H.port) = some es

/-- The name may also be looked up without its port. -/
def OtherPort (C : Cfg) (H : Srv) : Prop := C.alias = none ∧ H.port ≠ 0 ∧ H.port ≠ 22

/-- Options are never turned on. -/
def Weaker (a b : Opts) : Prop :=
  (a.password = true → b.password = true) ∧ (a.kbdint = true → b.kbdint = true) ∧ (a.agent = true → b.agent = true) ∧
  (a.x11 = true → b.x11 = true) ∧ a.lfwd ≤ b.lfwd ∧ a.rfwd ≤ b.rfwd ∧ (a.tun = true → b.tun = true) ∧
  (a.update = true → b.update = true) ∧ (a.checkIp = true → b.checkIp = true)

end Verif.HostKey
