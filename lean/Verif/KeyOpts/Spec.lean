/-
What combining options and accepting a certificate mean, stated without the functions of the model.
-/
import Verif.KeyOpts.Model

namespace Verif.KeyOpts.Spec

/-- Everything `r` lets a session do, `a` lets it do too, and every restriction of `a` is one of `r`. -/
structure Tighter (r a : Opts) : Prop where
  portFwd : r.portFwd = true → a.portFwd = true
  agentFwd : r.agentFwd = true → a.agentFwd = true
  x11 : r.x11 = true → a.x11 = true
  pty : r.pty = true → a.pty = true
  userRc : r.userRc = true → a.userRc = true
  touch : r.noPresence = true → a.noPresence = true
  verify : a.verify = true → r.verify = true
  command : ∀ c, a.command = some c → r.command = some c
  fromKeys : ∀ l, a.fromKeys = some l → r.fromKeys = some l
  fromCert : ∀ l, a.fromCert = some l → r.fromCert = some l
  expiry : a.validBefore ≠ 0 → r.validBefore ≠ 0 ∧ r.validBefore ≤ a.validBefore
  opens : a.permitopen ≠ [] → r.permitopen = a.permitopen
  listens : a.permitlisten ≠ [] → r.permitlisten = a.permitlisten
  tun : a.tun ≠ -1 → r.tun = a.tun

/-- A permission is granted exactly when both sides grant it. -/
structure BothGrant (r p a : Opts) : Prop where
  portFwd : r.portFwd = true ↔ p.portFwd = true ∧ a.portFwd = true
  agentFwd : r.agentFwd = true ↔ p.agentFwd = true ∧ a.agentFwd = true
  x11 : r.x11 = true ↔ p.x11 = true ∧ a.x11 = true
  pty : r.pty = true ↔ p.pty = true ∧ a.pty = true
  userRc : r.userRc = true ↔ p.userRc = true ∧ a.userRc = true
  touch : r.noPresence = true ↔ p.noPresence = true ∧ a.noPresence = true

/-- The time `now` lies in the validity interval, which includes its start and not its end. -/
def InWindow (c : Cert) (now : Int) : Prop := 0 ≤ now ∧ (c.validAfter : Int) ≤ now ∧ now < c.validBefore

/-- Options `o` let a client from `ip`/`host` use the key at time `now`. -/
structure Permitted (w : World) (now : Int) (o : Opts) (ca : Bool) (ip host : Bytes) : Prop where
  notExpired : o.validBefore ≠ 0 → 0 < now → now ≤ o.validBefore
  principals : o.principals ≠ none → o.certAuthority = true
  ca : o.certAuthority = true → ca = true
  fromKeys : ∀ l, o.fromKeys = some l → Match.matchHostAndIp (some host) (some ip) l (Addr.matchList w.pton) = 1
  source : ∀ l, o.fromCert = some l → Addr.matchCidrList w.pton (some ip) l = 1

/-- The blob is a sequence of pairs of strings; the first of each pair is a name. -/
inductive Encodes : List (Bytes × Bytes) → Bytes → Prop where
  | nil : Encodes [] []
  | cons {n name d b l} (hn : Wire.cstr n = some name) (h1 : n.length ≤ maxString) (h2 : d.length ≤ maxString)
      (ht : Encodes l b) : Encodes ((name, d) :: l) (Wire.str n ++ (Wire.str d ++ b))

/-- The data of an option is one string and nothing else. -/
def Holds (d v : Bytes) : Prop := ∃ raw, d = Wire.str raw ∧ raw.length ≤ maxString ∧ Wire.cstr raw = some v

/-- A critical option this server understands, with acceptable data. -/
inductive Understood (w : World) : Bytes × Bytes → Prop where
  | verify : Understood w (b!"verify-required", [])
  | force {d v} : Holds d v → Understood w (b!"force-command", d)
  | source {d v} : Holds d v → Addr.matchCidrList w.pton none v ≠ -1 → Understood w (b!"source-address", d)

/-- The names a comma separated list stands for, up to the first empty one (C07). -/
def listed (s : Bytes) : List Bytes := (Text.split 44 s).takeWhile (· ≠ [])

end Verif.KeyOpts.Spec
