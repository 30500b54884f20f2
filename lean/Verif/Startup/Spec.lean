/-
What the connection limits and penalties mean, without the tables that implement them.
-/
import Verif.Addr.Spec
import Verif.Startup.Model

namespace Verif.Startup
open Verif Text
open Verif.Addr (XAddr Family)

/-- Legal prefix lengths and times, as the configuration parser enforces. -/
structure Cfg.Ok (c : Cfg) : Prop where
  len4 : c.len4 ≤ 32
  len6 : c.len6 ≤ 128
  secs : ∀ k, 0 ≤ c.secs k
  pmax : 0 ≤ c.pmax

/-- The configured prefix length for an address. -/
def plen (c : Cfg) (a : XAddr) : Nat := if a.af = .inet then c.len4 else c.len6

/-- Two addresses of the same source network: same family, same leading bits, same IPv6 zone. -/
def SameNet (c : Cfg) (a b : XAddr) : Prop :=
  a.af = b.af ∧ (∀ i < plen c a, Addr.bit a i = Addr.bit b i) ∧ (a.af = .inet6 → a.scope = b.scope)

instance (c : Cfg) (a b : XAddr) : Decidable (SameNet c a b) := by unfold SameNet; infer_instance

/-- The penalty of a source network: until when, whether it is enforced, and its last cause. -/
structure Pen where
  expiry : Int
  active : Bool
  reason : Kind
  deriving DecidableEq, Repr

/-- A first penalty at time `t`; it is enforced if it exceeds the minimum. -/
def first (c : Cfg) (t : Int) (k : Kind) : Pen := ⟨t + c.secs k, decide (c.pmin < c.secs k), k⟩

/-- A penalty added to a running one, up to the maximum; it is enforced once more than the minimum is
outstanding. -/
def further (c : Cfg) (t : Int) (k : Kind) (p : Pen) : Pen :=
  ⟨min (p.expiry + c.secs k) (t + c.pmax), p.active || decide (c.pmin < min (p.expiry + c.secs k - t) c.pmax), k⟩

/-- One more offence at time `t`. -/
def charge (c : Cfg) (t : Int) (k : Kind) : Option Pen → Pen
  | none => first c t k
  | some p => if p.expiry < t then first c t k else further c t k p

/-- The recorded calls: an offence with what it did, and a question with its answer. -/
inductive Act
  | offence (t : Int) (a : XAddr) (k : Kind) (e : Effect)
  | query (t : Int) (peer : Option XAddr) (ans : Answer)
  deriving DecidableEq, Repr

/-- How the penalty of `a`'s network changes: offences from that network count, unless nothing was recorded;
networks dropped from an overfull table are forgiven. -/
def ledgerStep (c : Cfg) (a : XAddr) (old : Option Pen) : Act → Option Pen
  | .offence t b k (.fresh dropped) =>
    if ∃ d ∈ dropped, SameNet c a d then none else if SameNet c a b then some (charge c t k old) else old
  | .offence t b k .more => if SameNet c a b then some (charge c t k old) else old
  | .offence _ _ _ .full => old
  | .offence _ _ _ .nothing => old
  | .query .. => old

/-- The penalty of `a`'s network after these calls. -/
def ledger (c : Cfg) (log : List Act) (a : XAddr) : Option Pen := log.foldl (ledgerStep c a) none

/-- Is the penalty still running? -/
def Running (c : Cfg) (log : List Act) (t : Int) (a : XAddr) (p : Pen) : Prop :=
  ledger c log a = some p ∧ t ≤ p.expiry

/-- `L` names the networks of family `f` whose penalty is running, each once. -/
structure Listed (c : Cfg) (log : List Act) (t : Int) (f : Family) (L : List XAddr) : Prop where
  fam : ∀ a ∈ L, a.af = f
  apart : L.Pairwise (fun a b => ¬ SameNet c a b)
  all : ∀ a, a.af = f → ((∃ p, Running c log t a p) ↔ ∃ b ∈ L, SameNet c a b)

/-- The configured number of penalised networks of a family. -/
def sources (c : Cfg) (f : Family) : Nat := if f = .inet then c.max4 else c.max6

/-- Is everybody refused while that number is reached? -/
def strict (c : Cfg) (f : Family) : Prop := (if f = .inet then c.deny4 else c.deny6) = true

/-- The address is on the exempt list (or cannot be printed to be looked up there). -/
def Exempt (c : Cfg) (a : XAddr) : Prop :=
  ∃ l, c.exempt = some l ∧ ∀ s, c.ntop a = some s → Addr.matchList c.pton (some s) l = 1

/-- Penalties do not concern this address. -/
def Spared (c : Cfg) (a : XAddr) : Prop := c.enabled = false ∨ Exempt c a

/-- The offence was recorded. -/
def Recorded : Effect → Prop
  | .fresh _ => True
  | .more => True
  | .full => False
  | .nothing => False

/-- The histories of the two penalty functions; the clock does not run backwards. -/
inductive PHist (c : Cfg) : List Act → Penal → Int → Prop
  | init (t : Int) : PHist c [] penalInit t
  | offence {log p t t' a k p' e} : PHist c log p t → t ≤ t' → penalise c t' a k p = some (p', e) →
      PHist c (log ++ [.offence t' a k e]) p' t'
  | query {log p t t' peer p' ans} : PHist c log p t → t ≤ t' → penaltyCheck c t' peer p = some (p', ans) →
      PHist c (log ++ [.query t' peer ans]) p' t'

/-! ### The per-source limit -/

/-- The limit applies to this address: a limit is set, and the address is known and printable. -/
def Counted (c : Cfg) (a : XAddr) : Prop := c.perSource.isSome = true ∧ (a.af = .inet ∨ a.af = .inet6) ∧ (c.ntop a).isSome = true

instance (c : Cfg) (a : XAddr) : Decidable (Counted c a) := by unfold Counted; infer_instance

/-- Calls of the two functions: may connection `id` from `peer` be admitted, and connection `id` is over. -/
inductive SAct
  | ask (peer : Option XAddr) (id : Nat) (ok : Bool)
  | over (id : Nat)
  deriving DecidableEq, Repr

def heldStep (c : Cfg) (held : List (Nat × XAddr)) : SAct → List (Nat × XAddr)
  | .ask (some a) id true => if Counted c a then held ++ [(id, a)] else held
  | .ask .. => held
  | .over id => held.filter fun x => x.1 ≠ id

/-- The connections that were admitted, count, and are not over. -/
def held (c : Cfg) (log : List SAct) : List (Nat × XAddr) := log.foldl (heldStep c) []

/-- How many of them are from `a`'s network. -/
def heldFrom (c : Cfg) (log : List SAct) (a : XAddr) : Nat := (held c log).countP fun x => SameNet c a x.2

/-- Histories of the two functions; a number is not used again before its connection is over. -/
inductive SHist (c : Cfg) : List SAct → Slots → Prop
  | init : SHist c [] (slotsInit c)
  | ask {log s s' peer id ok} : SHist c log s → (∀ x ∈ held c log, x.1 ≠ id) →
      checkAllow c peer id s = (s', ok) → SHist c (log ++ [.ask peer id ok]) s'
  | over {log s} (id : Nat) : SHist c log s → SHist c (log ++ [.over id]) (slotDone c id s)

/-! ### The listener -/

/-- The time of an event that has one. -/
def Ev.time : Ev → Option Int
  | .accept now .. => some now
  | .exits now _ => some now
  | _ => none

/-- What the operating system guarantees about an event: a new pipe differs from the open ones, a new
process from the ones not yet waited for, and the random number is below 100. -/
def EvOk (s : State) : Ev → Prop
  | .accept _ _ fd r pid => (∀ k ∈ s.children, k.pipe ≠ some fd) ∧ (pid ≠ none → ∀ k ∈ s.children, k.pid ≠ pid) ∧ r < 100
  | _ => True

/-- The histories of the listener; the clock does not run backwards. -/
inductive Hist (c : Cfg) : List (Ev × Out) → State → Int → Prop
  | init (t : Int) : Hist c [] (init c) t
  | step {h s t ev s' o} : Hist c h s t → EvOk s ev → t ≤ ev.time.getD t → step c s ev = some (s', o) →
      Hist c (h ++ [(ev, o)]) s' (ev.time.getD t)

/-- The connections that are not authenticated yet: the children whose pipe is open. -/
def waiting (s : State) : List Child := s.children.filter fun k => k.pipe.isSome

/-- Children the listener still tracks: their pipe is open or their process has not been waited for. -/
def tracked (s : State) : List Child := s.children.filter fun k => k.pipe.isSome || k.pid.isSome

/-- Waiting connections from `a`'s network to which the limit applies. -/
def waitingFrom (c : Cfg) (s : State) (a : XAddr) : Nat :=
  (waiting s).countP fun k => match k.addr with
    | none => false
    | some b => Counted c b ∧ SameNet c a b

/-- The number of logins reported so far. -/
def logins (h : List (Ev × Out)) : Nat := h.countP fun x => match x.2 with
  | .loggedIn _ => true
  | _ => false

/-- Every connection so far came from an address the limit applies to. -/
def AllCounted (c : Cfg) (h : List (Ev × Out)) : Prop :=
  ∀ now peer fd r pid o, (Ev.accept now peer fd r pid, o) ∈ h → ∃ a, peer = some a ∧ Counted c a

end Verif.Startup
