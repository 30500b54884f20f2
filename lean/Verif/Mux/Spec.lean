/-
What is claimed of the control connection, without the functions of the model.
-/
import Verif.Mux.Model
import Verif.Match.Spec

namespace Verif.Mux
open Verif Wire
open _root_.Verif.Match (Glob)

/-! ### Requests and answers -/

/-- The kinds of packets that answer a request: done, refused, failed, alive, opened, the port, a proxy -/
def answerKinds : List Nat := [0x80000001, 0x80000002, 0x80000003, 0x80000005, 0x80000006, 0x80000007, 0x8000000f]

/-- The request that is answered by a packet -/
def answer? : Act → Option Nat
  | .reply p => if 8 ≤ p.length ∧ ofBE (p.take 4) ∈ answerKinds then some (ofBE ((p.drop 4).take 4)) else none
  | _ => none

def answered (out : List Act) : List Nat := out.filterMap answer?

/-- The request in a packet: what it is, its number, and what comes then. The first packet, of kind 1, is no request. -/
def request? (p : Bytes) : Option (Nat × Nat × Bytes) :=
  if 8 ≤ p.length ∧ ofBE (p.take 4) ≠ 1 then some (ofBE (p.take 4), ofBE ((p.drop 4).take 4), p.drop 8) else none

/-- The number of the request that is waited for -/
def Wait.rid : Wait → Nat
  | .session rid _ => rid
  | .stdio rid => rid
  | .forward rid _ => rid

/-- Packets are looked at in this state -/
def Ready (s : St) : Prop := s.status = .running ∧ s.hello = true ∧ s.wait = none ∧ s.proxied = false

instance (s : St) : Decidable (Ready s) := by unfold Ready; infer_instance

/-- The number of the request that an event brings to a state -/
def takes (s : St) : Event → Option Nat
  | .packet p => if Ready s then (request? p).map (·.2.1) else none
  | _ => none

/-- All requests of a run, in their order -/
def taken (C : Conf) : St → List (World × Event) → List Nat
  | _, [] => []
  | s, (W, e) :: l => (takes s e).toList ++ taken C (step C W s e) l

/-- States that can be -/
inductive Reach (C : Conf) : St → Prop
  | init (locals remotes : List Fwd) : Reach C (init locals remotes)
  | step {s : St} (W : World) (e : Event) : Reach C s → Reach C (step C W s e)

/-- Names and values that may follow a greeting -/
inductive Extensions : Bytes → Prop
  | nil : Extensions []
  | more {n v name b : Bytes} : Named n name → n.length ≤ maxString → v.length ≤ maxString → Extensions b → Extensions (str n ++ str v ++ b)

/-- A greeting of version 4 -/
def Greeting (p : Bytes) : Prop := ∃ e, Extensions e ∧ p = be 4 1 ++ be 4 4 ++ e

/-! ### Permission -/

/-- The user agrees: by the word, or by nothing at all -/
def Agrees (a : Option Bytes) : Prop := ∃ p, a = some p ∧ (p = [] ∨ p.head? = some 10 ∨ p.map Match.toLower = b!"yes")

/-- Questions are to be asked -/
def Asking (C : Conf) : Prop := C.master = .ask ∨ C.master = .autoAsk

/-- A port in a question -/
def shown (n : Nat) : Bytes := if n = 4294967294 then b!"-2" else Scp.dec n

/-- Where a forwarding listens, in a question -/
def place (path host : Option Bytes) (other : Bytes) : Bytes :=
  match path, host with
  | some p, _ => p.take 200
  | none, some h => h.take 200
  | none, none => other.take 200

/-- The question for something that is done, before it is cut -/
inductive Asks (C : Conf) : Bytes → Act → Prop
  | session (fds : List Nat) (w m : Nat) (e : Option Nat) :
      Asks C (b!"Allow shared connection to " ++ C.host ++ b!"? ") (.openSession fds w m e)
  | path (host : Bytes) (fds : List Nat) : Asks C (b!"Allow forward to path " ++ host) (.openStdio host 4294967294 fds)
  | address (host : Bytes) (port : Nat) (fds : List Nat) : port ≠ 4294967294 →
      Asks C (b!"Allow forward to [" ++ host ++ b!"]:" ++ Scp.dec port ++ b!"? ") (.openStdio host port fds)
  | local_ (f : Fwd) (c : Bytes) : f.connectPort ≠ 0 → (f.connectPath = some c ∨ f.connectPath = none ∧ f.connectHost = some c) →
      Asks C (b!"Open local forward " ++ place f.listenPath f.listenHost (if C.gateway = true then b!"*" else b!"LOCALHOST") ++ b!":" ++
        shown f.listenPort ++ b!" -> " ++ c.take 200 ++ b!":" ++ shown f.connectPort ++ b!" on " ++ C.host ++ b!"?") (.listen f)
  | dynamic (f : Fwd) : f.listenPath = none →
      Asks C (b!"Open dynamic forward " ++ place none f.listenHost (if C.gateway = true then b!"*" else b!"LOCALHOST") ++ b!":" ++
        shown f.listenPort ++ b!" -> *" ++ b!" on " ++ C.host ++ b!"?") (.listen f)
  | remote (f : Fwd) (c : Bytes) : (f.connectPath = some c ∨ f.connectPath = none ∧ f.connectHost = some c) →
      Asks C (b!"Open remote forward " ++ place f.listenPath f.listenHost b!"LOCALHOST" ++ b!":" ++
        shown f.listenPort ++ b!" -> " ++ c.take 200 ++ b!":" ++ shown f.connectPort ++ b!" on " ++ C.host ++ b!"?") (.askRemote f)
  | stop : Asks C (b!"Disable further multiplexing on shared connection to " ++ C.host ++ b!"? ") .stopListening
  | terminate : Asks C (b!"Terminate shared connection to " ++ C.host ++ b!"? ") .terminate

/-- Something is done with the shared connection for the client, without more ado -/
def Uses : Act → Prop
  | .openSession .. | .openStdio .. | .listen _ | .askRemote _ | .stopListening | .terminate => True
  | .proxy | .unlisten _ | .cancelRemote _ => True
  | _ => False

/-- Those for which nobody is asked -/
def Unasked : Act → Prop
  | .proxy | .unlisten _ | .cancelRemote _ => True
  | _ => False

/-! ### Sessions -/

/-- A variable that may be passed on -/
def EnvOk (C : Conf) (e : Bytes) : Prop :=
  ∃ name value, e = name ++ 61 :: value ∧ (61 : UInt8) ∉ name ∧ name ≠ [] ∧ name.length < 1024 ∧ ∃ p ∈ C.sendEnv, Glob p name

/-! ### Forwardings -/

/-- Two forwardings are the same if they lead from the same place to the same place. -/
def Same (f g : Fwd) : Prop :=
  f.listenHost = g.listenHost ∧ f.listenPath = g.listenPath ∧ f.listenPort = g.listenPort ∧
  f.connectHost = g.connectHost ∧ f.connectPath = g.connectPath ∧ f.connectPort = g.connectPort

/-- No forwarding at all -/
def Empty (f : Fwd) : Prop :=
  f.listenHost = none ∧ f.listenPath = none ∧ f.listenPort = 0 ∧ f.connectHost = none ∧ f.connectPath = none ∧ f.connectPort = 0

/-- An end of a forwarding: a path, or a port with or without a name -/
def End (a : Bytes) (port : Nat) (host path : Option Bytes) : Prop :=
  (port = 4294967294 ∧ host = none ∧ ((a = [] ∧ path = none) ∨ (a ≠ [] ∧ path = some a))) ∨
  (port ≤ 65535 ∧ path = none ∧ ((a = [] ∧ host = none) ∨ (a ≠ [] ∧ host = some a)))

/-- What a request to open or close a forwarding is about: 1 for a local one, 2 for a remote one, 3 for a dynamic one -/
def Wants (b : Bytes) (kind : Nat) (f : Fwd) : Prop :=
  ∃ nl la nc ca rest, Named nl la ∧ Named nc ca ∧ nl.length ≤ maxString ∧ nc.length ≤ maxString ∧ kind < 2 ^ 32 ∧ f.allocated = 0 ∧
    b = be 4 kind ++ str nl ++ be 4 f.listenPort ++ str nc ++ be 4 f.connectPort ++ rest ∧
    End la f.listenPort f.listenHost f.listenPath ∧ End ca f.connectPort f.connectHost f.connectPath

/-- A forwarding of no kind, or one that leads nowhere -/
def NoSense (kind : Nat) (f : Fwd) : Prop :=
  (kind ≠ 1 ∧ kind ≠ 2 ∧ kind ≠ 3) ∨ (kind ≠ 3 ∧ f.connectHost = none ∧ f.connectPath = none)

/-- Requests that the program does not survive -/
def Deadly (b : Bytes) : Prop := ∃ kind f, Wants b kind f ∧ NoSense kind f

/-- No two forwardings of a table are the same, but for those that are none. -/
def Distinct (l : List Fwd) : Prop := l.Pairwise fun f g => Same f g → Empty f

/-- Nothing but questions -/
def Questions (l : List Act) : Prop := ∀ a ∈ l, ∃ q, a = Act.asked q

/-- A forwarding that can be: a dynamic one does not listen at a path, a local one has a port to lead to -/
def Possible (kind : Nat) (f : Fwd) : Prop :=
  (kind = 1 ∧ f.connectPort ≠ 0 ∧ (f.connectHost ≠ none ∨ f.connectPath ≠ none)) ∨
  (kind = 2 ∧ (f.connectHost ≠ none ∨ f.connectPath ≠ none)) ∨
  (kind = 3 ∧ f.listenPath = none)

/-- What can come of a request to open a forwarding, from the state `s` to the state `t` with the acts `k` -/
inductive Opened (W : World) (rid kind : Nat) (f : Fwd) (s t : St) (k : List Act) : Prop
  /-- there is one already -/
  | had (g : Fwd) : Same f g → (kind = 2 → g ∈ s.remotes ∧ f.listenPort ≠ 0) → (kind ≠ 2 → g ∈ s.locals) →
      k = [.reply (be 4 0x80000001 ++ be 4 rid)] → t.locals = s.locals → t.remotes = s.remotes → Opened W rid kind f s t k
  | hadPort (g : Fwd) : kind = 2 → f.listenPort = 0 → g ∈ s.remotes → Same f g →
      k = [.reply (be 4 0x80000007 ++ be 4 rid ++ be 4 g.allocated)] → t.locals = s.locals → t.remotes = s.remotes → Opened W rid kind f s t k
  /-- it is opened -/
  | listens (q : List Act) : kind ≠ 2 → Possible kind f → (∀ g ∈ s.locals, ¬ Same f g) → W.listens f = true → Questions q →
      k = q ++ [.listen f, .reply (be 4 0x80000001 ++ be 4 rid)] → t.locals = s.locals ++ [f] → t.remotes = s.remotes → Opened W rid kind f s t k
  | remote (q : List Act) : kind = 2 → Possible kind f → (∀ g ∈ s.remotes, ¬ Same f g) → W.asks f = true → Questions q → k = q ++ [.askRemote f] →
      t.locals = s.locals → t.remotes = s.remotes ++ [f] → t.wait = some (.forward rid s.remotes.length) → Opened W rid kind f s t k
  /-- it is not -/
  | refused (q : List Act) (type : Nat) (msg : Bytes) : type = 0x80000002 ∨ type = 0x80000003 → Questions q →
      k = q ++ [.reply (be 4 type ++ be 4 rid ++ str msg)] → t.locals = s.locals → t.remotes = s.remotes → Opened W rid kind f s t k
  | gone : NoSense kind f → k = [] → t.locals = s.locals → t.remotes = s.remotes → t.status ≠ .running → Opened W rid kind f s t k

/-- One entry of a table has been emptied, and no other has been changed: `g` was there, and is no more. -/
def Emptied (f g : Fwd) (l m : List Fwd) : Prop :=
  ∃ a b e, l = a ++ g :: b ∧ m = a ++ e :: b ∧ Same f g ∧ Empty e ∧ ∀ x ∈ a, ¬ Same f x

/-- What can come of a request to close a forwarding -/
inductive Closed (W : World) (rid kind : Nat) (f : Fwd) (s t : St) (k : List Act) : Prop
  | local_ (g : Fwd) : kind = 1 ∨ kind = 3 → Emptied f g s.locals t.locals → t.remotes = s.remotes →
      k = (if W.unlistens f = true then [.unlisten f] else []) ++ [.reply (be 4 0x80000001 ++ be 4 rid)] → Closed W rid kind f s t k
  | remote (g : Fwd) : kind = 2 → W.cancels g = true → Emptied f g s.remotes t.remotes → t.locals = s.locals →
      k = [.cancelRemote g, .reply (be 4 0x80000001 ++ be 4 rid)] → Closed W rid kind f s t k
  | refused (msg : Bytes) : (kind = 2 → (∀ g ∈ s.remotes, ¬ Same f g) ∨ ∃ g ∈ s.remotes, Same f g ∧ W.cancels g = false) →
      (kind ≠ 2 → ∀ g ∈ s.locals, ¬ Same f g) → t.locals = s.locals → t.remotes = s.remotes →
      k = [.reply (be 4 0x80000003 ++ be 4 rid ++ str msg)] → Closed W rid kind f s t k
  | gone : NoSense kind f → k = [] → t.locals = s.locals → t.remotes = s.remotes → t.status ≠ .running → Closed W rid kind f s t k

end Verif.Mux
