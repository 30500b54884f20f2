/-
What a client should do at the request of the server, and at the beginning of a session.
-/
import Verif.Match.Spec
import Verif.Permit.Props
import Verif.Loop.ServerSpec
import Verif.Loop.Client

namespace Verif.Loop
open Verif Verif.Wire

/-- Where a remote forwarding leads to: a Unix socket, an address, or (port 0) wherever the client of the forwarding says. -/
inductive Leads (f : Permit.Fwd) : CAct → Prop
  | path (path q : Bytes) : f.connect = .inl path → Address path q → Leads f (.connect q (-2))
  | tcp (host : Bytes) (port : Nat) : f.connect = .inr (host, port) → port ≠ 0 → Leads f (.connect host port)
  | socks (host : Bytes) : f.connect = .inr (host, 0) → Leads f .socks

/-- The two strings of "forwarded-streamlocal@openssh.com". -/
inductive FwdPath (path : Bytes) : Bytes → Prop
  | mk (v w : Bytes) : Written v path → w.length ≤ maxString → FwdPath path (str v ++ str w)

/-- The originator of an X11 connection. -/
inductive X11From : Bytes → Prop
  | mk (v orig : Bytes) (port : Nat) : Written v orig → U32 port → X11From (str v ++ be 4 port)

/-- What a server may have the client do by opening a channel.  `ops` are the requests for remote forwardings made so far, with
their answers. -/
inductive Invited (C : CCfg) (now : Nat) (ops : List Permit.COp) (p : Bytes) : CAct → Prop
  | x11 (rest : Bytes) (rchan : Nat) : Opening b!"x11" rchan rest p → X11From rest → C.x11 = true →
    C.x11Refuse = 0 ∨ now < C.x11Refuse → Invited C now ops p .x11
  | agent (rest : Bytes) (rchan : Nat) : Opening b!"auth-agent@openssh.com" rchan rest p → C.agent = true → Invited C now ops p .agent
  | tcp (host rest : Bytes) (port oport rchan : Nat) (f : Permit.Fwd) (a : CAct) : Opening b!"forwarded-tcpip" rchan rest p →
    TcpTarget host port oport rest → port ≤ 65535 → oport ≤ 65535 → Permit.COp.request f ∈ ops →
    f.bind = some host ∨ (f.listen.isLeft = true ∧ host = b!"localhost") →
    (f.perm.lport = port ∨ ∃ i, Permit.COp.update i (some port) ∈ ops) → Leads f a → Invited C now ops p a
  | path (path rest : Bytes) (rchan : Nat) (f : Permit.Fwd) (a : CAct) : Opening b!"forwarded-streamlocal@openssh.com" rchan rest p →
    FwdPath path rest → Permit.COp.request f ∈ ops → f.listen = .inl path →
    Leads f a ∨ (∃ h, f.connect = .inr (h, 0) ∧ a = .connect h 0) → Invited C now ops p a

/-- Neither an answer nor a note that one is due. -/
def CAct.quiet : CAct → Prop
  | .send _ => False
  | .pending _ _ => False
  | _ => True

/-- One answer, last, with the server's number; or the connection for it is pending. -/
inductive CAnswered (rchan : Nat) : List CAct → Prop
  | failed (l : List CAct) (reason : Nat) (msg : Bytes) : (∀ a ∈ l, a.quiet) → CAnswered rchan (l ++ [.send (sayRefused rchan reason msg)])
  | opened (l : List CAct) (self win max : Nat) : (∀ a ∈ l, a.quiet) →
    CAnswered rchan (l ++ [.send (sayOpened rchan self win max)])
  | pending (l : List CAct) (self : Nat) : (∀ a ∈ l, a.quiet) → CAnswered rchan (l ++ [.pending self rchan])

/-- The answer tells what has come of it. -/
inductive COutcome (W : CWorld) (rchan : Nat) : List CAct → Prop
  | x11 (c : Nat) : W.x11 = some c → COutcome W rchan [.x11, .send (sayOpened rchan c 2097152 16384)]
  | x11Not : W.x11 = none → COutcome W rchan [.x11, .send (sayRefused rchan 1 b!"open failed")]
  | agent (c : Nat) : W.agent = some c → COutcome W rchan [.agent, .send (sayOpened rchan c 65536 32768)]
  | agentNot : W.agent = none → COutcome W rchan [.agent, .send (sayRefused rchan 1 b!"open failed")]
  | socks : COutcome W rchan [.socks, .send (sayOpened rchan W.socks 2097152 32768)]
  | connect (h : Bytes) (n : Int) (c : Nat) : W.connect = some c → COutcome W rchan [.connect h n, .pending c rchan]
  | connectNot (h : Bytes) (n : Int) : W.connect = none → COutcome W rchan [.connect h n, .send (sayRefused rchan 1 b!"open failed")]
  | refused : COutcome W rchan [.send (sayRefused rchan 1 b!"open failed")]

/-- A request that is as it should be; one that is refused anyway need not be. -/
inductive CFit (C : CCfg) (now : Nat) (rest : Bytes) : Bytes → Prop
  | tcp (host : Bytes) (port oport : Nat) : TcpTarget host port oport rest → CFit C now rest b!"forwarded-tcpip"
  | path (path : Bytes) : FwdPath path rest → CFit C now rest b!"forwarded-streamlocal@openssh.com"
  | x11 : (C.x11 = true → C.x11Refuse = 0 ∨ now < C.x11Refuse → X11From rest) → CFit C now rest b!"x11"
  | other (ctype : Bytes) : ctype ≠ b!"forwarded-tcpip" → ctype ≠ b!"forwarded-streamlocal@openssh.com" → ctype ≠ b!"x11" →
    CFit C now rest ctype

/-- A global request of the server: of those only the announcement of host keys is acted on, and there is an answer if and only if
one is wanted. -/
inductive Told (W : CWorld) (rtype rest : Bytes) : Bool → List CAct → Prop
  | keys : rtype = b!"hostkeys-00@openssh.com" → Told W rtype rest false [.hostkeys rest]
  | keysDone : rtype = b!"hostkeys-00@openssh.com" → W.hostkeys = true → Told W rtype rest true [.hostkeys rest, .send [81]]
  | keysNot : rtype = b!"hostkeys-00@openssh.com" → W.hostkeys = false → Told W rtype rest true [.hostkeys rest, .send [82]]
  | other : rtype ≠ b!"hostkeys-00@openssh.com" → Told W rtype rest false []
  | refused : rtype ≠ b!"hostkeys-00@openssh.com" → Told W rtype rest true [.send [82]]

/-! ### Answers, keep-alives -/

/-- Answers come in the order of the requests. -/
def fifo : List Nat → List QOp → List (Option Nat)
  | _, [] => []
  | l, .request w :: ops => fifo (l ++ [w]) ops
  | l, .answer :: ops => l.head? :: fifo l.tail ops

/-- So many intervals in a row without a word. -/
def Silent (n : Nat) (l : List Tick) : Prop := ∃ a b, l = a ++ List.replicate n .timeout ++ b

/-! ### Starting a session -/

/-- "NAME=value", where the name has no "=". -/
def Var (n v e : Bytes) : Prop := 61 ∉ n ∧ e = n ++ 61 :: v

/-- The requests for variables, in order: of the client's environment those that a pattern of SendEnv matches. -/
inductive Sent (pats : List Bytes) : List Bytes → List Rq → Prop
  | nil : Sent pats [] []
  | sent (n v e : Bytes) (es : List Bytes) (l : List Rq) : Var n v e → (∃ p ∈ pats, Match.Glob p n) → Sent pats es l →
    Sent pats (e :: es) (⟨b!"env", false, str n ++ str v⟩ :: l)
  | other (n v e : Bytes) (es : List Bytes) (l : List Rq) : Var n v e → ¬ (∃ p ∈ pats, Match.Glob p n) → Sent pats es l →
    Sent pats (e :: es) l
  | none (e : Bytes) (es : List Bytes) (l : List Rq) : 61 ∉ e → Sent pats es l → Sent pats (e :: es) l

end Verif.Loop
