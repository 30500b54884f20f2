/-
What the server should do with requests outside of sessions.
-/
import Verif.WireMore
import Verif.Permit.Spec
import Verif.Loop.Server

namespace Verif.Loop
open Verif Verif.Wire

/-- A 32 bit number. -/
def U32 (n : Nat) : Prop := n < 4294967296

/-- How a string is written in a message. -/
def Written (v s : Bytes) : Prop := Named v s ∧ v.length ≤ maxString

/-- A request to open a channel of a type, with the client's number for it; `rest` depends on the type. -/
inductive Opening (ctype : Bytes) (rchan : Nat) (rest : Bytes) : Bytes → Prop
  | mk (v : Bytes) (win max : Nat) : Written v ctype → U32 rchan → U32 win → U32 max →
    Opening ctype rchan rest (str v ++ be 4 rchan ++ be 4 win ++ be 4 max ++ rest)

/-- "direct-tcpip": target and originator. -/
inductive TcpTarget (host : Bytes) (port oport : Nat) : Bytes → Prop
  | mk (v o orig : Bytes) : Written v host → U32 port → Written o orig → U32 oport →
    TcpTarget host port oport (str v ++ be 4 port ++ str o ++ be 4 oport)

inductive PathTarget (path : Bytes) (oport : Nat) : Bytes → Prop
  | mk (v o orig : Bytes) : Written v path → Written o orig → U32 oport → PathTarget path oport (str v ++ str o ++ be 4 oport)

inductive TunTarget (mode dev : Nat) : Bytes → Prop
  | mk (more : Bytes) : U32 mode → U32 dev → TunTarget mode dev (be 4 mode ++ be 4 dev ++ more)

/-- The device that is meant: the one asked for, or the one the key prescribes. -/
def DeviceFor (force : Option Nat) (asked dev : Nat) : Prop :=
  asked ≤ 0x7fffffff ∧
    ((force = none ∧ dev = asked) ∨ (force = some dev ∧ (asked = dev ∨ asked = 0x7fffffff)))

/-- The address of a Unix socket for a path: at most 107 bytes, and a path of 108 bytes is cut. -/
def Address (path q : Bytes) : Prop := path.length ≤ 108 ∧ q = path.take 107

/-- What the client is entitled to when it asks for a channel. -/
inductive Entitled (C : SCfg) (s : SSt) (p : Bytes) : Act → Prop
  | session (self rchan : Nat) : Opening b!"session" rchan [] p → s.noMore = false → Entitled C s p (.session self)
  | tcp (host rest : Bytes) (port oport rchan : Nat) : Opening b!"direct-tcpip" rchan rest p → TcpTarget host port oport rest →
    Permit.directTcpip C.fwd C.loc host port oport = true → Entitled C s p (.connectTcp host port)
  | path (path q rest : Bytes) (oport rchan : Nat) : Opening b!"direct-streamlocal@openssh.com" rchan rest p →
    PathTarget path oport rest → Permit.directStreamlocal C.fwd C.loc path oport = true → Address path q →
    Entitled C s p (.connectPath q)
  | tun (rest : Bytes) (mode asked dev rchan : Nat) : Opening b!"tun@openssh.com" rchan rest p → TunTarget mode asked rest →
    mode = 1 ∨ mode = 2 → C.tun &&& mode ≠ 0 → DeviceFor C.forceTun asked dev → Entitled C s p (.openTun dev mode)

/-- RFC 4254, 5.1: the other side's number comes first, then the own one, the window and the size of packets. -/
def sayOpened (theirs own win max : Nat) : Bytes := 91 :: (be 4 theirs ++ be 4 own ++ be 4 win ++ be 4 max)

/-- RFC 4254, 5.1: the other side's number, a reason, a text and an empty language tag. -/
def sayRefused (theirs reason : Nat) (msg : Bytes) : Bytes := 92 :: (be 4 theirs ++ be 4 reason ++ str msg ++ [0, 0, 0, 0])

/-- One answer, which carries the client's number, and it comes last; or the connection for it is pending. -/
inductive Answered (rchan : Nat) : List Act → Prop
  | failed (l : List Act) (reason : Nat) (msg : Bytes) : (∀ a ∈ l, ∀ q, a ≠ .send q) → (∀ a ∈ l, ∀ x y, a ≠ .pending x y) →
    Answered rchan (l ++ [.send (sayRefused rchan reason msg)])
  | opened (l : List Act) (self win max : Nat) : (∀ a ∈ l, ∀ q, a ≠ .send q) → (∀ a ∈ l, ∀ x y, a ≠ .pending x y) →
    Answered rchan (l ++ [.send (sayOpened rchan self win max)])
  | pending (l : List Act) (self : Nat) : (∀ a ∈ l, ∀ q, a ≠ .send q) → (∀ a ∈ l, ∀ x y, a ≠ .pending x y) →
    Answered rchan (l ++ [.pending self rchan])

/-- A global request. -/
inductive Global (rtype : Bytes) (want : Bool) (rest : Bytes) : Bytes → Prop
  | mk (v : Bytes) (x : UInt8) : Written v rtype → (want = true ↔ x ≠ 0) → Global rtype want rest (str v ++ x :: rest)

inductive ListenAt (host : Bytes) (port : Nat) : Bytes → Prop
  | mk (v more : Bytes) : Written v host → U32 port → ListenAt host port (str v ++ be 4 port ++ more)

/-- What the client is entitled to when it makes a global request. -/
inductive Granted (C : SCfg) (p : Bytes) : Act → Prop
  | listen (host rest : Bytes) (port : Nat) (want : Bool) : Global b!"tcpip-forward" want rest p → ListenAt host port rest →
    Permit.tcpipForward C.fwd C.rem host port want = true → Granted C p (.listenTcp host port)
  | cancel (host rest : Bytes) (port : Nat) (want : Bool) : Global b!"cancel-tcpip-forward" want rest p → ListenAt host port rest →
    port < 2147483648 → Granted C p (.cancelTcp host port)
  | listenPath (path v more : Bytes) (want : Bool) : Global b!"streamlocal-forward@openssh.com" want (str v ++ more) p →
    Written v path → Permit.streamlocalForward C.fwd C.rem path = true → Granted C p (.listenPath path)
  | cancelPath (path v more : Bytes) (want : Bool) : Global b!"cancel-streamlocal-forward@openssh.com" want (str v ++ more) p →
    Written v path → Granted C p (.cancelPath path)
  | prove (rest : Bytes) (want : Bool) : Global b!"hostkeys-prove-00@openssh.com" want rest p → Granted C p (.prove rest)

/-- The answer tells what has come of it. -/
inductive Outcome (W : SWorld) (rchan : Nat) : List Act → Prop
  | session (c : Nat) : W.session = some c → Outcome W rchan [.session c, .send (sayOpened rchan c 0 32768)]
  | tun (d mode c : Nat) : W.tunOpen = some c → Outcome W rchan [.openTun d mode, .send (sayOpened rchan c 2097152 32768)]
  | tunNot (d mode : Nat) : W.tunOpen = none → Outcome W rchan [.openTun d mode, .send (sayRefused rchan 2 b!"open failed")]
  | tcp (host : Bytes) (port c : Nat) : W.connect = some c → Outcome W rchan [.connectTcp host port, .pending c rchan]
  | tcpNot (host msg : Bytes) (port : Nat) : W.connect = none → Outcome W rchan [.connectTcp host port, .send (sayRefused rchan 2 msg)]
  | path (path : Bytes) (c : Nat) : W.connect = some c → Outcome W rchan [.connectPath path, .pending c rchan]
  | pathNot (path : Bytes) : W.connect = none → Outcome W rchan [.connectPath path, .send (sayRefused rchan 2 b!"open failed")]
  | refused (reason : Nat) : reason = 1 ∨ reason = 2 → Outcome W rchan [.send (sayRefused rchan reason b!"open failed")]

/-- When a global request has succeeded, and what the answer says. -/
inductive Succeeded (C : SCfg) (W : SWorld) : Bytes → Bool → Bytes → Bytes → Prop
  | listen (host rest : Bytes) (port n : Nat) (want : Bool) : ListenAt host port rest → Permit.tcpipForward C.fwd C.rem host port want = true →
    W.listen = some n → port ≠ 0 → Succeeded C W b!"tcpip-forward" want rest []
  | chosen (host rest : Bytes) (n : Nat) (want : Bool) : ListenAt host 0 rest → Permit.tcpipForward C.fwd C.rem host 0 want = true →
    W.listen = some n → Succeeded C W b!"tcpip-forward" want rest (be 4 n)
  | cancel (host rest : Bytes) (port : Nat) (want : Bool) : ListenAt host port rest → port < 2147483648 → W.cancel = true →
    Succeeded C W b!"cancel-tcpip-forward" want rest []
  | listenPath (path v more : Bytes) (want : Bool) : Written v path → Permit.streamlocalForward C.fwd C.rem path = true →
    W.listenPath = true → Succeeded C W b!"streamlocal-forward@openssh.com" want (str v ++ more) []
  | cancelPath (path v more : Bytes) (want : Bool) : Written v path → W.cancel = true →
    Succeeded C W b!"cancel-streamlocal-forward@openssh.com" want (str v ++ more) []
  | noMore (rest : Bytes) (want : Bool) : Succeeded C W b!"no-more-sessions@openssh.com" want rest []
  | prove (rest r : Bytes) (want : Bool) : W.prove = some r → Succeeded C W b!"hostkeys-prove-00@openssh.com" want rest r

/-- A request on a channel. -/
inductive OnChannel (id : Nat) (rtype : Bytes) (want : Bool) (rest : Bytes) : Bytes → Prop
  | mk (v : Bytes) (x : UInt8) : U32 id → Written v rtype → (want = true ↔ x ≠ 0) →
    OnChannel id rtype want rest (be 4 id ++ str v ++ x :: rest)

end Verif.Loop
