/-
Model of what the client does with requests of the server (clientloop.c): channels the server opens, global requests, requests on
channels; answers to the client's own global requests; keep-alives; and the requests with which the client starts a session.
-/
import Verif.Base
import Verif.Wire
import Verif.Text
import Verif.Match.Model
import Verif.Permit.Model
import Verif.Loop.Server

namespace Verif.Loop
open Verif Verif.Wire

structure CCfg where
  /-- ForwardX11 -/
  x11 : Bool
  /-- when X11 connections begin to be refused; 0: never -/
  x11Refuse : Nat
  /-- ForwardAgent -/
  agent : Bool

/-- What the system says to one message. -/
structure CWorld where
  now : Nat
  /-- a connection is begun: the number of its channel -/
  connect : Option Nat
  /-- the channel for a client that chooses the target itself (`rdynamic_connect_prepare`) -/
  socks : Nat
  /-- the display, or the agent, could be reached -/
  x11 : Option Nat
  agent : Option Nat
  /-- `client_input_hostkeys` (C83) -/
  hostkeys : Bool

inductive CAct where
  | connect (host : Bytes) (port : Int)
  | socks
  | x11
  | agent
  /-- to the multiplexing client that asked for the forwarding -/
  | mux (chan : Nat) (packet : Bytes)
  | hostkeys (payload : Bytes)
  | pending (self rchan : Nat)
  | send (packet : Bytes)
deriving DecidableEq

inductive COpened where
  | failed
  | opened (self window maxpacket : Nat)
  | connecting (self : Nat)
  | proxied
  | fatal

def tFwdTcp : Bytes := b!"forwarded-tcpip"
def tFwdPath : Bytes := b!"forwarded-streamlocal@openssh.com"
def tX11 : Bytes := b!"x11"
def tAgent : Bytes := b!"auth-agent@openssh.com"

/-- channels.c:4722-4744 `connect_to`. -/
def connectTo (W : CWorld) (host : Bytes) (port : Int) : List CAct × COpened :=
  match (if port = -2 then sunPath host else some host) with
  | none => ([], .failed)
  | some h =>
    match W.connect with
    | some c => ([.connect h port], .connecting c)
    | none => ([.connect h port], .failed)

/-- clientloop.c:1687-1745 `client_request_forwarded_tcpip`.  A channel for a client that chooses its target is of type
SSH_CHANNEL_RDYNAMIC_OPEN; the packet that `rdynamic_connect_prepare` begins
(channels.c:4926-4948) is not sent but replaced by that of line 1929. -/
def fwdTcp (W : CWorld) (perms : List Permit.Perm) (rchan win max : Nat) (p : Bytes) : List CAct × COpened :=
  match tcpFields p with
  | none => ([], .fatal)
  | some (host, port, orig, oport) =>
    if port > 0xffff then ([], .failed)
    else if oport > 0xffff then ([], .failed)
    else
      match Permit.byListenAddress perms host port with
      | .refuse => ([], .failed)
      | .socks => ([.socks], .opened W.socks 2097152 32768)
      | .connect h n => connectTo W h n
      | .mux c => ([.mux c (0 :: 90 :: (str tFwdTcp ++ be 4 rchan ++ be 4 win ++ be 4 max ++ str host ++ be 4 port ++ str orig ++
          be 4 oport))], .proxied)

/-- clientloop.c:1755-1758: the path and a reserved string. -/
def fwdPathFields (p : Bytes) : Option Bytes := do
  let (path, p) ← getCstr p
  let (_, p) ← getStr p
  if p = [] then pure path else none

/-- clientloop.c:1747-1767 `client_request_forwarded_streamlocal`. -/
def fwdPath (W : CWorld) (perms : List Permit.Perm) (p : Bytes) : List CAct × COpened :=
  match fwdPathFields p with
  | none => ([], .fatal)
  | some path =>
    match Permit.byListenPath perms path with
    | .connect h n => connectTo W h n
    | _ => ([], .failed)

/-- clientloop.c:1787-1790. -/
def x11Fields (p : Bytes) : Option (Bytes × Nat) := do
  let (orig, p) ← getCstr p
  let (port, p) ← getInt 4 p
  if p = [] then pure (orig, port) else none

/-- clientloop.c:1769-1805 `client_request_x11`. -/
def x11 (C : CCfg) (W : CWorld) (p : Bytes) : List CAct × COpened :=
  if C.x11 = false then ([], .failed)
  else if C.x11Refuse ≠ 0 ∧ W.now ≥ C.x11Refuse then ([], .failed)
  else
    match x11Fields p with
    | none => ([], .fatal)
    | some _ =>
      match W.x11 with
      | none => ([.x11], .failed)
      | some c => ([.x11], .opened c 2097152 16384)

/-- clientloop.c:1807-1841 `client_request_agent`.  (The rest of the message is not read.) -/
def agent (C : CCfg) (W : CWorld) : List CAct × COpened :=
  if C.agent = false then ([], .failed)
  else
    match W.agent with
    | none => ([.agent], .failed)
    | some c => ([.agent], .opened c 65536 32768)

/-- clientloop.c:1909-1919. -/
def cOpenBy (C : CCfg) (W : CWorld) (perms : List Permit.Perm) (ctype : Bytes) (rchan win max : Nat) (p : Bytes) :
    List CAct × COpened :=
  if ctype = tFwdTcp then fwdTcp W perms rchan win max p
  else if ctype = tFwdPath then fwdPath W perms p
  else if ctype = tX11 then x11 C W p
  else if ctype = tAgent then agent C W
  else ([], .failed)

/-- clientloop.c:1890-1950 `client_input_channel_open`; `none`: the connection is over. -/
def clientOpen (C : CCfg) (W : CWorld) (perms : List Permit.Perm) (p : Bytes) : Option (List CAct) :=
  match openHead p with
  | none => none
  | some (ctype, rchan, win, max, p) =>
    match cOpenBy C W perms ctype rchan win max p with
    | (_, .fatal) => none
    | (l, .failed) => some (l ++ [.send (failure rchan 1 openFailed)])
    | (l, .opened c w m) => some (l ++ [.send (confirmation rchan c w m)])
    | (l, .connecting c) => some (l ++ [.pending c rchan])
    | (l, .proxied) => some l

def gHostkeys : Bytes := b!"hostkeys-00@openssh.com"

/-- clientloop.c:2639-2664 `client_input_global_request`. -/
def clientGlobal (W : CWorld) (p : Bytes) : Option (List CAct) :=
  match globalHead p with
  | none => none
  | some (rtype, want, p) =>
    if rtype = gHostkeys then some ([.hostkeys p] ++ (if want then [.send [if W.hostkeys then 81 else 82]] else []))
    else some (if want then [.send [82]] else [])

/-! ### Answers to the client's own global requests -/

/-- `struct global_confirm`: who waits, and for how many answers. -/
structure Waiting where
  who : Nat
  count : Nat
deriving DecidableEq

/-- clientloop.c:897-916 `client_register_global_confirm`. -/
def register (q : List Waiting) (who : Nat) : List Waiting :=
  match q.getLast? with
  | some w => if w.who = who then q.dropLast ++ [⟨who, w.count + 1⟩] else q ++ [⟨who, 1⟩]
  | none => [⟨who, 1⟩]

/-- clientloop.c:469-485 `client_global_request_reply`: who is told. -/
def reply : List Waiting → Option Nat × List Waiting
  | [] => (none, [])
  | w :: q => (some w.who, if w.count - 1 ≤ 0 then q else ⟨w.who, w.count - 1⟩ :: q)

inductive QOp where
  | request (who : Nat)
  | answer

/-- Requests and answers in any order: who is told of each answer. -/
def queue : List Waiting → List QOp → List (Option Nat)
  | _, [] => []
  | q, .request w :: l => queue (register q w) l
  | q, .answer :: l => (reply q).1 :: queue (reply q).2 l

/-! ### Keep-alives -/

inductive Tick where
  /-- the interval has passed without a message -/
  | timeout
  /-- a message has arrived (packet.c:1814, and the handlers of answers) -/
  | heard
deriving DecidableEq

/-- clientloop.c:494-511 `server_alive_check`: the number of keep-alives sent before the client gives up. -/
def clientAlive (max : Nat) : Nat → List Tick → Nat × Bool
  | _, [] => (0, false)
  | n, .heard :: l => clientAlive max 0 l
  | n, .timeout :: l =>
    if n + 1 > max then (0, true) else ((clientAlive max (n + 1) l).1 + 1, (clientAlive max (n + 1) l).2)

/-- serverloop.c:106-137 `client_alive_check`; 0: never give up. -/
def serverAlive (max : Nat) : Nat → List Tick → Nat × Bool
  | _, [] => (0, false)
  | n, .heard :: l => serverAlive max 0 l
  | n, .timeout :: l =>
    if max > 0 ∧ n + 1 > max then (0, true)
    else ((serverAlive max (if max > 0 then n + 1 else n) l).1 + 1, (serverAlive max (if max > 0 then n + 1 else n) l).2)

/-! ### Starting a session -/

structure Start where
  /-- pty-req with everything that follows its name -/
  tty : Option Bytes
  /-- the environment of the client -/
  env : List Bytes
  /-- SendEnv -/
  sendEnv : List Bytes
  /-- SetEnv -/
  setEnv : List Bytes
  command : Bytes
  subsystem : Bool

/-- A request on the channel: its name, is an answer wanted, the rest. -/
structure Rq where
  name : Bytes
  want : Bool
  rest : Bytes
deriving DecidableEq

/-- `strchr(name, '=')` and what is before and after. -/
def splitVar : Bytes → Option (Bytes × Bytes)
  | [] => none
  | c :: l =>
    if c = 61 then some ([], l)
    else
      match splitVar l with
      | none => none
      | some (n, v) => some (c :: n, v)

/-- clientloop.c:2666-2677 `client_send_env`. -/
def sendVar (n v : Bytes) : Rq := ⟨b!"env", false, str n ++ str v⟩

/-- clientloop.c:2724-2749. -/
def sendEnv (pats : List Bytes) : List Bytes → List Rq
  | [] => []
  | e :: l =>
    match splitVar e with
    | none => sendEnv pats l
    | some (n, v) => if pats.any (Match.matchPattern n) then sendVar n v :: sendEnv pats l else sendEnv pats l

/-- clientloop.c:2750-2760. -/
def setEnv : List Bytes → List Rq
  | [] => []
  | e :: l =>
    match splitVar e with
    | none => setEnv l
    | some (n, v) => sendVar n v :: setEnv l

/-- clientloop.c:2762-2785. -/
def theRequest (S : Start) : Rq :=
  if S.command.length > 0 then
    if S.subsystem then ⟨b!"subsystem", true, str S.command⟩ else ⟨b!"exec", true, str S.command⟩
  else ⟨b!"shell", true, []⟩

/-- clientloop.c:2679-2790 `client_session2_setup`: the requests sent. -/
def setup (S : Start) : List Rq :=
  (match S.tty with | some t => [⟨b!"pty-req", true, t⟩] | none => []) ++
    (if S.sendEnv.length ≠ 0 then sendEnv S.sendEnv S.env else []) ++ setEnv S.setEnv ++ [theRequest S]

end Verif.Loop
