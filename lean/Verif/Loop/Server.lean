/-
Model of what the server does with requests outside of sessions (serverloop.c): opening channels, global requests, requests on
channels.  What is permitted to connect and to listen is decided by the functions of `Verif.Permit`.  Debug messages to the client
(`ssh_packet_send_debug`) are left out.
-/
import Verif.Base
import Verif.Wire
import Verif.Permit.Model

namespace Verif.Loop
open Verif Verif.Wire

structure SCfg where
  fwd : Permit.Cfg
  /-- the permissions set up for the user -/
  loc : Permit.PermSet
  rem : Permit.PermSet
  /-- PermitTunnel: 1 point-to-point, 2 ethernet -/
  tun : Nat
  /-- the device the key prescribes -/
  forceTun : Option Nat

/-- A channel as far as `server_input_channel_req` looks at it. -/
structure Ch where
  /-- of type "session", and open or about to be -/
  session : Bool
  closeSent : Bool
  remote : Nat

/-- What the rest of the server and the system say to one message. -/
structure SWorld where
  /-- a connection is begun: the number of its channel -/
  connect : Option Nat
  /-- the message if it could not be begun -/
  errmsg : Option Bytes
  /-- `session_open` found room -/
  session : Option Nat
  tunOpen : Option Nat
  /-- the port the server listens on now -/
  listen : Option Nat
  listenPath : Bool
  cancel : Bool
  /-- the answer to hostkeys-prove-00 (C60) -/
  prove : Option Bytes
  chan : Nat → Option Ch
  /-- `session_input_channel_req` (C103) -/
  sessionReq : Bool

inductive Act where
  | session (self : Nat)
  | connectTcp (host : Bytes) (port : Nat)
  | connectPath (path : Bytes)
  | openTun (dev mode : Nat)
  | listenTcp (host : Bytes) (port : Nat)
  | listenPath (path : Bytes)
  | cancelTcp (host : Bytes) (port : Nat)
  | cancelPath (path : Bytes)
  | prove (payload : Bytes)
  | request (id : Nat) (type payload : Bytes)
  | eow (id : Nat)
  /-- the connecting channel remembers the client's number; the answer is given when it is known (channels.c) -/
  | pending (self rchan : Nat)
  | send (packet : Bytes)
deriving DecidableEq

structure SSt where
  noMore : Bool
  ended : Bool
deriving DecidableEq

abbrev SRes := List Act × SSt

/-- How a request to open a channel ends. -/
inductive Opened where
  | failed (reason : Nat) (msg : Bytes)
  | opened (self window maxpacket : Nat)
  | connecting (self : Nat)
  | fatal

/-- serverloop.c:594-600: the head of the message. -/
def openHead (p : Bytes) : Option (Bytes × Nat × Nat × Nat × Bytes) := do
  let (ctype, p) ← getCstr p
  let (rchan, p) ← getInt 4 p
  let (win, p) ← getInt 4 p
  let (max, p) ← getInt 4 p
  pure (ctype, rchan, win, max, p)

/-- serverloop.c:400-405. -/
def tcpFields (p : Bytes) : Option (Bytes × Nat × Bytes × Nat) := do
  let (host, p) ← getCstr p
  let (port, p) ← getInt 4 p
  let (orig, p) ← getCstr p
  let (oport, p) ← getInt 4 p
  if p = [] then pure (host, port, orig, oport) else none

/-- serverloop.c:452-456. -/
def pathFields (p : Bytes) : Option (Bytes × Bytes × Nat) := do
  let (path, p) ← getCstr p
  let (orig, p) ← getCstr p
  let (oport, p) ← getInt 4 p
  if p = [] then pure (path, orig, oport) else none

def openFailed : Bytes := b!"open failed"
def tSession : Bytes := b!"session"
def tDirectTcp : Bytes := b!"direct-tcpip"
def tDirectPath : Bytes := b!"direct-streamlocal@openssh.com"
def tTun : Bytes := b!"tun@openssh.com"

/-- serverloop.c:392-438 `server_request_direct_tcpip`. -/
def directTcp (C : SCfg) (W : SWorld) (p : Bytes) : List Act × Opened :=
  match tcpFields p with
  | none => ([], .fatal)
  | some (host, port, _, oport) =>
    if Permit.directTcpip C.fwd C.loc host port oport then
      match W.connect with
      | some c => ([.connectTcp host port], .connecting c)
      | none => ([.connectTcp host port], .failed 2 (W.errmsg.getD openFailed))
    else ([], .failed 1 openFailed)

/-- channels.c:4666-4688, in `connect_to_helper`: the path of a Unix socket in `struct sockaddr_un`, where it has 108 bytes.
`strlcpy` keeps at most 107. -/
def sunPath (name : Bytes) : Option Bytes := if name.length > 108 then none else some (name.take 107)

/-- serverloop.c:440-481 `server_request_direct_streamlocal`. -/
def directPath (C : SCfg) (W : SWorld) (p : Bytes) : List Act × Opened :=
  match pathFields p with
  | none => ([], .fatal)
  | some (path, _, oport) =>
    if Permit.directStreamlocal C.fwd C.loc path oport then
      match sunPath path with
      | none => ([], .failed 2 openFailed)
      | some q =>
        match W.connect with
        | some c => ([.connectPath q], .connecting c)
        | none => ([.connectPath q], .failed 2 openFailed)
    else ([], .failed 2 openFailed)

/-- serverloop.c:511-521: the device. -/
def tunDevice (C : SCfg) (dev : Nat) : Option Nat :=
  if dev > 0x7fffffff then none
  else
    match C.forceTun with
    | none => some dev
    | some f => if dev ≠ 0x7fffffff ∧ f ≠ dev then none else some f

/-- serverloop.c:483-550 `server_request_tun`. -/
def tun (C : SCfg) (W : SWorld) (p : Bytes) : List Act × Opened :=
  match getInt 4 p with
  | none => ([], .fatal)
  | some (mode, p) =>
    if mode ≠ 1 ∧ mode ≠ 2 then ([], .failed 2 openFailed)
    else if C.tun &&& mode = 0 then ([], .failed 2 openFailed)
    else
      match getInt 4 p with
      | none => ([], .fatal)
      | some (dev, _) =>
        match tunDevice C dev with
        | none => ([], .failed 2 openFailed)
        | some d =>
          match W.tunOpen with
          | none => ([.openTun d mode], .failed 2 openFailed)
          | some c => ([.openTun d mode], .opened c 2097152 32768)

/-- serverloop.c:552-583 `server_request_session`. -/
def session (W : SWorld) (s : SSt) (p : Bytes) : List Act × Opened :=
  if p ≠ [] then ([], .fatal)
  else if s.noMore then ([], .fatal)
  else
    match W.session with
    | none => ([], .failed 2 openFailed)
    | some c => ([.session c], .opened c 0 32768)

/-- serverloop.c:605-613. -/
def openBy (C : SCfg) (W : SWorld) (s : SSt) (ctype p : Bytes) : List Act × Opened :=
  if ctype = tSession then session W s p
  else if ctype = tDirectTcp then directTcp C W p
  else if ctype = tDirectPath then directPath C W p
  else if ctype = tTun then tun C W p
  else ([], .failed 2 openFailed)

def confirmation (rchan self window maxpacket : Nat) : Bytes :=
  91 :: (be 4 rchan ++ be 4 self ++ be 4 window ++ be 4 maxpacket)

def failure (rchan reason : Nat) (msg : Bytes) : Bytes := 92 :: (be 4 rchan ++ be 4 reason ++ str msg ++ str [])

/-- serverloop.c:585-642 `server_input_channel_open`. -/
def serverOpen (C : SCfg) (W : SWorld) (s : SSt) (p : Bytes) : SRes :=
  match openHead p with
  | none => ([], { s with ended := true })
  | some (ctype, rchan, _, _, p) =>
    match openBy C W s ctype p with
    | (l, .fatal) => (l, { s with ended := true })
    | (l, .failed reason msg) => (l ++ [.send (failure rchan reason msg)], s)
    | (l, .opened c w m) => (l ++ [.send (confirmation rchan c w m)], s)
    | (l, .connecting c) => (l ++ [.pending c rchan], s)

/-! ### Global requests -/

def gListen : Bytes := b!"tcpip-forward"
def gCancel : Bytes := b!"cancel-tcpip-forward"
def gListenPath : Bytes := b!"streamlocal-forward@openssh.com"
def gCancelPath : Bytes := b!"cancel-streamlocal-forward@openssh.com"
def gNoMore : Bytes := b!"no-more-sessions@openssh.com"
def gProve : Bytes := b!"hostkeys-prove-00@openssh.com"

/-- serverloop.c:743-745. -/
def globalHead (p : Bytes) : Option (Bytes × Bool × Bytes) := do
  let (rtype, p) ← getCstr p
  let (want, p) ← getInt 1 p
  pure (rtype, want ≠ 0, p)

/-- serverloop.c:751-753. -/
def hostPort (p : Bytes) : Option (Bytes × Nat) := do
  let (host, p) ← getCstr p
  let (port, _) ← getInt 4 p
  pure (host, port)

/-- Outcome of a global request: the answer if it succeeded. -/
inductive Done where
  | ok (resp : Bytes)
  | no
  | fatal

/-- serverloop.c:750-778: tcpip-forward. -/
def listenTcp (C : SCfg) (W : SWorld) (want : Bool) (p : Bytes) : List Act × Done :=
  match hostPort p with
  | none => ([], .fatal)
  | some (host, port) =>
    if Permit.tcpipForward C.fwd C.rem host port want then
      match W.listen with
      | none => ([.listenTcp host port], .no)
      | some n => ([.listenTcp host port], .ok (if port = 0 then be 4 n else []))
    else ([], .no)

/-- serverloop.c:779-790: cancel-tcpip-forward. -/
def cancelTcp (W : SWorld) (p : Bytes) : List Act × Done :=
  match hostPort p with
  | none => ([], .fatal)
  | some (host, port) =>
    if port ≤ 0x7fffffff then ([.cancelTcp host port], if W.cancel then .ok [] else .no) else ([], .no)

/-- serverloop.c:791-808: streamlocal-forward@openssh.com. -/
def listenUnix (C : SCfg) (W : SWorld) (p : Bytes) : List Act × Done :=
  match getCstr p with
  | none => ([], .fatal)
  | some (path, _) =>
    if Permit.streamlocalForward C.fwd C.rem path then ([.listenPath path], if W.listenPath then .ok [] else .no) else ([], .no)

/-- serverloop.c:809-815: cancel-streamlocal-forward@openssh.com. -/
def cancelUnix (W : SWorld) (p : Bytes) : List Act × Done :=
  match getCstr p with
  | none => ([], .fatal)
  | some (path, _) => ([.cancelPath path], if W.cancel then .ok [] else .no)

/-- serverloop.c:749-820. -/
def globalBy (C : SCfg) (W : SWorld) (rtype : Bytes) (want : Bool) (p : Bytes) : List Act × Done :=
  if rtype = gListen then listenTcp C W want p
  else if rtype = gCancel then cancelTcp W p
  else if rtype = gListenPath then listenUnix C W p
  else if rtype = gCancelPath then cancelUnix W p
  else if rtype = gNoMore then ([], .ok [])
  else if rtype = gProve then ([.prove p], match W.prove with | some r => .ok r | none => .no)
  else ([], .no)

def answer (want : Bool) (packet : Bytes) : List Act := if want then [.send packet] else []

/-- serverloop.c:729-832 `server_input_global_request`. -/
def serverGlobal (C : SCfg) (W : SWorld) (s : SSt) (p : Bytes) : SRes :=
  match globalHead p with
  | none => ([], { s with ended := true })
  | some (rtype, want, p) =>
    match globalBy C W rtype want p with
    | (l, .fatal) => (l, { s with ended := true })
    | (l, .ok resp) => (l ++ answer want (81 :: resp), { s with noMore := s.noMore || decide (rtype = gNoMore) })
    | (l, .no) => (l ++ answer want [82], s)

/-! ### Requests on channels -/

def rEow : Bytes := b!"eow@openssh.com"

/-- serverloop.c:843-846. -/
def reqHead (p : Bytes) : Option (Nat × Bytes × Bool × Bytes) := do
  let (id, p) ← getInt 4 p
  let (rtype, p) ← getCstr p
  let (want, p) ← getInt 1 p
  pure (id, rtype, want ≠ 0, p)

/-- serverloop.c:864-871: the answer to a request on a channel. -/
def chanAnswer (c : Ch) (want ok : Bool) : List Act :=
  if want ∧ c.closeSent = false then [.send ((if ok then 99 else 100) :: be 4 c.remote)] else []

/-- serverloop.c:834-873 `server_input_channel_req`. -/
def serverReq (W : SWorld) (s : SSt) (p : Bytes) : SRes :=
  match reqHead p with
  | none => ([], { s with ended := true })
  | some (id, rtype, want, p) =>
    match (if id ≥ 0x7fffffff then none else W.chan id) with
    | none => ([], { s with ended := true })
    | some c =>
      if rtype = rEow then
        if p ≠ [] then ([], { s with ended := true }) else ([.eow id] ++ chanAnswer c want false, s)
      else if c.session then ([.request id rtype p] ++ chanAnswer c want W.sessionReq, s)
      else (chanAnswer c want false, s)

/-! ### The connection -/

/-- serverloop.c:875-897 `server_init_dispatch`, for the messages modelled here. -/
def serverMsg (C : SCfg) (W : SWorld) (s : SSt) : Bytes → SRes
  | [] => ([], { s with ended := true })
  | t :: p =>
    if t = 90 then serverOpen C W s p
    else if t = 80 then serverGlobal C W s p
    else if t = 98 then serverReq W s p
    else ([], s)

/-- All that happens while messages arrive. -/
def serverRun (C : SCfg) : SSt → List (SWorld × Bytes) → List Act
  | _, [] => []
  | s, (W, m) :: l => if s.ended then [] else (serverMsg C W s m).1 ++ serverRun C (serverMsg C W s m).2 l

def serverStart : SSt := ⟨false, false⟩

end Verif.Loop
