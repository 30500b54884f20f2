/-
The control connection of a shared connection (`ControlMaster`): mux.c, and its reading in channels.c.

Simplified: memory is not exhausted and buffers are not full; other requests than those of one control connection come in as events;
what the terminal, the operating system and the server answer is a parameter. Descriptors are numbers.
-/
import Verif.WireMore
import Verif.Match.Model
import Verif.Scp.Model

namespace Verif.Mux
open Verif Wire
open _root_.Verif.Match (matchPattern)

/-! ### Messages, mux.c:125-148 -/

def tHello : Nat := 0x00000001
def tSession : Nat := 0x10000002
def tAlive : Nat := 0x10000004
def tTerminate : Nat := 0x10000005
def tOpen : Nat := 0x10000006
def tClose : Nat := 0x10000007
def tStdio : Nat := 0x10000008
def tStop : Nat := 0x10000009
def tProxy : Nat := 0x1000000f
def sOk : Nat := 0x80000001
def sDenied : Nat := 0x80000002
def sFailure : Nat := 0x80000003
def sExit : Nat := 0x80000004
def sAlive : Nat := 0x80000005
def sOpened : Nat := 0x80000006
def sPort : Nat := 0x80000007
def sTtyFail : Nat := 0x80000008
def sProxy : Nat := 0x8000000f

/-- clientloop.h:67 SSHMUX_VER -/
def version : Nat := 4

/-- misc.h:153 PORT_STREAMLOCAL, as it is sent -/
def pathPort : Nat := 4294967294

/-- readconf.h:201-205 SSHCTL_MASTER_* -/
inductive Master where
  | no | yes | auto | ask | autoAsk
  deriving DecidableEq

/-- What the master is configured for. -/
structure Conf where
  master : Master
  host : Bytes
  sendEnv : List Bytes
  gateway : Bool
  forwardX11 : Bool
  forwardAgent : Bool
  pid : Nat

/-- readconf.h:24-33 `struct Forward`; `allocated` and `handle` are those of remote ones -/
structure Fwd where
  listenHost : Option Bytes
  listenPort : Nat
  listenPath : Option Bytes
  connectHost : Option Bytes
  connectPort : Nat
  connectPath : Option Bytes
  allocated : Nat
  deriving DecidableEq

/-- mux.c:80-90 `struct mux_session_confirm_ctx`, with the descriptors -/
structure Ses where
  tty : Nat
  x11 : Nat
  agent : Nat
  subsys : Nat
  esc : Nat
  term : Bytes
  cmd : Bytes
  env : List Bytes
  deriving DecidableEq

/-- What is to be waited for. -/
inductive Wait where
  | session (rid : Nat) (q : Ses)
  | stdio (rid : Nat)
  /-- the place of the forwarding in the table -/
  | forward (rid fid : Nat)
  deriving DecidableEq

inductive Status where
  | running
  /-- the channel is marked dead -/
  | dead
  /-- nothing more is read, the replies are still written -/
  | closing
  /-- the whole process ends -/
  | fatal
  /-- the behaviour of the program is not defined -/
  | undefined
  deriving DecidableEq

inductive Act where
  /-- a packet for the client; the length before it is not written here -/
  | reply (p : Bytes)
  /-- the user is asked -/
  | asked (prompt : Bytes)
  /-- channels are opened: with the descriptors, window and greatest packet -/
  | openSession (fds : List Nat) (window max : Nat) (esc : Option Nat)
  | openStdio (host : Bytes) (port : Nat) (fds : List Nat)
  /-- a session is set up in the channel -/
  | x11 (id : Nat)
  | agent (id : Nat)
  | setup (id : Nat) (q : Ses)
  | listen (f : Fwd)
  | unlisten (f : Fwd)
  | askRemote (f : Fwd)
  | cancelRemote (f : Fwd)
  | allocate (f : Fwd) (port : Option Nat)
  | stopListening
  | terminate
  /-- from now on the packets of the client go to the server -/
  | proxy
  deriving DecidableEq

structure St where
  status : Status
  hello : Bool
  /-- `mux_pause`, with what it is for -/
  wait : Option Wait
  /-- `have_ctl_child_id`, `ctl_child_id` -/
  child : Option Nat
  proxied : Bool
  locals : List Fwd
  remotes : List Fwd
  out : List Act

/-- What others answer while a message is handled. -/
structure World where
  /-- the answer to a question, if there is one -/
  answer : Bytes → Option Bytes
  /-- descriptors, as far as they arrive -/
  fds : List Nat
  /-- the number of the next channel -/
  next : Nat
  listens : Fwd → Bool
  asks : Fwd → Bool
  cancels : Fwd → Bool
  /-- `channel_cancel_lport_listener`: how many were found; never -1 -/
  unlistens : Fwd → Bool
  /-- `mux_listener_channel` is not NULL -/
  listening : Bool
  /-- DISPLAY is set, and there is a cookie for it -/
  x11 : Bool

def St.act (s : St) (a : Act) : St := { s with out := s.out ++ [a] }
def St.die (s : St) : St := { s with status := .dead }

/-- mux.c:309-317 `reply_ok` -/
def okReply (rid : Nat) : Bytes := be 4 sOk ++ be 4 rid

/-- mux.c:320-329 `reply_error` -/
def errReply (type rid : Nat) (msg : Bytes) : Bytes := be 4 type ++ be 4 rid ++ str msg

def St.ok (s : St) (rid : Nat) : St := s.act (.reply (okReply rid))
def St.err (s : St) (type rid : Nat) (msg : Bytes) : St := s.act (.reply (errReply type rid msg))

def denied : Bytes := b!"Permission denied"
def noFds : Bytes := b!"did not receive file descriptors"
def multiple : Bytes := b!"Multiple sessions not supported"
def invalidFwd : Bytes := b!"Invalid forwarding request"
def fwdFailed : Bytes := b!"Port forwarding failed"
def notForwarded : Bytes := b!"port not forwarded"
def notPermitted : Bytes := b!"port not in permitted opens"
def unsupported : Bytes := b!"unsupported request"
def refused : Bytes := b!"Session open refused by peer"

/-- readpass.c:199-224 `ask_permission`, given the answer -/
def allowed : Option Bytes → Bool
  | none => false
  | some p => p = [] || p.head? = some 10 || p.map Match.toLower = b!"yes"

/-- `options.control_master == SSHCTL_MASTER_ASK || … AUTO_ASK`, as in mux.c:439-440 -/
def asks (C : Conf) : Bool := C.master = .ask || C.master = .autoAsk

/-- readpass.c:207 `char prompt[1024]`: what does not fit is cut off -/
def prompt (t : Bytes) : Bytes := t.take 1023

/-- mux.c:439-447 and the like: whether it may be done, and the state after the question -/
def permit (C : Conf) (W : World) (s : St) (t : Bytes) : Bool × St :=
  if asks C then (allowed (W.answer (prompt t)), s.act (.asked (prompt t))) else (true, s)

/-- mux.c:241-261 `env_permitted` -/
def envPermitted (C : Conf) (e : Bytes) : Bool :=
  if e.contains 61 = false then false
  else if (e.takeWhile (· ≠ 61)).length = 0 ∨ (e.takeWhile (· ≠ 61)).length ≥ 1024 then false
  else C.sendEnv.any (matchPattern (e.takeWhile (· ≠ 61)))

/-! ### Hello -/

/-- mux.c:290-303, mux.c:1636-1647 extensions -/
def extensions : Nat → Bytes → Bool
  | 0, _ => false
  | f + 1, b =>
    if b = [] then true
    else match getCstr b with
      | none => false
      | some (_, b) =>
        match getStr b with
        | none => false
        | some (_, b) => extensions f b

/-- mux.c:279-303 a greeting -/
def helloOk (b : Bytes) : Bool :=
  match getInt 4 b with
  | none => false
  | some (v, b) => v = version && extensions (b.length + 1) b

/-- mux.c:265-306 `mux_master_process_hello` -/
def hello (s : St) (b : Bytes) : St :=
  if s.hello then s.die
  else if helloOk b then { s with hello := true }
  else s.die

/-! ### Sessions -/

/-- mux.c:367 MUX_MAX_ENV_VARS -/
def maxEnv : Nat := 4096

/-- mux.c:368-384 the variables of the client -/
def envLoop (C : Conf) : Nat → Bytes → List Bytes → Option (List Bytes)
  | 0, _, _ => none
  | f + 1, b, acc =>
    if b = [] then some acc
    else match getCstr b with
      | none => none
      | some (e, b) =>
        if envPermitted C e then
          (if acc.length + 1 > maxEnv then some (acc ++ [e]) else envLoop C f b (acc ++ [e]))
        else envLoop C f b acc

/-- mux.c:348-384 the request -/
def getSes (C : Conf) (b : Bytes) : Option Ses := do
  let (_, b) ← getStr b
  let (tty, b) ← getInt 4 b
  let (x11, b) ← getInt 4 b
  let (agent, b) ← getInt 4 b
  let (subsys, b) ← getInt 4 b
  let (esc, b) ← getInt 4 b
  let (term, b) ← getCstr b
  let (cmd, b) ← getCstr b
  let env ← envLoop C (b.length + 1) b []
  pure ⟨tty, x11, agent, subsys, esc, term, cmd, env⟩

/-- channels.h:223-224 -/
def sesPacket : Nat := 32768
def sesWindow : Nat := 2097152

/-- mux.c:441 -/
def askSession (C : Conf) : Bytes := b!"Allow shared connection to " ++ C.host ++ b!"? "

/-- mux.c:453-458 -/
def half (q : Ses) (n : Nat) : Nat := if q.tty ≠ 0 then n / 2 else n

/-- mux.c:468 -/
def escOf (q : Ses) : Option Nat := if q.tty ≠ 0 ∧ q.esc ≠ 0xffffffff then some q.esc else none

/-- mux.c:449-485 of `mux_master_process_new_session` -/
def startSession (W : World) (s : St) (rid : Nat) (q : Ses) : St :=
  { s.act (.openSession (W.fds.take 3) (half q sesWindow) (half q sesPacket) (escOf q)) with
    child := some W.next, wait := some (.session rid q) }

/-- mux.c:331-486 `mux_master_process_new_session` -/
def newSession (C : Conf) (W : World) (s : St) (rid : Nat) (b : Bytes) : St :=
  match getSes C b with
  | none => s.die
  | some q =>
    if W.fds.length < 3 then (s.err sFailure rid noFds).die
    else if s.child.isSome then s.err sFailure rid multiple
    else if (permit C W s (askSession C)).1 then startSession W (permit C W s (askSession C)).2 rid q
    else (permit C W s (askSession C)).2.err sDenied rid denied

/-- mux.c:1409-1414, mux.c:1083-1086 -/
def openedReply (rid id : Nat) : Bytes := be 4 sOpened ++ be 4 rid ++ be 4 id

/-- mux.c:1380-1407 what is asked of the server for the session -/
def setUp (C : Conf) (W : World) (id : Nat) (q : Ses) : List Act :=
  (if q.x11 ≠ 0 ∧ C.forwardX11 = true ∧ W.x11 = true then [.x11 id] else []) ++
  (if q.agent ≠ 0 ∧ C.forwardAgent = true then [.agent id] else []) ++ [.setup id q]

/-- mux.c:1354-1434 `mux_session_confirm` -/
def sessionConfirm (C : Conf) (W : World) (s : St) (rid : Nat) (q : Ses) (id : Nat) (success : Bool) : St :=
  if success then { ({ s with out := s.out ++ setUp C W id q }.act (.reply (openedReply rid id))) with wait := none }
  else { s.err sFailure rid refused with wait := none }

/-! ### The standard input and output to elsewhere -/

/-- mux.c:968-983 the request -/
def getStdio (b : Bytes) : Option (Bytes × Nat) := do
  let (_, b) ← getStr b
  let (host, b) ← getCstr b
  let (port, _) ← getInt 4 b
  if port = pathPort ∨ port ≤ 2147483647 then pure (host, port) else none

/-- `%d` of a port -/
def portText (n : Nat) : Bytes := if n = pathPort then b!"-2" else Scp.dec n

/-- mux.c:1018-1022 -/
def askStdio (host : Bytes) (port : Nat) : Bytes :=
  if port = pathPort then b!"Allow forward to path " ++ host
  else b!"Allow forward to [" ++ host ++ b!"]:" ++ Scp.dec port ++ b!"? "

/-- mux.c:958-1052 `mux_master_process_stdio_fwd` -/
def stdioFwd (C : Conf) (W : World) (s : St) (rid : Nat) (b : Bytes) : St :=
  match getStdio b with
  | none => s.die
  | some (host, port) =>
    if W.fds.length < 2 then (s.err sFailure rid noFds).die
    else if s.child.isSome then s.err sFailure rid multiple
    else if (permit C W s (askStdio host port)).1 then
      { (permit C W s (askStdio host port)).2.act (.openStdio host port (W.fds.take 2)) with
        child := some W.next, wait := some (.stdio rid) }
    else (permit C W s (askStdio host port)).2.err sDenied rid denied

/-- mux.c:1055-1099 `mux_stdio_confirm` -/
def stdioConfirm (s : St) (rid id : Nat) (success : Bool) : St :=
  if success then { s.act (.reply (openedReply rid id)) with wait := none }
  else { s.err sFailure rid refused with wait := none }

/-! ### Forwardings -/

/-- mux.c:146-148 MUX_FWD_* -/
def fLocal : Nat := 1
def fRemote : Nat := 2
def fDynamic : Nat := 3

/-- mux.c:700 the ports that can be -/
def portOk (n : Nat) : Bool := n = pathPort || n ≤ 65535

/-- mux.c:706-713 nothing instead of an empty address -/
def addr (v : Bytes) : Option Bytes := if v = [] then none else some v

/-- mux.c:715-725 -/
def mkFwd (laddr : Option Bytes) (lport : Nat) (caddr : Option Bytes) (cport : Nat) : Fwd :=
  ⟨if lport = pathPort then none else laddr, lport, if lport = pathPort then laddr else none,
   if cport = pathPort then none else caddr, cport, if cport = pathPort then caddr else none, 0⟩

/-- mux.c:694-725, mux.c:860-891 the request -/
def getFwd (b : Bytes) : Option (Nat × Fwd) := do
  let (ftype, b) ← getInt 4 b
  let (laddr, b) ← getCstr b
  let (lport, b) ← getInt 4 b
  let (caddr, b) ← getCstr b
  let (cport, _) ← getInt 4 b
  if portOk lport = true ∧ portOk cport = true then pure (ftype, mkFwd (addr laddr) lport (addr caddr) cport) else none

/-- the text of `format_forward`: none if a null pointer is printed -/
inductive Text where
  | text (t : Bytes)
  | fatal
  | undefined
  deriving DecidableEq

/-- mux.c:536-539 and the like: where it listens -/
def listenText (f : Fwd) (other : Bytes) : Bytes := (f.listenPath.getD (f.listenHost.getD other)).take 200

/-- mux.c:538 -/
def anyText (C : Conf) : Bytes := if C.gateway then b!"*" else b!"LOCALHOST"

/-- mux.c:528-562 `format_forward` -/
def format (C : Conf) (ftype : Nat) (f : Fwd) : Text :=
  if ftype = fLocal then
    match (f.connectPath <|> f.connectHost) with
    | none => .undefined
    | some c => .text (b!"local forward " ++ listenText f (anyText C) ++ b!":" ++ portText f.listenPort ++ b!" -> " ++ c.take 200 ++
        b!":" ++ portText f.connectPort)
  else if ftype = fDynamic then
    .text (b!"dynamic forward " ++ (f.listenHost.getD (anyText C)).take 200 ++ b!":" ++ portText f.listenPort ++ b!" -> *")
  else if ftype = fRemote then
    match (f.connectPath <|> f.connectHost) with
    | none => .undefined
    | some c => .text (b!"remote forward " ++ listenText f b!"LOCALHOST" ++ b!":" ++ portText f.listenPort ++ b!" -> " ++ c.take 200 ++
        b!":" ++ portText f.connectPort)
  else .fatal

/-- mux.c:564-591 `compare_host`, `compare_forward` -/
def same (a b : Fwd) : Bool :=
  a.listenHost = b.listenHost && a.listenPath = b.listenPath && a.listenPort = b.listenPort &&
  a.connectHost = b.connectHost && a.connectPath = b.connectPath && a.connectPort = b.connectPort

/-- mux.c:730-761 what cannot be -/
def invalid (ftype : Nat) (f : Fwd) : Bool :=
  (ftype ≠ fLocal && ftype ≠ fRemote && ftype ≠ fDynamic) ||
  (ftype = fDynamic && f.listenPath.isSome) ||
  (ftype ≠ fDynamic && ftype ≠ fRemote && f.connectPort = 0) ||
  (ftype ≠ fDynamic && f.connectHost.isNone && f.connectPath.isNone)

/-- mux.c:784-788 -/
def portReply (rid port : Nat) : Bytes := be 4 sPort ++ be 4 rid ++ be 4 port

/-- mux.c:797 -/
def askFwd (C : Conf) (desc : Bytes) : Bytes := b!"Open " ++ desc ++ b!" on " ++ C.host ++ b!"?"

/-- mux.c:805-834 it is opened -/
def openIt (W : World) (s : St) (rid ftype : Nat) (f : Fwd) : St :=
  if ftype = fLocal ∨ ftype = fDynamic then
    if W.listens f then { (s.act (.listen f)).ok rid with locals := s.locals ++ [f] }
    else s.err sFailure rid fwdFailed
  else if W.asks f then
    { s.act (.askRemote f) with remotes := s.remotes ++ [f], wait := some (.forward rid s.remotes.length) }
  else s.err sFailure rid fwdFailed

/-- mux.c:795-834 after the user is asked -/
def askOpen (C : Conf) (W : World) (s : St) (rid ftype : Nat) (f : Fwd) (desc : Bytes) : St :=
  if (permit C W s (askFwd C desc)).1 then openIt W (permit C W s (askFwd C desc)).2 rid ftype f
  else (permit C W s (askFwd C desc)).2.err sDenied rid denied

/-- mux.c:763-834 unless it is there already -/
def openNew (C : Conf) (W : World) (s : St) (rid ftype : Nat) (f : Fwd) (desc : Bytes) : St :=
  if ftype = fRemote then
    match s.remotes.find? (same f) with
    | some g => if f.listenPort ≠ 0 then s.ok rid else s.act (.reply (portReply rid g.allocated))
    | none => askOpen C W s rid ftype f desc
  else if s.locals.any (same f) then s.ok rid
  else askOpen C W s rid ftype f desc

/-- mux.c:681-844 `mux_master_process_open_fwd` -/
def openFwd (C : Conf) (W : World) (s : St) (rid : Nat) (b : Bytes) : St :=
  match getFwd b with
  | none => s.die
  | some (ftype, f) =>
    match format C ftype f with
    | .fatal => { s with status := .fatal }
    | .undefined => { s with status := .undefined }
    | .text desc => if invalid ftype f then s.err sFailure rid invalidFwd else openNew C W s rid ftype f desc

/-- mux.c:942-948 an entry is emptied; the allocated port stays -/
def blank (f : Fwd) : Fwd := ⟨none, 0, none, none, 0, none, f.allocated⟩

/-- mux.c:899-918 the first that is the same -/
def blankFirst (f : Fwd) : List Fwd → List Fwd
  | [] => []
  | g :: l => if same f g then blank g :: l else g :: blankFirst f l

/-- mux.c:920-949 -/
def closeFound (W : World) (s : St) (rid ftype : Nat) (f : Fwd) : St :=
  if ftype = fRemote then
    match s.remotes.find? (same f) with
    | none => s.err sFailure rid notForwarded
    | some g =>
      if W.cancels g then { (s.act (.cancelRemote g)).ok rid with remotes := blankFirst f s.remotes }
      else s.err sFailure rid notPermitted
  else if (ftype = fLocal ∨ ftype = fDynamic) ∧ s.locals.any (same f) = true then
    { (if W.unlistens f then s.act (.unlisten f) else s).ok rid with locals := blankFirst f s.locals }
  else s.err sFailure rid notForwarded

/-- mux.c:846-956 `mux_master_process_close_fwd` -/
def closeFwd (C : Conf) (W : World) (s : St) (rid : Nat) (b : Bytes) : St :=
  match getFwd b with
  | none => s.die
  | some (ftype, f) =>
    match format C ftype f with
    | .fatal => { s with status := .fatal }
    | .undefined => { s with status := .undefined }
    | .text _ => closeFound W s rid ftype f

/-- mux.c:614-615 -/
def unknownId (fid : Nat) : Bytes := b!"unknown forwarding id " ++ Scp.dec fid

/-- mux.c:650-655 -/
def remoteFailed (f : Fwd) : Bytes :=
  match f.listenPath with
  | some p => b!"remote port forwarding failed for listen path " ++ p
  | none => b!"remote port forwarding failed for listen port " ++ portText f.listenPort

/-- mux.c:593-679 `mux_confirm_remote_forward`: the answer of the server, with what is in it if it is a success -/
def forwardConfirm (s : St) (rid fid : Nat) (success : Bool) (p : Bytes) : St :=
  match s.remotes[fid]? with
  | none => { s.err sFailure rid (unknownId fid) with wait := none }
  | some f =>
    if f.connectPath = none ∧ f.connectHost = none then { s.err sFailure rid (unknownId fid) with wait := none }
    else if success then
      if f.listenPort = 0 then
        match getInt 4 p with
        | none => { s with status := .fatal }
        | some (port, _) =>
          if port > 65535 then { s with status := .fatal }
          else { (s.act (.reply (portReply rid port))).act (.allocate f (some port)) with
            remotes := s.remotes.set fid { f with allocated := port }, wait := none }
      else { s.ok rid with wait := none }
    else
      { (if f.listenPort = 0 then s.act (.allocate f none) else s).err sFailure rid (remoteFailed f) with
        remotes := s.remotes.set fid ⟨none, 0, none, none, 0, none, 0⟩, wait := none }

/-! ### The others -/

/-- mux.c:488-503 `mux_master_process_alive_check` -/
def alive (C : Conf) (s : St) (rid : Nat) : St := s.act (.reply (be 4 sAlive ++ be 4 rid ++ be 4 C.pid))

/-- mux.c:513 -/
def askTerminate (C : Conf) : Bytes := b!"Terminate shared connection to " ++ C.host ++ b!"? "

/-- mux.c:505-526 `mux_master_process_terminate` -/
def terminate (C : Conf) (W : World) (s : St) (rid : Nat) : St :=
  if (permit C W s (askTerminate C)).1 then ((permit C W s (askTerminate C)).2.act .terminate).ok rid
  else (permit C W s (askTerminate C)).2.err sDenied rid denied

/-- mux.c:1109-1110 -/
def askStop (C : Conf) : Bytes := b!"Disable further multiplexing on shared connection to " ++ C.host ++ b!"? "

/-- mux.c:1101-1129 `mux_master_process_stop_listening` -/
def stopListening (C : Conf) (W : World) (s : St) (rid : Nat) : St :=
  if (permit C W s (askStop C)).1 then
    (if W.listening then (permit C W s (askStop C)).2.act .stopListening else (permit C W s (askStop C)).2).ok rid
  else (permit C W s (askStop C)).2.err sDenied rid denied

/-- mux.c:1131-1145 `mux_master_process_proxy` -/
def proxy (s : St) (rid : Nat) : St :=
  { (s.act .proxy).act (.reply (be 4 sProxy ++ be 4 rid)) with proxied := true }

/-- mux.c:172-187, mux.c:1202-1213 the handlers -/
def handle (C : Conf) (W : World) (s : St) (type rid : Nat) (b : Bytes) : St :=
  if type = tSession then newSession C W s rid b
  else if type = tAlive then alive C s rid
  else if type = tTerminate then terminate C W s rid
  else if type = tOpen then openFwd C W s rid b
  else if type = tClose then closeFwd C W s rid b
  else if type = tStdio then stdioFwd C W s rid b
  else if type = tStop then stopListening C W s rid
  else if type = tProxy then proxy s rid
  else s.err sFailure rid unsupported

/-- mux.c:1178-1221 of `mux_master_read_cb`, for a packet -/
def packet (C : Conf) (W : World) (s : St) (p : Bytes) : St :=
  match getInt 4 p with
  | none => s.die
  | some (type, b) =>
    if type = tHello then hello s b
    else if s.hello = false then s.die
    else match getInt 4 b with
      | none => s.die
      | some (rid, b) => handle C W s type rid b

/-- mux.c:1224-1245 `mux_exit_message` -/
def exitMessage (id status : Nat) : Bytes := be 4 sExit ++ be 4 id ++ be 4 status

/-- mux.c:1247-1267 `mux_tty_alloc_failed` -/
def ttyMessage (id : Nat) : Bytes := be 4 sTtyFail ++ be 4 id

inductive Event where
  /-- a packet of the client -/
  | packet (p : Bytes)
  /-- the server has answered that the channel is open, or that it is not -/
  | opened (success : Bool)
  /-- the server has answered a request for a remote forwarding -/
  | forwarded (success : Bool) (p : Bytes)
  /-- the exit status of the session, or that there is no terminal for it -/
  | exit (status : Nat)
  | ttyFailed
  /-- the channel of the session is closed, mux.c:190-208 `mux_master_session_cleanup_cb` -/
  | childClosed
  /-- other control connections have changed the forwardings -/
  | others (locals remotes : List Fwd)

/-- channels.c:2427 nothing is read while the connection waits; mux.c:1139 nothing comes here once it is a proxy -/
def step (C : Conf) (W : World) (s : St) (e : Event) : St :=
  if s.status ≠ .running then s
  else match e with
  | .packet p => if s.wait.isSome || s.proxied then s else packet C W s p
  | .opened success =>
    match s.wait, s.child with
    | some (.session rid q), some id => sessionConfirm C W s rid q id success
    | some (.stdio rid), some id => stdioConfirm s rid id success
    | _, _ => s
  | .forwarded success p =>
    match s.wait with
    | some (.forward rid fid) => forwardConfirm s rid fid success p
    | _ => s
  | .exit status =>
    match s.child with
    | some id => s.act (.reply (exitMessage id status))
    | none => s
  | .ttyFailed =>
    match s.child with
    | some id => s.act (.reply (ttyMessage id))
    | none => s
  | .childClosed => if s.child.isSome then { s with child := none, status := .closing } else s
  | .others locals remotes => { s with locals := locals, remotes := remotes }

/-- mux.c:1159-1175: a new connection -/
def init (locals remotes : List Fwd) : St :=
  ⟨.running, false, none, none, false, locals, remotes, [.reply (be 4 tHello ++ be 4 version)]⟩

def run (C : Conf) : St → List (World × Event) → St
  | s, [] => s
  | s, (W, e) :: l => run C (step C W s e) l

end Verif.Mux
