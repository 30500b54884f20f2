/-
The other end of the control connection: mux.c:1436-2373, and the reading of packets at both ends.

Simplified: writing to the master does not fail, there is memory enough. What is read is a list of packets, each of which may be a failure
instead. Passing descriptors, the terminal and signals are not part of this, but for a signal that ends the program.
-/
import Verif.Mux.Model

namespace Verif.Mux
open Verif Wire

/-- What the reading of a packet comes to, mux.c:1556-1587 `mux_client_read_packet_timeout` -/
inductive Got where
  | packet (p : Bytes)
  /-- EPIPE -/
  | eof
  | err
  deriving DecidableEq

/-- The client: mux.c:108 `muxclient_request_id`, what it is going to read, and what it has sent -/
structure Cl where
  rid : Nat
  inc : List Got
  sent : List Bytes
  deriving DecidableEq

def Cl.send (c : Cl) (p : Bytes) : Cl := { c with sent := c.sent ++ [p] }

def Cl.next (c : Cl) : Got := c.inc.headD .eof
def Cl.read (c : Cl) : Cl := { c with inc := c.inc.tail }

/-- `muxclient_request_id++`, as in mux.c:1700 -/
def Cl.bump (c : Cl) : Cl := { c with rid := (c.rid + 1) % 2 ^ 32 }

/-- mux.c:1604-1607 -/
def helloPacket : Bytes := be 4 tHello ++ be 4 version

/-- mux.c:1622-1647 of `mux_client_hello_exchange`: none if it is fatal -/
def readHello (p : Bytes) : Option Bool :=
  match getInt 4 p with
  | none => none
  | some (t, b) =>
    if t ≠ tHello then some false
    else match getInt 4 b with
      | none => none
      | some (v, b) => if v ≠ version then some false else some (extensions (b.length + 1) b)

/-- mux.c:1595-1653 `mux_client_hello_exchange` -/
def greet (c : Cl) : Option (Bool × Cl) :=
  match c.next with
  | .packet p => (readHello p).map fun r => (r, (c.send helloPacket).read)
  | _ => some (false, (c.send helloPacket).read)

/-- mux.c:1666-1668 -/
def aliveRequest (rid : Nat) : Bytes := be 4 tAlive ++ be 4 rid

/-- mux.c:1681-1697 -/
def aliveReply (rid : Nat) (p : Bytes) : Option Nat :=
  match getInt 4 p with
  | none => none
  | some (t, b) =>
    if t ≠ sAlive then none
    else match getInt 4 b with
      | none => none
      | some (r, b) => if r ≠ rid then none else (getInt 4 b).map (·.1)

/-- mux.c:1655-1704 `mux_client_request_alive`: none if it is fatal -/
def askAlive (c : Cl) : Option (Nat × Cl) :=
  match c.next with
  | .packet p => (aliveReply c.rid p).map fun pid => (pid, ((c.send (aliveRequest c.rid)).read).bump)
  | _ => some (0, (c.send (aliveRequest c.rid)).read)

/-- mux.c:1735-1740 and the like: the kind of an answer and what follows, if the number is right -/
def ownReply (rid : Nat) (p : Bytes) : Option (Nat × Bytes) :=
  match getInt 4 p with
  | none => none
  | some (t, b) =>
    match getInt 4 b with
    | none => none
    | some (r, b) => if r ≠ rid then none else some (t, b)

/-- mux.c:1706-1759 `mux_client_request_terminate`: none if it is fatal -/
def askTerm (c : Cl) : Option Cl :=
  match c.next with
  | .packet p =>
    match ownReply c.rid p with
    | none => none
    | some (t, _) => if t = sOk then some ((c.send (be 4 tTerminate ++ be 4 c.rid)).read).bump else none
  | .eof => some (c.send (be 4 tTerminate ++ be 4 c.rid)).read
  | .err => none

/-- mux.c:2212-2260 `mux_client_request_stop_listening`: none if it is fatal -/
def askStopping (c : Cl) : Option Cl :=
  match c.next with
  | .packet p =>
    match ownReply c.rid p with
    | none => none
    | some (t, _) => if t = sOk then some ((c.send (be 4 tStop ++ be 4 c.rid)).read).bump else none
  | _ => none

/-- mux.c:1776-1783 -/
def listenWord (f : Fwd) : Bytes :=
  match f.listenPath with
  | some p => p
  | none => match f.listenHost with
    | none => []
    | some h => if h = [] then b!"*" else h

/-- mux.c:1785-1790 -/
def connectWord (f : Fwd) : Bytes :=
  match f.connectPath with
  | some p => p
  | none => f.connectHost.getD []

/-- mux.c:1794-1800 -/
def fwdRequest (cancel : Bool) (rid kind : Nat) (f : Fwd) : Bytes :=
  be 4 (if cancel then tClose else tOpen) ++ be 4 rid ++ be 4 kind ++ str (listenWord f) ++ be 4 f.listenPort ++ str (connectWord f) ++
    be 4 f.connectPort

/-- mux.c:1815-1850: none if it is fatal, and whether it is done -/
def fwdReply (cancel : Bool) (rid : Nat) (p : Bytes) : Option Bool :=
  match ownReply rid p with
  | none => none
  | some (t, b) =>
    if t = sOk then some true
    else if t = sPort then (if cancel then none else (getInt 4 b).map fun _ => true)
    else if t = sDenied ∨ t = sFailure then (getCstr b).map fun _ => false
    else none

/-- mux.c:1761-1855 `mux_client_forward`: the number is the same again after a refusal -/
def forward (cancel : Bool) (kind : Nat) (f : Fwd) (c : Cl) : Option (Bool × Cl) :=
  match c.next with
  | .packet p =>
    match fwdReply cancel c.rid p with
    | none => none
    | some true => some (true, ((c.send (fwdRequest cancel c.rid kind f)).read).bump)
    | some false => some (false, (c.send (fwdRequest cancel c.rid kind f)).read)
  | _ => some (false, (c.send (fwdRequest cancel c.rid kind f)).read)

/-- mux.c:1866-1878: one after the other -/
def forwardAll (cancel : Bool) : List (Nat × Fwd) → Bool → Cl → Option (Bool × Cl)
  | [], ok, c => some (ok, c)
  | (kind, f) :: l, ok, c =>
    match forward cancel kind f c with
    | none => none
    | some (r, c) => forwardAll cancel l (ok && r) c

/-- What the client is told to do; readconf.c and the command line. -/
structure Opts where
  command : Nat
  master : Master
  sendEnv : List Bytes
  setEnv : List Bytes
  environ : List Bytes
  locals : List Fwd
  remotes : List Fwd
  stdio : Option (Bytes × Nat)
  tty : Nat
  x11 : Nat
  agent : Nat
  subsys : Bool
  esc : Nat
  term : Bytes
  cmd : Bytes

/-- mux.c:1866-1878: which they are -/
def wanted (O : Opts) : List (Nat × Fwd) :=
  O.locals.map (fun f => (if f.connectPort = 0 then fDynamic else fLocal, f)) ++ O.remotes.map (fun f => (fRemote, f))

/-- mux.c:1930-1942: what is passed on -/
def passedEnv (O : Opts) : List Bytes :=
  (if O.sendEnv = [] then [] else O.environ.filter fun e => envPermitted ⟨.no, [], O.sendEnv, false, false, false, 0⟩ e) ++ O.setEnv

/-- mux.c:1917-1942; `esc` is what is sent for the escape character, mux.c:1910-1912 -/
def sesRequest (O : Opts) (rid : Nat) : Bytes :=
  be 4 tSession ++ be 4 rid ++ str [] ++ be 4 O.tty ++ be 4 O.x11 ++ be 4 O.agent ++ be 4 (if O.subsys then 1 else 0) ++ be 4 O.esc ++
    str O.term ++ str O.cmd ++ ((passedEnv O).map str).flatten

/-- mux.c:1966-1995: none if it is fatal, and the session -/
def sesReply (rid : Nat) (p : Bytes) : Option (Option Nat) :=
  match ownReply rid p with
  | none => none
  | some (t, b) =>
    if t = sOpened then (getInt 4 b).map fun x => some x.1
    else if t = sDenied ∨ t = sFailure then (getCstr b).map fun _ => none
    else some none

/-- mux.c:2018-2052: none if it is fatal, and the exit status if there was one -/
def exitLoop (sid : Nat) : Option Nat → List Got → Option (Option Nat)
  | seen, .packet p :: l =>
    match getInt 4 p with
    | none => none
    | some (t, b) =>
      match getInt 4 b with
      | none => none
      | some (e, b) =>
        if t = sTtyFail then (if e ≠ sid then none else exitLoop sid seen l)
        else if t = sExit then
          (if e ≠ sid then none
           else if seen.isSome then none
           else match getInt 4 b with
             | none => none
             | some (v, _) => exitLoop sid (some v) l)
        else none
  | seen, _ => some seen

/-- How the client ends -/
inductive End' where
  /-- what the shell sees -/
  | exit (n : Nat)
  /-- `fatal`: a message, and 255 -/
  | fatal
  /-- `muxclient` returns -1: there is no master, ssh connects by itself -/
  | back
  /-- `muxclient` returns the socket -/
  | proxy
  deriving DecidableEq

/-- mux.c:1882-2070 `mux_client_request_session`; `signalled` if a signal has ended it -/
def session (O : Opts) (signalled : Bool) (c : Cl) : End' × Cl :=
  match askAlive c with
  | none => (.fatal, c)
  | some (pid, c) =>
    if pid = 0 then (.back, c)
    else match c.next with
    | .packet p =>
      match sesReply c.rid p with
      | none => (.fatal, (c.send (sesRequest O c.rid)).read)
      | some none => (.back, (c.send (sesRequest O c.rid)).read)
      | some (some sid) =>
        match exitLoop sid none c.inc.tail with
        | none => (.fatal, (c.send (sesRequest O c.rid)).read)
        | some seen => (.exit ((if signalled then 255 else seen.getD 255) % 256), (c.send (sesRequest O c.rid)).read)
    | _ => (.back, (c.send (sesRequest O c.rid)).read)

/-- mux.c:2133-2138 -/
def stdioRequest (rid : Nat) (host : Bytes) (port : Nat) : Bytes := be 4 tStdio ++ be 4 rid ++ str [] ++ str host ++ be 4 port

/-- mux.c:2166-2208: none if it is fatal, and whether it has worked -/
def stdioReply (rid : Nat) (p : Bytes) (after : Got) : Option Bool :=
  match ownReply rid p with
  | none => none
  | some (t, b) =>
    if t = sOpened then
      match getInt 4 b with
      | none => none
      | some _ => (match after with
        | .eof => some true
        | _ => none)
    else if t = sDenied ∨ t = sFailure then none
    else some false

/-- mux.c:2113-2210 `mux_client_request_stdio_fwd` -/
def stdio (host : Bytes) (port : Nat) (c : Cl) : Option (Bool × Cl) :=
  match askAlive c with
  | none => none
  | some (pid, c) =>
    if pid = 0 then some (false, c)
    else match c.next with
    | .packet p => (stdioReply c.rid p c.read.next).map fun r => (r, (c.send (stdioRequest c.rid host port)).read)
    | _ => some (false, (c.send (stdioRequest c.rid host port)).read)

/-- mux.c:2072-2111 `mux_client_proxy` -/
def askProxy (c : Cl) : Option Cl :=
  match c.next with
  | .packet p =>
    match ownReply c.rid p with
    | none => none
    | some (t, _) => if t = sProxy then some ((c.send (be 4 tProxy ++ be 4 c.rid)).read).bump else none
  | _ => some (c.send (be 4 tProxy ++ be 4 c.rid)).read

/-- clientloop.h:70-78 SSHMUX_COMMAND_* -/
def cOpen : Nat := 1
def cCheck : Nat := 2
def cExit : Nat := 3
def cStdio : Nat := 4
def cForward : Nat := 5
def cStop : Nat := 6
def cCancel : Nat := 7
def cProxy : Nat := 8

/-- mux.c:2270-2275 -/
def commandOf (O : Opts) : Nat := if O.command ≠ 0 then O.command else if O.stdio.isSome then cStdio else cOpen

/-- mux.c:2330-2372 -/
def command (O : Opts) (signalled : Bool) (c : Cl) : End' × Cl :=
  if commandOf O = cCheck then
    match askAlive c with
    | none => (.fatal, c)
    | some (pid, c) => (if pid = 0 then .fatal else .exit 0, c)
  else if commandOf O = cExit then
    match askTerm c with
    | none => (.fatal, c)
    | some c => (.exit 0, c)
  else if commandOf O = cForward then
    match forwardAll false (wanted O) true c with
    | none => (.fatal, c)
    | some (ok, c) => (if ok then .exit 0 else .fatal, c)
  else if commandOf O = cOpen then
    match forwardAll false (wanted O) true c with
    | none => (.fatal, c)
    | some (ok, c) => if ok then session O signalled c else (.back, c)
  else if commandOf O = cStdio then
    match stdio (O.stdio.getD ([], 0)).1 (O.stdio.getD ([], 0)).2 c with
    | none => (.fatal, c)
    | some (_, c) => (.exit 0, c)
  else if commandOf O = cStop then
    match askStopping c with
    | none => (.fatal, c)
    | some c => (.exit 0, c)
  else if commandOf O = cCancel then
    match forwardAll true (wanted O) true c with
    | none => (.fatal, c)
    | some (_, c) => (.exit 0, c)
  else if commandOf O = cProxy then
    match askProxy c with
    | none => (.fatal, c)
    | some c => (.proxy, c)
  else (.fatal, c)

/-- mux.c:2263-2373 `muxclient`, if the path is not too long; `connected` if there is somebody at the socket -/
def muxclient (O : Opts) (connected signalled : Bool) (inc : List Got) : End' × Cl :=
  if O.master = .yes ∨ O.master = .ask then (.back, ⟨0, inc, []⟩)
  else if connected = false then
    (if commandOf O = cOpen ∨ commandOf O = cStdio then .back else .fatal, ⟨0, inc, []⟩)
  else match greet ⟨0, inc, []⟩ with
    | none => (.fatal, ⟨0, inc, []⟩)
    | some (false, c) => (.back, c)
    | some (true, c) => command O signalled c

/-! ### Packets from the stream, at the master -/

/-- channels.c:2439 CHANNEL_MUX_MAX_PACKET -/
def maxPacket : Nat := 262144

/-- channels.h:259 CHAN_RBUF -/
def chanBuf : Nat := 16384

/-- The channel: what is in the buffer, and what is still in the socket -/
structure Rd where
  input : Bytes
  rest : Bytes
  deriving DecidableEq

/-- channels.c:2395-2417 `read_mux`: `n` is how much the system gives at most; nothing is no failure, as if there was nothing yet -/
def readMux (r : Rd) (need n : Nat) : Rd :=
  if r.input.length < need then
    ⟨r.input ++ r.rest.take (min n (min (need - r.input.length) chanBuf)), r.rest.drop (min n (min (need - r.input.length) chanBuf))⟩
  else r

/-- What comes of a look at the socket -/
inductive Look where
  | more
  | tooBig
  | packet (p : Bytes)
  deriving DecidableEq

/-- `PEEK_U32`, sshbuf.h:313-317 -/
def peek (b : Bytes) : Nat := ofBE (b.take 4)

/-- channels.c:2431-2447 of `channel_post_mux_client_read`, with mux.c:1179 -/
def look (r : Rd) (n m : Nat) : Look × Rd :=
  if (readMux r 4 n).input.length < 4 then (.more, readMux r 4 n)
  else if peek (readMux r 4 n).input > maxPacket then (.tooBig, readMux r 4 n)
  else if (readMux (readMux r 4 n) (peek (readMux r 4 n).input + 4) m).input.length < peek (readMux r 4 n).input + 4 then
    (.more, readMux (readMux r 4 n) (peek (readMux r 4 n).input + 4) m)
  else (.packet (((readMux (readMux r 4 n) (peek (readMux r 4 n).input + 4) m).input.drop 4).take (peek (readMux r 4 n).input)),
    ⟨(readMux (readMux r 4 n) (peek (readMux r 4 n).input + 4) m).input.drop (4 + peek (readMux r 4 n).input),
     (readMux (readMux r 4 n) (peek (readMux r 4 n).input + 4) m).rest⟩)

/-- Again and again, until a packet is too big; the sizes are those of what the system gives -/
def looks : Rd → List (Nat × Nat) → List Bytes × Bool × Rd
  | r, [] => ([], false, r)
  | r, (n, m) :: l =>
    match look r n m with
    | (.more, r) => looks r l
    | (.tooBig, r) => ([], true, r)
    | (.packet p, r) => (p :: (looks r l).1, (looks r l).2)

end Verif.Mux
