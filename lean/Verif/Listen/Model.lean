/-
Where forwarded ports and displays are listened on: channels.c, with the requests of serverloop.c.

Simplified: what the system and the resolver do comes with each call. Each address is tried once in a call, so that it is a function of its
place in the list. There is memory enough. Channels of other types are left out; the order of listeners in the table does not matter.
-/
import Verif.Permit.Model

namespace Verif.Listen
open Verif

/-- Families of addresses, as far as they differ here -/
inductive Fam where
  | inet | inet6 | other
  deriving DecidableEq

/-- An address of `getaddrinfo`: its port is what has been made of the text of the port -/
structure Ai where
  fam : Fam
  ip : Bytes
  port : Nat
  deriving DecidableEq

/-- What the system does with the address number `i` -/
structure Env where
  /-- `getaddrinfo` for a host (or NULL), with AI_PASSIVE or without, and a port -/
  gai : Option Bytes → Bool → Nat → Option (List Ai)
  /-- `getnameinfo` succeeds -/
  name : Nat → Bool
  /-- there is a socket -/
  socket : Nat → Bool
  /-- `bind` to a port: the port it is bound to then -/
  bind : Nat → Nat → Option Nat
  listen : Nat → Bool

/-- Where a socket listens -/
inductive Sock where
  | tcp (ip : Bytes) (port : Nat)
  | unix (path : Bytes) (mask : Nat) (unlink : Bool)
  deriving DecidableEq

inductive Kind where
  /-- SSH_CHANNEL_PORT_LISTENER, SSH_CHANNEL_RPORT_LISTENER -/
  | port | rport
  /-- SSH_CHANNEL_UNIX_LISTENER, SSH_CHANNEL_RUNIX_LISTENER -/
  | unix | runix
  deriving DecidableEq

/-- A channel that listens: `path`, `host_port`, `listening_addr`, `listening_port`, and the socket -/
structure Chan where
  kind : Kind
  path : Bytes
  hostPort : Int
  addr : Option Bytes
  port : Int
  sock : Sock
  deriving DecidableEq

/-- misc.h:30-39 `struct Forward` -/
structure Fwd where
  listenHost : Option Bytes
  listenPort : Nat
  listenPath : Option Bytes
  connectHost : Option Bytes
  connectPort : Nat
  connectPath : Option Bytes
  deriving DecidableEq

/-- misc.h:44-48 `struct ForwardOptions`: GatewayPorts is 0 for no, 1 for yes, 2 for clientspecified. And two bugs of the other side:
SSH_OLD_FORWARD_ADDR, SSH_BUG_DYNAMIC_RPORT. -/
structure Opts where
  gateway : Nat
  mask : Nat
  unlink : Bool
  oldAddr : Bool
  bugPort : Bool
  deriving DecidableEq

/-- NI_MAXHOST -/
def maxHost : Nat := 1025

/-- the size of `sun_path` -/
def maxPath : Nat := 108

/-- misc.h:153 PORT_STREAMLOCAL -/
def streamlocal : Int := -2

/-- channels.c:3738-3790 `channel_fwd_bind_addr`: the address, and whether it is a wildcard. The test for "127.0.0.1" and "::1" in 3770-3772 is
part of that for "localhost". -/
def bindAddr (O : Opts) (client : Bool) : Option Bytes → Option Bytes × Bool
  | none => (none, O.gateway ≠ 0)
  | some h =>
    if O.gateway ≠ 0 ∨ client = true then
      if (O.oldAddr = true ∧ h = b!"0.0.0.0" ∧ client = false) ∨ h = [] ∨ h = b!"*" ∨ (client = false ∧ O.gateway = 1) then (none, true)
      else if h ≠ b!"localhost" then (some h, false)
      else (none, false)
    else if h = b!"127.0.0.1" ∨ h = b!"::1" then (some h, false)
    else (none, false)

/-- channels.c:3807-3819 what the channel remembers: none if it is not taken -/
def pathOf (client : Bool) (f : Fwd) : Option Bytes :=
  if client = true ∧ f.connectPath.isSome then f.connectPath
  else ((if client then f.connectHost else f.listenHost).filter fun h => h.length < maxHost)

/-- channels.c:3861-3867 the port to bind to -/
def portFor (client : Bool) (f : Fwd) (alloc : Nat) (a : Ai) : Nat :=
  if client = false ∧ f.listenPort = 0 ∧ alloc > 0 then alloc else a.port

/-- channels.c:3875-3914 for one address: the port of the socket that listens -/
def try? (E : Env) (i port : Nat) : Option Nat :=
  if E.name i then
    if E.socket i then
      match E.bind i port with
      | none => none
      | some p => if E.listen i then some p else none
    else none
  else none

/-- channels.c:3920-3928 -/
def allocate (client : Bool) (f : Fwd) (alloc port : Nat) : Nat :=
  if client = false ∧ f.listenPort = 0 ∧ alloc = 0 then port else alloc

/-- channels.c:3931-3942; only the server has a place for the port -/
def chanFor (O : Opts) (client : Bool) (f : Fwd) (path : Bytes) (alloc : Nat) (a : Ai) (port : Nat) : Chan :=
  { kind := if client then .port else .rport, path := path, hostPort := f.connectPort, addr := (bindAddr O client f.listenHost).1,
    port := if f.listenPort = 0 ∧ client = false ∧ O.bugPort = false then alloc else f.listenPort, sock := .tcp a.ip port }

/-- channels.c:3847-3944: what listens in the end, and the port that was allocated -/
def addresses (E : Env) (O : Opts) (client : Bool) (f : Fwd) (path : Bytes) : List Ai → Nat → Nat → List Chan × Nat
  | [], _, alloc => ([], alloc)
  | a :: l, i, alloc =>
    if a.fam = .other then addresses E O client f path l (i + 1) alloc
    else match try? E i (portFor client f alloc a) with
      | none => addresses E O client f path l (i + 1) alloc
      | some p =>
        ((chanFor O client f path (allocate client f alloc p) a p) :: (addresses E O client f path l (i + 1) (allocate client f alloc p)).1,
          (addresses E O client f path l (i + 1) (allocate client f alloc p)).2)

inductive Res where
  /-- what listens, if anything, and the port that was allocated -/
  | ok (new : List Chan) (alloc : Nat)
  | refused
  /-- `ssh_packet_disconnect` -/
  | disconnect
  deriving DecidableEq

/-- channels.c:3792-3948 `channel_setup_fwd_listener_tcpip` -/
def setupTcp (E : Env) (O : Opts) (client : Bool) (f : Fwd) : Res :=
  match pathOf client f with
  | none => .refused
  | some path =>
    match E.gai (bindAddr O client f.listenHost).1 (bindAddr O client f.listenHost).2 f.listenPort with
    | none => if (bindAddr O client f.listenHost).1 = none then .disconnect else .refused
    | some l => .ok (addresses E O client f path l 0 0).1 (addresses E O client f path l 0 0).2

/-- channels.c:3950-4022 `channel_setup_fwd_listener_streamlocal`, misc.c:1935-1977 `unix_listener` -/
def setupUnix (E : Env) (O : Opts) (client : Bool) (f : Fwd) : Res :=
  match f.listenPath with
  | none => .refused
  | some lp =>
    match (if client then (match f.connectPath with
        | some p => if p.length > maxPath then none else some (p, streamlocal)
        | none => (f.connectHost.filter fun h => h.length < maxHost).map fun h => (h, (f.connectPort : Int)))
      else some (lp, streamlocal)) with
    | none => .refused
    | some (path, port) =>
      if lp.length ≥ maxPath then .refused
      else if E.socket 0 = false ∨ E.bind 0 0 = none ∨ E.listen 0 = false then .refused
      else .ok [⟨if client then .unix else .runix, path, port, some lp, streamlocal, .unix lp O.mask O.unlink⟩] 0

/-- channels.c:4156-4167 `channel_setup_local_fwd_listener`, channels.c:4233-4266 `channel_setup_remote_fwd_listener` after the check -/
def setup (E : Env) (O : Opts) (client : Bool) (f : Fwd) : Res :=
  if f.listenPath.isSome then setupUnix E O client f else setupTcp E O client f

/-! ### Cancelling -/

/-- channels.c:4024-4043 `channel_cancel_rport_listener_tcpip`: the port is an unsigned short -/
def isRemote (host : Bytes) (port : Nat) (c : Chan) : Bool := c.kind = .rport && c.path = host && c.port = ((port % 65536 : Nat) : Int)

/-- channels.c:4045-4065 `channel_cancel_rport_listener_streamlocal` -/
def isRemotePath (path : Bytes) (c : Chan) : Bool := c.kind = .runix && c.path = path

/-- channels.c:4079-4113 `channel_cancel_lport_listener_tcpip`: `cport` is none for CHANNEL_CANCEL_PORT_STATIC -/
def isLocal (O : Opts) (host : Option Bytes) (port : Nat) (cport : Option Nat) (c : Chan) : Bool :=
  c.kind = .port && c.port = ((port % 65536 : Nat) : Int) &&
  (match cport with | none => c.hostPort ≠ 0 | some p => c.hostPort = (p : Int)) && c.addr = (bindAddr O true host).1

/-- channels.c:4115-4140 `channel_cancel_lport_listener_streamlocal` -/
def isLocalPath (path : Bytes) (c : Chan) : Bool := c.kind = .unix && c.addr = some path

/-- all that fit are closed, and whether there was one -/
def cancel (fits : Chan → Bool) (l : List Chan) : List Chan × Bool := (l.filter fun c => !fits c, l.any fits)

/-! ### Requests to a server -/

/-- What is listened on, and the answers: whether it worked, and the port that was allocated (if it is not 0) -/
structure St where
  alive : Bool
  chans : List Chan
  answers : List (Bool × Nat)
  deriving DecidableEq

inductive Req where
  /-- tcpip-forward -/
  | listen (host : Bytes) (port : Nat) (wantReply : Bool) (E : Env)
  /-- cancel-tcpip-forward -/
  | cancel (host : Bytes) (port : Nat)
  /-- streamlocal-forward@openssh.com -/
  | listenPath (path : Bytes) (E : Env)
  /-- cancel-streamlocal-forward@openssh.com -/
  | cancelPath (path : Bytes)

/-- serverloop.c:771-775, 803 -/
def St.result (s : St) : Res → St
  | .ok new alloc => { s with chans := s.chans ++ new, answers := s.answers ++ [(decide (new ≠ []), alloc)] }
  | .refused => { s with answers := s.answers ++ [(false, 0)] }
  | .disconnect => { s with alive := false }

/-- serverloop.c:749-811 of `server_input_global_request`; for the checks of permissions, see `Verif.Permit` -/
def step (C : Permit.Cfg) (P : Permit.PermSet) (O : Opts) (s : St) (r : Req) : St :=
  if s.alive = false then s
  else match r with
  | .listen host port want E =>
    if Permit.tcpipForward C P host port want then s.result (setup E O false ⟨some host, port, none, none, 0, none⟩)
    else s.result .refused
  | .cancel host port =>
    if port ≤ 0x7fffffff then
      { s with chans := (cancel (isRemote host port) s.chans).1, answers := s.answers ++ [((cancel (isRemote host port) s.chans).2, 0)] }
    else s.result .refused
  | .listenPath path E =>
    if Permit.streamlocalForward C P path then s.result (setup E O false ⟨none, 0, some path, none, 0, none⟩)
    else s.result .refused
  | .cancelPath path =>
    { s with chans := (cancel (isRemotePath path) s.chans).1, answers := s.answers ++ [((cancel (isRemotePath path) s.chans).2, 0)] }

def init : St := ⟨true, [], []⟩

def run (C : Permit.Cfg) (P : Permit.PermSet) (O : Opts) : St → List Req → St
  | s, [] => s
  | s, r :: l => run C P O (step C P O s r) l

/-! ### Displays -/

/-- channels.c:94-100 -/
def numSocks : Nat := 10
def basePort : Nat := 6000
def maxDisplays : Nat := 1000

/-- What the system does with address `i` for a display -/
structure XEnv where
  gai : Bool → Nat → Option (List Ai)
  /-- `some true` if there is a socket, `some false` if the family is not supported, none for another failure -/
  socket : Nat → Nat → Option Bool
  bind : Nat → Nat → Bool
  listen : Nat → Bool

inductive Bound where
  /-- the sockets that are bound -/
  | socks (l : List Ai)
  /-- the function returns; what is bound stays open -/
  | leak (l : List Ai)
  deriving DecidableEq

/-- channels.c:5028-5068 the addresses of one display: nothing, if one cannot be bound to -/
def bindAll (E : XEnv) (d : Nat) : List Ai → Nat → List Ai → Bound
  | [], _, acc => .socks acc
  | a :: l, i, acc =>
    if a.fam = .other then bindAll E d l (i + 1) acc
    else match E.socket d i with
      | none => .leak acc
      | some false => bindAll E d l (i + 1) acc
      | some true =>
        if E.bind d i then
          (if (acc ++ [a]).length = numSocks then .socks (acc ++ [a]) else bindAll E d l (i + 1) (acc ++ [a]))
        else .socks []

/-- channels.c:5074-5081 whether all listen; if one of them cannot, it is closed: those that listen but that nobody knows, and the rest -/
def listenAll (E : XEnv) : List Ai → Nat → List Ai → Bool × List Ai × List Ai
  | [], _, acc => (true, acc, [])
  | a :: l, i, acc => if E.listen i then listenAll E l (i + 1) (acc ++ [a]) else (false, acc, l)

inductive XRes where
  /-- the display, and what listens for it -/
  | ok (display : Nat) (l : List Ai)
  /-- what stays bound, and what listens all the same -/
  | failed (bound listening : List Ai)
  deriving DecidableEq

/-- channels.c:5012-5072 one display after the other, from `d`, at most `n` -/
def displays (E : XEnv) (localhost : Bool) : Nat → Nat → XRes
  | 0, _ => .failed [] []
  | n + 1, d =>
    match E.gai (!localhost) (basePort + d) with
    | none => .failed [] []
    | some l =>
      match bindAll E d l 0 [] with
      | .leak b => .failed b []
      | .socks [] => displays E localhost n (d + 1)
      | .socks (a :: b) =>
        if (listenAll E (a :: b) 0 []).1 then .ok d (a :: b)
        else .failed ((listenAll E (a :: b) 0 []).2.1 ++ (listenAll E (a :: b) 0 []).2.2) (listenAll E (a :: b) 0 []).2.1

/-- channels.c:4997-5098 `x11_create_display_inet`; X11DisplayOffset is not negative -/
def createDisplay (E : XEnv) (offset : Nat) (localhost : Bool) : XRes :=
  if offset > 65535 - basePort - maxDisplays then .failed [] []
  else displays E localhost (maxDisplays - offset) offset

end Verif.Listen
