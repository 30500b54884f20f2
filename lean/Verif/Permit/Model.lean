/-
Forwarding permissions: channels.c, session.c, monitor_wrap.c, serverloop.c, misc.c.
Pointers that may be NULL are options.  `getservbyname` is a parameter.  What a permitted request then does (connecting,
listening) is not modelled: the model says whether it is attempted and with what.
-/
import Verif.Base
import Verif.Num
import Verif.Match.Model

namespace Verif.Permit
open Verif Match

/-- misc.h:25 -/
scoped notation "ANY_PORT" => (0 : Int)
/-- misc.h:153 -/
scoped notation "PORT_STREAMLOCAL" => (-2 : Int)

/-- channels.c:114-121 `struct permission` -/
structure Perm where
  host : Option Bytes := none
  port : Int := 0
  lhost : Option Bytes := none
  lpath : Option Bytes := none
  lport : Int := 0
  down : Option Nat := none
  deriving DecidableEq, Repr

/-- channels.c:127-147 `struct permission_set` -/
structure PermSet where
  user : List Perm := []
  admin : List Perm := []
  all : Bool := false
  deriving DecidableEq, Repr

/-! ### Entries "host:port" -/

/-- misc.c:746-781 `hpdelim2`: the host field, and the delimiter with what follows it. -/
def hpdelim2 (s : Bytes) : Option (Bytes × Option (UInt8 × Bytes)) :=
  if s.head? = some 91 then
    match s.dropWhile (· ≠ 93) with
    | [] => none
    | c :: [] => some (s.takeWhile (· ≠ 93) ++ [c], none)
    | c :: d :: r => if d = 58 ∨ d = 47 then some (s.takeWhile (· ≠ 93) ++ [c], some (d, r)) else none
  else
    match s.dropWhile (fun x => x ≠ 58 ∧ x ≠ 47) with
    | [] => some (s, none)
    | d :: r => some (s.takeWhile (fun x => x ≠ 58 ∧ x ≠ 47), some (d, r))

/-- misc.c:784-793 `hpdelim` -/
def hpdelim (s : Bytes) : Option (Bytes × Option (UInt8 × Bytes)) :=
  match hpdelim2 s with
  | some (h, some (d, r)) => if d = 47 then none else some (h, some (d, r))
  | x => x

/-- misc.c:795-803 `cleanhostname` -/
def cleanhostname (h : Bytes) : Bytes :=
  if h.head? = some 91 ∧ h.getLast? = some 93 then h.tail.dropLast else h

/-- misc.c:535-548 `a2port` -/
def a2port (serv : Bytes → Option Nat) (s : Bytes) : Int :=
  match Num.strtonum s 0 65535 with
  | some v => v
  | none => match serv s with
    | some p => p
    | none => -1

/-- misc.c:2029-2039 `permitopen_port` -/
def permitopenPort (serv : Bytes → Option Nat) (s : Bytes) : Int :=
  if s = b!"*" then ANY_PORT else if a2port serv s > 0 then a2port serv s else -1

/-- session.c:314-322, session.c:329-337, monitor_wrap.c:1160-1168: an entry of a permission list; `slash`: with
`hpdelim2` instead of `hpdelim`. `none`: fatal. -/
def parseEntry (serv : Bytes → Option Nat) (slash : Bool) (e : Bytes) : Option (Bytes × Int) :=
  match (if slash then hpdelim2 e else hpdelim e) with
  | some (h, some (_, p)) => if permitopenPort serv p < 0 then none else some (cleanhostname h, permitopenPort serv p)
  | _ => none

/-! ### Setting permissions -/

inductive Dir
  | loc | rem
  deriving DecidableEq, Repr

/-- channels.c:4507-4524 `channel_add_permission`: the entry added. -/
def mkPerm (d : Dir) (host : Bytes) (port : Int) : Perm :=
  match d with
  | .loc => { host := some host, port := port }
  | .rem => { lhost := some host, lport := port }

def addUser (d : Dir) (s : PermSet) (e : Bytes × Int) : PermSet := { s with user := s.user ++ [mkPerm d e.1 e.2], all := false }
def addAdmin (d : Dir) (s : PermSet) (e : Bytes × Int) : PermSet := { s with admin := s.admin ++ [mkPerm d e.1 e.2], all := false }

/-- channels.c:4529-4535 `channel_disable_admin` -/
def disableAdmin (s : PermSet) : PermSet := { s with admin := [{}] }

/-- channels.c:4495-4502 `channel_permit_all` -/
def permitAll (s : PermSet) : PermSet := if s.user.length = 0 then { s with all := true } else s

/-- Parse and add a list of entries. -/
def addList (serv : Bytes → Option Nat) (slash : Bool) (add : PermSet → Bytes × Int → PermSet) : List Bytes → PermSet → Option PermSet
  | [], s => some s
  | e :: es, s =>
    match parseEntry serv slash e with
    | none => none
    | some x => addList serv slash add es (add s x)

/-- monitor_wrap.c:1138-1173 `server_process_permitopen_list` -/
def adminList (serv : Bytes → Option Nat) (d : Dir) (opens : List Bytes) (s : PermSet) : Option PermSet :=
  let s := { s with admin := [] }
  if opens = [] then some s
  else if opens = [b!"any"] then some s
  else if opens = [b!"none"] then some (disableAdmin s)
  else addList serv false (addAdmin d) opens s

/-- session.c:304-341 `set_fwdpermit_from_authopts`, one direction; permitopen is parsed with `hpdelim2`, permitlisten with
`hpdelim`. -/
def userList (serv : Bytes → Option Nat) (d : Dir) (entries : List Bytes) (s : PermSet) : Option PermSet :=
  addList serv (d = .loc) (addUser d) entries { s with user := [] }

/-- What the server's configuration and the authenticated key say about forwarding. -/
structure Cfg where
  tcpLocal : Bool          -- AllowTcpForwarding, each direction
  tcpRemote : Bool
  streamLocal : Bool       -- AllowStreamLocalForwarding
  streamRemote : Bool
  disable : Bool           -- DisableForwarding
  permitOpen : List Bytes
  permitListen : List Bytes
  keyForward : Bool        -- the key's port-forwarding flag
  keyOpen : List Bytes     -- the key's permitopen
  keyListen : List Bytes   -- the key's permitlisten

/-- session.c:353-367, one direction of `do_authenticated`; `tcp` its AllowTcpForwarding bit. -/
def setup (serv : Bytes → Option Nat) (c : Cfg) (d : Dir) (tcp : Bool) (admin user : List Bytes) : Option PermSet :=
  match adminList serv d admin {} with                       -- auth.c:485, before
  | none => none
  | some s =>
    match (if tcp then userList serv d user s else some s) with
    | none => none
    | some s =>
      if !c.keyForward || c.disable then some (disableAdmin s)
      else if tcp then some (permitAll s) else some (disableAdmin s)

/-- The permissions the session starts with. -/
def setupAll (serv : Bytes → Option Nat) (c : Cfg) : Option (PermSet × PermSet) :=
  match setup serv c .loc c.tcpLocal c.permitOpen c.keyOpen, setup serv c .rem c.tcpRemote c.permitListen c.keyListen with
  | some l, some r => some (l, r)
  | _, _ => none

/-! ### Checking requests -/

/-- channels.c:4344-4357 `open_match` -/
def openMatch (p : Perm) (host : Bytes) (port : Int) : Bool :=
  match p.host with
  | none => false
  | some h =>
    if p.port ≠ ANY_PORT ∧ p.port ≠ port then false
    else if h ≠ b!"*" ∧ h ≠ host then false
    else true

/-- channels.c:4170-4194 `remote_open_match`; `Sum.inl` a path, `Sum.inr` host and port. -/
def remoteOpenMatch (p : Perm) (f : Bytes ⊕ (Bytes × Int)) : Bool :=
  match f with
  | .inl _ => true
  | .inr (host, port) =>
    match p.lhost with
    | none => false
    | some h => if p.lport ≠ ANY_PORT ∧ p.lport ≠ port then false else matchPattern (host.map toLower) h

/-- channels.c:4812-4833, channels.c:4871-4892, channels.c:4206-4229: the decision. -/
def permitted (s : PermSet) (m : Perm → Bool) : Bool :=
  (s.all || s.user.any m) && (s.admin.length == 0 || s.admin.any m)

/-- serverloop.c:392-438 `server_request_direct_tcpip`, with channels.c:4801-4859 `channel_connect_to_port`: is a connection
attempted? -/
def directTcpip (c : Cfg) (s : PermSet) (host : Bytes) (port orig : Nat) : Bool :=
  if port > 0xFFFF then false
  else if orig > 0xFFFF then false
  else if c.tcpLocal && c.keyForward && !c.disable then permitted s fun p => openMatch p host port
  else false

/-- serverloop.c:440-481 `server_request_direct_streamlocal`, with channels.c:4862-4899 `channel_connect_to_path` -/
def directStreamlocal (c : Cfg) (s : PermSet) (path : Bytes) (orig : Nat) : Bool :=
  if orig > 0xFFFF then false
  else if c.streamLocal && c.keyForward && !c.disable then permitted s fun p => openMatch p path PORT_STREAMLOCAL
  else false

/-- serverloop.c:750-773, tcpip-forward, with channels.c:4197-4230 `check_rfwd_permission`: is a listener set up? -/
def tcpipForward (c : Cfg) (s : PermSet) (host : Bytes) (port : Nat) (wantReply : Bool) : Bool :=
  if port > 0x7FFFFFFF || !c.tcpRemote || !c.keyForward || c.disable || (!wantReply && port == 0) then false
  else permitted s fun p => remoteOpenMatch p (.inr (host, port))

/-- serverloop.c:788-805, streamlocal-forward -/
def streamlocalForward (c : Cfg) (s : PermSet) (path : Bytes) : Bool :=
  if !c.streamRemote || !c.keyForward || c.disable then false
  else permitted s fun p => remoteOpenMatch p (.inl path)

/-! ### The client: remote forwardings it asked for -/

/-- readconf.h `struct Forward`, as used for remote forwardings: where the server listens, where we connect. -/
structure Fwd where
  listen : Bytes ⊕ (Option Bytes × Nat)      -- path, or host (none: NULL) and port
  connect : Bytes ⊕ (Bytes × Nat)            -- path, or host and port (port 0: dynamic)
  deriving DecidableEq, Repr

/-- channels.c:4272-4281 `channel_rfwd_bind_host` -/
def bindHost : Option Bytes → Bytes
  | none => b!"localhost"
  | some h => if h = [] ∨ h = b!"*" then [] else h

/-- channels.c:4312-4340, the permission recorded by `channel_request_remote_forwarding`. -/
def Fwd.perm (f : Fwd) : Perm :=
  { host := match f.connect with | .inl p => some p | .inr (h, _) => some h
    port := match f.connect with | .inl _ => PORT_STREAMLOCAL | .inr (_, n) => n
    lhost := match f.listen with | .inl _ => none | .inr (h, _) => h
    lpath := match f.listen with | .inl p => some p | .inr _ => none
    lport := match f.listen with | .inl _ => PORT_STREAMLOCAL | .inr (_, n) => n }

/-- channels.c:4365-4385 `open_listen_match_tcpip` -/
def listenMatchTcpip (p : Perm) (host : Option Bytes) (port : Nat) (translate : Bool) : Bool :=
  if p.host = none then false
  else if p.lport ≠ port then false
  else if translate = false ∧ p.lhost = none ∧ host = none then true
  else
    match (if translate then some (bindHost p.lhost) else p.lhost), host with
    | some a, some h => a = h
    | _, _ => false

/-- channels.c:4387-4399 `open_listen_match_streamlocal` -/
def listenMatchPath (p : Perm) (path : Bytes) : Bool :=
  if p.host = none then false
  else if p.lport ≠ PORT_STREAMLOCAL then false
  else p.lpath == some path

/-- Clear the first entry that matches (channels.c:609-616 `fwd_perm_clear`). -/
def clearFirst (m : Perm → Bool) : List Perm → List Perm
  | [] => []
  | p :: ps => if m p then {} :: ps else p :: clearFirst m ps

/-- What the client does with its list: `update` is the server's answer to the request with that index (channels.c:4556-4577
`channel_update_permission`; no port: refused), the cancellations are channels.c:4405-4436
`channel_request_rforward_cancel_tcpip` and channels.c:4442-4472 `channel_request_rforward_cancel_streamlocal`. -/
inductive COp
  | request (f : Fwd)
  | update (i : Nat) (port : Option Nat)
  | cancelTcp (host : Option Bytes) (port : Nat)
  | cancelPath (path : Bytes)

def updatePerm (p : Perm) : Option Nat → Perm
  | none => {}
  | some n => if n = 0 then {} else { p with lport := n }

def cstep (l : List Perm) : COp → List Perm
  | .request f => l ++ [f.perm]
  | .update i port => match l[i]? with
    | none => l
    | some p => l.set i (updatePerm p port)
  | .cancelTcp h n => clearFirst (fun p => listenMatchTcpip p h n false) l
  | .cancelPath p => clearFirst (fun q => listenMatchPath q p) l

def crun (l : List Perm) (ops : List COp) : List Perm := ops.foldl cstep l

/-- What the client does when the server opens a connection for a forwarding. -/
inductive Target
  | refuse
  | socks                           -- channels.c `rdynamic_connect_prepare`
  | connect (host : Bytes) (port : Int)
  | mux (c : Nat)
  deriving DecidableEq, Repr

/-- channels.c:4761-4771 -/
def targetOf (p : Perm) : Target :=
  match p.down with
  | some c => .mux c
  | none => if p.port = 0 then .socks else match p.host with
    | some h => .connect h p.port
    | none => .refuse

/-- channels.c:4750-4776 `channel_connect_by_listen_address` -/
def byListenAddress (l : List Perm) (host : Bytes) (port : Nat) : Target :=
  match l.find? (fun p => listenMatchTcpip p (some host) port true) with
  | some p => targetOf p
  | none => .refuse

/-- channels.c:4778-4798 `channel_connect_by_listen_path` -/
def byListenPath (l : List Perm) (path : Bytes) : Target :=
  match l.find? (fun p => listenMatchPath p path) with
  | some p => match p.host with
    | some h => .connect h p.port
    | none => .refuse
  | none => .refuse

end Verif.Permit
