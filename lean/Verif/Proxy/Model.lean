/-
Clients that share a connection as proxies (`ssh -O proxy`): the translation of channel numbers in channels.c, and what becomes of the
channels of a client that goes.

Simplified: memory and numbers of channels are not exhausted. Each channel has a serial number that stands for its address, so that a
pointer to one that has been freed is seen to be one. Channels of the program itself are only here as far as they take numbers; what they
do with a message of the server is not. The packets of a client come one at a time, as in `Verif.Mux`.
-/
import Verif.WireMore
import Verif.Match.Model

namespace Verif.Proxy
open Verif Wire

/-- channels.h:50-75, as far as they differ here -/
inductive Kind where
  /-- SSH_CHANNEL_MUX_CLIENT -/
  | client
  /-- SSH_CHANNEL_MUX_PROXY, with `mux_ctx` and `mux_downstream_id` -/
  | proxy (down id : Nat)
  /-- of a client that has gone, channels.c:752-755 -/
  | detached
  /-- all others -/
  | own
  deriving DecidableEq

structure Ch where
  uid : Nat
  kind : Kind
  /-- `have_remote_id`, `remote_id` -/
  remote : Option Nat
  /-- CHAN_CLOSE_SENT, CHAN_CLOSE_RCVD -/
  sent : Bool
  rcvd : Bool
  deriving DecidableEq

/-- channels.c:103-113 `struct permission`: `down` if it is that of a client -/
structure Perm where
  host : Bytes
  port : Nat
  down : Option Nat
  deriving DecidableEq

/-- A message for the server: from which client, what it has sent (after the type), and what has become of it -/
structure Up where
  src : Option Nat
  type : Nat
  orig : Bytes
  body : Bytes
  deriving DecidableEq

inductive Status where
  | running
  /-- `fatal` -/
  | fatal
  /-- `ssh_packet_disconnect` -/
  | disconnected
  /-- memory is used that has been freed -/
  | undefined
  deriving DecidableEq

structure St where
  status : Status
  slots : List (Option Ch)
  perms : List Perm
  next : Nat
  /-- whose answers to global requests are expected, clientloop.c:143-149 -/
  confs : List Nat
  up : List Up
  /-- packets for clients, without the length -/
  down : List (Nat × Bytes)
  /-- answers to global requests of the program itself, and to which -/
  answers : List (Nat × Bool)
  deriving DecidableEq

/-! ### Channels -/

/-- channels.c:486-543 `channel_new`: in the first place that is free -/
def place (c : Ch) : List (Option Ch) → List (Option Ch)
  | [] => [some c]
  | none :: l => some c :: l
  | some d :: l => some d :: place c l

/-- the number it gets -/
def free : List (Option Ch) → Nat
  | [] => 0
  | none :: _ => 0
  | some _ :: l => free l + 1

/-- channels.c:264-276 `channel_by_remote_id` -/
def byRemote (r : Nat) : List (Option Ch) → Option Nat
  | [] => none
  | none :: l => (byRemote r l).map (· + 1)
  | some c :: l => if c.remote = some r then some 0 else (byRemote r l).map (· + 1)

/-- channels.c:247-262 `channel_by_id` -/
def at? (l : List (Option Ch)) (n : Nat) : Option Ch := (l[n]?).join

/-- whether a pointer to it can be used -/
def alive (l : List (Option Ch)) (uid : Nat) : Bool := l.any fun o => o.any fun c => c.uid = uid

/-- whether it is a client -/
def isClient (l : List (Option Ch)) (uid : Nat) : Bool := l.any fun o => o.any fun c => c.uid = uid && c.kind = .client

def St.send (s : St) (src : Option Nat) (type : Nat) (orig body : Bytes) : St := { s with up := s.up ++ [⟨src, type, orig, body⟩] }

/-! ### From clients -/

/-- ssh2.h:131-146 SSH2_MSG_* -/
def mGlobal : Nat := 80
def mSuccess : Nat := 81
def mFailure : Nat := 82
def mOpen : Nat := 90
def mConfirm : Nat := 91
def mOpenFail : Nat := 92
def mWindow : Nat := 93
def mData : Nat := 94
def mExt : Nat := 95
def mEof : Nat := 96
def mClose : Nat := 97
def mReq : Nat := 98
def mReqOk : Nat := 99
def mReqFail : Nat := 100

/-- nchan.c:328-332 `chan_mark_dead`, and channels.c:736-799 `channel_free` for it: as it is a zombie by then, nothing that
points to it is changed -/
def St.drop (s : St) (d : Nat) : St :=
  { s with slots := s.slots.map fun o => if o.any fun c => c.uid = d then none else o }

/-- channels.c:3179-3182, 3206-3211 -/
def St.claim (s : St) (d id : Nat) (remote : Option Nat) : St :=
  { s with slots := place ⟨s.next, .proxy d id, remote, false, false⟩ s.slots, next := s.next + 1 }

/-- channels.c:3168-3191 the number in a request to open a channel -/
def openParts (b : Bytes) : Option (Bytes × Nat × Bytes) := do
  let (ctype, b) ← getCstr b
  let (id, b) ← getInt 4 b
  pure (ctype, id, b)

/-- channels.c:3201-3221 the numbers in a confirmation -/
def confirmParts (b : Bytes) : Option (Nat × Nat × Bytes) := do
  let (remote, b) ← getInt 4 b
  let (id, b) ← getInt 4 b
  pure (remote, id, b)

/-- channels.c:3223-3247 a request to listen -/
def listenParts (b : Bytes) : Option (Bytes × Nat) := do
  let (name, b) ← getCstr b
  if name ≠ b!"tcpip-forward" then none
  let (_, b) ← getInt 1 b
  let (host, b) ← getCstr b
  let (port, _) ← getInt 4 b
  if port > 65535 then none else pure (host, port)

/-- channels.c:3253-3256 -/
def closeAt (l : List (Option Ch)) (n : Nat) : List (Option Ch) :=
  match at? l n with
  | none => l
  | some c => if c.rcvd then l.set n none else l.set n (some { c with sent := true })

/-- channels.c:3248-3258 -/
def closed (l : List (Option Ch)) (b : Bytes) : List (Option Ch) :=
  match getInt 4 b with
  | none => l
  | some (r, _) =>
    match byRemote r l with
    | none => l
    | some n => closeAt l n

/-- channels.c:3162-3271 by type -/
def request (s : St) (d type : Nat) (b : Bytes) : St :=
  if type = mOpen then
    match openParts b with
    | none => s.drop d
    | some (ctype, id, rest) => (s.claim d id none).send (some d) type b (str ctype ++ be 4 (free s.slots) ++ rest)
  else if type = mConfirm then
    match confirmParts b with
    | none => s.drop d
    | some (remote, id, rest) => (s.claim d id (some remote)).send (some d) type b (be 4 remote ++ be 4 (free s.slots) ++ rest)
  else if type = mGlobal then
    match listenParts b with
    | none => s.drop d
    | some (host, port) => St.send { s with perms := s.perms ++ [⟨host, port, some d⟩] } (some d) type b b
  else if type = mClose then St.send { s with slots := closed s.slots b } (some d) type b b
  else s.send (some d) type b b

/-- channels.c:3138-3282 `channel_proxy_downstream`: the first byte is the length of a padding that is not there -/
def downstream (s : St) (d : Nat) (p : Bytes) : St :=
  match p with
  | _ :: t :: b => request s d t.toNat b
  | _ => s.drop d

/-! ### From the server -/

/-- channels.c:3307-3323 -/
def passes (type : Nat) : Bool :=
  type = mClose || type = mData || type = mEof || type = mExt || type = mConfirm || type = mOpenFail || type = mWindow ||
  type = mReqOk || type = mReqFail || type = mReq

/-- channels.c:3333-3337 -/
def translated (type id : Nat) (rest : Bytes) : Bytes := 0 :: UInt8.ofNat type :: (be 4 id ++ rest)

/-- channels.c:3346-3363 -/
def update (l : List (Option Ch)) (n type : Nat) (c : Ch) (rest : Bytes) : List (Option Ch) :=
  if type = mConfirm then (if rest.length > 4 then l.set n (some { c with remote := some (ofBE (rest.take 4)) }) else l)
  else if type = mClose then (if c.sent then l.set n none else l.set n (some { c with rcvd := true }))
  else l

/-- channels.c:3291-3366 `channel_proxy_upstream` for a channel of a client -/
def upstream (s : St) (n type : Nat) (c : Ch) (down id : Nat) (rest : Bytes) : St :=
  if alive s.slots down then
    { s with down := s.down ++ [(down, translated type id rest)], slots := update s.slots n type c rest }
  else { s with status := .undefined }

/-- channels.c:3384-3400 and the callers, clientloop.c:1962-1966: what is done with a message for channel `n`. A message for a channel of
the program itself is not followed further, but for the end of a detached one (nchan.c:270-278). -/
def message (s : St) (type : Nat) (b : Bytes) : St :=
  if passes type = false then s
  else match getInt 4 b with
  | none => { s with status := .disconnected }
  | some (n, rest) =>
    match at? s.slots n with
    | none => if type = mWindow ∨ type = mReq then s else { s with status := .disconnected }
    | some c =>
      match c.kind with
      | .proxy down id => upstream s n type c down id rest
      | .client => if type = mWindow ∨ type = mReq then s else { s with status := .disconnected }
      | .detached => if type = mClose then { s with slots := s.slots.set n (some { c with rcvd := true }) } else s
      | .own => s

/-- channels.c:4272-4281 `channel_rfwd_bind_host` -/
def bindHost (h : Bytes) : Bytes := if h = [] ∨ h = b!"*" then [] else h

/-- channels.c:4365-4385 `open_listen_match_tcpip` -/
def Perm.fits (p : Perm) (host : Bytes) (port : Nat) : Bool := p.port = port && bindHost p.host = host

/-- clientloop.c:1719-1737 -/
def opening (host : Bytes) (port rchan window max : Nat) (from_ : Bytes) (fromPort : Nat) : Bytes :=
  0 :: 90 :: (str b!"forwarded-tcpip" ++ be 4 rchan ++ be 4 window ++ be 4 max ++ str host ++ be 4 port ++ str from_ ++ be 4 fromPort)

/-- clientloop.c:1718-1737 and channels.c:4749-4776 `channel_connect_by_listen_address`: the server opens a channel for a connection to a
port -/
def forwarded (s : St) (host : Bytes) (port rchan window max : Nat) (from_ : Bytes) (fromPort : Nat) : St :=
  match s.perms.find? fun p => p.fits host port with
  | some ⟨_, _, some d⟩ =>
    if alive s.slots d then { s with down := s.down ++ [(d, opening host port rchan window max from_ fromPort)] }
    else { s with status := .undefined }
  | _ => s

/-- clientloop.c:468-485 `client_global_request_reply` -/
def answer (s : St) (ok : Bool) : St :=
  match s.confs with
  | [] => s
  | q :: l => { s with confs := l, answers := s.answers ++ [(q, ok)] }

/-! ### The end of clients -/

/-- channels.c:745-757 -/
def detach (d : Nat) (c : Ch) : Ch :=
  match c.kind with
  | .proxy e _ => if e = d then { c with kind := .detached } else c
  | _ => c

/-- channels.c:703-732 `mux_remove_remote_forwardings` -/
def cancel (p : Perm) : Up := ⟨none, mGlobal, [], str b!"cancel-tcpip-forward" ++ [0] ++ str (bindHost p.host) ++ be 4 p.port⟩

/-- channels.c:735-799 `channel_free` of a client -/
def leave (s : St) (d : Nat) : St :=
  { s with
    slots := s.slots.map fun o => if o.any fun c => c.uid = d then none else o.map (detach d),
    up := s.up ++ (s.perms.filter fun p => p.down = some d).map cancel,
    perms := s.perms.filter fun p => p.down ≠ some d }

/-- channels.c:2574-2595 `channel_garbage_collect` with nchan.c:206-229 and 334-373, for a detached channel at `n` -/
def collect (s : St) (n : Nat) : St :=
  match at? s.slots n with
  | some c =>
    if c.kind = .detached then
      if c.sent then (if c.rcvd then { s with slots := s.slots.set n none } else s)
      else match c.remote with
        | none => { s with status := .fatal }
        | some r =>
          St.send { s with slots := s.slots.set n (if c.rcvd then none else some { c with sent := true }) } none mClose [] (be 4 r)
    else s
  | none => s

/-! ### Runs -/

inductive Event where
  /-- a client has become a proxy -/
  | client
  /-- a packet of a client -/
  | packet (d : Nat) (p : Bytes)
  /-- nothing more comes from the client and all for it is written: channels.c:1421-1442, nchan.c:351-354 -/
  | eof (d : Nat)
  /-- it cannot be written to, channels.c:2468-2471 -/
  | lost (d : Nat)
  /-- a message of the server for a channel -/
  | server (type : Nat) (b : Bytes)
  | forwarded (host : Bytes) (port rchan window max : Nat) (from_ : Bytes) (fromPort : Nat)
  | answer (ok : Bool)
  | collect (n : Nat)
  /-- the program makes a channel of its own (of a type with a short name), asks for it to be opened or confirms it, gets its number at the server, frees it -/
  | own
  | ownSend (n type : Nat) (before after : Bytes)
  | ownRemote (n r : Nat)
  | ownFree (n : Nat)
  /-- the program makes a global request of its own and waits for the answer -/
  | ownAsk (q : Nat)
  /-- the program itself asks the server to listen -/
  | ownListen (host : Bytes) (port : Nat)

/-- what the program itself announces: its number between what is before and after it -/
def ownBody (type n : Nat) (before after : Bytes) : Bytes :=
  (if type = mOpen then str before else be 4 (ofBE (before.take 4))) ++ be 4 n ++ after

def step (s : St) (e : Event) : St :=
  if s.status ≠ .running then s
  else match e with
  | .client => { s with slots := place ⟨s.next, .client, none, false, false⟩ s.slots, next := s.next + 1 }
  | .packet d p => if isClient s.slots d then downstream s d p else s
  | .eof d => if isClient s.slots d then leave s d else s
  | .lost d => if isClient s.slots d then s.drop d else s
  | .server type b => message s type b
  | .forwarded host port rchan window max from_ fromPort => forwarded s host port rchan window max from_ fromPort
  | .answer ok => answer s ok
  | .collect n => collect s n
  | .own => { s with slots := place ⟨s.next, .own, none, false, false⟩ s.slots, next := s.next + 1 }
  | .ownSend n type before after =>
    match at? s.slots n with
    | some c => if c.kind = .own ∧ before.length ≤ 64 ∧ (type = mOpen ∨ type = mConfirm) then s.send none type [] (ownBody type n before after) else s
    | none => s
  | .ownRemote n r =>
    match at? s.slots n with
    | some c => if c.kind = .own then { s with slots := s.slots.set n (some { c with remote := some r }) } else s
    | none => s
  | .ownFree n =>
    match at? s.slots n with
    | some c => if c.kind = .own then { s with slots := s.slots.set n none } else s
    | none => s
  | .ownAsk q => { s with confs := s.confs ++ [q] }
  | .ownListen host port => { s with perms := s.perms ++ [⟨host, port, none⟩] }

def init : St := ⟨.running, [], [], 0, [], [], [], []⟩

def run : St → List Event → St
  | s, [] => s
  | s, e :: l => run (step s e) l

end Verif.Proxy
