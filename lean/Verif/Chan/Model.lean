/-
One channel of /repo/channels.c and /repo/nchan.c: buffers, windows, the half-close state machine and its messages.

Each event below is one call made by the event loop, the packet dispatcher or a cleanup callback, in any order.
Simplifications: no input/output filters; no multiplexing proxy channels (SSH_CHANNEL_MUX_*), no listeners, no
RDYNAMIC channels; the 128 MB limit of the buffers is not reached; file descriptors are represented by what a read
or write on them returns; `u_int` counters are naturals reduced modulo 2^32 where the C code can wrap.
The fields `gIn`, `gOut`, `gAcc` are history variables, not part of the C structure.
-/
import Verif.Wire

namespace Verif.Chan
open Verif Wire

scoped notation "U32" => (4294967296 : Nat)

/-- `a - b` on `u_int`. -/
def sub32 (a b : Nat) : Nat := (a + (U32 - b % U32)) % U32
def add32 (a b : Nat) : Nat := (a + b) % U32

/-- channels.h:231-234 (`CHAN_INPUT_WAIT_OCLOSE` is never entered) -/
inductive IState | open_ | drain | closed
  deriving DecidableEq, Repr
/-- channels.h:237-240 (`CHAN_OUTPUT_WAIT_IEOF` is never entered) -/
inductive OState | open_ | drain | closed
  deriving DecidableEq, Repr

/-- channels.h:42-63, the types that carry data. -/
inductive Typ | larval | opening | connecting | x11Open | open_ | abandoned | zombie
  deriving DecidableEq, Repr

/-- channels.h:218-220 -/
inductive ExtUse | ignore | read | write
  deriving DecidableEq, Repr

/-- channels.h:122-219 `struct Channel`. -/
structure Chan where
  typ : Typ := .open_
  istate : IState := .open_
  ostate : OState := .open_
  eofSent : Bool := false
  eofRcvd : Bool := false
  closeSent : Bool := false
  closeRcvd : Bool := false
  local_ : Bool := false        -- CHAN_LOCAL
  haveRemote : Bool := true
  session : Bool := false       -- ctype is "session"
  input : Bytes := []
  output : Bytes := []
  extended : Bytes := []
  efd : Bool := false           -- efd != -1
  ext : ExtUse := .ignore
  remoteWindow : Nat := 0
  remoteMax : Nat := 0
  localWindow : Nat := 0
  localMax : Nat := 0
  windowMax : Nat := 0
  consumed : Nat := 0
  exceeded : Nat := 0
  datagram : Bool := false
  forceDrain : Bool := false
  detachUser : Bool := false
  detachClose : Bool := false
  newOpenSSH : Bool := true     -- compat SSH_NEW_OPENSSH
  extEof : Bool := false        -- compat SSH_BUG_EXTEOF
  gIn : Bytes := []             -- everything read from the local descriptor
  gOut : Bytes := []            -- everything written to the local descriptor
  gAcc : Bytes := []            -- data accepted from the peer
  deriving DecidableEq, Repr

/-- Messages about this channel sent to the peer. -/
inductive Msg
  | data (v : Bytes)
  | extData (v : Bytes)
  | eof
  | close
  | eow
  | adjust (n : Nat)
  deriving DecidableEq, Repr

inductive R
  | ok (c : Chan) (out : List Msg)
  | freed (out : List Msg)
  | fatal                        -- the process exits or disconnects
  deriving DecidableEq, Repr

def R.pre (o : List Msg) : R → R
  | .ok c o' => .ok c (o ++ o')
  | .freed o' => .freed (o ++ o')
  | .fatal => .fatal

def R.bind (r : R) (f : Chan → R) : R :=
  match r with
  | .ok c o => (f c).pre o
  | .freed o => .freed o
  | .fatal => .fatal

/-- channels.h:271-274 `CHANNEL_EFD_INPUT_ACTIVE` -/
def efdInputActive (c : Chan) : Bool := c.ext == .read && (c.efd || c.extended.length > 0)
/-- channels.h:275-278 `CHANNEL_EFD_OUTPUT_ACTIVE` -/
def efdOutputActive (c : Chan) : Bool :=
  c.ext == .write && c.efd && (!(c.eofRcvd || c.closeRcvd) || c.extended.length > 0)

/-! ### nchan.c -/

/-- nchan.c:112-126 `chan_read_failed` -/
def readFailed (c : Chan) : R :=
  match c.istate with
  | .open_ => .ok { c with istate := .drain } []
  | _ => .ok c []

/-- nchan.c:183-204 `chan_send_eof2` -/
def sendEof (c : Chan) : R :=
  match c.istate with
  | .drain => if !c.haveRemote then .fatal else .ok { c with eofSent := true } [.eof]
  | _ => .ok c []

def setI (s : IState) (c : Chan) : R := .ok { c with istate := s } []
def setO (s : OState) (c : Chan) : R := .ok { c with ostate := s } []

/-- nchan.c:128-148 `chan_ibuf_empty` -/
def ibufEmpty (c : Chan) : R :=
  if c.input.length > 0 then .ok c []
  else
    match c.istate with
    | .drain => (if !(c.closeSent || c.local_) then sendEof c else .ok c []).bind (setI .closed)
    | _ => .ok c []

/-- nchan.c:376-399 `chan_shutdown_write` (the descriptor is closed; the buffer is emptied). -/
def shutdownWrite (c : Chan) : R := .ok { c with output := [] } []

/-- nchan.c:401-427 `chan_shutdown_read`: only the descriptor.  nchan.c:429-445 `chan_shutdown_extended_read` -/
def shutdownExtRead (c : Chan) : R :=
  if c.typ = .larval then .ok c []
  else if c.ext = .write then .ok c []
  else .ok { c with efd := false } []

/-- nchan.c:150-169 `chan_obuf_empty` -/
def obufEmpty (c : Chan) : R :=
  if c.output.length > 0 then .ok c []
  else
    match c.ostate with
    | .drain => (shutdownWrite c).bind (setO .closed)
    | _ => .ok c []

/-- nchan.c:171-181 `chan_rcvd_eow` -/
def rcvdEow (c : Chan) : R :=
  match c.istate with
  | .open_ => setI .closed c
  | _ => .ok c []

/-- nchan.c:206-229 `chan_send_close2` -/
def sendClose (c : Chan) : R :=
  if c.ostate ≠ .closed ∨ c.istate ≠ .closed then .ok c []
  else if c.closeSent then .ok c []
  else if !c.haveRemote then .fatal
  else .ok { c with closeSent := true } [.close]

/-- nchan.c:231-252 `chan_send_eow2` -/
def sendEow (c : Chan) : R :=
  if c.ostate = .closed then .ok c []
  else if !c.newOpenSSH then .ok c []
  else if !c.haveRemote then .fatal
  else .ok c [.eow]

/-- nchan.c:261-262, 287-294: an open output starts draining. -/
def drainOut (c : Chan) : Chan := if c.ostate = .open_ then { c with ostate := .drain } else c

/-- nchan.c:256-267 `chan_rcvd_ieof` -/
def rcvdEof (c : Chan) : R :=
  let c := drainOut { c with eofRcvd := true }
  if c.ostate = .drain ∧ c.output.length = 0 ∧ efdOutputActive c = false then obufEmpty c else .ok c []

/-- nchan.c:273-278 -/
def noteClose (c : Chan) : Chan := if c.local_ then c else { c with closeRcvd := true }

/-- nchan.c:295-306 -/
def closeInput (c : Chan) : R :=
  match c.istate with
  | .open_ => (shutdownExtRead c).bind (setI .closed)
  | .drain => ((if !c.local_ then sendEof c else .ok c []).bind shutdownExtRead).bind (setI .closed)
  | .closed => .ok c []

/-- nchan.c:269-307 `chan_rcvd_oclose` -/
def rcvdClose (c : Chan) : R :=
  if c.typ = .larval then .ok { noteClose c with ostate := .closed, istate := .closed } []
  else closeInput (drainOut (noteClose c))

/-- nchan.c:309-326 `chan_write_failed` -/
def writeFailed (c : Chan) : R :=
  match c.ostate with
  | .closed => .ok c []
  | _ => ((shutdownWrite c).bind fun c => if c.session then sendEow c else .ok c []).bind (setO .closed)

/-- nchan.c:328-332 `chan_mark_dead` -/
def markDead (c : Chan) : R := .ok { c with typ := .zombie } []

/-- Result of `chan_is_dead`. -/
inductive Dead
  | yes (c : Chan) (out : List Msg)
  | no (c : Chan) (out : List Msg)
  | fatal

/-- nchan.c:367-373, the end of `chan_is_dead`. -/
def deadEnd (c : Chan) (o : List Msg) : Dead := if c.closeSent && c.closeRcvd then .yes c o else .no c o

/-- nchan.c:334-373 `chan_is_dead` -/
def isDead (c : Chan) (doSend : Bool) : Dead :=
  if c.typ = .zombie then .yes c []
  else if c.istate ≠ .closed ∨ c.ostate ≠ .closed then .no c []
  else if c.extEof && c.ext == .write && c.efd && decide (c.extended.length > 0) then .no c []
  else if c.local_ then .yes c []
  else if !c.closeSent then
    if doSend then
      match sendClose c with
      | .ok c o => deadEnd c o
      | .freed _ => .fatal
      | .fatal => .fatal
    else if c.closeRcvd then .yes c []
    else deadEnd c []
  else deadEnd c []

/-! ### channels.c -/

/-- channels.c:2591-2594, the end of `channel_garbage_collect`. -/
def collect (c : Chan) : R :=
  match isDead c true with
  | .no c o => .ok c o
  | .fatal => .fatal
  | .yes _ o => .freed o

/-- channels.c:2575-2595 `channel_garbage_collect`; `keep`: the cleanup callback stays registered. -/
def gc (c : Chan) (keep : Bool) : R :=
  if c.detachUser then
    match isDead c c.detachClose with
    | .no c o => .ok c o
    | .fatal => .fatal
    | .yes c o => if keep then .ok c o else (collect { c with detachUser := false }).pre o
  else collect c

/-- channels.c:1381-1384 -/
def forceIn (c : Chan) : R := if c.istate = .drain then ibufEmpty { c with input := [] } else .ok c []
/-- channels.c:1385-1389 -/
def forceOut (c : Chan) : R := if c.ostate ≠ .closed then writeFailed { c with output := [] } else .ok c []

/-- channels.c:1375-1399 `channel_force_close` -/
def forceClose (abandon : Bool) (c : Chan) : R :=
  (((if c.istate = .open_ then readFailed c else .ok c []).bind forceIn).bind forceOut).bind fun c =>
    .ok { c with efd := false, typ := if abandon then .abandoned else c.typ } []

/-- channels.c:1262-1297 `channel_pre_open`: its effect on the state. -/
def preOpen (c : Chan) : R :=
  if c.ostate = .drain ∧ c.output.length = 0 ∧ efdOutputActive c = false then obufEmpty c else .ok c []

/-- What a read returned. -/
inductive Rd
  | got (v : Bytes)
  | again
  | fail         -- end of file or error
  deriving DecidableEq, Repr

/-- channels.c:2106-2189 `channel_handle_rfd`; for a stream at most `maxlen` bytes are asked for. -/
def handleRead (c : Chan) (r : Rd) : R :=
  if c.typ ≠ .open_ ∨ c.istate = .closed then .ok c []
  else if c.datagram then
    match r with
    | .again => .ok c []
    | .fail => readFailed c
    | .got v => .ok { c with input := c.input ++ str v, gIn := c.gIn ++ v } []
  else if c.input.length ≥ c.remoteWindow then .ok c []
  else
    match r with
    | .again => .ok c []
    | .fail => readFailed c
    | .got v =>
      let v := v.take (c.remoteWindow - c.input.length)
      .ok { c with input := c.input ++ v, gIn := c.gIn ++ v } []

/-- channels.c:2191-2280 `channel_handle_wfd`: the write took `n` bytes (`none`: it
failed; `some 0`: it would have blocked, which loses a datagram). -/
def handleWrite (c : Chan) (n : Option Nat) : R :=
  if c.typ ≠ .open_ ∨ c.ostate = .closed ∨ c.output = [] then .ok c []
  else
    match n with
    | none => writeFailed c
    | some n =>
      if c.datagram then
        match getStr c.output with
        | none => .fatal
        | some (v, rest) =>
          if n = 0 then .ok { c with output := rest } []
          else .ok { c with output := rest, gOut := c.gOut ++ v, consumed := add32 c.consumed (c.output.length - rest.length) } []
      else
        .ok { c with output := c.output.drop n, gOut := c.gOut ++ c.output.take n, consumed := add32 c.consumed (min n c.output.length) } []

/-- channels.c:2282-2309 `channel_handle_efd_write` -/
def handleExtWrite (c : Chan) (n : Option Nat) : R :=
  if c.typ ≠ .open_ ∨ c.efd = false ∨ c.ext ≠ .write ∨ c.extended = [] then .ok c []
  else
    match n with
    | none => .ok { c with efd := false } []
    | some n => .ok { c with extended := c.extended.drop n, consumed := add32 c.consumed (min n c.extended.length) } []

/-- channels.c:2311-2339 `channel_handle_efd_read` -/
def handleExtRead (c : Chan) (r : Rd) : R :=
  if c.typ ≠ .open_ ∨ c.efd = false ∨ c.ext = .write then .ok c []
  else
    match r with
    | .again => .ok c []
    | .fail => .ok { c with efd := false } []
    | .got v => if c.ext = .ignore then .ok c [] else .ok { c with extended := c.extended ++ v } []

/-- channels.c:2358-2384 `channel_check_window` -/
def checkWindow (c : Chan) : R :=
  if c.typ = .open_ ∧ c.closeSent = false ∧ c.closeRcvd = false ∧
     (sub32 c.windowMax c.localWindow > c.localMax * 3 % U32 ∨ c.localWindow < c.windowMax / 2) ∧ c.consumed > 0 then
    if !c.haveRemote then .fatal
    else .ok { c with localWindow := add32 c.localWindow c.consumed, consumed := 0 } [.adjust c.consumed]
  else .ok c []

/-- channels.c:2949-3017 `channel_output_poll_input_open` -/
def pollInput (c : Chan) : R :=
  if c.input = [] then
    if c.istate = .drain then
      if efdInputActive c then .ok c [] else ibufEmpty c
    else .ok c []
  else if !c.haveRemote then .fatal
  else if c.datagram then
    match getStr c.input with
    | none => .fatal
    | some (v, rest) =>
      if v.length > c.remoteWindow ∨ v.length > c.remoteMax then .ok { c with input := rest } []
      else .ok { c with input := rest, remoteWindow := c.remoteWindow - v.length } [.data v]
  else
    let n := min (min c.input.length c.remoteWindow) c.remoteMax
    if n = 0 then .ok c []
    else .ok { c with input := c.input.drop n, remoteWindow := c.remoteWindow - n } [.data (c.input.take n)]

/-- channels.c:3023-3053 `channel_output_poll_extended_read` -/
def pollExt (c : Chan) : R :=
  let n := min (min c.extended.length c.remoteWindow) c.remoteMax
  if n = 0 then .ok c []
  else if !c.haveRemote then .fatal
  else .ok { c with extended := c.extended.drop n, remoteWindow := c.remoteWindow - n } [.extData (c.extended.take n)]

/-- channels.c:3089-3092 -/
def pollErr (c : Chan) : R := if !c.eofSent && c.ext == .read then pollExt c else .ok c []

/-- channels.c:3059-3095 `channel_output_poll`, for one channel. -/
def outputPoll (c : Chan) : R :=
  if c.typ ≠ .open_ then .ok c []
  else if c.closeSent || c.closeRcvd then .ok c []
  else
    (if c.istate ≠ .closed then pollInput c else .ok c []).bind pollErr

/-- channels.c:3461-3465 -/
def putOutput (c : Chan) (v : Bytes) : R :=
  .ok { c with output := c.output ++ (if c.datagram then str v else v), gAcc := c.gAcc ++ v } []

/-- channels.c:3402-3468 `channel_input_data` -/
def inputData (c : Chan) (v : Bytes) : R :=
  if c.typ ≠ .open_ ∧ c.typ ≠ .x11Open then .ok c []
  else
    let winLen := if c.datagram then v.length + 4 else v.length
    if c.ostate ≠ .open_ then
      .ok { c with localWindow := sub32 c.localWindow winLen, consumed := add32 c.consumed winLen } []
    else if winLen > c.localMax then .ok c []
    else
      if winLen > c.localWindow then
        let ex := add32 c.exceeded (winLen - c.localWindow)
        if ex > c.windowMax / 10 then .fatal
        else putOutput { c with exceeded := ex, localWindow := 0 } v
      else putOutput { c with localWindow := c.localWindow - winLen, exceeded := 0 } v

/-- channels.c:3470-3521 `channel_input_extended_data`; `stderr`: the type code is SSH2_EXTENDED_DATA_STDERR. -/
def inputExt (c : Chan) (stderr : Bool) (v : Bytes) : R :=
  if c.typ ≠ .open_ then .ok c []
  else if c.eofRcvd && !c.extEof then .fatal
  else if !c.efd || c.ext != .write || !stderr then .ok c []
  else if v.length > c.localWindow then .ok c []
  else .ok { c with extended := c.extended ++ v, localWindow := c.localWindow - v.length } []

/-- channels.c:3538-3544 -/
def forceDrainIn (c : Chan) : R :=
  if c.forceDrain ∧ c.istate = .open_ then
    if c.input.length = 0 then ibufEmpty { c with istate := .drain } else .ok { c with istate := .drain } []
  else .ok c []

/-- channels.c:3523-3546 `channel_input_ieof` -/
def inputEof (c : Chan) : R :=
  (rcvdEof c).bind forceDrainIn

/-- channels.c:3564-3601 `channel_input_open_confirmation` -/
def inputConfirm (c : Chan) (window maxpacket : Nat) : R :=
  if c.typ ≠ .opening then .fatal
  else .ok { c with haveRemote := true, remoteWindow := window, remoteMax := maxpacket, typ := .open_ } []

/-- channels.c:3656-3684 `channel_input_window_adjust` -/
def inputAdjust (c : Chan) (n : Nat) : R :=
  if c.typ = .zombie then .ok c []   -- not found by `channel_lookup`
  else if add32 c.remoteWindow n < c.remoteWindow then .fatal
  else .ok { c with remoteWindow := add32 c.remoteWindow n } []

/-- channels.c:1225-1247 `channel_set_fds`: a session gets its descriptors. -/
def activate (c : Chan) (efd : Bool) (use : ExtUse) (window : Nat) : R :=
  if c.typ ≠ .larval then .fatal
  else if !c.haveRemote then .fatal
  else .ok { c with typ := .open_, efd := efd, ext := use, localWindow := window, windowMax := window } [.adjust window]

/-- Messages other than window adjustments are only delivered to channels found by `channel_lookup`
(channels.c:283-306); for others the connection is closed. -/
def lookup (c : Chan) (f : Chan → R) : R := if c.typ = .zombie then .fatal else f c

/-- One thing happening to the channel. -/
inductive Ev
  | preOpen
  | read (r : Rd)
  | write (n : Option Nat)
  | extRead (r : Rd)
  | extWrite (n : Option Nat)
  | checkWindow
  | poll
  | gc (keep : Bool)
  | rcvData (v : Bytes)
  | rcvExt (stderr : Bool) (v : Bytes)
  | rcvEof
  | rcvClose
  | rcvEow
  | rcvConfirm (window maxpacket : UInt32)
  | rcvAdjust (n : UInt32)
  | activate (efd : Bool) (use : ExtUse) (window : UInt32)
  | connected                  -- channels.c:2034-2104 `channel_post_connecting`, success; channels.c:1400-1407 X11
  | forceClose (abandon : Bool)
  | readFailed                 -- clientloop.c:871, mux.c:232
  | writeFailed                -- clientloop.c:872, mux.c:234, session.c:2415
  | markDead                   -- session.c:2323, mux.c:229, open failures
  | register (close : Bool)    -- channels.c `channel_register_cleanup`
  deriving DecidableEq, Repr

def step (c : Chan) : Ev → R
  | .preOpen => if c.typ = .open_ then preOpen c else .ok c []
  | .read r => handleRead c r
  | .write n => handleWrite c n
  | .extRead r => handleExtRead c r
  | .extWrite n => handleExtWrite c n
  | .checkWindow => checkWindow c
  | .poll => outputPoll c
  | .gc k => gc c k
  | .rcvData v => lookup c fun c => inputData c v
  | .rcvExt s v => lookup c fun c => inputExt c s v
  | .rcvEof => lookup c inputEof
  | .rcvClose => lookup c rcvdClose
  | .rcvEow => lookup c rcvdEow
  | .rcvConfirm w m => lookup c fun c => inputConfirm c w.toNat m.toNat
  | .rcvAdjust n => inputAdjust c n.toNat
  | .activate e u w => activate c e u w.toNat
  | .connected => if c.typ = .connecting ∨ c.typ = .x11Open then .ok { c with typ := .open_ } [] else .ok c []
  | .forceClose a => forceClose a c
  | .readFailed => readFailed c
  | .writeFailed => writeFailed c
  | .markDead => markDead c
  | .register d => .ok { c with detachUser := true, detachClose := d } []

/-- A history. -/
def run : Chan → List Ev → R
  | c, [] => .ok c []
  | c, e :: es => (step c e).bind fun c => run c es

end Verif.Chan
