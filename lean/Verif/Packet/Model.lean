/-
The binary packet protocol: packet.c of /repo.

Encryption and authentication are parameters (`Keys`): the model says which bytes are given to them, with
which sequence number, and what is done with the answers.  Compression, the multiplexing variant of the
reader, the incoming hook, logging and keep-alive counters are not modelled.  Buffers are plain byte lists;
allocation failures are not modelled.
-/
import Verif.Wire

namespace Verif.Packet
open Verif Wire

/-- `PACKET_MAX_SIZE` (packet.c:99). -/
scoped notation "MAXPKT" => (262144 : Nat)
/-- Modulus of a `u_int32_t`. -/
scoped notation "W32" => (4294967296 : Nat)
/-- `SSH2_MSG_KEXINIT` (ssh2.h:86). -/
scoped notation "KEXINIT" => (20 : UInt8)
/-- `SSH2_MSG_NEWKEYS` (ssh2.h:87). -/
scoped notation "NEWKEYS" => (21 : UInt8)

/-- Errors the packet layer reports; all of them end the connection in the callers.  `exit` is
`ssh_packet_disconnect`, which does not return. -/
inductive Err
  | invalidArgument | internal | needRekey | macInvalid | corrupt | crypto | incomplete | protocol | exit
  deriving DecidableEq, Repr

/-- The negotiated MAC of one direction (`struct sshmac`, mac.h:29-41).  `compute` is `mac_compute`
truncated to `mac_len`. -/
structure Mac where
  etm : Bool
  len : Nat
  compute : Nat → Bytes → Bytes

/-- Cipher and MAC of one direction.  `enc`/`dec` are `cipher_crypt` (cipher.c:344-404) with arguments
context, sequence number, source, `len`, `aadlen`; the context carries the chaining state, `authlen` is fixed.
`dec = none` stands for any error.  `getLen` is `cipher_get_length` (cipher.c:407-418). -/
structure Keys (σ : Type) where
  blockSize : Nat
  authlen : Nat
  cbc : Bool
  enc : σ → Nat → Bytes → Nat → Nat → σ × Bytes
  dec : σ → Nat → Bytes → Nat → Nat → Option (σ × Bytes)
  getLen : σ → Nat → Bytes → Option Nat
  mac : Option Mac

/-- The state before the first key exchange: `newkeys[mode] == NULL`, cipher "none" (packet.c:295-325), block
size 8 (packet.c:1183, 1587). -/
def plainKeys (σ : Type) : Keys σ where
  blockSize := 8
  authlen := 0
  cbc := false
  enc := fun st _ src _ _ => (st, src)
  dec := fun st _ src n a => if src.length = n + a then some (st, src) else none
  getLen := fun _ _ b => if b.length < 4 then none else some (ofBE (b.take 4))
  mac := none

variable {σ : Type}

/-- The MAC in use: none with an authenticated cipher (packet.c:1178-1180, 1582-1584).
`mac->enabled` is set whenever keys are installed (packet.c:1000), so it is not a separate flag. -/
def Keys.activeMac (k : Keys σ) : Option Mac := if k.authlen ≠ 0 then none else k.mac

/-- packet.c:1184, 1588. -/
def Keys.aadlen (k : Keys σ) : Nat :=
  match k.activeMac with
  | some m => if m.etm ∨ k.authlen ≠ 0 then 4 else 0
  | none => if k.authlen ≠ 0 then 4 else 0

/-- `mac && mac->etm` (packet.c:412). -/
def Keys.isEtm (k : Keys σ) : Bool :=
  match k.activeMac with
  | some m => m.etm
  | none => false

/-- packet.c:1586. -/
def Keys.maclen (k : Keys σ) : Nat :=
  match k.activeMac with
  | some m => m.len
  | none => 0

/-! ### Sending -/

/-- `ROUNDUP(x, y)` (defines.h). -/
def roundup (x y : Nat) : Nat := (x + (y - 1)) / y * y

/-- Amount of padding (packet.c:1214-1243), with `u_char` arithmetic; `len` is the size of the header and
payload without the part that is not encrypted. -/
def padLen (block len extra : Nat) : Option Nat :=
  let p0 := (block - len % block) % 256
  let p := if p0 < 4 then (p0 + block) % 256 else p0
  if extra ≠ 0 then
    let e := roundup extra block % 256
    if e < extra then none
    else
      let tmp := (len + p) % e
      if tmp > e then none
      else
        let p' := (p + (e - tmp)) % 256
        if p' < p then none else some p'
  else some p

/-- The unencrypted packet: length, padding length, payload, padding (packet.c:1244-1262). -/
def frame (payload pad : Bytes) : Bytes :=
  be 4 (1 + payload.length + pad.length) ++ [UInt8.ofNat pad.length] ++ payload ++ pad

/-- What was sent (ghost record; nothing in the code corresponds to it). -/
structure Sent where
  epoch : Nat
  seq : Nat
  payload : Bytes
  wire : Bytes

/-- The sending half of `struct session_state` (packet.c:122-228) and the parts of `struct kex` it looks at.
`future` are the keys of the key exchanges to come, in order: `ssh->kex->newkeys[MODE_OUT]` is its head.
`epoch` (number of key changes) and `sent` are ghosts. -/
structure Tx (σ : Type) where
  seqnr : Nat := 0
  packets : Nat := 0
  blocks : Nat := 0
  keys : Keys σ := plainKeys σ
  ctx : σ
  future : List (Keys σ × σ) := []
  extraPad : UInt8 := 0
  rekeying : Bool := false
  queue : List Bytes := []
  output : Bytes := []
  maxBlocks : Nat := 0
  rekeyTime : Nat := 0
  done : Bool := false
  initSent : Bool := false
  initial : Bool := true
  afterAuth : Bool := false
  epoch : Nat := 0
  sent : List Sent := []

/-- Configuration constants of a connection.  `strict` is `kex->kex_strict`, fixed by the first KEXINIT
exchange, before any NEWKEYS. -/
structure Conf where
  strict : Bool
  noRekey : Bool
  serverSide : Bool
  rekeyInterval : Nat
  rekeyLimit : Nat
  kexinit : Bytes

/-- Result of a sending operation. -/
inductive Res (σ : Type)
  | ok (s : Tx σ)
  | err (e : Err) (s : Tx σ)

/-- Largest number of blocks under one key (packet.c:1029-1041). -/
def blockLimit (c : Conf) (bs : Nat) : Nat :=
  let m := if bs ≥ 16 then 2 ^ (bs * 2) else 2 ^ 30 / bs
  if c.rekeyLimit ≠ 0 then min m (c.rekeyLimit / bs) else m

/-- packet.c:952-1046 `ssh_set_newkeys` for the sending direction (compression and the warning left out). -/
def setNewkeysOut (c : Conf) (s : Tx σ) : Res σ :=
  match s.future with
  | [] => .err .internal { s with packets := 0, blocks := 0 }
  | (k, x) :: rest =>
    .ok { s with packets := 0, blocks := 0, keys := k, ctx := x, future := rest, maxBlocks := blockLimit c k.blockSize, epoch := s.epoch + 1 }

/-- The message type: first byte of the payload (packet.c:1186). -/
def typeOf (payload : Bytes) : UInt8 := payload.headD 0

/-- The bytes put on the wire for one packet and the cipher context after it (packet.c:1264-1296). -/
def protect (k : Keys σ) (ctx : σ) (seq : Nat) (fr : Bytes) : σ × Bytes :=
  let aad := k.aadlen
  let r := k.enc ctx seq fr (fr.length - aad) aad
  match k.activeMac with
  | some m =>
    if m.etm then (r.1, r.2 ++ m.compute seq (r.2.take fr.length)) else (r.1, r.2 ++ m.compute seq fr)
  | none => r

/-- packet.c:1162-1328 `ssh_packet_send2_wrapped`.  `rnd` supplies the padding bytes. -/
def wrapped (c : Conf) (s : Tx σ) (payload : Bytes) (rnd : Nat → UInt8) : Res σ :=
  let bs := s.keys.blockSize
  let len := 5 + payload.length
  match padLen bs (len - s.keys.aadlen) s.extraPad.toNat with
  | none => .err .invalidArgument s
  | some p =>
    let pad := (List.range p).map rnd
    let fr := frame payload pad
    let r := protect s.keys s.ctx s.seqnr fr
    let s := { s with extraPad := 0, ctx := r.1, output := s.output ++ r.2,
                      sent := s.sent ++ [Sent.mk s.epoch s.seqnr payload r.2] }
    let s := { s with seqnr := (s.seqnr + 1) % W32 }
    if s.seqnr = 0 ∧ s.initial then .err .exit s
    else
      let s := { s with packets := (s.packets + 1) % W32 }
      if s.packets = 0 ∧ !c.noRekey then .err .needRekey s
      else
        let s := { s with blocks := s.blocks + fr.length / bs }
        let s := if typeOf payload = NEWKEYS ∧ c.strict then { s with seqnr := 0 } else s
        if typeOf payload = NEWKEYS then setNewkeysOut c s
        else if typeOf payload = 52 ∧ c.serverSide then .ok { s with afterAuth := true }
        else .ok s

/-- packet.c:1331-1340 `ssh_packet_type_is_kex` (SSH2_MSG_TRANSPORT_MIN..MAX is 1..49; ssh2.h:36-37). -/
def typeIsKex (t : UInt8) : Bool :=
  decide (t ≥ 1) && decide (t ≤ 49) && decide (t ≠ 5) && decide (t ≠ 6) && decide (t ≠ 7)

/-- What the rekeying decision reads besides the sending state: the clock and the receiving counters. -/
structure Env where
  now : Nat
  readPackets : Nat
  readBlocks : Nat
  readMaxBlocks : Nat

/-- packet.c:1049-1094 `ssh_packet_need_rekeying`. -/
def needRekeying (c : Conf) (e : Env) (s : Tx σ) (outLen : Nat) : Bool :=
  if !s.afterAuth then false
  else if s.rekeying || !s.done then false
  else if c.noRekey then false
  else if s.packets = 0 ∧ e.readPackets = 0 then false
  else if c.rekeyInterval ≠ 0 ∧ s.rekeyTime + c.rekeyInterval ≤ e.now then true
  else if s.packets > 2 ^ 31 ∨ e.readPackets > 2 ^ 31 then true
  else
    decide (s.maxBlocks ≠ 0 ∧ s.blocks + roundup outLen s.keys.blockSize > s.maxBlocks) ||
    decide (e.readMaxBlocks ≠ 0 ∧ e.readBlocks > e.readMaxBlocks)

/-- packet.c:1342-1418 `ssh_packet_send2` for the KEXINIT message, as called from kex.c:571-607
`kex_send_kexinit`: KEXINIT is a key exchange type, so it is never queued. -/
def sendKexinit (c : Conf) (s : Tx σ) (rnd : Nat → UInt8) : Res σ :=
  if s.initSent then .ok s
  else
    match wrapped c { s with done := false, rekeying := true } (KEXINIT :: c.kexinit) rnd with
    | .err e s' => .err e s'
    | .ok s' => .ok { s' with initSent := true }

/-- kex.c:780-793 `kex_start_rekex`. -/
def startRekex (c : Conf) (s : Tx σ) (rnd : Nat → UInt8) : Res σ :=
  if !s.done then .err .internal s else sendKexinit c { s with done := false } rnd

/-- The loop that sends the queue after NEWKEYS (packet.c:1392-1415), on the queue `q`; `rnd i` is the
padding source of the `i`-th packet. -/
def flush (c : Conf) (e : Env) (rnd : Nat → Nat → UInt8) : List Bytes → Nat → Tx σ → Res σ
  | [], _, s => .ok { s with queue := [] }
  | p :: q, i, s =>
    if needRekeying c e s (5 + p.length) then startRekex c { s with queue := p :: q } (rnd i)
    else
      match wrapped c { s with queue := q } p (rnd i) with
      | .err x s' => .err x s'
      | .ok s' => flush c e rnd q (i + 1) s'

/-- packet.c:1342-1418 `ssh_packet_send2`; the payload includes the type byte. -/
def send2 (c : Conf) (e : Env) (rnd : Nat → Nat → UInt8) (s : Tx σ) (payload : Bytes) : Res σ :=
  if payload.length < 1 then .err .internal s
  else
    let t := typeOf payload
    let need := !typeIsKex t && needRekeying c e s (5 + payload.length)
    if (need || s.rekeying) && !typeIsKex t then
      let s := { s with queue := s.queue ++ [payload] }
      if need then startRekex c s (rnd 0) else .ok s
    else
      let s := if t = KEXINIT then { s with rekeying := true } else s
      match wrapped c s payload (rnd 0) with
      | .err x s' => .err x s'
      | .ok s' =>
        if t = NEWKEYS then flush c e rnd s'.queue 1 { s' with rekeying := false, rekeyTime := e.now }
        else .ok s'

/-- What happens to the sending half of a connection, in any order.  `submit`: a caller sends a message;
`kexinit`: `kex_send_kexinit` is called on its own (reply to the peer's KEXINIT, or ssh's `~R`); `peerNewkeys`:
the peer's NEWKEYS arrived (kex.c:523-569 `kex_input_newkeys` clears the flags; the handler is only installed
after the own NEWKEYS, kex.c:392-407 `kex_send_newkeys`, so an earlier one changes nothing here); `pad`: `sshpkt_add_padding`
(packet.c:2864-2869); `auth`: client learned that authentication succeeded (packet.c:1768). -/
inductive TxEvent
  | submit (e : Env) (rnd : Nat → Nat → UInt8) (payload : Bytes)
  | kexinit (rnd : Nat → UInt8)
  | peerNewkeys
  | pad (n : UInt8)
  | auth

def txStep (c : Conf) (s : Tx σ) : TxEvent → Res σ
  | .submit e rnd p => send2 c e rnd s p
  | .kexinit rnd => sendKexinit c s rnd
  | .peerNewkeys =>
    if s.epoch = 0 then .ok s else .ok { s with done := true, initSent := false, initial := false }
  | .pad n => .ok { s with extraPad := n }
  | .auth => .ok { s with afterAuth := true }

/-- A connection's sending history; an error ends it. -/
def txRun (c : Conf) (s : Tx σ) : List TxEvent → Res σ
  | [] => .ok s
  | e :: es =>
    match txStep c s e with
    | .err x s' => .err x s'
    | .ok s' => txRun c s' es

/-- The state a result carries. -/
def Res.state : Res σ → Tx σ
  | .ok s => s
  | .err _ s => s

/-! ### Receiving -/

/-- The receiving half of `struct session_state`.  `sendSeq` is `p_send.seqnr`, which the code passes to the
cipher for the first block (packet.c:1620).  `epoch` is a ghost. -/
structure Rx (σ : Type) where
  seqnr : Nat := 0
  packets : Nat := 0
  keys : Keys σ := plainKeys σ
  ctx : σ
  future : List (Keys σ × σ) := []
  input : Bytes := []
  incoming : Bytes := []
  packlen : Nat := 0
  discard : Nat := 0
  sendSeq : Nat := 0
  initial : Bool := true
  epoch : Nat := 0

/-- A delivered message: type, rest of the payload, sequence number. -/
structure Msg where
  typ : UInt8
  body : Bytes
  seq : Nat
  deriving DecidableEq

inductive Poll (σ : Type)
  | none (s : Rx σ)
  | packet (m : Msg) (s : Rx σ)
  | fail (e : Err)

/-- packet.c:405-429 `ssh_packet_start_discard` and packet.c:378-403 `ssh_packet_stop_discard`: the MAC is
computed over the rest for timing only. -/
def startDiscard (s : Rx σ) (d : Nat) : Poll σ :=
  if !s.keys.cbc || s.keys.isEtm then .fail .macInvalid
  else if s.input.length ≥ d then .fail .macInvalid
  else .none { s with discard := d - s.input.length }

/-- Length check (packet.c:1595-1596, 1625-1626). -/
def badLen (n : Nat) : Bool := decide (n < 5 ∨ n > MAXPKT)

/-- The checks at the end of `ssh_packet_read_poll2` (packet.c:1700-1761), after the packet has been
authenticated: counters, padding, type.  `incoming` is the decrypted packet. -/
def parse (c : Conf) (seqnr packets : Nat) (initial : Bool) (incoming : Bytes) : Except Err Msg :=
  if (seqnr + 1) % W32 = 0 ∧ initial then .error .exit
  else if (packets + 1) % W32 = 0 ∧ !c.noRekey then .error .needRekey
  else
    let padlen := (incoming.getD 4 0).toNat
    if padlen < 4 then .error .corrupt
    else if incoming.length < 5 + padlen then .error .incomplete
    else
      match (incoming.drop 5).take (incoming.length - 5 - padlen) with
      | [] => .error .incomplete
      | t :: body => if t < 1 then .error .protocol else .ok ⟨t, body, seqnr⟩

/-- The end of `ssh_packet_read_poll2` (packet.c:1700-1790). -/
def finish (c : Conf) (s : Rx σ) : Poll σ :=
  match parse c s.seqnr s.packets s.initial s.incoming with
  | .error e => .fail e
  | .ok m =>
    .packet m { s with
      seqnr := if m.typ = NEWKEYS ∧ c.strict then 0 else (s.seqnr + 1) % W32
      packets := (s.packets + 1) % W32
      incoming := m.body
      packlen := 0 }

/-- The middle of `ssh_packet_read_poll2` (packet.c:1641-1699), when the packet length is known. -/
def body (c : Conf) (s : Rx σ) : Poll σ :=
  let k := s.keys
  let aad := k.aadlen
  let need := if aad ≠ 0 then s.packlen else (4 + s.packlen + W32 - k.blockSize) % W32
  if need % k.blockSize ≠ 0 then startDiscard s (MAXPKT - k.blockSize)
  else if s.input.length < aad + need + k.authlen + k.maclen then .none s
  else
    let data := s.input.take (aad + need + k.authlen)
    let rest := s.input.drop (aad + need + k.authlen)
    match k.activeMac with
    | none =>
      match k.dec s.ctx s.seqnr data need aad with
      | none => .fail .crypto
      | some (x, o) => finish c { s with ctx := x, incoming := s.incoming ++ o, input := rest }
    | some m =>
      if m.etm then
        if m.compute s.seqnr (s.input.take (aad + need)) ≠ rest.take m.len then .fail .macInvalid
        else
          match k.dec s.ctx s.seqnr data need aad with
          | none => .fail .crypto
          | some (x, o) => finish c { s with ctx := x, incoming := s.incoming ++ o, input := rest.drop m.len }
      else
        match k.dec s.ctx s.seqnr data need aad with
        | none => .fail .crypto
        | some (x, o) =>
          let s := { s with ctx := x, incoming := s.incoming ++ o, input := rest }
          if m.compute s.seqnr s.incoming ≠ s.input.take m.len then
            if need + k.blockSize > MAXPKT then .fail .internal
            else startDiscard s (MAXPKT - need - k.blockSize)
          else finish c { s with input := s.input.drop m.len }

/-- Length known from `cipher_get_length` (packet.c:1590-1604), if there were enough bytes. -/
def pollLen (c : Conf) (s : Rx σ) : Option Nat → Poll σ
  | none => .none s
  | some n => if badLen n then .fail .corrupt else body c { s with packlen := n, incoming := [] }

/-- First block decrypted (packet.c:1617-1639). -/
def pollBlock (c : Conf) (s : Rx σ) : Option (σ × Bytes) → Poll σ
  | none => .fail .crypto
  | some (x, o) =>
    if badLen (ofBE (o.take 4)) then startDiscard { s with ctx := x, incoming := o, packlen := ofBE (o.take 4) } MAXPKT
    else
      body c { s with ctx := x, incoming := o, packlen := ofBE (o.take 4), input := s.input.drop s.keys.blockSize }

/-- packet.c:1557-1793 `ssh_packet_read_poll2`. -/
def poll (c : Conf) (s : Rx σ) : Poll σ :=
  if s.discard ≠ 0 then .none s
  else if s.packlen ≠ 0 then body c s
  else if s.keys.aadlen ≠ 0 then pollLen c s (s.keys.getLen s.ctx s.seqnr s.input)
  else if s.input.length < s.keys.blockSize then .none s
  else pollBlock c s (s.keys.dec s.ctx s.sendSeq (s.input.take s.keys.blockSize) s.keys.blockSize 0)

/-- Bytes arriving: packet.c:1896-1915 `ssh_packet_process_incoming`, packet.c:1918-1940
`ssh_packet_process_read`. -/
def feed (s : Rx σ) (b : Bytes) : Except Err (Rx σ) :=
  if s.discard ≠ 0 then
    if b.length ≥ s.discard then .error .macInvalid else .ok { s with discard := s.discard - b.length }
  else .ok { s with input := s.input ++ b }

/-- What the dispatcher does with a delivered message as far as the packet layer is concerned: NEWKEYS
installs the keys waiting in `kex` (kex.c:523-569 `kex_input_newkeys`, packet.c:952-1046 `ssh_set_newkeys`). -/
def handle (m : Msg) (s : Rx σ) : Except Err (Rx σ) :=
  if m.typ = NEWKEYS then
    match s.future with
    | [] => .error .internal
    | (k, x) :: rest =>
      .ok { s with packets := 0, keys := k, ctx := x, future := rest, initial := false, epoch := s.epoch + 1 }
  else .ok s

/-- A receiver is running or has failed. -/
inductive Status (σ : Type)
  | alive (s : Rx σ)
  | failed (e : Err)

/-- Call the reader until it has nothing more (packet.c:1795-1890 `ssh_packet_read_poll_seqnr` and its callers),
handing each message on. -/
def drain (c : Conf) : Nat → Rx σ → List Msg × Status σ
  | 0, s => ([], .alive s)
  | fuel + 1, s =>
    match poll c s with
    | .none s' => ([], .alive s')
    | .fail e => ([], .failed e)
    | .packet m s' =>
      match handle m s' with
      | .error e => ([m], .failed e)
      | .ok s'' =>
        let r := drain c fuel s''
        (m :: r.1, r.2)

/-- One chunk of input. -/
def recv (c : Conf) (s : Rx σ) (b : Bytes) : List Msg × Status σ :=
  match feed s b with
  | .error e => ([], .failed e)
  | .ok s' => drain c (s'.input.length + 2) s'

/-- A sequence of chunks. -/
def recvAll (c : Conf) (s : Rx σ) : List Bytes → List Msg × Status σ
  | [] => ([], .alive s)
  | b :: bs =>
    match recv c s b with
    | (ms, .failed e) => (ms, .failed e)
    | (ms, .alive s') =>
      let r := recvAll c s' bs
      (ms ++ r.1, r.2)

end Verif.Packet
