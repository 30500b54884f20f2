/-
Model of a key exchange as one end of a connection runs it: the table of message handlers, KEXINIT, the
two families of methods (kexgen.c and group exchange), NEWKEYS, EXT_INFO and the reading of packets, for
the first exchange and for any number of later ones.

Abstracted: the primitives (Diffie-Hellman, ECDH, KEMs, hashes, signatures, parsing of a host key, the
decision to trust it) are arbitrary functions, collected in `Env`; a host key is represented by its blob, and
a host key type stands for the type together with the curve.  Big numbers are natural numbers.  Memory
allocation and writing to the socket succeed.  Packets arrive decrypted and authenticated (see the packet
area).  Logging, wiping of secrets, `ssh->compat` bits other than the two for group exchange, and the byte and
packet counters that trigger rekeying are left out: rekeying may start at any time.
-/
import Verif.Kex.Model

namespace Verif.Exch
open Verif Wire Text
open scoped Verif.Match
open _root_.Verif.Kex (Support Flags Conf KeySet Err chooseConf wellFormed deriveKeys prop2buf buf2prop)

/-! ### Messages -/

scoped notation "MSG_DISCONNECT" => (1 : Nat)
scoped notation "MSG_IGNORE" => (2 : Nat)
scoped notation "MSG_UNIMPLEMENTED" => (3 : Nat)
scoped notation "MSG_DEBUG" => (4 : Nat)
scoped notation "MSG_EXT_INFO" => (7 : Nat)
scoped notation "MSG_KEXINIT" => (20 : Nat)
scoped notation "MSG_NEWKEYS" => (21 : Nat)
scoped notation "MSG_ECDH_INIT" => (30 : Nat)
scoped notation "MSG_ECDH_REPLY" => (31 : Nat)
scoped notation "MSG_GEX_GROUP" => (31 : Nat)
scoped notation "MSG_GEX_INIT" => (32 : Nat)
scoped notation "MSG_GEX_REPLY" => (33 : Nat)
scoped notation "MSG_GEX_REQUEST" => (34 : Nat)
scoped notation "MSG_PING" => (192 : Nat)
/-- ssh2.h:82-114 -/
scoped notation "MSG_PONG" => (193 : Nat)

scoped notation "DH_GRP_MIN" => (2048 : Nat)
/-- dh.h:56-57 -/
scoped notation "DH_GRP_MAX" => (8192 : Nat)

/-! ### Big numbers on the wire -/

/-- Number of bits, `BN_num_bits`. -/
def numBits (n : Nat) : Nat := if n = 0 then 0 else Nat.log2 n + 1

/-- The big-endian bytes of a number without leading zeros, `BN_bn2bin`. -/
def magnitude (n : Nat) : Bytes := be ((numBits n + 7) / 8) n

/-- sshbuf-getput-crypto.c:130-150 `sshbuf_put_bignum2`: a zero byte is put in front if the highest bit is set.
The code refuses numbers of more than 2048 bytes; the model encodes them. -/
def mpint (n : Nat) : Bytes :=
  str (match magnitude n with
    | [] => []
    | x :: l => if 128 ≤ x.toNat then 0 :: x :: l else x :: l)

/-- sshbuf-getput-basic.c:599-633 and sshbuf-getput-crypto.c:35-56 `sshbuf_get_bignum2` -/
def getMpint (l : Bytes) : Option (Nat × Bytes) :=
  match getStr l with
  | none => none
  | some (d, rest) =>
    if 128 ≤ (d.headD 0).toNat then none
    else if d.length > 2049 ∨ (d.length = 2049 ∧ d.headD 0 ≠ 0) then none
    else some (ofBE d, rest)

/-! ### What is hashed -/

/-- kexgen.c:67-76 and kexgex.c:69-78: the part both families have in common -/
def hashHead (vc vs ic is k : Bytes) : Bytes :=
  str vc ++ str vs ++ be 4 (ic.length + 1) ++ [20] ++ ic ++ be 4 (is.length + 1) ++ [20] ++ is ++ str k

/-- kexgen.c:47-96 `kex_gen_hash`: the buffer that is hashed -/
def genHash (vc vs ic is k qc qs secret : Bytes) : Bytes :=
  hashHead vc vs ic is k ++ str qc ++ str qs ++ secret

/-- A 32-bit number that is left out if it is -1 (kexgex.c:79, 81). -/
def optU32 (n : Nat) : Bytes := if n = 4294967295 then [] else be 4 n

/-- kexgex.c:46-103 `kexgex_hash`: the buffer that is hashed -/
def gexHash (vc vs ic is k : Bytes) (min nbits max p g e f : Nat) (secret : Bytes) : Bytes :=
  hashHead vc vs ic is k ++ optU32 min ++ be 4 nbits ++ optU32 max ++ mpint p ++ mpint g ++ mpint e ++ mpint f ++ secret

/-! ### The environment -/

/-- The two families of methods: kexgen.c, and kexgexc.c with kexgexs.c. -/
inductive Method | gen | gex
  deriving DecidableEq, Repr

/-- What the model leaves open.  Functions that draw random numbers take them as an argument. -/
structure Env where
  S : Support
  server : Bool
  /-- `kex->kex[kex_type]`: which function runs a method, if any (sshconnect2.c:280-298, sshd-session.c) -/
  method : Nat → Option Method
  /-- `kex->hash_alg` of a method (by name), and the length of its output -/
  H : Bytes → Bytes → Bytes
  mdsz : Bytes → Nat
  /-- `kex_*_keypair`: the client's public part and private part -/
  keypair : Bytes → Bytes → Option (Bytes × Bytes)
  /-- `kex_*_dec`: from the private part and the server's public part, the secret as it is hashed -/
  dec : Bytes → Bytes → Bytes → Option Bytes
  /-- `kex_*_enc`: from the client's public part, the server's public part and the secret -/
  enc : Bytes → Bytes → Bytes → Option (Bytes × Bytes)
  /-- `mm_choose_dh` -/
  group : Nat → Nat → Nat → Bytes → Option (Nat × Nat)
  /-- `dh_gen_key` in the group `p`, `g`: the public number and the private part -/
  dhKey : Nat → Nat → Nat → Bytes → Option (Nat × Bytes)
  /-- `kex_dh_compute_key`: from `p`, the private part and the peer's public number -/
  dhShared : Nat → Bytes → Nat → Option Bytes
  /-- `SSH_BUG_DHGEX_LARGE`, `SSH_OLD_DHGEX` -/
  gexLarge : Bool
  gexOld : Bool
  /-- `sshkey_fromb`: the type of the key in a blob -/
  keyType : Bytes → Option Nat
  /-- `kex->verify_host_key` (the decision is modelled in the HostKey area) -/
  trusted : Bytes → Bool
  /-- `sshkey_verify`: key, signature, data, algorithm -/
  verify : Bytes → Bytes → Bytes → Bytes → Bool
  /-- `kex_load_hostkey`: the public key blob for a type -/
  hostKey : Nat → Option Bytes
  /-- `kex->sign`: key, data, algorithm -/
  sign : Bytes → Bytes → Bytes → Bytes → Option Bytes
  /-- the server's `server_sig_algs` -/
  sigAlgs : Bytes

/-! ### State -/

/-- What `ssh->dispatch[type]` can point to. -/
inductive Handler
  | none | kexError | dispatchError | kexinit | newkeys | extInfo
  | genReply | genInit | gexGroup | gexReply | gexRequest | gexInit | other
  deriving DecidableEq, Repr

/-- `kex->dh` -/
structure Dh where
  p : Nat
  g : Nat
  pub : Nat
  priv : Bytes
  deriving DecidableEq, Repr

/-- A record of one exchange whose keys were derived, kept for stating properties: it has no counterpart in
the code and nothing in the model reads it. -/
structure Rec where
  conf : Conf
  vc : Bytes
  vs : Bytes
  ic : Bytes
  is : Bytes
  hostKey : Bytes
  /-- the public parts (as they were sent) for a method of kexgen.c -/
  pub : Option (Bytes × Bytes)
  /-- `min`, `nbits`, `max`, `p`, `g`, `e`, `f` for a group exchange -/
  gex : Option (Nat × Nat × Nat × Nat × Nat × Nat × Nat)
  secret : Bytes
  hash : Bytes
  sig : Bytes
  initial : Bool
  sid : Bytes
  keysIn : KeySet
  keysOut : KeySet

/-- The parts of `struct kex`, `struct ssh` and `struct session_state` involved. -/
structure St where
  flags : Flags
  initSent : Bool
  done : Bool
  my : Bytes
  peer : Bytes
  vc : Bytes
  vs : Bytes
  sid : Bytes
  conf : Option Conf
  /-- `client_pub` and the private part that goes with it -/
  eph : Option (Bytes × Bytes)
  min : Nat
  nbits : Nat
  max : Nat
  dh : Option Dh
  /-- `kex->newkeys[mode]`, once they contain keys -/
  pendIn : Option KeySet
  pendOut : Option KeySet
  /-- `state->newkeys[mode]` -/
  curIn : Option KeySet
  curOut : Option KeySet
  firstKey : Option Bytes
  firstSig : Option Bytes
  extReceived : Nat
  sigAlgs : Option Bytes
  hostbound : Bool
  ping : Bool
  extInAuth : Bool
  table : Nat → Handler
  skip : Nat
  seq : Nat
  authed : Bool
  rekeying : Bool
  /-- what was sent, in order -/
  sent : List (Nat × Bytes)
  recs : List Rec

/-- dispatch.c:80-84 `ssh_dispatch_set` -/
def setH (t : Nat) (h : Handler) (tab : Nat → Handler) : Nat → Handler := fun u => if u = t then h else tab u

/-- kex.c:253-258 `kex_reset_dispatch` -/
def resetH (tab : Nat → Handler) : Nat → Handler := fun u => if 1 ≤ u ∧ u ≤ 49 then .kexError else tab u

/-- packet.c:1342-1418 `ssh_packet_send2`; nothing sent by the exchange itself is ever queued. -/
def send (s : St) (t : Nat) (p : Bytes) : St :=
  { s with
    sent := s.sent ++ [(t, p)]
    rekeying := if t = MSG_KEXINIT then true else if t = MSG_NEWKEYS then false else s.rekeying }

/-- The sixteen random bytes of a cookie. -/
def cookie (ρ : Bytes) : Bytes := (ρ ++ List.replicate 16 0).take 16

/-- kex.c:571-607 `kex_send_kexinit` -/
def sendKexinit (s : St) (ρ : Bytes) : Except Err St :=
  if s.initSent then .ok s
  else if s.my.length < 16 then .error .invalidFormat
  else
    .ok (send { s with done := false, initSent := true, my := cookie ρ ++ s.my.drop 16 } MSG_KEXINIT
      (cookie ρ ++ s.my.drop 16))

/-- kex.c:235-251 `kex_protocol_error` -/
def kexError (s : St) (seq : Nat) : Except Err St :=
  if s.flags.initial ∧ s.flags.strict then .error .disconnect
  else .ok (send s MSG_UNIMPLEMENTED (be 4 seq))

/-- dispatch.c:39-51 `dispatch_protocol_error` -/
def dispatchError (s : St) (seq : Nat) : Except Err St := .ok (send s MSG_UNIMPLEMENTED (be 4 seq))

/-! ### NEWKEYS and EXT_INFO -/

/-- kex.c:296-333: the contents of EXT_INFO -/
def extInfoBody (E : Env) (f : Flags) : Bytes :=
  (if f.extInfoC then
    be 4 3 ++ str b!"server-sig-algs" ++ str E.sigAlgs ++ str b!"publickey-hostbound@openssh.com" ++ str b!"0" ++
      str b!"ping@openssh.com" ++ str b!"0" else []) ++
  (if f.extInfoS then be 4 1 ++ str b!"ext-info-in-auth@openssh.com" ++ str b!"0" else [])

/-- kex.c:335-370 `kex_maybe_send_ext_info` -/
def sendExtInfo (E : Env) (s : St) : St :=
  if s.flags.initial ∧ (s.flags.extInfoC ∨ s.flags.extInfoS) then send s MSG_EXT_INFO (extInfoBody E s.flags)
  else s

/-- kex.c:392-407 `kex_send_newkeys`; the new keys are used for everything sent after the message
(packet.c:1320-1321, 953-1044 `ssh_set_newkeys`). -/
def sendNewkeys (E : Env) (s : St) : Except Err St :=
  match s.pendOut with
  | none => .error .internal
  | some k =>
    .ok (sendExtInfo E
      { send { s with table := resetH s.table } MSG_NEWKEYS [] with
        curOut := some k, pendOut := none
        table := setH MSG_NEWKEYS .newkeys (resetH s.table) })

/-- kex.c:544-547: the markers that are only meant for the first exchange -/
def markers (server : Bool) : Bytes :=
  if server then b!"ext-info-s,kex-strict-s-v00@openssh.com" else b!"ext-info-c,kex-strict-c-v00@openssh.com"

/-- kex.c:539-560: our proposal without the markers -/
def stripMarkers (server : Bool) (my : Bytes) : Option Bytes :=
  match buf2prop my with
  | some (p, _) => some (prop2buf (p.set 0 (Match.filterDenylist (p.at 0) (markers server))))
  | none => none

/-- kex.c:523-569 `kex_input_newkeys` -/
def inputNewkeys (E : Env) (s : St) (payload : Bytes) : Except Err St :=
  if payload ≠ [] then .error .invalidFormat
  else
    match s.pendIn, (if s.flags.initial then stripMarkers E.server s.my else some s.my) with
    | some k, some my =>
      .ok { s with
        table := setH MSG_KEXINIT .kexinit (setH MSG_NEWKEYS .kexError
          (if s.flags.extInfoC ∧ s.flags.initial then setH MSG_EXT_INFO .extInfo s.table else s.table))
        curIn := some k, pendIn := none, my := my, done := true
        flags := { s.flags with initial := false }
        peer := [], initSent := false }
    | _, _ => .error .internal

/-- kex.c:410-424 `kex_ext_info_check_ver`: whether to set the flag -/
def extVersion (v : Bytes) : Except Err Bool := if (0 : UInt8) ∈ v then .error .invalidFormat else .ok (v = b!"0")

/-- kex.c:426-458 `kex_ext_info_client_parse` -/
def extClient (s : St) (name v : Bytes) : Except Err St :=
  if name = b!"server-sig-algs" then
    if (0 : UInt8) ∈ v then .error .invalidFormat else .ok { s with sigAlgs := some v }
  else if s.extReceived = 1 ∧ name = b!"publickey-hostbound@openssh.com" then
    match extVersion v with
    | .error e => .error e
    | .ok b => .ok { s with hostbound := s.hostbound || b }
  else if s.extReceived = 1 ∧ name = b!"ping@openssh.com" then
    match extVersion v with
    | .error e => .error e
    | .ok b => .ok { s with ping := s.ping || b }
  else .ok s

/-- kex.c:460-474 `kex_ext_info_server_parse` -/
def extServer (s : St) (name v : Bytes) : Except Err St :=
  if name = b!"ext-info-in-auth@openssh.com" then
    match extVersion v with
    | .error e => .error e
    | .ok b => .ok { s with extInAuth := s.extInAuth || b }
  else .ok s

/-- kex.c:500-520: the entries of EXT_INFO -/
def extEntries (E : Env) (s : St) : Nat → Bytes → Except Err St
  | 0, b => if b = [] then .ok s else .error .invalidFormat
  | n + 1, b =>
    match getCstr b with
    | none => .error .invalidFormat
    | some (name, rest) =>
      match getStr rest with
      | none => .error .invalidFormat
      | some (v, rest) =>
        match (if E.server then extServer s name v else extClient s name v) with
        | .error e => .error e
        | .ok s => extEntries E s n rest

/-- kex.c:480 `max_ext_info` -/
def maxExtInfo (server : Bool) : Nat := if server then 1 else 2

/-- kex.c:476-521 `kex_input_ext_info` -/
def inputExtInfo (E : Env) (s : St) (seq : Nat) (payload : Bytes) : Except Err St :=
  if s.extReceived + 1 > maxExtInfo E.server then
    dispatchError { s with extReceived := s.extReceived + 1 } seq
  else
    match getInt 4 payload with
    | none => .error .invalidFormat
    | some (n, rest) =>
      if n ≥ 1024 then
        dispatchError { s with
          extReceived := s.extReceived + 1, table := setH MSG_EXT_INFO .kexError s.table } seq
      else
        extEntries E { s with
          extReceived := s.extReceived + 1, table := setH MSG_EXT_INFO .kexError s.table } n rest

/-! ### The end of an exchange -/

/-- kexgen.c:228-230, kexgexc.c:209-211: derive the keys and send NEWKEYS; what is kept for later. -/
def finish (E : Env) (s : St) (r : Rec) : Except Err St :=
  match deriveKeys (E.H r.conf.kex) (E.mdsz r.conf.kex) E.server s.flags.initial s.sid r.conf.need r.hash r.secret with
  | .error e => .error e
  | .ok (sid, kin, kout) =>
    sendNewkeys E { s with
      sid := sid, pendIn := some kin, pendOut := some kout, eph := none, dh := none
      recs := s.recs ++ [{ r with sid := sid, keysIn := kin, keysOut := kout }] }

/-- What a record starts from: everything but the fields set in `finish`. -/
def record (s : St) (c : Conf) (server : Bool) (k : Bytes) (pub : Option (Bytes × Bytes))
    (gex : Option (Nat × Nat × Nat × Nat × Nat × Nat × Nat)) (secret hash sig : Bytes) : Rec :=
  { conf := c, vc := s.vc, vs := s.vs
    ic := if server then s.peer else s.my, is := if server then s.my else s.peer
    hostKey := k, pub := pub, gex := gex, secret := secret, hash := hash, sig := sig
    initial := s.flags.initial, sid := [], keysIn := ⟨[], [], []⟩, keysOut := ⟨[], [], []⟩ }

/-- kexgen.c:224-246, kexgexc.c:205-227: the client verifies the signature, derives keys, and saves the host
key and signature of the first exchange. -/
def finishClient (E : Env) (s : St) (r : Rec) : Except Err St :=
  if E.verify r.hostKey r.sig r.hash r.conf.hostkey then
    match finish E s r with
    | .error e => .error e
    | .ok s' =>
      if s'.flags.initial then
        if s'.firstKey.isSome ∨ s'.firstSig.isSome then .error .internal
        else .ok { s' with firstKey := some r.hostKey, firstSig := some r.sig }
      else .ok s'
  else .error .disconnect

/-- kexgen.c:359-374, kexgexs.c:188-204: the server sends its reply, derives keys, and keeps the host key of
the first exchange. -/
def finishServer (E : Env) (s : St) (t : Nat) (payload : Bytes) (r : Rec) : Except Err St :=
  match finish E (send s t payload) r with
  | .error e => .error e
  | .ok s' => .ok { s' with firstKey := if s'.firstKey.isSome then s'.firstKey else some r.hostKey }

/-- kexgen.c:158-168 with kex.c:1183-1199 `kex_verify_host_key`: the host key blob, if the key has the type
agreed on and is trusted; and the rest of the message. -/
def replyKey (E : Env) (c : Conf) (payload : Bytes) : Option (Bytes × Bytes) :=
  match getStr payload with
  | none => none
  | some (k, rest) => if E.keyType k = some c.hostkeyType ∧ E.trusted k then some (k, rest) else none

/-! ### Methods of kexgen.c -/

/-- kexgen.c:98-139 `kex_gen_client` -/
def genClient (E : Env) (s : St) (c : Conf) (ρ : Bytes) : Except Err St :=
  match E.keypair c.kex ρ with
  | none => .error .internal
  | some (pub, priv) =>
    .ok { send s MSG_ECDH_INIT (str pub) with
      eph := some (pub, priv), table := setH MSG_ECDH_REPLY .genReply s.table }

/-- kexgen.c:141-264 `input_kex_gen_reply` -/
def genReply (E : Env) (s : St) (payload : Bytes) : Except Err St :=
  match s.conf, s.eph with
  | some c, some (pub, priv) =>
    match replyKey E c payload with
    | none => .error .disconnect
    | some (k, rest) =>
      match getStr rest with
      | none => .error .invalidFormat
      | some (qs, rest) =>
        match getStr rest with
        | some (sig, []) =>
          match E.dec c.kex priv qs with
          | none => .error .internal
          | some secret =>
            finishClient E { s with table := setH MSG_ECDH_REPLY .kexError s.table }
              (record s c false k (some (pub, qs)) none secret
                (E.H c.kex (genHash s.vc s.vs s.my s.peer k pub qs secret)) sig)
        | _ => .error .invalidFormat
  | _, _ => .error .internal

/-- kexgen.c:274-384 `input_kex_gen_init` -/
def genInit (E : Env) (s : St) (payload ρ σ : Bytes) : Except Err St :=
  match s.conf with
  | none => .error .internal
  | some c =>
    match E.hostKey c.hostkeyType with
    | none => .error .internal
    | some k =>
      match getStr payload with
      | some (qc, []) =>
        match E.enc c.kex ρ qc with
        | none => .error .internal
        | some (qs, secret) =>
          match E.sign k (E.H c.kex (genHash s.vc s.vs s.peer s.my k qc qs secret)) c.hostkey σ with
          | none => .error .internal
          | some sig =>
            finishServer E { s with table := setH MSG_ECDH_INIT .kexError s.table } MSG_ECDH_REPLY
              (str k ++ str qs ++ str sig)
              (record s c true k (some (qc, qs)) none secret
                (E.H c.kex (genHash s.vc s.vs s.peer s.my k qc qs secret)) sig)
      | _ => .error .invalidFormat

/-! ### Group exchange -/

/-- dh.c:493-503 `dh_estimate` -/
def dhEstimate (bits : Nat) : Nat :=
  if bits ≤ 112 then 2048 else if bits ≤ 128 then 3072 else if bits ≤ 192 then 7680 else 8192

/-- kexgexc.c:66-72: the size asked for -/
def gexBits (E : Env) (c : Conf) : Nat :=
  if E.gexLarge then Nat.min (dhEstimate (c.dhNeed * 8)) 4096 else dhEstimate (c.dhNeed * 8)

/-- kexgexc.c:59-92 `kexgex_client` -/
def gexClient (E : Env) (s : St) (c : Conf) : Except Err St :=
  .ok { send s MSG_GEX_REQUEST (be 4 DH_GRP_MIN ++ be 4 (gexBits E c) ++ be 4 DH_GRP_MAX) with
    min := DH_GRP_MIN, nbits := gexBits E c, max := DH_GRP_MAX
    table := setH MSG_GEX_GROUP .gexGroup s.table }

/-- kexgexc.c:94-142 `input_kex_dh_gex_group` -/
def gexGroup (E : Env) (s : St) (payload ρ : Bytes) : Except Err St :=
  match s.conf with
  | none => .error .internal
  | some c =>
    match getMpint payload with
    | none => .error .invalidFormat
    | some (p, rest) =>
      match getMpint rest with
      | some (g, []) =>
        if numBits p < s.min ∨ numBits p > s.max then .error .disconnect
        else
          match E.dhKey p g (c.need * 8) ρ with
          | none => .error .internal
          | some (e, priv) =>
            .ok { send s MSG_GEX_INIT (mpint e) with
              dh := some { p := p, g := g, pub := e, priv := priv }
              table := setH MSG_GEX_REPLY .gexReply (setH MSG_GEX_GROUP .kexError s.table) }
      | _ => .error .invalidFormat

/-- kexgexc.c:183-184: old servers are not told the bounds -/
def oldBound (E : Env) (n : Nat) : Nat := if E.gexOld then 4294967295 else n

/-- kexgexc.c:144-240 `input_kex_dh_gex_reply` -/
def gexReply (E : Env) (s : St) (payload : Bytes) : Except Err St :=
  match s.conf, s.dh with
  | some c, some d =>
    match replyKey E c payload with
    | none => .error .disconnect
    | some (k, rest) =>
      match getMpint rest with
      | none => .error .invalidFormat
      | some (f, rest) =>
        match getStr rest with
        | some (sig, []) =>
          match E.dhShared d.p d.priv f with
          | none => .error .internal
          | some secret =>
            finishClient E { s with
                min := oldBound E s.min, max := oldBound E s.max, table := setH MSG_GEX_REPLY .kexError s.table }
              (record s c false k none (some (oldBound E s.min, s.nbits, oldBound E s.max, d.p, d.g, d.pub, f)) secret
                (E.H c.kex (gexHash s.vc s.vs s.my s.peer k (oldBound E s.min) s.nbits (oldBound E s.max)
                  d.p d.g d.pub f secret)) sig)
        | _ => .error .invalidFormat
  | _, _ => .error .internal

/-- kexgexs.c:70-124 `input_kex_dh_gex_request` -/
def gexRequest (E : Env) (s : St) (payload ρ σ : Bytes) : Except Err St :=
  match s.conf, payload with
  | some c, [a, b, c', d, e, f, g, h, i, j, k, l] =>
    if ofBE [i, j, k, l] < ofBE [a, b, c', d] ∨ ofBE [e, f, g, h] < ofBE [a, b, c', d] ∨
        ofBE [i, j, k, l] < ofBE [e, f, g, h] ∨ ofBE [i, j, k, l] < DH_GRP_MIN then .error .disconnect
    else
      match E.group (Nat.max DH_GRP_MIN (ofBE [a, b, c', d]))
          (Nat.min DH_GRP_MAX (Nat.max DH_GRP_MIN (ofBE [e, f, g, h])))
          (Nat.min DH_GRP_MAX (ofBE [i, j, k, l])) ρ with
      | none => .error .disconnect
      | some (p, q) =>
        match E.dhKey p q (c.need * 8) σ with
        | none => .error .internal
        | some (y, priv) =>
          .ok { send s MSG_GEX_GROUP (mpint p ++ mpint q) with
            min := ofBE [a, b, c', d], nbits := ofBE [e, f, g, h], max := ofBE [i, j, k, l]
            dh := some { p := p, g := q, pub := y, priv := priv }
            table := setH MSG_GEX_INIT .gexInit (setH MSG_GEX_REQUEST .kexError s.table) }
  | _, _ => .error .invalidFormat

/-- kexgexs.c:126-215 `input_kex_dh_gex_init`; signing is taken to succeed or fail with a negative code
(line 185 only tests for that). -/
def gexInit (E : Env) (s : St) (payload σ : Bytes) : Except Err St :=
  match s.conf, s.dh with
  | some c, some d =>
    match E.hostKey c.hostkeyType with
    | none => .error .internal
    | some k =>
      match getMpint payload with
      | some (e, []) =>
        match E.dhShared d.p d.priv e with
        | none => .error .internal
        | some secret =>
          match E.sign k (E.H c.kex (gexHash s.vc s.vs s.peer s.my k s.min s.nbits s.max d.p d.g e d.pub secret))
              c.hostkey σ with
          | none => .error .internal
          | some sig =>
            finishServer E { s with table := setH MSG_GEX_INIT .kexError s.table } MSG_GEX_REPLY
              (str k ++ mpint d.pub ++ str sig)
              (record s c true k none (some (s.min, s.nbits, s.max, d.p, d.g, e, d.pub)) secret
                (E.H c.kex (gexHash s.vc s.vs s.peer s.my k s.min s.nbits s.max d.p d.g e d.pub secret)) sig)
      | _ => .error .invalidFormat
  | _, _ => .error .internal

/-! ### KEXINIT -/

/-- kex.c:662-663 and the functions installed there: start the method -/
def startMethod (E : Env) (s : St) (c : Conf) (ρ : Bytes) : Except Err St :=
  match E.method c.kexType with
  | none => .error .internal
  | some .gen =>
    if E.server then .ok { s with table := setH MSG_ECDH_INIT .genInit s.table } else genClient E s c ρ
  | some .gex =>
    if E.server then .ok { s with table := setH MSG_GEX_REQUEST .gexRequest s.table } else gexClient E s c

/-- kex.c:609-667 `kex_input_kexinit` -/
def inputKexinit (E : Env) (s : St) (seq : Nat) (payload ρ σ : Bytes) : Except Err St :=
  if wellFormed payload then
    match sendKexinit { s with table := setH MSG_KEXINIT .kexError s.table, peer := s.peer ++ payload } ρ with
    | .error e => .error e
    | .ok s1 =>
      match chooseConf E.S E.server s1.flags seq s1.my s1.peer with
      | .error e => .error e
      | .ok c =>
        startMethod E { s1 with conf := some c, flags := c.flags, skip := if c.skip then 1 else s1.skip } c σ
  else .error .invalidFormat

/-! ### Reading packets -/

/-- packet.c:1847-1853: DEBUG must contain a byte and two strings -/
def debugOk (p : Bytes) : Bool :=
  match p with
  | [] => false
  | _ :: r =>
    match getStr r with
    | none => false
    | some (_, r) => (getStr r).isSome

/-- packet.c:1842-1888: messages handled by the packet layer itself; `none` if the message is for the
dispatcher. -/
def implicitly (s : St) (t : Nat) (p : Bytes) : Option (Except Err St) :=
  if t = MSG_IGNORE then some (.ok s)
  else if t = MSG_DEBUG then some (if debugOk p then .ok s else .error .invalidFormat)
  else if t = MSG_UNIMPLEMENTED then some (if 4 ≤ p.length then .ok s else .error .invalidFormat)
  else if t = MSG_PING then
    some (match getStr p with
      | none => .error .invalidFormat
      | some (d, _) =>
        if ¬ s.authed then .ok s
        else if s.rekeying ∨ ¬ s.done then .ok s
        else .ok (send s MSG_PONG (str d)))
  else if t = MSG_PONG then some (if (getStr p).isSome then .ok s else .error .invalidFormat)
  else none

/-- packet.c:1712-1716, 1784-1787: the next sequence number -/
def nextSeq (s : St) (t : Nat) : Nat := if t = MSG_NEWKEYS ∧ s.flags.strict then 0 else (s.seq + 1) % 4294967296

/-- Run the handler for a message. -/
def handle (E : Env) (s : St) (seq t : Nat) (p ρ σ τ : Bytes) : Except Err St :=
  match s.table t with
  | .none => .error .disconnect
  | .kexError => kexError s seq
  | .dispatchError => dispatchError s seq
  | .kexinit => inputKexinit E s seq p ρ σ
  | .newkeys => inputNewkeys E s p
  | .extInfo => inputExtInfo E s seq p
  | .genReply => genReply E s p
  | .genInit => genInit E s p σ τ
  | .gexGroup => gexGroup E s p σ
  | .gexReply => gexReply E s p
  | .gexRequest => gexRequest E s p ρ σ
  | .gexInit => gexInit E s p τ
  | .other => .ok s

/-- dispatch.c:105-121: one packet -/
def dispatch (E : Env) (s : St) (seq t : Nat) (p ρ σ τ : Bytes) : Except Err St :=
  if 0 < t ∧ t < 255 ∧ s.table t ≠ .none then
    if s.skip ≠ 0 then .ok { s with skip := s.skip - 1 } else handle E s seq t p ρ σ τ
  else .error .disconnect

/-- packet.c:1712-1788 (tail of `ssh_packet_read_poll2`), packet.c:1795-1890 `ssh_packet_read_poll_seqnr`, and
the dispatcher: everything that happens to one packet. -/
def packet (E : Env) (s : St) (t : Nat) (p ρ σ τ : Bytes) : Except Err St :=
  if (s.seq + 1) % 4294967296 = 0 ∧ s.flags.initial then .error .disconnect
  else if t = 0 ∨ t = MSG_DISCONNECT then .error .disconnect
  else if s.flags.initial ∧ s.flags.strict then
    dispatch E { s with seq := nextSeq s t } s.seq t p ρ σ τ
  else
    match implicitly { s with seq := nextSeq s t } t p with
    | some r => r
    | none => dispatch E { s with seq := nextSeq s t } s.seq t p ρ σ τ

/-! ### The whole connection -/

/-- What can happen at one end. -/
inductive Ev
  /-- a packet arrives; the random numbers drawn while it is handled -/
  | packet (t : Nat) (p ρ σ τ : Bytes)
  /-- we decide to rekey (kex.c:780-793 `kex_start_rekex`); not before user authentication, and not while an
  exchange is going on (packet.c:1049-1060, clientloop.c:1557) -/
  | rekey (ρ : Bytes)
  /-- the program moves on to another protocol and resets the table (auth2.c:175-178, sshconnect2.c:461-465,
  serverloop.c:879-897, clientloop.c:2795-2812): whether it accepts KEXINIT and EXT_INFO, and which messages
  it handles itself; this happens between exchanges -/
  | table (kexinit ext : Bool) (own : Nat → Bool)
  /-- the user has been authenticated (packet.c `ssh_packet_set_authenticated`) -/
  | authed

/-- dispatch.c:60-66 `ssh_dispatch_init`, and the handlers installed after it -/
def appTable (kexinit ext : Bool) (own : Nat → Bool) : Nat → Handler := fun t =>
  if t = MSG_KEXINIT then (if kexinit then .kexinit else .dispatchError)
  else if t = MSG_EXT_INFO then (if ext then .extInfo else .dispatchError)
  else if 20 ≤ t ∧ t ≤ 49 then .dispatchError
  else if own t then .other
  else .dispatchError

/-- One event. -/
def step (E : Env) (s : St) : Ev → Except Err St
  | .packet t p ρ σ τ => packet E s t p ρ σ τ
  | .rekey ρ => if s.authed ∧ s.done ∧ ¬ s.rekeying then sendKexinit { s with done := false } ρ else .ok s
  | .table k e own => if s.done ∧ ¬ s.rekeying then .ok { s with table := appTable k e own } else .ok s
  | .authed => .ok { s with authed := true }

/-- A sequence of events, up to the first error (which ends the connection). -/
def run (E : Env) (s : St) : List Ev → Except Err St
  | [] => .ok s
  | e :: es =>
    match step E s e with
    | .error x => .error x
    | .ok s' => run E s' es

/-- kex.c:669-684 `kex_new` and kex.c:748-759 `kex_ready`, after the identification strings were exchanged -/
def ready (vc vs : Bytes) (proposal : Kex.Proposal) : St :=
  { flags := { initial := true, strict := false, extInfoC := false, extInfoS := false
               rsaSha256 := false, rsaSha512 := false }
    initSent := false, done := false, my := prop2buf proposal, peer := [], vc := vc, vs := vs, sid := []
    conf := none, eph := none, min := 0, nbits := 0, max := 0, dh := none
    pendIn := none, pendOut := none, curIn := none, curOut := none, firstKey := none, firstSig := none
    extReceived := 0, sigAlgs := none, hostbound := false, ping := false, extInAuth := false
    table := setH MSG_KEXINIT .kexinit (resetH fun _ => .none)
    skip := 0, seq := 0, authed := false, rekeying := false, sent := [], recs := [] }

/-- kex.c:761-774 `kex_setup`: KEXINIT is sent at once. -/
def setup (vc vs : Bytes) (proposal : Kex.Proposal) (ρ : Bytes) : Except Err St :=
  sendKexinit (ready vc vs proposal) ρ

end Verif.Exch
