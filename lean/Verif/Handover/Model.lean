/-
What one process of the server hands over to another: options for a key (auth-options.c), and the state of the connection after authentication
(packet.c, monitor.c).

Simplified: memory is never short and buffers hold what is put in them, but strings are not longer than `sshbuf_put_string` allows. C strings are
lists of bytes without NUL. Numbers that the code casts between int and u_int are their bit patterns.
-/
import Verif.KeyOpts.Model

namespace Verif.Handover
open Verif
open _root_.Verif.Wire (be str getInt getStr getCstr)
open _root_.Verif.KeyOpts (Opts)

/-- sshbuf-getput-basic.c:513-529 `sshbuf_put_string`, with its limit -/
def putStr (v : Bytes) : Option Bytes := if v.length > maxString then none else some (str v)

/-- A flag as a byte -/
def flag (b : Bool) : Bytes := [if b then 1 else 0]

/-! ### Options -/

/-- auth-options.c:773-782 `serialise_nullable_string` -/
def putNullable (s : Option Bytes) : Option Bytes := (putStr (s.getD [])).map fun t => flag s.isNone ++ t

/-- auth-options.c:714-717 the loop of `serialise_array` -/
def putAll : List Bytes → Option Bytes
  | [] => some []
  | a :: l => do
    let x ← putStr a
    let y ← putAll l
    some (x ++ y)

/-- auth-options.c:705-730 `serialise_array` -/
def putArray (a : List Bytes) : Option Bytes :=
  if a.length > 2147483647 then none
  else do
    let b ← putAll a
    let s ← putStr b
    some (be 4 a.length ++ s)

/-- auth-options.c:797-847 `sshauthopt_serialise` -/
def serialise (o : Opts) (untrusted : Bool) : Option Bytes := do
  let p ← putNullable (if untrusted then some b!"yes" else o.principals)
  let c ← putNullable (if untrusted then some b!"true" else o.command)
  let fc ← putNullable (if untrusted then none else o.fromCert)
  let fk ← putNullable (if untrusted then none else o.fromKeys)
  let e ← putArray (if untrusted then [] else o.env)
  let po ← putArray (if untrusted then [] else o.permitopen)
  let pl ← putArray (if untrusted then [] else o.permitlisten)
  some (flag o.portFwd ++ (flag o.agentFwd ++ (flag o.x11 ++ (flag o.pty ++ (flag o.userRc ++ (flag o.restricted ++ (flag o.certAuthority ++
    (flag o.noPresence ++ (flag o.verify ++ (be 8 o.validBefore ++ (flag (decide (o.tun = -1)) ++ (be 4 (if o.tun < 0 then 0 else o.tun.toNat) ++
    (p ++ (c ++ (fc ++ (fk ++ (e ++ (po ++ pl))))))))))))))))))

/-- auth-options.c:860-865 `OPT_FLAG`: a byte other than 0 is a flag that is set -/
def getFlag (m : Bytes) : Option (Bool × Bytes) := (getInt 1 m).map fun x => (decide (x.1 ≠ 0), x.2)

/-- auth-options.c:784-795 `deserialise_nullable_string` -/
def getNullable (m : Bytes) : Option (Option Bytes × Bytes) := do
  let (f, m) ← getFlag m
  let (s, m) ← getCstr m
  some (if f then none else some s, m)

/-- auth-options.c:753-756 the loop of `deserialise_array` -/
def getAll : Nat → Bytes → Option (List Bytes)
  | 0, _ => some []
  | n + 1, b => do
    let (s, b) ← getCstr b
    let l ← getAll n b
    some (s :: l)

/-- auth-options.c:732-771 `deserialise_array` -/
def getArray (m : Bytes) : Option (List Bytes × Bytes) := do
  let (n, m) ← getInt 4 m
  let (b, m) ← getStr m
  if n > 2147483647 then none
  else do
    let l ← getAll n b
    some (l, m)

/-- a u_int read as an int -/
def toInt (n : Nat) : Int := if n < 2147483648 then n else (n : Int) - 4294967296

/-- auth-options.c:849-912 `sshauthopt_deserialise`, and what is left -/
def deserialise (m : Bytes) : Option (Opts × Bytes) := do
  let (portFwd, m) ← getFlag m
  let (agentFwd, m) ← getFlag m
  let (x11, m) ← getFlag m
  let (pty, m) ← getFlag m
  let (userRc, m) ← getFlag m
  let (restricted, m) ← getFlag m
  let (certAuthority, m) ← getFlag m
  let (noPresence, m) ← getFlag m
  let (verify, m) ← getFlag m
  let (validBefore, m) ← getInt 8 m
  let (f, m) ← getFlag m
  let (t, m) ← getInt 4 m
  let (principals, m) ← getNullable m
  let (command, m) ← getNullable m
  let (fromCert, m) ← getNullable m
  let (fromKeys, m) ← getNullable m
  let (env, m) ← getArray m
  let (permitopen, m) ← getArray m
  let (permitlisten, m) ← getArray m
  some (⟨portFwd, agentFwd, x11, pty, userRc, restricted, validBefore, certAuthority, principals, if f then -1 else toInt t, command, env, permitopen,
    permitlisten, fromCert, fromKeys, noPresence, verify⟩, m)

/-- auth-options.c:660-703 `sshauthopt_copy` -/
def copy (o : Opts) : Opts :=
  ⟨o.portFwd, o.agentFwd, o.x11, o.pty, o.userRc, o.restricted, o.validBefore, o.certAuthority, o.principals, o.tun, o.command, o.env, o.permitopen,
    o.permitlisten, o.fromCert, o.fromKeys, o.noPresence, o.verify⟩

/-! ### The state of a connection -/

/-- kex.h `struct kex`, what is handed over of it -/
structure Kex where
  weNeed : Nat
  alg : Bytes
  keyType : Nat
  nid : Nat
  kexType : Nat
  strict : Nat
  my : Bytes
  peer : Bytes
  clientVersion : Bytes
  serverVersion : Bytes
  sessionId : Bytes
  flags : Nat
  deriving DecidableEq

/-- kex.h `struct sshmac`: name, enabled, key -/
structure Mac where
  name : Bytes
  enabled : Nat
  key : Bytes
  deriving DecidableEq

/-- kex.h `struct newkeys`: no `mac` with a cipher that authenticates -/
structure Keys where
  cipher : Bytes
  enabled : Nat
  block : Nat
  key : Bytes
  iv : Bytes
  mac : Option Mac
  compType : Nat
  compName : Bytes
  deriving DecidableEq

/-- What a cipher is running with: its key, and the IV for what comes next -/
structure Ctx where
  cipher : Bytes
  key : Bytes
  iv : Bytes
  deriving DecidableEq

/-- packet.c:110-115 `struct packet_state` -/
structure Count where
  seqnr : Nat
  blocks : Nat
  packets : Nat
  bytes : Nat
  deriving DecidableEq

/-- One direction -/
structure Dir where
  keys : Keys
  ctx : Ctx
  count : Count
  /-- `max_blocks_out`, `max_blocks_in` -/
  maxBlocks : Nat
  /-- `comp.enabled` -/
  compressing : Bool
  deriving DecidableEq

/-- packet.c:117-210 `struct session_state`, what is handed over or made anew -/
structure St where
  kex : Kex
  out : Dir
  inn : Dir
  rekeyLimit : Nat
  rekeyInterval : Nat
  input : Bytes
  output : Bytes
  rekeyTime : Nat
  afterAuth : Bool
  rekeying : Bool
  deriving DecidableEq

/-- What cipher.c and mac.c have in their tables -/
structure Cipher where
  authlen : Nat
  keyLen : Nat
  ivLen : Nat
structure MacAlg where
  keyLen : Nat
  umac : Bool
structure World where
  cipher : Bytes → Option Cipher
  mac : Bytes → Option MacAlg

/-- packet.c:2346-2365 `kex_to_blob` -/
def kexTo (k : Kex) : Option Bytes := do
  let a ← putStr k.alg
  let my ← putStr k.my
  let peer ← putStr k.peer
  let cv ← putStr k.clientVersion
  let sv ← putStr k.serverVersion
  let sid ← putStr k.sessionId
  some (be 4 k.weNeed ++ (a ++ (be 4 k.keyType ++ (be 4 k.nid ++ (be 4 k.kexType ++ (be 4 k.strict ++ (my ++ (peer ++ (cv ++ (sv ++ (sid ++ be 4 k.flags)))))))))))

/-- packet.c:2396-2401 -/
def macTo (m : Mac) : Option Bytes := do
  let n ← putStr m.name
  let k ← putStr m.key
  some (n ++ (be 4 m.enabled ++ k))

/-- packet.c:2396-2401, with the test around it: none with a cipher that authenticates -/
def macPart (authlen : Nat) (m : Option Mac) : Option Bytes := if authlen = 0 then m.bind macTo else some []

/-- packet.c:2368-2409 `newkeys_to_blob`: with the IV of the running cipher, which must be as long (cipher.c `cipher_get_keyiv`) -/
def keysTo (w : World) (d : Dir) : Option Bytes := do
  let c ← w.cipher d.keys.cipher
  if d.ctx.iv.length ≠ d.keys.iv.length then none
  else do
    let n ← putStr d.keys.cipher
    let k ← putStr d.keys.key
    let iv ← putStr d.ctx.iv
    let mac ← macPart c.authlen d.keys.mac
    let cn ← putStr d.keys.compName
    putStr (n ++ (be 4 d.keys.enabled ++ (be 4 d.keys.block ++ (k ++ (iv ++ (mac ++ (be 4 d.keys.compType ++ cn)))))))

/-- packet.c:2422-2430 counters -/
def countTo (c : Count) : Bytes := be 4 c.seqnr ++ (be 8 c.blocks ++ (be 4 c.packets ++ be 8 c.bytes))

/-- packet.c:2412-2436 `ssh_packet_get_state` -/
def getState (w : World) (s : St) : Option Bytes := do
  let k ← kexTo s.kex
  let o ← keysTo w s.out
  let i ← keysTo w s.inn
  let input ← putStr s.input
  let output ← putStr s.output
  some (k ++ (o ++ (i ++ (be 8 s.rekeyLimit ++ (be 4 s.rekeyInterval ++ (countTo s.out.count ++ (countTo s.inn.count ++ (input ++ output))))))))

/-- packet.c:2506-2540 `kex_from_blob` -/
def kexFrom (m : Bytes) : Option (Kex × Bytes) := do
  let (weNeed, m) ← getInt 4 m
  let (alg, m) ← getCstr m
  let (keyType, m) ← getInt 4 m
  let (nid, m) ← getInt 4 m
  let (kexType, m) ← getInt 4 m
  let (strict, m) ← getInt 4 m
  let (my, m) ← getStr m
  let (peer, m) ← getStr m
  let (cv, m) ← getStr m
  let (sv, m) ← getStr m
  let (sid, m) ← getStr m
  let (flags, m) ← getInt 4 m
  some (⟨weNeed, alg, keyType, nid, kexType, strict, my, peer, cv, sv, sid, flags⟩, m)

/-- packet.c:2472-2484 -/
def macFrom (w : World) (b : Bytes) : Option (Mac × Bytes) := do
  let (n, b) ← getCstr b
  let a ← w.mac n
  let (e, b) ← getInt 4 b
  let (k, b) ← getStr b
  if k.length > a.keyLen then none else some (⟨n, e, k⟩, b)

/-- packet.c:2471-2485 -/
def macRead (w : World) (authlen : Nat) (b : Bytes) : Option (Option Mac × Bytes) :=
  if authlen = 0 then (macFrom w b).map fun x => (some x.1, x.2) else some (none, b)

/-- packet.c:2439-2503 `newkeys_from_blob` -/
def keysFrom (w : World) (m : Bytes) : Option (Keys × Bytes) := do
  let (b, m) ← getStr m
  let (n, b) ← getCstr b
  let (e, b) ← getInt 4 b
  let (bs, b) ← getInt 4 b
  let (k, b) ← getStr b
  let (iv, b) ← getStr b
  let c ← w.cipher n
  let (mac, b) ← macRead w c.authlen b
  let (ct, b) ← getInt 4 b
  let (cn, b) ← getCstr b
  if b.length ≠ 0 then none else some (⟨n, e, bs, k, iv, mac, ct, cn⟩, m)

/-- packet.c:2559-2566 counters -/
def countFrom (m : Bytes) : Option (Count × Bytes) := do
  let (s, m) ← getInt 4 m
  let (bl, m) ← getInt 8 m
  let (p, m) ← getInt 4 m
  let (by_, m) ← getInt 8 m
  some (⟨s, bl, p, by_⟩, m)

/-- What becomes of it: `refused` is an error (the process ends), `undefined` is undefined behaviour -/
inductive Res (α : Type) where
  | ok (a : α)
  | refused
  | undefined
  deriving DecidableEq

/-- packet.c:1030-1036 the limit of blocks: shifting by 64 or more, and dividing by 0, are undefined -/
def maxBlocks (block limit : Nat) : Res Nat :=
  if block ≥ 16 then
    if block * 2 % 4294967296 ≥ 64 then .undefined
    else if limit ≠ 0 then .ok (min (1 <<< (block * 2 % 4294967296)) (limit / block)) else .ok (1 <<< (block * 2 % 4294967296))
  else if block = 0 then .undefined
  else if limit ≠ 0 then .ok (min (1 <<< 30 / block) (limit / block)) else .ok (1 <<< 30 / block)

/-- mac.c:139-161 `mac_init` for a cipher that does not authenticate: UMAC reads 16 bytes of key whatever its length (umac.c:166-167, 1216-1241) -/
def macInit (w : World) (m : Option Mac) : Res Unit :=
  match m with
  | none => .ok ()
  | some m =>
    match w.mac m.name with
    | none => .refused
    | some a => if a.umac ∧ m.key.length < 16 then .undefined else .ok ()

/-- packet.c:952-1046 `ssh_set_newkeys`: the cipher starts with the key and the IV of the new keys; counters of packets and blocks start from 0, the
others go on. Compression is left to `setPostauth`. -/
def setNewkeys (w : World) (k : Keys) (c : Count) (limit : Nat) : Res Dir :=
  match w.cipher k.cipher with
  | none => .refused
  | some ci =>
    match macInit w k.mac with
    | .refused => .refused
    | .undefined => .undefined
    | .ok _ =>
      if k.key.length < ci.keyLen ∨ k.iv.length < ci.ivLen then .refused
      else match maxBlocks k.block limit with
      | .ok mb => .ok ⟨⟨k.cipher, k.enabled, k.block, k.key, k.iv, k.mac.map fun m => ⟨m.name, 1, m.key⟩, k.compType, k.compName⟩,
          ⟨k.cipher, k.key, k.iv⟩, ⟨c.seqnr, 0, 0, c.bytes⟩, mb, false⟩
      | .refused => .refused
      | .undefined => .undefined

/-- packet.c:1110-1141 `ssh_packet_enable_delayed_compress`, for one direction: COMP_DELAYED is 2 -/
def delayed (d : Dir) : Dir := ⟨d.keys, d.ctx, d.count, d.maxBlocks, d.compressing || decide (d.keys.compType = 2)⟩

/-- packet.c:2546-2593 `ssh_packet_set_state`, at the time `now` -/
def setState (w : World) (now : Nat) (m : Bytes) : Res St :=
  match (do
    let (k, m) ← kexFrom m
    let (o, m) ← keysFrom w m
    let (i, m) ← keysFrom w m
    let (limit, m) ← getInt 8 m
    let (interval, m) ← getInt 4 m
    let (cs, m) ← countFrom m
    let (cr, m) ← countFrom m
    some (k, o, i, limit, interval, cs, cr, m)) with
  | none => .refused
  | some (k, o, i, limit, interval, cs, cr, m) =>
    match setNewkeys w i cr limit with
    | .refused => .refused
    | .undefined => .undefined
    | .ok di =>
      match setNewkeys w o cs limit with
      | .refused => .refused
      | .undefined => .undefined
      | .ok do_ =>
        match (do
          let (input, m) ← getStr m
          let (output, m) ← getStr m
          if m.length ≠ 0 then none else some (input, output)) with
        | none => .refused
        | some (input, output) => .ok ⟨k, delayed do_, delayed di, limit, interval, input, output, now, true, false⟩

/-- monitor.c:1828-1868 `monitor_apply_keystate`, up to the functions that it sets: `id` is the session id that the monitor has noted -/
def apply (w : World) (now : Nat) (id m : Bytes) : Res St :=
  match setState w now m with
  | .ok s => if id.length ≠ s.kex.sessionId.length then .refused else if s.kex.sessionId ≠ id then .refused else .ok s
  | .refused => .refused
  | .undefined => .undefined

end Verif.Handover
