/-
Model of the key agent: the request handlers of `ssh-agent.c`.

Build modelled: PKCS#11 and security keys, no XMSS (so `sshkey_enable_maxsign` always fails,
sshkey.c:3815-3819).

A key is an abstract value and `sshkey_equal` is equality of these values.  Parsing and signing of keys,
certificate checks, `realpath`, the PKCS#11 library, `bcrypt_pbkdf` and the user's answers are
parameters or fields of the event.  Requests are taken as complete messages (the framing of
`process_message`, ssh-agent.c:1826-1850, is not part of the model), the delay after a failed unlock,
logging, memory shortage and the number of sockets are left out, and the validity of host certificates does
not depend on the time.
-/
import Verif.Base
import Verif.Wire
import Verif.Match.Model

namespace Verif.Agent
open Verif Wire Match

/-- A key as `sshkey_equal` sees it. -/
abbrev Key := Bytes

/-- Library functions and settings that do not change. -/
structure World where
  /-- `sshkey_from_blob_internal` on the content of a string -/
  readPub : Bytes → Option Key
  /-- `sshkey_private_deserialize`: the key and the rest of the buffer -/
  readPriv : Bytes → Option (Key × Bytes)
  /-- what `sshkey_puts_opts` writes -/
  pubBlob : Key → Bytes
  isCert : Key → Bool
  /-- `key->cert->signature_key` -/
  sigKey : Key → Option Key
  /-- `sshkey_cert_check_host` -/
  certHost : Key → Bytes → Bool
  isSk : Key → Bool
  /-- `sk_application` -/
  skApp : Key → Bytes
  /-- `sshkey_type_from_name(pkalg) == key->type` -/
  algFits : Bytes → Key → Bool
  verify : (key : Key) → (sig data : Bytes) → Bool
  /-- `bcrypt_pbkdf` with a password and a salt -/
  kdf : Bytes → Bytes → Option Bytes
  realpath : Bytes → Option Bytes
  /-- `sshkey_equal_public` of a token's key and a certificate -/
  samePublic : Key → Key → Bool
  /-- `pkcs11_make_cert` -/
  makeCert : Key → Key → Option Key
  /-- `allowed_providers` -/
  allowed : Bytes
  /-- `remote_add_provider` -/
  remoteAdd : Bool
  /-- `lifetime`, 0 for none -/
  lifetime : Nat
  /-- `restrict_websafe` -/
  restrictWeb : Bool
  /-- `websafe_allowlist` -/
  webAllow : Bytes

/-- authfd.h `struct dest_constraint_hop` -/
structure Hop where
  user : Option Bytes
  host : Option Bytes
  /-- the keys, with `key_is_ca` -/
  keys : List (Key × Bool)
  deriving DecidableEq, Repr

/-- authfd.h `struct dest_constraint` -/
structure Dest where
  frm : Hop
  to : Hop
  deriving DecidableEq, Repr

/-- ssh-agent.c:142-152 `Identity` -/
structure Ident where
  key : Key
  comment : Bytes
  provider : Option Bytes
  /-- 0 for no limit -/
  death : Nat
  confirm : Bool
  sk : Option Bytes
  dests : List Dest
  deriving DecidableEq, Repr

/-- ssh-agent.c:122-126 `struct hostkey_sid` -/
structure Bind where
  key : Key
  sid : Bytes
  fwd : Bool
  deriving DecidableEq, Repr

/-- ssh-agent.c:128-137 `SocketEntry`, as far as used here -/
structure Conn where
  attempted : Bool
  binds : List Bind
  deriving DecidableEq, Repr

/-- ssh-agent.c:206-222 and 1914-1947: a socket entry after `close_socket` or when new -/
def noConn : Conn := ⟨false, []⟩

structure State where
  ids : List Ident
  /-- `nentries` -/
  n : Int
  locked : Bool
  hash : Bytes
  salt : Bytes
  conns : Nat → Conn

/-- ssh-agent.c:225-231, 191-193 -/
def init : State := ⟨[], 0, false, [], [], fun _ => noConn⟩

/-! ### Destination constraints -/

/-- The loop of ssh-agent.c:380-412: does one of the keys of a hop fit the host key `key`? -/
def hopKeys (w : World) (key : Key) (host : Bytes) : List (Key × Bool) → Bool
  | [] => false
  | (k, ca) :: l =>
    if w.isCert key = false then
      if ca = true ∨ key ≠ k then hopKeys w key host l else true
    else if ca = false then hopKeys w key host l
    else match w.sigKey key with
      | none => false
      | some s =>
        if s ≠ k then hopKeys w key host l
        else if w.certHost key host then true
        else hopKeys w key host l

/-- ssh-agent.c:362-414 `match_key_hop` -/
def matchHop (w : World) (key : Key) (h : Hop) : Bool :=
  hopKeys w key (h.host.getD b!"(ORIGIN)") h.keys

/-- ssh-agent.c:438-444 -/
def fromFits (w : World) (d : Dest) : Option Key → Bool
  | none => decide (d.frm.host = none ∧ d.frm.keys = [])
  | some k => matchHop w k d.frm

/-- ssh-agent.c:446-448 -/
def toFits (w : World) (d : Dest) : Option Key → Bool
  | none => true
  | some k => matchHop w k d.to

/-- ssh-agent.c:450-453 -/
def userFits (d : Dest) (user : Option Bytes) : Bool :=
  match d.to.user, user with
  | some p, some u => matchPattern u p
  | _, _ => true

/-- ssh-agent.c:417-466 `permitted_by_dest_constraints` -/
def permittedBy (w : World) (frm to : Option Key) (user : Option Bytes) (ds : List Dest) : Bool :=
  ds.any fun d => fromFits w d frm && toFits w d to && userFits d user

/-- The loop of ssh-agent.c:500-552. -/
def hops (w : World) (ds : List Dest) (user : Option Bytes) : Option Key → List Bind → Bool
  | _, [] => true
  | frm, [b] => !(b.fwd && user.isSome) && permittedBy w frm (some b.key) user ds
  | frm, b :: b2 :: l => b.fwd && permittedBy w frm (some b.key) none ds && hops w ds user (some b.key) (b2 :: l)

/-- ssh-agent.c:553-567: a key shown at the end of a forwarding must be usable further on. -/
def beyond (w : World) (ds : List Dest) (user : Option Bytes) (last : Option Bind) : Bool :=
  match last with
  | none => true
  | some b => if b.fwd = true ∧ user = none then permittedBy w (some b.key) none none ds else true

/-- ssh-agent.c:473-571 `identity_permitted` -/
def identityPermitted (w : World) (id : Ident) (e : Conn) (user : Option Bytes) : Bool :=
  if id.dests = [] then true
  else if e.attempted = true ∧ e.binds = [] then false
  else if e.binds = [] then true
  else hops w id.dests user none e.binds && beyond w id.dests user e.binds.getLast?

/-- ssh-agent.c:573-577 `socket_is_remote` -/
def isRemote (e : Conn) : Bool := e.attempted || decide (e.binds ≠ [])

/-- ssh-agent.c:580-590 `lookup_identity` -/
def lookup (k : Key) : List Ident → Option Ident
  | [] => none
  | x :: l => if k = x.key then some x else lookup k l

/-! ### Signing -/

/-- `sshkey_froms` (sshkey.c:2087-2098) -/
def readKey (w : World) (l : Bytes) : Option (Key × Bytes) := do
  let r ← getStr l
  let k ← w.readPub r.1
  pure (k, r.2)

/-- What `parse_userauth_request` finds. -/
structure UserAuth where
  sid : Bytes
  user : Bytes
  hostkey : Option Key
  deriving DecidableEq, Repr

/-- ssh-agent.c:734-740: the method and what belongs to it -/
def readMethod (w : World) (method b : Bytes) : Option (Option Key × Bytes) :=
  if method = b!"publickey-hostbound-v00@openssh.com" then (readKey w b).map fun r => (some r.1, r.2)
  else if method = b!"publickey" then some (none, b)
  else none

/-- ssh-agent.c:692-770 `parse_userauth_request` -/
def parseUserauth (w : World) (msg : Bytes) (key : Key) : Option UserAuth := do
  let sid ← getStr msg
  if sid.1 = [] then none
  else
    let t ← getInt 1 sid.2
    let user ← getCstr t.2
    let service ← getCstr user.2
    let method ← getCstr service.2
    let follows ← getInt 1 method.2
    let alg ← getCstr follows.2
    let mkey ← readKey w alg.2
    if t.1 ≠ 50 ∨ follows.1 ≠ 1 ∨ service.1 ≠ b!"ssh-connection" ∨ key ≠ mkey.1 ∨ w.algFits alg.1 key = false then none
    else
      let h ← readMethod w method.1 mkey.2
      if h.2 ≠ [] then none
      else pure ⟨sid.1, user.1, h.1⟩

/-- ssh-agent.c:776-801 `parse_sshsig_request` -/
def parseSshsig (msg : Bytes) : Option Unit :=
  if msg.take 6 ≠ b!"SSHSIG" then none
  else do
    let ns ← getCstr (msg.drop 6)
    let rsv ← getStr ns.2
    let alg ← getCstr rsv.2
    let h ← getStr alg.2
    if h.2 ≠ [] then none else pure ()

/-- ssh-agent.c:810-826 `check_websafe_message_contents` -/
def webOk (w : World) (key : Key) (data : Bytes) : Bool :=
  (parseUserauth w data key).isSome || (parseSshsig data).isSome

/-- The answers from outside while one request is handled. -/
structure Ans where
  /-- `ask_permission` -/
  confirm : Bool
  /-- `sshkey_sign`, with a second try after a PIN was asked -/
  sign : Option Bytes
  /-- `arc4random_buf` for the salt -/
  salt : Bytes
  /-- keys and comments from `pkcs11_add_provider` -/
  p11 : List (Key × Bytes)
  /-- `pkcs11_del_provider` succeeds -/
  p11del : Bool
  deriving DecidableEq, Repr

/-- A use of a private key: the entry, the data, and whether the user was asked and agreed. -/
structure Use where
  id : Ident
  data : Bytes
  approved : Bool
  deriving DecidableEq, Repr

inductive Reply
  | status (ok : Bool)
  | keys (l : List (Bytes × Bytes))
  | signature (s : Bytes)
  deriving DecidableEq, Repr

structure Out where
  reply : Reply
  use : Option Use
  deriving DecidableEq, Repr

def say (b : Bool) : Out := ⟨.status b, none⟩

/-- ssh-agent.c:905-922: hostkey of the signed data against the last binding -/
def hostOk (n : Nat) (last : Bind) : Option Key → Bool
  | none => decide (n ≤ 1)
  | some k => decide (k = last.key)

/-- ssh-agent.c:875-925: the check of a destination-constrained key -/
def destOk (w : World) (id : Ident) (e : Conn) (key : Key) (data : Bytes) : Bool :=
  if id.dests = [] then true
  else match e.binds.getLast?, parseUserauth w data key with
    | some last, some u =>
      identityPermitted w id e (some u.user) && decide (u.sid = last.sid) && hostOk e.binds.length last u.hostkey
    | _, _ => false

/-- ssh-agent.c:930-937 -/
def skOk (w : World) (id : Ident) (key : Key) (data : Bytes) : Bool :=
  if w.isSk id.key = true ∧ w.restrictWeb = true ∧ matchPatternList (w.skApp id.key) w.webAllow false ≠ 1
  then webOk w key data else true

/-- ssh-agent.c:946-983: sign and answer -/
def signOut (id : Ident) (data : Bytes) (a : Ans) : Out :=
  match a.sign with
  | none => ⟨.status false, some ⟨id, data, id.confirm && a.confirm⟩⟩
  | some s => ⟨.signature s, some ⟨id, data, id.confirm && a.confirm⟩⟩

/-- ssh-agent.c:875-937 for a key that is in the table -/
def signWith (w : World) (id : Ident) (e : Conn) (key : Key) (data : Bytes) (a : Ans) : Out :=
  if destOk w id e key data = false then say false
  else if id.confirm = true ∧ a.confirm = false then say false
  else if skOk w id key data = false then say false
  else signOut id data a

/-- The fields of a sign request (ssh-agent.c:860-862). -/
def parseSign (w : World) (req : Bytes) : Option (Key × Bytes) := do
  let k ← readKey w req
  let d ← getStr k.2
  let _ ← getInt 4 d.2
  pure (k.1, d.1)

/-- ssh-agent.c:841-995 `process_sign_request2` -/
def processSign (w : World) (st : State) (e : Conn) (req : Bytes) (a : Ans) : Out :=
  match parseSign w req with
  | none => say false
  | some (key, data) =>
    match lookup key st.ids with
    | none => say false
    | some id => signWith w id e key data a

/-- ssh-agent.c:622-665 `process_request_identities` -/
def listed (w : World) (st : State) (e : Conn) : List (Bytes × Bytes) :=
  (st.ids.filter fun id => identityPermitted w id e none).map fun id => (w.pubBlob id.key, id.comment)

/-! ### Removing -/

/-- `TAILQ_REMOVE` of the first entry with this key -/
def removeKey (k : Key) : List Ident → List Ident
  | [] => []
  | x :: l => if k = x.key then l else x :: removeKey k l

/-- ssh-agent.c:998-1027 `process_remove_identity` (`none`: the fatal error) -/
def processRemove (w : World) (st : State) (e : Conn) (req : Bytes) : Option (State × Out) :=
  match readKey w req with
  | none => some (st, say false)
  | some r =>
    match lookup r.1 st.ids with
    | none => some (st, say false)
    | some id =>
      if identityPermitted w id e none = false then some (st, say false)
      else if st.n < 1 then none
      else some ({ st with ids := removeKey r.1 st.ids, n := st.n - 1 }, say true)

/-- ssh-agent.c:1029-1044 `remove_all_identities` -/
def removeAll (st : State) : State := { st with ids := [], n := 0 }

/-- ssh-agent.c:1056-1079 `reaper` -/
def reap (now : Nat) : List Ident → List Ident
  | [] => []
  | x :: l => if x.death ≠ 0 ∧ now ≥ x.death then reap now l else x :: reap now l

def reaper (now : Nat) (st : State) : State :=
  { st with ids := reap now st.ids, n := st.n - (st.ids.length - (reap now st.ids).length : Nat) }

/-! ### Adding -/

/-- The loop of ssh-agent.c:1110-1130. -/
def parseHopKeys (w : World) : Nat → Bytes → Option (List (Key × Bool))
  | 0, _ => none
  | f + 1, b =>
    if b = [] then some []
    else do
      let k ← readKey w b
      let ca ← getInt 1 k.2
      let l ← parseHopKeys w f ca.2
      pure ((k.1, decide (ca.1 ≠ 0)) :: l)

/-- The empty string stands for none (ssh-agent.c:1102-1109). -/
def nonEmpty (s : Bytes) : Option Bytes := if s = [] then none else some s

/-- ssh-agent.c:1081-1136 `parse_dest_constraint_hop` -/
def parseHop (w : World) (b : Bytes) : Option Hop := do
  let user ← getCstr b
  let host ← getCstr user.2
  let ext ← getStr host.2
  if ext.1 ≠ [] then none
  else
    let keys ← parseHopKeys w (ext.2.length + 1) ext.2
    pure ⟨nonEmpty user.1, nonEmpty host.1, keys⟩

/-- ssh-agent.c:1167-1178: the consistency of a constraint -/
def consistent (d : Dest) : Bool :=
  decide ((d.frm.host = none ↔ d.frm.keys = []) ∧ d.frm.user = none ∧ d.to.host ≠ none ∧ d.to.keys ≠ [])

/-- ssh-agent.c:1138-1186 `parse_dest_constraint` -/
def parseDest (w : World) (m : Bytes) : Option (Dest × Bytes) := do
  let b ← getStr m
  let f ← getStr b.1
  let t ← getStr f.2
  let ext ← getStr t.2
  let frm ← parseHop w f.1
  let to ← parseHop w t.1
  if ext.1 ≠ [] then none
  else if consistent ⟨frm, to⟩ then pure (⟨frm, to⟩, b.2)
  else none

/-- The loop of ssh-agent.c:1230-1241; `n` constraints may still come. -/
def parseDests (w : World) : Nat → Bytes → Option (List Dest)
  | n, b =>
    if b = [] then some []
    else match n with
      | 0 => none
      | n + 1 =>
        match parseDest w b with
        | none => none
        | some d => (parseDests w n d.2).map (d.1 :: ·)

/-- The loop of ssh-agent.c:1260-1273. -/
def parseCerts (w : World) : Nat → Bytes → Option (List Key)
  | n, b =>
    if b = [] then some []
    else match n with
      | 0 => none
      | n + 1 =>
        match readKey w b with
        | none => none
        | some k => (parseCerts w n k.2).map (k.1 :: ·)

/-- What `parse_key_constraints` collects. -/
structure Cons where
  death : Nat := 0
  confirm : Bool := false
  sk : Option Bytes := none
  dests : List Dest := []
  certOnly : Bool := false
  certs : List Key := []
  deriving DecidableEq, Repr

/-- ssh-agent.c:1188-1285 `parse_key_constraint_extension`; `p11` says that the keys come from a token -/
def parseExt (w : World) (p11 : Bool) (m : Bytes) (c : Cons) : Option (Cons × Bytes) := do
  let name ← getCstr m
  if name.1 = b!"sk-provider@openssh.com" then
    if p11 = true ∨ c.sk ≠ none then none
    else
      let v ← getCstr name.2
      pure ({ c with sk := some v.1 }, v.2)
  else if name.1 = b!"restrict-destination-v00@openssh.com" then
    if c.dests ≠ [] then none
    else
      let b ← getStr name.2
      let ds ← parseDests w 1024 b.1
      pure ({ c with dests := ds }, b.2)
  else if name.1 = b!"associated-certs-v00@openssh.com" then
    if p11 = false ∨ c.certs ≠ [] then none
    else
      let v ← getInt 1 name.2
      let b ← getStr v.2
      let ks ← parseCerts w 1024 b.1
      pure ({ c with certOnly := decide (v.1 ≠ 0), certs := ks }, b.2)
  else none

/-- ssh-agent.c:1287-1360 `parse_key_constraints`.  Constraint 3 (maximum number of signatures) always
fails in this build. -/
def parseCons (w : World) (p11 : Bool) (now : Nat) : Nat → Bytes → Cons → Option Cons
  | 0, _, _ => none
  | f + 1, m, c =>
    match m with
    | [] => some c
    | ty :: m =>
      if ty = 1 then
        if c.death ≠ 0 then none
        else match getInt 4 m with
          | none => none
          | some s => parseCons w p11 now f s.2 { c with death := now + s.1 }
      else if ty = 2 then
        if c.confirm = true then none else parseCons w p11 now f m { c with confirm := true }
      else if ty = 255 then
        match parseExt w p11 m c with
        | none => none
        | some r => parseCons w p11 now f r.2 r.1
      else none

/-- ssh-agent.c:1392-1422: the provider of a security key, made canonical -/
def provider (w : World) (e : Conn) (k : Key) : Option Bytes → Option (Option Bytes)
  | none => some none
  | some p =>
    if w.isSk k = false then none
    else if p.map toLower = b!"internal" then some (some p)
    else if isRemote e = true ∧ w.remoteAdd = false then none
    else match w.realpath p with
      | none => none
      | some r => if matchPatternList r w.allowed false ≠ 1 then none else some (some r)

/-- ssh-agent.c:1427-1428, 1615-1616 -/
def lifeOf (w : World) (now death : Nat) : Nat :=
  if w.lifetime ≠ 0 ∧ death = 0 then now + w.lifetime else death

/-- Replacing the contents of the entry with this key. -/
def update (x : Ident) : List Ident → List Ident
  | [] => []
  | y :: l => if x.key = y.key then { x with provider := y.provider } :: l else y :: update x l

/-- ssh-agent.c:1429-1452: store the identity -/
def place (w : World) (st : State) (e : Conn) (x : Ident) : State × Out :=
  match lookup x.key st.ids with
  | none => ({ st with ids := st.ids ++ [x], n := st.n + 1 }, say true)
  | some old =>
    if identityPermitted w old e none = false then (st, say false)
    else ({ st with ids := update x st.ids }, say true)

/-- The request of ssh-agent.c:1376-1428: the identity to be added. -/
def parseAdd (w : World) (e : Conn) (now : Nat) (req : Bytes) : Option Ident := do
  let k ← w.readPriv req
  let comment ← getCstr k.2
  let c ← parseCons w false now (comment.2.length + 1) comment.2 {}
  let sk ← provider w e k.1 c.sk
  pure ⟨k.1, comment.1, none, lifeOf w now c.death, c.confirm, sk, c.dests⟩

/-- ssh-agent.c:1362-1475 `process_add_identity` -/
def processAdd (w : World) (st : State) (e : Conn) (now : Nat) (req : Bytes) : State × Out :=
  match parseAdd w e now req with
  | none => (st, say false)
  | some x => place w st e x

/-- ssh-agent.c:1547-1570 `add_p11_identity` -/
def addP11 (x : Ident) (st : State) : State :=
  match lookup x.key st.ids with
  | some _ => st
  | none => { st with ids := st.ids ++ [x], n := st.n + 1 }

/-- What the entries of one token share. -/
structure Token where
  provider : Bytes
  death : Nat
  confirm : Bool
  dests : List Dest
  deriving DecidableEq, Repr

def Token.ident (t : Token) (k : Key) (comment : Bytes) : Ident := ⟨k, comment, some t.provider, t.death, t.confirm, none, t.dests⟩

/-- The loop of ssh-agent.c:1624-1635: the certificates that belong to a key of the token -/
def addCerts (w : World) (t : Token) (k : Key) (comment : Bytes) : List Key → State × Bool → State × Bool
  | [], s => s
  | c :: l, s =>
    if w.isCert c = false ∨ w.samePublic k c = false then addCerts w t k comment l s
    else match w.makeCert k c with
      | none => addCerts w t k comment l s
      | some k' => addCerts w t k comment l (addP11 (t.ident k' comment) s.1, true)

/-- ssh-agent.c:1636-1643: the key itself -/
def addBare (t : Token) (certOnly : Bool) (k : Key) (comment : Bytes) (s : State × Bool) : State × Bool :=
  if certOnly = false ∧ lookup k s.1.ids = none then (addP11 (t.ident k comment) s.1, true) else s

/-- The loop of ssh-agent.c:1619-1647. -/
def addKeys (w : World) (t : Token) (certOnly : Bool) (certs : List Key) : List (Key × Bytes) → State × Bool → State × Bool
  | [], s => s
  | (k, cm) :: l, s =>
    addKeys w t certOnly certs l
      (addBare t certOnly k (if cm = [] then t.provider else cm)
        (addCerts w t k (if cm = [] then t.provider else cm) certs s))

/-- The request of ssh-agent.c:1586-1616: the token, `cert_only` and the certificates -/
def parseP11 (w : World) (e : Conn) (now : Nat) (req : Bytes) : Option (Token × Bool × List Key) := do
  let prov ← getCstr req
  let pin ← getCstr prov.2
  let c ← parseCons w true now (pin.2.length + 1) pin.2 {}
  if isRemote e = true ∧ w.remoteAdd = false then none
  else
    let r ← w.realpath prov.1
    if matchPatternList r w.allowed false ≠ 1 then none
    else pure (⟨r, lifeOf w now c.death, c.confirm, c.dests⟩, c.certOnly, c.certs)

/-- ssh-agent.c:1572-1658 `process_add_smartcard_key` -/
def processAddP11 (w : World) (st : State) (e : Conn) (now : Nat) (req : Bytes) (a : Ans) : State × Out :=
  match parseP11 w e now req with
  | none => (st, say false)
  | some t => ((addKeys w t.1 t.2.1 t.2.2 a.p11 (st, false)).1, say (addKeys w t.1 t.2.1 t.2.2 a.p11 (st, false)).2)

/-- The request of ssh-agent.c:1668-1679: the canonical provider -/
def parseDelP11 (w : World) (req : Bytes) : Option Bytes := do
  let prov ← getCstr req
  let _ ← getCstr prov.2
  w.realpath prov.1

/-- ssh-agent.c:1660-1700 `process_remove_smartcard_key` -/
def processDelP11 (w : World) (st : State) (req : Bytes) (a : Ans) : State × Out :=
  match parseDelP11 w req with
  | none => (st, say false)
  | some r =>
    ({ st with
        ids := st.ids.filter fun x => x.provider ≠ some r
        n := st.n - (st.ids.countP fun x => x.provider = some r : Nat) }, say a.p11del)

/-! ### Lock -/

/-- The password of a lock request: `sshbuf_get_cstring` (sshbuf-getput-basic.c:270-303) with the length, which
includes a final NUL. -/
def readPw (req : Bytes) : Option Bytes :=
  match getStr req with
  | none => none
  | some (v, _) => if (0 : UInt8) ∈ v.dropLast then none else some v

/-- ssh-agent.c:1478-1528 `process_lock_agent` (`none`: fatal) -/
def processLock (w : World) (st : State) (lock : Bool) (req : Bytes) (a : Ans) : Option (State × Out) :=
  match readPw req with
  | none => none
  | some pw =>
    if pw = [] then some (st, say false)
    else if st.locked = true ∧ lock = false then
      match w.kdf pw st.salt with
      | none => none
      | some h =>
        if h = st.hash then some ({ st with locked := false, hash := [] }, say true)
        else some (st, say false)
    else if st.locked = false ∧ lock = true then
      match w.kdf pw a.salt with
      | none => none
      | some h => some ({ st with locked := true, salt := a.salt, hash := h }, say true)
    else some (st, say false)

/-! ### Session binding -/

/-- The loop of ssh-agent.c:1736-1758: `none` when nothing speaks against recording the new binding -/
def bindScan (key sid : Bytes) : List Bind → Option Bool
  | [] => none
  | b :: l =>
    if b.fwd = false then some false
    else if sid = b.sid ∧ key = b.key then some true
    else if sid = b.sid then some false
    else bindScan key sid l

/-- ssh-agent.c:1722-1788: the decision on a parsed request; note that a session identifier that is too long
is answered with success although it is not recorded (`r` is 0 at line 1724). -/
def bindTo (w : World) (key sid sig : Bytes) (fwd : Bool) (binds : List Bind) : List Bind × Bool :=
  if sid.length > 128 then (binds, true)
  else if w.verify key sig sid = false then (binds, false)
  else match bindScan key sid binds with
    | some r => (binds, r)
    | none => if binds.length ≥ 16 then (binds, false) else (binds ++ [⟨key, sid, fwd⟩], true)

/-- A session-bind request. -/
structure BindReq where
  key : Key
  sid : Bytes
  sig : Bytes
  fwd : Bool
  deriving DecidableEq, Repr

/-- ssh-agent.c:1715-1721 -/
def parseBind (w : World) (req : Bytes) : Option BindReq := do
  let k ← readKey w req
  let sid ← getStr k.2
  let sig ← getStr sid.2
  let fwd ← getInt 1 sig.2
  pure ⟨k.1, sid.1, sig.1, decide (fwd.1 ≠ 0)⟩

/-- ssh-agent.c:1703-1788 `process_ext_session_bind` -/
def sessionBind (w : World) (e : Conn) (req : Bytes) : Conn × Bool :=
  match parseBind w req with
  | none => ({ e with attempted := true }, false)
  | some r => (⟨true, (bindTo w r.key r.sid r.sig r.fwd e.binds).1⟩, (bindTo w r.key r.sid r.sig r.fwd e.binds).2)

def setConn (st : State) (c : Nat) (e : Conn) : State := { st with conns := fun i => if i = c then e else st.conns i }

/-- ssh-agent.c:1790-1808 `process_extension` -/
def processExt (w : World) (st : State) (c : Nat) (req : Bytes) : State × Out :=
  match getCstr req with
  | none => (st, say false)
  | some name =>
    if name.1 = b!"session-bind@openssh.com" then
      (setConn st c (sessionBind w (st.conns c) name.2).1, say (sessionBind w (st.conns c) name.2).2)
    else (st, say false)

/-! ### Dispatch -/

/-- ssh-agent.c:1867-1911 `process_message` for an agent that is not locked; the codes are in
authfd.h:72-105 -/
def dispatch (w : World) (st : State) (now c : Nat) (ty : UInt8) (req : Bytes) (a : Ans) : Option (State × Out) :=
  if ty = 22 then processLock w st true req a
  else if ty = 23 then processLock w st false req a
  else if ty = 9 then some (removeAll st, say true)
  else if ty = 13 then some (st, processSign w st (st.conns c) req a)
  else if ty = 11 then some (st, ⟨.keys (listed w st (st.conns c)), none⟩)
  else if ty = 17 then some (processAdd w st (st.conns c) now req)
  else if ty = 25 then some (processAdd w st (st.conns c) now req)
  else if ty = 18 then processRemove w st (st.conns c) req
  else if ty = 19 then some (removeAll st, say true)
  else if ty = 20 then some (processAddP11 w st (st.conns c) now req a)
  else if ty = 26 then some (processAddP11 w st (st.conns c) now req a)
  else if ty = 21 then some (processDelP11 w st req a)
  else if ty = 27 then some (processExt w st c req)
  else some (st, say false)

/-- ssh-agent.c:1813-1912 `process_message` for a complete request of type `ty` on connection `c` -/
def process (w : World) (st : State) (now c : Nat) (ty : UInt8) (req : Bytes) (a : Ans) : Option (State × Out) :=
  if st.locked = true ∧ ty ≠ 23 then
    if ty = 11 then some (st, ⟨.keys [], none⟩) else some (st, say false)
  else dispatch w st now c ty req a

/-- What happens to the agent. -/
inductive Ev
  /-- a round of the main loop starts: `reaper` runs (ssh-agent.c:2150, 2540) -/
  | round (now : Nat)
  /-- SIGUSR1 (ssh-agent.c:2527-2532) -/
  | drop
  /-- connection `c` is accepted or closed (ssh-agent.c:206-222, 1914-1947) -/
  | conn (c : Nat)
  | msg (now c : Nat) (ty : UInt8) (req : Bytes) (a : Ans)
  deriving DecidableEq, Repr

/-- One event; `none` when the agent dies. -/
def step (w : World) (st : State) : Ev → Option (State × Option Out)
  | .round now => some (reaper now st, none)
  | .drop => some (removeAll st, none)
  | .conn c => some (setConn st c noConn, none)
  | .msg now c ty req a => (process w st now c ty req a).map fun r => (r.1, some r.2)

end Verif.Agent
