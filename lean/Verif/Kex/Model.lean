/-
Model of algorithm negotiation (kex.c, kex-names.c), of the packet dispatcher (dispatch.c) as far as
guessed key exchange packets are concerned, and of key derivation (kex.c).

Abstracted: which algorithms this build supports is a table (`Support`), since the tables in cipher.c,
mac.c, kex-names.c and sshkey.c depend on build options.  The hash is an arbitrary function.  Memory
allocation succeeds.  Logging and `failed_choice` are left out.
-/
import Verif.Match.Model
import Verif.Wire

namespace Verif.Kex
open Verif Wire Text
open scoped Verif.Match

/-! ### Supported algorithms -/

/-- cipher.c:66-83 `struct sshcipher` -/
structure Cipher where
  name : Bytes
  blockSize : Nat
  keyLen : Nat
  ivLenField : Nat
  authLen : Nat
  chachapoly : Bool
  deriving DecidableEq, Repr

/-- cipher.c:165-171 `cipher_seclen` -/
def Cipher.secLen (c : Cipher) : Nat := if c.name = b!"3des-cbc" then 14 else c.keyLen

/-- cipher.c:179-188 `cipher_ivlen` -/
def Cipher.ivLen (c : Cipher) : Nat := if c.ivLenField ≠ 0 ∨ c.chachapoly then c.ivLenField else c.blockSize

/-- The algorithms a build supports: `cipher_by_name` (cipher.c:202-210), `mac_setup` (mac.c:119-132; the
value is the length of the key), `kex_alg_by_name` (kex-names.c:115-125; the value is the method's
number), `sshkey_type_from_name` (sshkey.c:268-271, `KEY_UNSPEC` is `none`) and `WITH_ZLIB`. -/
structure Support where
  cipher : Bytes → Option Cipher
  mac : Bytes → Option Nat
  kex : Bytes → Option Nat
  hostkey : Bytes → Option Nat
  zlib : Bool

/-! ### Proposals -/

scoped notation "PROPOSAL_KEX_ALGS" => (0 : Nat)
scoped notation "PROPOSAL_SERVER_HOST_KEY_ALGS" => (1 : Nat)
scoped notation "PROPOSAL_ENC_ALGS_CTOS" => (2 : Nat)
scoped notation "PROPOSAL_ENC_ALGS_STOC" => (3 : Nat)
scoped notation "PROPOSAL_MAC_ALGS_CTOS" => (4 : Nat)
scoped notation "PROPOSAL_MAC_ALGS_STOC" => (5 : Nat)
scoped notation "PROPOSAL_COMP_ALGS_CTOS" => (6 : Nat)
scoped notation "PROPOSAL_COMP_ALGS_STOC" => (7 : Nat)
/-- kex.h:76-88 -/
scoped notation "PROPOSAL_MAX" => (10 : Nat)
/-- kex.h:51 -/
scoped notation "KEX_COOKIE_LEN" => (16 : Nat)

/-- A proposal: the name lists, in the order of kex.h:76-88. -/
abbrev Proposal := List Bytes

/-- `prop[i]` -/
def Proposal.at (p : Proposal) (i : Nat) : Bytes := p.getD i []

inductive Err
  | invalidFormat | messageIncomplete | noKexMatch | noHostkeyMatch | noCipherMatch | noMacMatch | noCompMatch
  | internal | disconnect
  deriving DecidableEq, Repr

/-- kex.c:149-173 `kex_prop2buf` -/
def prop2buf (p : Proposal) : Bytes :=
  List.replicate KEX_COOKIE_LEN 0 ++ (p.take PROPOSAL_MAX).flatMap str ++ [0] ++ be 4 0

/-- kex.c:195-202: read `n` C strings. -/
def getProps : Nat → Bytes → Option (Proposal × Bytes)
  | 0, b => some ([], b)
  | n + 1, b =>
    match getCstr b with
    | none => none
    | some (s, rest) =>
      match getProps n rest with
      | none => none
      | some (l, rest) => some (s :: l, rest)

/-- kex.c:176-221 `kex_buf2prop`: the proposal and `first_kex_follows`.  All failures are reported as
`invalidFormat`. -/
def buf2prop (raw : Bytes) : Option (Proposal × UInt8) :=
  if raw.length < KEX_COOKIE_LEN then none
  else match getProps PROPOSAL_MAX (raw.drop KEX_COOKIE_LEN) with
    | none => none
    | some (p, v :: rest) => if rest.length < 4 then none else some (p, v)
    | some (_, []) => none

/-! ### Choosing -/

/-- kex.h:125-150: what is chosen for one direction.  `mac` is absent for authenticated encryption. -/
structure NewKeys where
  enc : Bytes
  cipher : Cipher
  mac : Option (Bytes × Nat)
  comp : Bytes
  delayed : Bool
  deriving DecidableEq, Repr

/-- kex.c:795-815 `choose_enc` -/
def chooseEnc (S : Support) (client server : Bytes) : Except Err (Bytes × Cipher) :=
  match (Match.matchList client server).1 with
  | none => .error .noCipherMatch
  | some n =>
    match S.cipher n with
    | none => .error .internal
    | some c => .ok (n, c)

/-- kex.c:817-833 `choose_mac` -/
def chooseMac (S : Support) (client server : Bytes) : Except Err (Bytes × Nat) :=
  match (Match.matchList client server).1 with
  | none => .error .noMacMatch
  | some n =>
    match S.mac n with
    | none => .error .internal
    | some k => .ok (n, k)

/-- kex.c:835-856 `choose_comp`; the flag is `type == COMP_DELAYED` -/
def chooseComp (S : Support) (client server : Bytes) : Except Err (Bytes × Bool) :=
  match (Match.matchList client server).1 with
  | none => .error .noCompMatch
  | some n =>
    if S.zlib ∧ n = b!"zlib@openssh.com" then .ok (n, true)
    else if n = b!"none" then .ok (n, false)
    else .error .internal

/-- kex.c:858-874 `choose_kex` -/
def chooseKex (S : Support) (client server : Bytes) : Except Err (Bytes × Nat) :=
  match (Match.matchList client server).1 with
  | none => .error .noKexMatch
  | some n =>
    match S.kex n with
    | none => .error .internal
    | some t => .ok (n, t)

/-- kex.c:876-893 `choose_hostkeyalg` -/
def chooseHostkey (S : Support) (client server : Bytes) : Except Err (Bytes × Nat) :=
  match (Match.matchList client server).1 with
  | none => .error .noHostkeyMatch
  | some n =>
    match S.hostkey n with
    | none => .error .internal
    | some t => .ok (n, t)

/-- `kex->newkeys[MODE_IN]` or `kex->newkeys[MODE_OUT]` -/
inductive Mode | input | output
  deriving DecidableEq, Repr

/-- kex.c:999-1001 -/
def ctosOf (server : Bool) (mode : Mode) : Bool :=
  (!server && mode == .output) || (server && mode == .input)

/-- kex.c:993-1033: one round of the loop. -/
def chooseMode (S : Support) (server : Bool) (mode : Mode) (cprop sprop : Proposal) : Except Err NewKeys :=
  let ctos := ctosOf server mode
  let nenc := if ctos then PROPOSAL_ENC_ALGS_CTOS else PROPOSAL_ENC_ALGS_STOC
  let nmac := if ctos then PROPOSAL_MAC_ALGS_CTOS else PROPOSAL_MAC_ALGS_STOC
  let ncomp := if ctos then PROPOSAL_COMP_ALGS_CTOS else PROPOSAL_COMP_ALGS_STOC
  match chooseEnc S (cprop.at nenc) (sprop.at nenc) with
  | .error e => .error e
  | .ok (n, c) =>
    match (if c.authLen = 0 then (chooseMac S (cprop.at nmac) (sprop.at nmac)).map some else .ok none) with
    | .error e => .error e
    | .ok mac =>
      match chooseComp S (cprop.at ncomp) (sprop.at ncomp) with
      | .error e => .error e
      | .ok (z, d) => .ok { enc := n, cipher := c, mac := mac, comp := z, delayed := d }

/-- Key length of the chosen MAC (zero when there is none: the structure was `calloc`ed). -/
def NewKeys.macKeyLen (k : NewKeys) : Nat := match k.mac with | some (_, n) => n | none => 0

/-- kex.c:1036-1043: what one direction needs. -/
def NewKeys.need (k : NewKeys) : Nat :=
  max (max (max k.cipher.keyLen k.cipher.blockSize) k.cipher.ivLen) k.macKeyLen
/-- kex.c:1044-1047 -/
def NewKeys.dhNeed (k : NewKeys) : Nat :=
  max (max (max k.cipher.secLen k.cipher.blockSize) k.cipher.ivLen) k.macKeyLen

/-- `strchr(s, ',')` replaced by NUL. -/
def cutComma (s : Bytes) : Bytes := s.takeWhile (· ≠ COMMA)

/-- kex.c:895-917 `proposals_match` -/
def proposalsMatch (my peer : Proposal) : Bool :=
  [PROPOSAL_KEX_ALGS, PROPOSAL_SERVER_HOST_KEY_ALGS].all fun i => cutComma (my.at i) = cutComma (peer.at i)

/-- kex-names.c:187-196 `kex_has_any_alg` -/
def hasAnyAlg (proposal algs : Bytes) : Bool := (Match.matchList proposal algs).1.isSome

/-- The parts of `struct kex` that survive from one exchange to the next. -/
structure Flags where
  initial : Bool
  strict : Bool
  extInfoC : Bool
  extInfoS : Bool
  rsaSha256 : Bool
  rsaSha512 : Bool
  deriving DecidableEq, Repr

/-- Result of a successful negotiation. -/
structure Conf where
  kex : Bytes
  kexType : Nat
  hostkey : Bytes
  hostkeyType : Nat
  keysIn : NewKeys
  keysOut : NewKeys
  need : Nat
  dhNeed : Nat
  /-- `ssh->dispatch_skip_packets = 1` was executed -/
  skip : Bool
  flags : Flags
  deriving DecidableEq, Repr

/-- kex.c:951-969: look for the peer's protocol extension markers (initial exchange only). -/
def peerMarkers (server : Bool) (f : Flags) (peer : Proposal) : Flags :=
  if f.initial then
    if server then
      { f with
        extInfoC := hasAnyAlg (peer.at PROPOSAL_KEX_ALGS) b!"ext-info-c"
        strict := hasAnyAlg (peer.at PROPOSAL_KEX_ALGS) b!"kex-strict-c-v00@openssh.com"
        rsaSha256 := f.rsaSha256 || hasAnyAlg (peer.at PROPOSAL_SERVER_HOST_KEY_ALGS)
          b!"rsa-sha2-256,rsa-sha2-256-cert-v01@openssh.com"
        rsaSha512 := f.rsaSha512 || hasAnyAlg (peer.at PROPOSAL_SERVER_HOST_KEY_ALGS)
          b!"rsa-sha2-512,rsa-sha2-512-cert-v01@openssh.com" }
    else
      { f with
        extInfoS := hasAnyAlg (peer.at PROPOSAL_KEX_ALGS) b!"ext-info-s"
        strict := hasAnyAlg (peer.at PROPOSAL_KEX_ALGS) b!"kex-strict-s-v00@openssh.com" }
  else f

/-- kex.c:925-1056 `kex_choose_conf` after both proposals have been parsed (lines 951-1051). -/
def chooseProps (S : Support) (server : Bool) (f : Flags) (seq : Nat) (my peer : Proposal) (follows : UInt8) :
    Except Err Conf :=
  let cprop := if server then peer else my
  let sprop := if server then my else peer
  let f' := peerMarkers server f peer
  if f.initial ∧ f'.strict ∧ seq ≠ 0 then .error .disconnect
  else
    match chooseKex S (cprop.at PROPOSAL_KEX_ALGS) (sprop.at PROPOSAL_KEX_ALGS) with
    | .error e => .error e
    | .ok (kn, kt) =>
      match chooseHostkey S (cprop.at PROPOSAL_SERVER_HOST_KEY_ALGS) (sprop.at PROPOSAL_SERVER_HOST_KEY_ALGS) with
      | .error e => .error e
      | .ok (hn, ht) =>
        match chooseMode S server .input cprop sprop with
        | .error e => .error e
        | .ok ki =>
          match chooseMode S server .output cprop sprop with
          | .error e => .error e
          | .ok ko =>
            .ok { kex := kn, kexType := kt, hostkey := hn, hostkeyType := ht, keysIn := ki, keysOut := ko,
                  need := max ki.need ko.need, dhNeed := max ki.dhNeed ko.dhNeed,
                  skip := follows ≠ 0 ∧ ¬ proposalsMatch my peer, flags := f' }

/-- kex.c:925-1056 `kex_choose_conf`: `my` and `peer` are the two KEXINIT payloads. -/
def chooseConf (S : Support) (server : Bool) (f : Flags) (seq : Nat) (my peer : Bytes) : Except Err Conf :=
  match buf2prop my with
  | none => .error .invalidFormat
  | some (myp, _) =>
    match buf2prop peer with
    | none => .error .invalidFormat
    | some (peerp, follows) => chooseProps S server f seq myp peerp follows

/-! ### Dispatch -/

/-- The dispatcher's state: packets still to skip, whether KEXINIT is routed to `kex_input_kexinit`, and
everything else. -/
structure Disp (σ : Type) where
  skip : Nat
  kexinit : Bool
  rest : σ

/-- kex.c:629-657: the payload is a cookie, ten strings, a byte and a 32-bit number, and nothing more. -/
def wellFormed (payload : Bytes) : Bool :=
  if payload.length < KEX_COOKIE_LEN then false
  else match skipStrings PROPOSAL_MAX (payload.drop KEX_COOKIE_LEN) with
    | none => false
    | some rest => rest.length = 5
where
  /-- kex.c:635-640: skip `n` strings. -/
  skipStrings : Nat → Bytes → Option Bytes
    | 0, b => some b
    | n + 1, b =>
      match getStr b with
      | none => none
      | some (_, rest) => skipStrings n rest

/-- One end of a connection, as far as the dispatcher is concerned: the state `σ` is everything except
`dispatch_skip_packets` (written only in kex.c:1050 and dispatch.c:109) and the routing of KEXINIT. -/
structure Handlers (σ : Type) where
  /-- `ssh->dispatch[type] != NULL` -/
  installed : σ → Nat → Bool
  /-- run the handler of any message other than a KEXINIT routed to `kex_input_kexinit`; the flag is the new
  routing of KEXINIT -/
  run : σ → Bool → Nat → Bytes → Except Err (σ × Bool)
  support : Support
  server : Bool
  /-- our KEXINIT payload, the negotiation flags, and the sequence number of the packet being handled -/
  my : σ → Bytes
  flags : σ → Flags
  seq : σ → Nat
  /-- send our KEXINIT if need be, record the configuration, and start the chosen method (kex.c:659-667) -/
  start : σ → Conf → Except Err σ

/-- kex.c:609-667 `kex_input_kexinit`; also whether the next packet is to be skipped. -/
def Handlers.kexinit (h : Handlers σ) (s : σ) (payload : Bytes) : Except Err (σ × Bool) :=
  if wellFormed payload then
    match chooseConf h.support h.server (h.flags s) (h.seq s) (h.my s) payload with
    | .error e => .error e
    | .ok c =>
      match h.start s c with
      | .error e => .error e
      | .ok s' => .ok (s', c.skip)
  else .error .invalidFormat

/-- dispatch.c:104-121: handle one packet; the flag tells whether a handler ran. -/
def dispatch1 (h : Handlers σ) (d : Disp σ) (type : Nat) (payload : Bytes) : Except Err (Disp σ × Bool) :=
  if 0 < type ∧ type < 255 ∧ h.installed d.rest type then
    if d.skip ≠ 0 then .ok ({ d with skip := d.skip - 1 }, false)
    else if type = 20 ∧ d.kexinit then
      match h.kexinit d.rest payload with
      | .error e => .error e
      | .ok (s, c) => .ok ({ skip := if c then 1 else d.skip, kexinit := false, rest := s }, true)
    else
      match h.run d.rest d.kexinit type payload with
      | .error e => .error e
      | .ok (s, k) => .ok ({ d with kexinit := k, rest := s }, true)
  else .error .disconnect

/-- dispatch.c:86-125 `ssh_dispatch_run` over the packets received: the final state (or the error) and the
packets that were handed to a handler, in order. -/
def dispatchRun (h : Handlers σ) (d : Disp σ) : List (Nat × Bytes) → Except Err (Disp σ) × List (Nat × Bytes)
  | [] => (.ok d, [])
  | (t, p) :: rest =>
    match dispatch1 h d t p with
    | .error e => (.error e, [(t, p)])
    | .ok (d', ran) =>
      let r := dispatchRun h d' rest
      (r.1, if ran then (t, p) :: r.2 else r.2)

/-! ### Key derivation -/

/-- kex.c:1089-1103: the loop extending the key; `digest` is what has been written so far. -/
def expandKey (H : Bytes → Bytes) (shared hash : Bytes) (need mdsz : Nat) : Nat → Bytes → Bytes
  | 0, digest => digest
  | fuel + 1, digest =>
    if need > digest.length then
      expandKey H shared hash need mdsz fuel (digest ++ H (shared ++ hash ++ digest))
    else digest

/-- kex.c:1058-1120 `derive_key`: the bytes `*keyp` points to. -/
def deriveKey (H : Bytes → Bytes) (mdsz : Nat) (sessionId : Bytes) (id : UInt8) (need : Nat) (hash shared : Bytes) :
    Bytes :=
  expandKey H shared hash need mdsz need (H (shared ++ hash ++ [id] ++ sessionId))

/-- `enc.iv`, `enc.key`, `mac.key` of one direction. -/
structure KeySet where
  iv : Bytes
  enc : Bytes
  mac : Bytes
  deriving DecidableEq, Repr

/-- kex.c:1123-1160 `kex_derive_keys`: the session id afterwards and the key sets for input and output. -/
def deriveKeys (H : Bytes → Bytes) (mdsz : Nat) (server initial : Bool) (sessionId : Bytes) (need : Nat)
    (hash shared : Bytes) : Except Err (Bytes × KeySet × KeySet) :=
  if initial ∧ sessionId ≠ [] then .error .internal
  else if ¬ initial ∧ sessionId = [] then .error .internal
  else
    let sid := if initial then hash else sessionId
    let key (i : Nat) := deriveKey H mdsz sid (UInt8.ofNat (65 + i)) need hash shared
    let set (mode : Mode) : KeySet :=
      let ctos := ctosOf server mode
      { iv := key (if ctos then 0 else 1), enc := key (if ctos then 2 else 3), mac := key (if ctos then 4 else 5) }
    .ok (sid, set .input, set .output)

/-! ### Configured algorithm lists -/

/-- kex-names.c:222-230: the loop of `kex_names_cat`; `len` is the size of the output. -/
def catGo (len : Nat) : Nat → Option Bytes → Bytes → Option Bytes
  | 0, _, ret => some ret
  | _, none, ret => some ret
  | fuel + 1, some s, ret =>
    match strsep COMMA s with
    | (p, rest) =>
      if p = [] then some ret
      else if hasAnyAlg ret p then catGo len fuel rest ret
      else if ret.length + 1 ≥ len then none
      else if ret.length + 1 + p.length ≥ len then none
      else catGo len fuel rest (ret ++ COMMA :: p)

/-- kex-names.c:202-233 `kex_names_cat` (`a`, `b` not NULL; a NULL `a` behaves like an empty one). -/
def namesCat (a b : Bytes) : Option Bytes :=
  if a = [] then some b
  else if b = [] then some a
  else if b.length > 1024 * 1024 then none
  else catGo (a.length + b.length + 2) (b.length + 1) (some b) a

/-- kex-names.c:299-318: the loop applying the patterns; `none` is an error. -/
def applyPats (all : Bytes) : Nat → Option Bytes → Bytes → Option Bytes
  | 0, _, ret => some ret
  | _, none, ret => some ret
  | fuel + 1, some s, ret =>
    match strsep COMMA s with
    | (cp, rest) =>
      if cp.head? = some 33 then none
      else match namesCat ret (Match.filterAllowlist all cp) with
        | none => none
        | some ret => applyPats all fuel rest ret

/-- kex-names.c:291-330: a list of patterns turned into the names they select. -/
def applyList (all list : Bytes) : Option Bytes :=
  match applyPats all (list.length + 1) (some list) [] with
  | none => none
  | some ret => if ret = [] then none else some ret

/-- kex-names.c:242-336 `kex_assemble_names`: the new list; `none` is an error (`listp`, `def`, `all` not
NULL). -/
def assembleNames (list dflt all : Bytes) : Option Bytes :=
  match list with
  | [] => some dflt
  | c :: l =>
    if c = 43 then
      match namesCat dflt l with
      | none => none
      | some list => applyList all list
    else if c = 45 then some (Match.filterDenylist dflt l)
    else if c = 94 then
      match namesCat l dflt with
      | none => none
      | some list => applyList all list
    else applyList all list

end Verif.Kex
