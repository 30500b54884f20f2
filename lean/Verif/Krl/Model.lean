/-
Model of krl.c: building a key revocation list, writing it, reading it, and checking keys against it.

Abstracted: public keys are an arbitrary type `K` with a wire encoding `ser`/`deser`
(`sshkey_to_blob`/`sshkey_from_blob`, `sshkey_equal` is equality) and two hash functions.  Memory allocation succeeds.  64-bit numbers
are natural numbers, reduced modulo 2^64 where the code could wrap.  Trees are ordered lists searched
through an arbitrary balancing strategy (`Verif.RB`).  Error codes are collapsed to failure.
-/
import Verif.RB
import Verif.Wire
import Verif.Bitmap.Model
import Verif.SshBuf.Model

namespace Verif.Krl
open Verif Wire RB

/-- 2^64 -/
scoped notation "U64" => (18446744073709551616 : Nat)

/-- krl.c:57-60 `struct revoked_serial` -/
structure Range where
  lo : Nat
  hi : Nat
  deriving DecidableEq, Repr

/-- krl.c:84-89 `struct revoked_certs`; `ca = none` is the wildcard. -/
structure Certs (K : Type) where
  ca : Option K
  serials : List Range
  ids : List Bytes

/-- krl.c:92-101 `struct ssh_krl` (`comment` NULL is the empty string). -/
structure Krl (K : Type) where
  version : Nat
  date : Nat
  flags : Nat
  comment : Bytes
  keys : List Bytes
  sha1s : List Bytes
  sha256s : List Bytes
  certs : List (Certs K)

/-- The environment: key encoding, hashes, tree balancing. -/
structure Env (K : Type) where
  ser : K → Bytes
  deser : Bytes → Option K
  sha1 : Bytes → Bytes
  sha256 : Bytes → Bytes
  ranges : Shape Range
  strings : Shape Bytes

/-- Certificate fields that matter for revocation. -/
structure Cert (K : Type) where
  serial : Nat
  keyId : Bytes
  ca : K

/-- A key or certificate. -/
structure Key (K : Type) where
  pub : K
  cert : Option (Cert K)

/-- krl.c:105-111 `serial_cmp` -/
def serialCmp (a b : Range) : Int :=
  if a.hi ≥ b.lo ∧ a.lo ≤ b.hi then 0 else if a.lo < b.lo then -1 else 1

/-- krl.c:132-144 `ssh_krl_init` -/
def init : Krl K := ⟨0, 0, 0, [], [], [], [], []⟩

/-- Predecessor loop, krl.c:290-301; `pre` is reversed (nearest first). -/
def absorbPre : List Range → Range → List Range × Range
  | [], e => ([], e)
  | c :: pre, e =>
    if e.lo ≠ 0 ∧ c.hi < e.lo - 1 then (c :: pre, e)
    else absorbPre pre (if c.lo < e.lo then { e with lo := c.lo } else e)

/-- Successor loop, krl.c:303-314. -/
def absorbPost : List Range → Range → Range × List Range
  | [], e => (e, [])
  | c :: post, e =>
    if e.hi ≠ U64 - 1 ∧ c.lo > (e.hi + 1) % U64 then (e, c :: post)
    else absorbPost post (if c.hi > e.hi then { e with hi := c.hi } else e)

/-- The coalescing at the end of `insert_serial_range`. -/
def coalesce (pre : List Range) (e : Range) (post : List Range) : List Range :=
  let (pre, e) := absorbPre pre.reverse e
  let (e, post) := absorbPost post e
  pre.reverse ++ e :: post

/-- krl.c:249-317 `insert_serial_range` -/
def insertRange (s : Shape Range) (l : List Range) (lo hi : Nat) : List Range :=
  match s.search (serialCmp ⟨lo, hi⟩) l with
  | .miss pre post => coalesce pre ⟨lo, hi⟩ post
  | .hit pre e post =>
    coalesce pre ⟨if e.lo > lo then lo else e.lo, if e.hi < hi then hi else e.hi⟩ post

/-- krl.c:215-247 `revoked_certs_for_ca_key` with creation, followed by an update of the entry found. -/
def updateCerts [DecidableEq K] (ca : Option K) (f : Certs K → Certs K) : List (Certs K) → List (Certs K)
  | [] => [f ⟨ca, [], []⟩]
  | rc :: r => if rc.ca = ca then f rc :: r else rc :: updateCerts ca f r

/-- A revocation call. -/
inductive Cmd (K : Type)
  | range (ca : Option K) (lo hi : Nat)
  | id (ca : Option K) (keyId : Bytes)
  | key (blob : Bytes)
  | sha1 (h : Bytes)
  | sha256 (h : Bytes)

/-- The revocation calls (`none`: error, KRL unchanged):
krl.c:326-338 `ssh_krl_revoke_cert_by_serial_range`, 340-363 `ssh_krl_revoke_cert_by_key_id`,
386-401 `revoke_blob`, 403-414 `ssh_krl_revoke_key_explicit`, 433-449 `ssh_krl_revoke_key_sha1/256`. -/
def apply1 [DecidableEq K] (E : Env K) (k : Krl K) : Cmd K → Option (Krl K)
  | .range ca lo hi =>
    if lo > hi ∨ lo = 0 then none
    else some { k with certs := updateCerts ca (fun rc => { rc with serials := insertRange E.ranges rc.serials lo hi }) k.certs }
  | .id ca i =>
    some { k with certs := updateCerts ca (fun rc => { rc with ids := E.strings.insert (lexCmp i) rc.ids i }) k.certs }
  | .key b => some { k with keys := E.strings.insert (lexCmp b) k.keys b }
  | .sha1 h =>
    if h.length ≠ 20 then none else some { k with sha1s := E.strings.insert (lexCmp h) k.sha1s h }
  | .sha256 h =>
    if h.length ≠ 32 then none else some { k with sha256s := E.strings.insert (lexCmp h) k.sha256s h }

/-- A sequence of calls, stopping at the first error. -/
def applyAll [DecidableEq K] (E : Env K) (k : Krl K) : List (Cmd K) → Option (Krl K)
  | [] => some k
  | c :: cs => match apply1 E k c with
    | none => none
    | some k => applyAll E k cs

/-- A history of calls; failed calls change nothing. -/
def runCalls [DecidableEq K] (E : Env K) (k : Krl K) : List (Cmd K) → Krl K
  | [] => k
  | c :: cs => runCalls E ((apply1 E k c).getD k) cs

/-- krl.c:451-467 `ssh_krl_revoke_key` as one of the calls above (explicit keys store the plain blob). -/
def revokeKeyCmd (E : Env K) (k : Key K) : Cmd K :=
  match k.cert with
  | none => .key (E.ser k.pub)
  | some c => if c.serial = 0 then .id (some c.ca) c.keyId else .range (some c.ca) c.serial c.serial

/-! ### Checking -/

/-- krl.c:1157-1188 `is_cert_revoked` -/
def isCertRevoked (E : Env K) (c : Cert K) (rc : Certs K) : Bool :=
  if E.strings.mem (lexCmp c.keyId) rc.ids then true
  else if c.serial = 0 then false
  else E.ranges.mem (serialCmp ⟨c.serial, c.serial⟩) rc.serials

/-- `revoked_certs_for_ca_key` without creation, then `is_cert_revoked` on the entry if any. -/
def caRevokes [DecidableEq K] (E : Env K) (c : Cert K) (ca : Option K) (l : List (Certs K)) : Bool :=
  match l.find? (fun rc => rc.ca = ca) with
  | none => false
  | some rc => isCertRevoked E c rc

/-- krl.c:1191-1252 `is_key_revoked`; fingerprints are taken of the plain public key. -/
def isKeyRevoked [DecidableEq K] (E : Env K) (k : Krl K) (key : Key K) : Bool :=
  if E.strings.mem (lexCmp (E.sha1 (E.ser key.pub))) k.sha1s then true
  else if E.strings.mem (lexCmp (E.sha256 (E.ser key.pub))) k.sha256s then true
  else if E.strings.mem (lexCmp (E.ser key.pub)) k.keys then true
  else match key.cert with
    | none => false
    | some c => if caRevokes E c (some c.ca) k.certs then true else caRevokes E c none k.certs

/-- krl.c:1254-1269 `ssh_krl_check_key` (`true`: `SSH_ERR_KEY_REVOKED`). -/
def checkKey [DecidableEq K] (E : Env K) (k : Krl K) (key : Key K) : Bool :=
  if isKeyRevoked E k key then true
  else match key.cert with
    | none => false
    | some c => isKeyRevoked E k ⟨c.ca, none⟩

/-! ### Writing -/

/-- `sshbuf_put_string`: refuses more than `SSHBUF_SIZE_MAX - 4` bytes. -/
def putStr (v : Bytes) : Option Bytes := if v.length > maxString then none else some (str v)

/-- krl.c:522-541: the cheapest representation; earlier ones win ties. -/
def pickState (costBitmap costRange costList costRestart : Nat) : Nat × Bool :=
  let (new, cost) := if costRange < costBitmap then (0x21, costRange) else (0x22, costBitmap)
  let (new, cost) := if costList < cost then (0x20, costList) else (new, cost)
  if costRestart < cost then (0x22, true) else (new, false)

/-- krl.c:476-550 `choose_next_state`: new state and `force_new_section`. -/
def chooseNextState (state contig : Nat) (final : Bool) (lastGap nextGap : Nat) : Nat × Bool :=
  let contig := min contig 2147483648
  let lastGap := min lastGap 2147483648
  let nextGap := min nextGap 2147483648
  let costRange := 8
  let costList := if state = 0x22 ∨ state = 0x21 ∨ state = 0 then 8 else 0
  let costBitmap := if state = 0x20 ∨ state = 0x21 ∨ state = 0 then 72 else 0
  let costRestart := if state = 0x20 ∨ state = 0x22 ∨ state = 0x21 ∨ state = 0 then 72 else 0
  let costList := costList + (64 * contig + (if final then 0 else 72))
  let costRange := costRange + (128 + (if final then 0 else 72))
  let costBitmap := costBitmap + (lastGap + contig + (if final then 0 else min nextGap 72))
  let costRestart := costRestart + (contig + (if final then 0 else min nextGap 72))
  let costList := (costList + 7) / 8
  let costBitmap := (costBitmap + 7) / 8
  let costRestart := (costRestart + 7) / 8
  let costRange := (costRange + 7) / 8
  pickState costBitmap costRange costList costRestart

/-- `sshbuf_put_bignum2_bytes` (sshbuf-getput-basic.c:570-597) as bytes appended. -/
def putBignum (v : Bytes) : Bytes :=
  let s := SshBuf.skipZeros v
  match s with
  | [] => str []
  | x :: _ => if x &&& 0x80 ≠ 0 then str (0 :: s) else str s

/-- krl.c:552-569 `put_bitmap` -/
def putBitmap (b : Bitmap.Bitmap) : Option Bytes := (Bitmap.toString b (Bitmap.nbytes b)).map putBignum

/-- Local variables of `revoked_certs_generate`. -/
structure Gen where
  out : Bytes
  sect : Bytes
  state : Nat
  bm : Bitmap.Bitmap
  start : Nat
  last : Nat

/-- Finish the current section, krl.c:620-637 and 693-709. -/
def flush (g : Gen) : Option Gen :=
  match (if g.state = 0x22 then (putBitmap g.bm).map (g.sect ++ ·) else some g.sect) with
  | none => none
  | some sect => match putStr sect with
    | none => none
    | some s => some { g with out := g.out ++ UInt8.ofNat g.state :: s, sect := [] }

/-- krl.c:664-669: the serials of a list section. -/
def listBytes (lo contig : Nat) : Bytes := (List.range contig).flatMap (fun i => be 8 ((lo + i) % U64))

/-- krl.c:681-687: set `contig` bits from offset `off` (`u_int` argument). -/
def setBits (b : Bitmap.Bitmap) (off : Nat) : Nat → Option Bitmap.Bitmap
  | 0 => some b
  | n + 1 => match Bitmap.setBit b (off % 4294967296) true with
    | none => none
    | some b => setBits b (off + 1) n

/-- Prepare a new section if needed, krl.c:639-660. -/
def startSect (g : Gen) (new : Nat) (force : Bool) (lo : Nat) : Gen :=
  if new ≠ g.state ∨ force then
    if new = 0x22 then { g with state := new, sect := be 8 lo, bm := Bitmap.new, start := lo }
    else { g with state := new, sect := [] }
  else g

/-- Section specific processing, krl.c:662-690, and `last = rs->hi`. -/
def addRange (g : Gen) (r : Range) (contig : Nat) : Option Gen :=
  if g.state = 0x20 then some { g with sect := g.sect ++ listBytes r.lo contig, last := r.hi }
  else if g.state = 0x21 then some { g with sect := g.sect ++ be 8 r.lo ++ be 8 r.hi, last := r.hi }
  else if g.state = 0x22 then
    if r.lo - g.start > 2147483647 then none
    else match setBits g.bm (r.lo - g.start) contig with
      | none => none
      | some bm => some { g with bm := bm, last := r.hi }
  else some { g with last := r.hi }

/-- Distance to the next range, 0 for the last one (krl.c:607-610). -/
def nextGap (r : Range) : Option Range → Nat
  | none => 0
  | some n => n.lo - r.hi

/-- One round of krl.c:598-691. -/
def genStep (g : Gen) (r : Range) (next : Option Range) : Option Gen :=
  let gap := nextGap r next
  let contig := (1 + (r.hi - r.lo)) % U64
  let c := chooseNextState g.state contig next.isNone (if g.state = 0 then 0 else r.lo - g.last) gap
  match (if g.state ≠ 0 ∧ (c.2 = true ∨ c.1 ≠ g.state ∨ g.state = 0x21) then flush g else some g) with
  | none => none
  | some g => addRange (startSect g c.1 c.2 r.lo) r contig

/-- The loop krl.c:598-691. -/
def genLoop : Gen → List Range → Option Gen
  | g, [] => some g
  | g, r :: rs => match genStep g r rs.head? with
    | none => none
    | some g => genLoop g rs

/-- Concatenation of `sshbuf_put_string` of each element. -/
def putStrs : List Bytes → Option Bytes
  | [] => some []
  | v :: vs => match putStr v, putStrs vs with
    | some a, some b => some (a ++ b)
    | _, _ => none

/-- A section with a type byte, omitted when empty (e.g. krl.c:719-723). -/
def optSection (type : UInt8) (body : Option Bytes) : Option Bytes :=
  match body with
  | none => none
  | some b => if b = [] then some [] else (putStr b).map (type :: ·)

/-- krl.c:692-709: flush the remaining section if any. -/
def genSerials (l : List Range) : Option Bytes :=
  match genLoop ⟨[], [], 0, Bitmap.new, 0, 0⟩ l with
  | none => none
  | some g => if g.state ≠ 0 then (flush g).map Gen.out else some g.out

/-- krl.c:572-729 `revoked_certs_generate` -/
def genCerts (E : Env K) (rc : Certs K) : Option Bytes :=
  match putStr (match rc.ca with | none => [] | some k => E.ser k), genSerials rc.serials,
      optSection 0x23 (putStrs rc.ids) with
  | some h, some s, some i => some (h ++ str [] ++ s ++ i)
  | _, _, _ => none

/-- krl.c:756-765 -/
def genAllCerts (E : Env K) : List (Certs K) → Option Bytes
  | [] => some []
  | rc :: r => match genCerts E rc, genAllCerts E r with
    | some b, some rest => (putStr b).map (fun s => 1 :: s ++ rest)
    | _, _ => none

/-- krl.h:24 `KRL_MAGIC` -/
def magic : Bytes := [83, 83, 72, 75, 82, 76, 10, 0]

/-- krl.c:731-808 `ssh_krl_to_blob` (the generation date is a field of the KRL here). -/
def toBlob (E : Env K) (k : Krl K) : Option Bytes :=
  match putStr k.comment, genAllCerts E k.certs, optSection 2 (putStrs k.keys), optSection 3 (putStrs k.sha1s),
      optSection 5 (putStrs k.sha256s) with
  | some c, some certs, some keys, some s1, some s2 =>
    some (magic ++ be 4 1 ++ be 8 k.version ++ be 8 k.date ++ be 8 k.flags ++ str [] ++ c ++
      certs ++ keys ++ s1 ++ s2)
  | _, _, _, _, _ => none

/-! ### Reading

Reading performs revocation calls as it goes and throws the list away on any error; here the calls are
collected first and then performed, which differs only in the error code. -/

/-- sshbuf-getput-basic.c:270-303 `sshbuf_get_cstring`, the value as a C string. -/
def getCStr (l : Bytes) : Option (Bytes × Bytes) :=
  match getStr l with
  | none => none
  | some (v, rest) =>
    if v.length > 0 ∧ SshBuf.nulEarly v v.length = true then none else some (v.takeWhile (· ≠ 0), rest)

/-- sshbuf-getput-basic.c:599-633 `sshbuf_get_bignum2_bytes_direct` (`SSHBUF_MAX_BIGNUM` is 2048). -/
def getBignum (l : Bytes) : Option (Bytes × Bytes) :=
  match getStr l with
  | none => none
  | some (v, rest) =>
    if v.length ≠ 0 ∧ v.headD 0 &&& 0x80 ≠ 0 then none
    else if v.length > 2049 ∨ (v.length = 2049 ∧ v.headD 0 ≠ 0) then none
    else some (SshBuf.skipZeros v, rest)

/-- The calls of one part followed by those of the next, if both could be read. -/
def both (a b : Option (List (Cmd K))) : Option (List (Cmd K)) :=
  match a, b with
  | some a, some b => some (a ++ b)
  | _, _ => none

/-- krl.c:899-907: a serial list subsection. -/
def readList (ca : Option K) : Nat → Bytes → Option (List (Cmd K))
  | _, [] => some []
  | 0, _ => none
  | fuel + 1, l => match getInt 8 l with
    | none => none
    | some (n, rest) => (readList ca fuel rest).map (Cmd.range ca n n :: ·)

/-- krl.c:929-941: the loop over the bits of a bitmap; `n` rounds from `serial`. -/
def readBits (ca : Option K) (b : Bitmap.Bitmap) (lo : Nat) : Nat → Nat → Option (List (Cmd K))
  | 0, _ => some []
  | n + 1, serial =>
    if serial > 0 ∧ (lo + serial) % U64 = 0 then none
    else if Bitmap.testBit b serial = false then readBits ca b lo n (serial + 1)
    else (readBits ca b lo n (serial + 1)).map
      (Cmd.range ca ((lo + serial) % U64) ((lo + serial) % U64) :: ·)

/-- krl.c:947-958: key IDs. -/
def readIds (ca : Option K) : Nat → Bytes → Option (List (Cmd K))
  | _, [] => some []
  | 0, _ => none
  | fuel + 1, l => match getCStr l with
    | none => none
    | some (v, rest) => (readIds ca fuel rest).map (Cmd.id ca v :: ·)

/-- krl.c:826-863, 1006-1041: an extension; only non-critical ones are accepted. -/
def readExt (l : Bytes) : Option (List (Cmd K)) :=
  match getCStr l with
  | none => none
  | some (_, l) => match getInt 1 l with
    | none => none
    | some (crit, l) => match getStr l with
      | none => none
      | some (_, rest) => if rest ≠ [] then none else if crit ≠ 0 then none else some []

/-- One certificate subsection, krl.c:898-972. -/
def readSub (ca : Option K) (type : Nat) (l : Bytes) : Option (List (Cmd K)) :=
  if type = 0x20 then readList ca l.length l
  else if type = 0x21 then
    match getInt 8 l with
    | none => none
    | some (lo, l) => match getInt 8 l with
      | none => none
      | some (hi, rest) => if rest ≠ [] then none else some [Cmd.range ca lo hi]
  else if type = 0x22 then
    match getInt 8 l with
    | none => none
    | some (lo, l) => match getBignum l with
      | none => none
      | some (v, rest) => match Bitmap.fromString Bitmap.new v true with
        | none => none
        | some b => if rest ≠ [] then none else readBits ca b lo (Bitmap.nbits b) 0
  else if type = 0x23 then readIds ca l.length l
  else if type = 0x39 then readExt l
  else none

/-- The loop over subsections, krl.c:887-973. -/
def readSubs (ca : Option K) : Nat → Bytes → Option (List (Cmd K))
  | _, [] => some []
  | 0, _ => none
  | fuel + 1, l => match getInt 1 l with
    | none => none
    | some (t, l) => match getStr l with
      | none => none
      | some (body, rest) => both (readSub ca t body) (readSubs ca fuel rest)

/-- krl.c:865-980 `parse_revoked_certs` -/
def readCerts (E : Env K) (l : Bytes) : Option (List (Cmd K)) :=
  match getStr l with
  | none => none
  | some (blob, l) => match getStr l with
    | none => none
    | some (_, l) =>
      if blob = [] then readSubs none l.length l
      else match E.deser blob with
        | none => none
        | some k => readSubs (some k) l.length l

/-- krl.c:982-1004 `blob_section`; a SHA section checks the length. -/
def readBlobs (mk : Bytes → Cmd K) (expected : Nat) : Nat → Bytes → Option (List (Cmd K))
  | _, [] => some []
  | 0, _ => none
  | fuel + 1, l => match getStr l with
    | none => none
    | some (v, rest) =>
      if expected ≠ 0 ∧ v.length ≠ expected then none
      else (readBlobs mk expected fuel rest).map (mk v :: ·)

/-- One top-level section, krl.c:1103-1140. -/
def readSection (E : Env K) (t : Nat) (sect : Bytes) : Option (List (Cmd K)) :=
  if t = 1 then readCerts E sect
  else if t = 2 then readBlobs .key 0 sect.length sect
  else if t = 3 then readBlobs .sha1 20 sect.length sect
  else if t = 5 then readBlobs .sha256 32 sect.length sect
  else if t = 255 then readExt sect
  else none

/-- The loop over sections, krl.c:1094-1145; type 4 (signature) skips a further string. -/
def readSections (E : Env K) : Nat → Bytes → Option (List (Cmd K))
  | _, [] => some []
  | 0, _ => none
  | fuel + 1, l => match getInt 1 l with
    | none => none
    | some (t, l) => match getStr l with
      | none => none
      | some (sect, rest) =>
        if t = 4 then match getStr rest with
          | none => none
          | some (_, rest) => readSections E fuel rest
        else both (readSection E t sect) (readSections E fuel rest)

/-- krl.c:1044-1154 `ssh_krl_from_blob` -/
def fromBlob [DecidableEq K] (E : Env K) (l : Bytes) : Option (Krl K) :=
  if l.take 8 ≠ magic then none
  else match getInt 4 (l.drop 8) with
    | none => none
    | some (fmt, l) =>
      if fmt ≠ 1 then none
      else match getInt 8 l with
        | none => none
        | some (v, l) => match getInt 8 l with
          | none => none
          | some (d, l) => match getInt 8 l with
            | none => none
            | some (f, l) => match getStr l with
              | none => none
              | some (_, l) => match getCStr l with
                | none => none
                | some (c, l) => match readSections E l.length l with
                  | none => none
                  | some cmds => applyAll E ⟨v, d, f, c, [], [], [], []⟩ cmds

end Verif.Krl
