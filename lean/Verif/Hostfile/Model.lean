/-
known_hosts files: reading, checking a host key against them, and replacing a host's entries (hostfile.c).
-/
import Verif.Match.Model

namespace Verif.Hostfile
open Verif

/-- A public key as far as hostfile.c looks at it: what `sshkey_equal_public` compares (plain type and
numbers), the exact type and curve, and for a certificate its blob and the signing key's public part. -/
structure Key where
  pub : Bytes
  type : Nat
  nid : Int := -1
  cert : Option (Bytes × Bytes) := none
  deriving Repr, DecidableEq

/-- sshkey.c:425-431 `sshkey_is_cert` -/
def Key.isCert (k : Key) : Bool := k.cert.isSome

/-- sshkey.c:839-850 `sshkey_equal_public` -/
def equalPublic (a b : Key) : Bool := a.pub = b.pub

/-- sshkey.c:809-822 `cert_compare` through 852-862 `sshkey_equal` -/
def equal (a b : Key) : Bool :=
  a.type = b.type && (!a.isCert || a.cert.map Prod.fst = b.cert.map Prod.fst) && equalPublic a b

inductive Marker where
  | none | revoke | ca
  deriving Repr, DecidableEq

/-- What the code calls: the parsing of a key (`sshkey_read`; the text after it is the comment), base64 in
both directions and the keyed hash; and `sshkey_write`. -/
structure Prims where
  readKey : Bytes → Option Key
  writeKey : Key → Bytes
  b64dec : Bytes → Option Bytes
  b64enc : Bytes → Bytes
  hmac : Bytes → Bytes → Bytes

def isBlank (c : UInt8) : Bool := c = 32 || c = 9

/-- Skipping blanks. -/
def skipBlanks (s : Bytes) : Bytes := s.dropWhile isBlank

/-- hostfile.c:180-213 `check_markers`: where the marker ends. -/
def markerEnd (cp : Bytes) : Option Bytes :=
  if 32 ∈ cp then some (cp.takeWhile (· ≠ 32))
  else if 9 ∈ cp then some (cp.takeWhile (· ≠ 9))
  else none

/-- hostfile.c:199-204 -/
def markerNamed (m : Bytes) : Option Marker :=
  if m = b!"@cert-authority" then some .ca else if m = b!"@revoked" then some .revoke else none

/-- hostfile.c:180-213 `check_markers`; `none` is `MRK_ERROR`.  The loop runs at most once without an error. -/
def checkMarkers (cp : Bytes) : Option (Marker × Bytes) :=
  if cp.head? ≠ some 64 then some (.none, cp)
  else match markerEnd cp with
    | none => none
    | some m =>
      if m.length ≤ 1 || m.length ≥ 32 then none
      else match markerNamed m with
        | none => none
        | some mk =>
          if (skipBlanks (cp.drop m.length)).head? = some 64 then none
          else some (mk, skipBlanks (cp.drop m.length))

/-- hostfile.c:68-113 `extract_salt` -/
def extractSalt (P : Prims) (s : Bytes) : Option Bytes :=
  if s.length < 3 then none
  else if s.take 3 ≠ b!"|1|" then none
  else if 124 ∉ s.drop 3 then none
  else if ((s.drop 3).takeWhile (· ≠ 124)).length = 0 || ((s.drop 3).takeWhile (· ≠ 124)).length > 1024 then none
  else match P.b64dec ((s.drop 3).takeWhile (· ≠ 124)) with
    | none => none
    | some salt => if salt.length ≠ 20 then none else some salt

/-- hostfile.c:143-147: the text of a hashed name. -/
def hashed (P : Prims) (salt host : Bytes) : Bytes :=
  b!"|1|" ++ P.b64enc salt ++ b!"|" ++ P.b64enc (P.hmac salt host)

/-- hostfile.c:739-757 `match_maybe_hashed`; `none` is -1. -/
def matchMaybeHashed (P : Prims) (host names : Bytes) : Option Bool :=
  if names.head? = some 124 then
    match extractSalt P names with
    | none => none
    | some salt => some (names = hashed P salt host)
  else some (Match.matchHostname host names = 1)

/-- `HKF_STATUS_*` -/
inductive Status where
  | ok | invalid | comment | matched
  deriving Repr, DecidableEq

/-- `struct hostkey_foreach_line` as handed to the callback. -/
structure Line where
  status : Status
  marker : Marker
  matchHost : Bool := false
  matchIp : Bool := false
  key : Option Key := none
  text : Bytes
  deriving Repr, DecidableEq

/-- One round of the reading loop: the callback is not called, is called with a line, or the code reads
beyond the end of its buffer. -/
inductive Round where
  | skip
  | line (l : Line)
  | overrun
  deriving Repr, DecidableEq

/-- A C string in memory (`none` if there is no terminator). -/
def cString (mem : Bytes) : Option Bytes := if 0 ∈ mem then some (mem.takeWhile (· ≠ 0)) else none

/-- hostfile.c:779-785: the text of a line: up to the first newline or NUL. -/
def lineText (mem : Bytes) : Bytes := mem.takeWhile (fun c => c ≠ 0 && c ≠ 10)
/-- What lies in the buffer after the character that ends the text. -/
def afterLine (mem : Bytes) : Bytes := (mem.dropWhile (fun c => c ≠ 0 && c ≠ 10)).drop 1

/-- hostfile.c:811-814: the host names. -/
def hostsOf (cp : Bytes) : Bytes := cp.takeWhile (fun c => !isBlank c)

/-- hostfile.c:811-814, 854-855: the text after the host names and blanks.  When the names reach to the end
of the line, `*cp2++ = '\0'` steps over the terminator and what follows in the buffer is read. -/
def restOf (cp after : Bytes) : Option Bytes :=
  match cp.dropWhile (fun c => !isBlank c) with
  | [] => (cString after).map skipBlanks
  | _ :: r => some (skipBlanks r)

/-- hostfile.c:853-879 (with `HKF_WANT_PARSE_KEY`): the key of the line. -/
def keyRound (P : Prims) (l : Line) : Option Bytes → Round
  | none => .overrun
  | some [] => .line { l with status := .invalid }
  | some (c :: r) =>
    if c = 35 then .line { l with status := .invalid }
    else match P.readKey (c :: r) with
      | none => .line { l with status := .invalid }
      | some k => .line { l with key := some k }

/-- hostfile.c:816-851 after the matching: `h` and `i` tell whether name and address matched. -/
def matchedRound (P : Prims) (want : Bool) (text : Bytes) (mk : Marker) (h i : Bool) (rest : Option Bytes) : Round :=
  if want && !(h || i) then .skip
  else keyRound P { status := if h || i then .matched else .ok, marker := mk, matchHost := h, matchIp := i,
                    text := text } rest

/-- hostfile.c:816-851: matching name and address against the host names of the line. -/
def namedRound (P : Prims) (host : Bytes) (ip : Option Bytes) (want : Bool) (text after : Bytes) (mk : Marker)
    (cp : Bytes) : Round :=
  match matchMaybeHashed P host (hostsOf cp) with
  | none => .line { status := .invalid, marker := mk, text := text }
  | some h =>
    match ip with
    | none => matchedRound P want text mk h false (restOf cp after)
    | some ip =>
      match matchMaybeHashed P ip (hostsOf cp) with
      | none => .line { status := .invalid, marker := mk, matchHost := h, text := text }
      | some i => matchedRound P want text mk h i (restOf cp after)

/-- hostfile.c:759-927 `hostkeys_foreach_file`, one line; `mem` is the line buffer from its start, `want` is
`HKF_WANT_MATCH`. -/
def round (P : Prims) (host : Bytes) (ip : Option Bytes) (want : Bool) (mem : Bytes) : Round :=
  if (skipBlanks (lineText mem)).head? = none || (skipBlanks (lineText mem)).head? = some 35 then
    if want then .skip else .line { status := .comment, marker := .none, text := lineText mem }
  else match checkMarkers (skipBlanks (lineText mem)) with
    | none => if want then .skip else .line { status := .invalid, marker := .none, text := lineText mem }
    | some (mk, cp) => namedRound P host ip want (lineText mem) (afterLine mem) mk cp

/-- The lines handed to the callback; `none` if the code overruns its buffer. -/
def foreach (P : Prims) (host : Bytes) (ip : Option Bytes) (want : Bool) : List Bytes → Option (List Line)
  | [] => some []
  | mem :: rest => match round P host ip want mem with
    | .overrun => none
    | .skip => foreach P host ip want rest
    | .line l => (foreach P host ip want rest).map (l :: ·)

/-- `struct hostkey_entry` -/
structure Entry where
  key : Key
  marker : Marker
  deriving Repr, DecidableEq

/-- hostfile.c:230-263 `record_hostkey` (with `HKF_WANT_MATCH` and `HKF_WANT_PARSE_KEY` every valid line has
a key). -/
def record (l : Line) : Option Entry :=
  if l.status = .invalid then none else l.key.map fun k => ⟨k, l.marker⟩

/-- hostfile.c:265-283 `load_hostkeys_file` -/
def load (P : Prims) (host : Bytes) (mems : List Bytes) : Option (List Entry) :=
  (foreach P host none true mems).map fun ls => ls.filterMap record

/-- hostfile.c:315-332 `check_key_not_revoked`: true when it returns -1. -/
def isRevoked (es : List Entry) (k : Option Key) : Bool :=
  match k with
  | none => false
  | some k => es.any fun e =>
      e.marker = .revoke && (equalPublic k e.key || k.cert.any fun c => c.2 = e.key.pub)

/-- `HostStatus` -/
inductive HostStatus where
  | ok | new | changed | revoked | found
  deriving Repr, DecidableEq

/-- hostfile.c:361-398: the loop of `check_hostkeys_by_key_or_type` when looking for a key.  `st` and `found`
are the values so far. -/
def keyLoop (k : Key) : List Entry → HostStatus × Option Entry → HostStatus × Option Entry
  | [], acc => acc
  | e :: es, acc =>
    if e.marker ≠ (if k.isCert then Marker.ca else Marker.none) then keyLoop k es acc
    else if k.isCert then
      if k.cert.any fun c => c.2 = e.key.pub then (.ok, some e) else keyLoop k es acc
    else if equal k e.key then (.ok, some e)
    else keyLoop k es (.changed, some e)

/-- hostfile.c:361-376: the loop when looking for a type; `ecdsa` is `KEY_ECDSA`'s plain type test. -/
def typeLoop (type : Nat) (nid : Int) (ecdsa : Bool) : List Entry → HostStatus × Option Entry
  | [] => (.new, none)
  | e :: es =>
    if e.marker ≠ .none then typeLoop type nid ecdsa es
    else if e.key.type ≠ type then typeLoop type nid ecdsa es
    else if nid ≠ -1 && ecdsa && e.key.nid ≠ nid then typeLoop type nid ecdsa es
    else (.found, some e)

/-- hostfile.c:407-414 `check_key_in_hostkeys` -/
def checkKey (es : List Entry) (k : Key) : HostStatus × Option Entry :=
  if isRevoked es (some k) then (.revoked, none) else keyLoop k es (.new, none)

/-- hostfile.c:416-422 `lookup_key_in_hostkeys_by_type` (the entry found, if the result is 1; the pointer
is only set to an entry in that case). -/
def lookupType (es : List Entry) (type : Nat) (nid : Int) (ecdsa : Bool) : Option Entry :=
  if isRevoked es ((typeLoop type nid ecdsa es).2.map Entry.key) then none else (typeLoop type nid ecdsa es).2

/-! ## Replacing entries -/

/-- hostfile.c:550-592 `host_delete`: is the line written to the new file? -/
def keeps (keys : List Key) (l : Line) : Bool :=
  !(l.status = .matched && l.marker = .none) || (l.key.any fun k => keys.any fun x => equal x k)

/-- hostfile.c:564-572: the first of the given keys that the line holds. -/
def holds (keys : List Key) (l : Line) : Option Nat :=
  if l.status = .matched && l.marker = .none then
    keys.findIdx? fun x => l.key.any fun k => equal x k
  else none

/-- hostfile.c:567: `match_keys[i]` after reading the file: did some line holding key `i` match the name
(`host`) and the address? -/
def matchBits (keys : List Key) (ls : List Line) (i : Nat) : Bool × Bool :=
  (ls.any fun l => holds keys l = some i && l.matchHost, ls.any fun l => holds keys l = some i && l.matchIp)

/-- hostfile.c:436-469 `write_host_entry`; `salt` is what `arc4random_buf` gives for each hashed name. -/
def writeEntry (P : Prims) (salt : Bytes → Bytes) (hash : Bool) (host : Bytes) (ip : Option Bytes) (k : Key) :
    List Bytes :=
  if hash then
    (hashed P (salt (host.map Match.toLower)) (host.map Match.toLower) ++ 32 :: P.writeKey k) ::
      (match ip with
       | none => []
       | some ip => [hashed P (salt (ip.map Match.toLower)) (ip.map Match.toLower) ++ 32 :: P.writeKey k])
  else match ip with
    | some ip => [host.map Match.toLower ++ 44 :: ip ++ 32 :: P.writeKey k]
    | none => [host.map Match.toLower ++ 32 :: P.writeKey k]

/-- hostfile.c:651-685: the lines added for key number `i`. -/
def addFor (P : Prims) (salt : Bytes → Bytes) (hash : Bool) (host : Bytes) (ip : Option Bytes)
    (bits : Bool × Bool) (k : Key) : List Bytes :=
  match bits.1, bits.2, ip with
  | true, _, none => []
  | false, _, none => writeEntry P salt hash host none k
  | true, true, some _ => []
  | false, false, some ip => writeEntry P salt hash host (some ip) k
  | false, true, some _ => writeEntry P salt hash host none k
  | true, false, some ip => writeEntry P salt hash ip none k

/-- hostfile.c:651-685: the lines added for the keys from number `i` on. -/
def additions (P : Prims) (salt : Bytes → Bytes) (hash : Bool) (host : Bytes) (ip : Option Bytes)
    (bits : Nat → Bool × Bool) : Nat → List Key → List Bytes
  | _, [] => []
  | i, k :: ks => addFor P salt hash host ip (bits i) k ++ additions P salt hash host ip bits (i + 1) ks

/-- hostfile.c:594-737 `hostfile_replace_entries`: the lines of the file afterwards.  Without changes the old
file stays.  Failures of the file system are not modelled. -/
def replaceEntries (P : Prims) (salt : Bytes → Bytes) (hash : Bool) (host : Bytes) (ip : Option Bytes)
    (keys : List Key) (mems : List Bytes) : Option (List Bytes) :=
  match foreach P host ip false mems with
  | none => none
  | some ls => some ((ls.filter (keeps keys)).map Line.text ++
      additions P salt hash host ip (matchBits keys ls) 0 keys)

end Verif.Hostfile
