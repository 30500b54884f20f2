/-
Model of UpdateHostkeys: the server announces its host keys, the client rewrites the known hosts files
(clientloop.c:2014-2637).

Parameters: parsing of key blobs, HostkeyAlgorithms, signature checks, and what `Hostfile.Prims` has.  An
announcement or proof that cannot be split into strings changes nothing and is left out; so are messages,
signals (`quit_pending`), files that exist but cannot be read or written, and the second announcement (fatal).
-/
import Verif.Hostfile.Replace
import Verif.Wire

namespace Verif.HostKey.Update
open Verif
open _root_.Verif.Hostfile (Key Prims Line Marker Status equal foreach replaceEntries checkMarkers skipBlanks hostsOf)

/-- UpdateHostkeys. -/
inductive Mode where
  | off | yes | ask
  deriving Repr, DecidableEq

structure Env where
  P : Prims
  salt : Bytes → Bytes
  /-- HashKnownHosts -/
  hash : Bool
  mode : Mode
  batch : Bool
  /-- The name and, with CheckHostIP, the address, as written in the files. -/
  host : Bytes
  ip : Option Bytes
  /-- The user's files in order; `none` does not exist.  Each is given by the line buffers read. -/
  files : List (Option (List Bytes))
  /-- `sshkey_from_blob` -/
  parse : Bytes → Option Key
  /-- `sshkey_putb`: the blob of a key. -/
  blob : Key → Bytes
  /-- `hostkey_accepted_by_hostkeyalgs` -/
  algOk : Key → Bool
  /-- `sshkey_type_plain(key->type) == KEY_RSA` -/
  isRsa : Key → Bool
  sid : Bytes
  /-- The host key algorithm of the key exchange, if it is an RSA one. -/
  rsaKex : Option Bytes
  /-- `sshkey_get_sigtype` -/
  sigAlg : Bytes → Option Bytes
  /-- `sshkey_verify key sig data alg` -/
  verify : Key → Bytes → Bytes → Option Bytes → Bool

/-- clientloop.c:922-933 `can_update_hostkeys` -/
def canUpdate (E : Env) : Bool :=
  if E.mode = .ask && E.batch then false
  else if E.mode = .off || E.files = [] then false
  else true

/-- clientloop.c:2454-2503: the keys of the announcement; `none` if one comes twice. -/
def collect (E : Env) : List Bytes → List Key → Option (List Key)
  | [], ks => some ks
  | b :: bs, ks => match E.parse b with
    | none => collect E bs ks
    | some k =>
      if !E.algOk k then collect E bs ks
      else if k.isCert then collect E bs ks
      else if ks.any (equal k ·) then none
      else collect E bs (ks ++ [k])

/-- clientloop.c:2069-2085 `hostspec_is_complex` -/
def complex (hosts : Bytes) : Bool :=
  if 42 ∈ hosts || 63 ∈ hosts then true
  else match hosts.dropWhile (· ≠ 44) with
    | [] => false
    | _ :: r => decide (44 ∈ r)

/-- hostfile.c:811-814: `l->hosts`. -/
def hostsField (l : Line) : Bytes :=
  match checkMarkers (skipBlanks l.text) with
  | none => []
  | some (_, cp) => hostsOf cp

/-- The part of `hostkeys_update_ctx` that is filled in while reading the files. -/
structure Find where
  /-- Numbers of the keys with `keys_match` not 0. -/
  seen : List Nat := []
  old : List Key := []
  complex : Bool := false
  other : Bool := false
  deriving Repr, DecidableEq

/-- clientloop.c:2137-2166: the line counts for one of the keys, or for none. -/
def mark (keys : List Key) (k : Key) (f : Find) : Find :=
  match keys.findIdx? (equal k ·) with
  | some i => { f with seen := i :: f.seen }
  | none => { f with old := f.old ++ [k] }

/-- clientloop.c:2127-2166 -/
def markSimple (keys : List Key) (hosts : Bytes) (k : Key) (f : Find) : Find :=
  if complex hosts then { f with complex := true } else mark keys k f

/-- clientloop.c:2088-2167 `hostkeys_find` -/
def findLine (keys : List Key) (ip : Option Bytes) (f : Find) (l : Line) : Find :=
  match l.key with
  | none => f
  | some k =>
    if l.status ≠ .matched then
      if keys.any (equal k ·) then { f with other := true } else f
    else if l.marker ≠ .none then { f with complex := true }
    else if ip.isSome && decide (44 ∈ hostsField l) && !l.matchHost then { f with other := true }
    else if ip.isSome && decide (44 ∈ hostsField l) && !l.matchIp then
      markSimple keys (hostsField l) k { f with other := true }
    else markSimple keys (hostsField l) k f

/-- Reading the files that exist; `none` is a read beyond the buffer (see `Hostfile`). -/
def readAll (E : Env) : List (Option (List Bytes)) → Option (List Line)
  | [] => some []
  | none :: fs => readAll E fs
  | some mems :: fs => match foreach E.P E.host E.ip false mems with
    | none => none
    | some ls => (readAll E fs).map (ls ++ ·)

/-- clientloop.c:2170-2192 `hostkeys_check_old` -/
def oldElsewhere (old : List Key) (ls : List Line) : Bool :=
  ls.any fun l => decide (l.status ≠ .matched) && l.key.any fun k => old.any (equal k ·)

/-- What the client decides to do. -/
inductive Plan where
  | nothing
  /-- Rewrite the files at once. -/
  | update (keys : List Key)
  /-- Ask for proof of the keys marked `false`. -/
  | prove (keys : List (Key × Bool))
  | overrun
  deriving Repr, DecidableEq

/-- The keys, and whether each was seen in the files. -/
def marked (keys : List Key) (seen : List Nat) : List (Key × Bool) := keys.mapIdx fun i k => (k, decide (i ∈ seen))

/-- clientloop.c:2537-2617: what to do, after the files were read. -/
def decide_ (keys : List Key) (f : Find) (ls : List Line) : Plan :=
  if (marked keys f.seen).all Prod.snd && f.old.isEmpty then .nothing
  else if f.complex then .nothing
  else if f.other then .nothing
  else if !f.old.isEmpty && oldElsewhere f.old ls then .nothing
  else if (marked keys f.seen).all Prod.snd then .update keys
  else .prove (marked keys f.seen)

/-- clientloop.c:2505-2617 -/
def plan (E : Env) (keys : List Key) : Plan :=
  if keys = [] then .nothing
  else match readAll E E.files with
    | none => .overrun
    | some ls => decide_ keys (ls.foldl (findLine keys E.ip) {}) ls

/-- clientloop.c:2433-2637 `client_input_hostkeys` -/
def announce (E : Env) (blobs : List Bytes) : Plan :=
  if !canUpdate E then .nothing
  else match collect E blobs [] with
    | none => .nothing
    | some keys => plan E keys

/-- clientloop.c:2363-2369: what the server signs for a key. -/
def proofData (E : Env) (k : Key) : Bytes :=
  Wire.str b!"hostkeys-prove-00@openssh.com" ++ Wire.str E.sid ++ Wire.str (E.blob k)

/-- clientloop.c:119 -/
def proofRsaAlgs : List Bytes := [b!"rsa-sha2-512", b!"rsa-sha2-256"]

/-- clientloop.c:2360-2412: the keys to be kept; `none` gives up.  A list without wildcards matches exactly
its names. -/
def prove (E : Env) : List (Key × Bool) → List Bytes → Option (List Key)
  | [], [] => some []
  | [], _ :: _ => none
  | (k, true) :: ks, sigs => (prove E ks sigs).map (k :: ·)
  | (_, false) :: _, [] => none
  | (k, false) :: ks, sig :: sigs => match E.sigAlg sig with
    | none => none
    | some alg =>
      if E.isRsa k && E.rsaKex.isNone && decide (alg ∉ proofRsaAlgs) then prove E ks sigs
      else if !E.verify k sig (proofData E k) (if E.isRsa k then E.rsaKex else none) then none
      else (prove E ks sigs).map (k :: ·)

/-- `strcasecmp` with a lower-case text. -/
def says (s w : Bytes) : Bool := s.map Match.toLower = w

/-- clientloop.c:2271-2290: the question; `n` tries are left. -/
def ask : Nat → List Bytes → Bool
  | 0, _ => false
  | _ + 1, [] => false
  | n + 1, r :: rs => if says r b!"yes" then true else if says r b!"no" then false else ask n rs

/-- clientloop.c:2302-2326: the lines of each file afterwards.  A file with an overrun is left out of account
(`Hostfile.replaceEntries`). -/
def write (E : Env) (keys : List Key) : List (Option (List Bytes)) :=
  E.files.mapIdx fun i f => f.bind fun mems =>
    replaceEntries E.P E.salt E.hash E.host E.ip (if i = 0 then keys else []) mems

/-- clientloop.c:2234-2327 `update_known_hosts`; `none` leaves the files as they are. -/
def update (E : Env) (keys : List Key) (replies : List Bytes) : Option (List (Option (List Bytes))) :=
  if E.mode = .ask && !ask 3 replies then none else some (write E keys)

/-- clientloop.c:2329-2426 `client_global_hostkeys_prove_confirm`; `none` is a failure reply. -/
def confirm (E : Env) (ks : List (Key × Bool)) (answer : Option (List Bytes)) (replies : List Bytes) :
    Option (List (Option (List Bytes))) :=
  match answer with
  | none => none
  | some sigs => match prove E ks sigs with
    | none => none
    | some keys => update E keys replies

/-- The whole exchange: the announcement, the server's answer to the request for proof and the user's replies. -/
def run (E : Env) (blobs : List Bytes) (answer : Option (List Bytes)) (replies : List Bytes) :
    Option (List (Option (List Bytes))) :=
  match announce E blobs with
  | .nothing => none
  | .overrun => none
  | .update keys => update E keys replies
  | .prove ks => confirm E ks answer replies

end Verif.HostKey.Update
