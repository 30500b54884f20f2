/-
The client's decision about the server's host key (sshconnect.c).
-/
import Verif.Hostfile.Model

namespace Verif.HostKey
open Verif Verif.Hostfile

/-! ## Keys -/

/-- sshkey.h:63-79: the numbers of the key types used here. -/
scoped notation "KEY_RSA" => 0
scoped notation "KEY_RSA_CERT" => 4
scoped notation "KEY_UNSPEC" => 14

/-- sshkey.c:448-469 `sshkey_type_plain` through the table of key types. -/
def plainType : Nat → Nat
  | 4 => 0 | 5 => 1 | 6 => 2 | 7 => 3 | 9 => 8 | 11 => 10 | 13 => 12
  | n => n

/-- sshkey.c:2265-2274 `sshkey_drop_cert` -/
def dropCert (k : Key) : Option Key :=
  if k.isCert then some { k with cert := none, type := plainType k.type } else none

/-! ## What is looked at -/

/-- `struct hostkey_entry` with the file it comes from and its note (set for `KnownHostsCommand`). -/
structure Ent where
  entry : Entry
  file : Bytes
  note : Bool := false
  deriving Repr, DecidableEq

/-- readconf.h:225-228 -/
inductive Strict where
  | off | new | yes | ask
  deriving Repr, DecidableEq

/-- The options that are only read. -/
structure Cfg where
  noHostAuth : Bool := false
  alias : Option Bytes := none
  proxy : Bool := false
  strict : Strict := .ask
  batch : Bool := false
  hash : Bool := false
  exitOnFail : Bool := false
  hostkeyAlgs : Bytes
  userFiles : List Bytes
  sysFiles : List Bytes
  command : Bool := false

/-- The options that the check may change. -/
structure Opts where
  password : Bool := true
  kbdint : Bool := true
  agent : Bool := false
  x11 : Bool := false
  lfwd : Nat := 0
  rfwd : Nat := 0
  tun : Bool := false
  update : Bool := true
  checkIp : Bool := false
  deriving Repr, DecidableEq

/-- The server as the caller describes it: the name asked for, its address as text, whether that is a
loopback address (sshconnect.c:602-615), and the port. -/
structure Srv where
  hostname : Bytes
  addr : Bytes
  isLocal : Bool
  port : Nat

/-- What the code calls.  `known n` are the lines of the user's and then of the system's files that apply to
the name `n` (`load_hostkeys`; see `Verif.Hostfile.load`); `cmd` is `load_hostkeys_command`, `none` being
its fatal failure; `certOk` is `sshkey_cert_check_host`; `addOk` tells whether a line can be appended. -/
structure World where
  known : Bytes → List Ent
  cmd : Bytes → Key → Bytes → Option (List Ent)
  certOk : Key → Bytes → Bool
  keyName : Key → Bytes
  fp : Key → Bytes
  addOk : Bytes → Bool

/-- What changes: the options, the replies the user has yet to type, and the lines added to the user's first
file, as names and key. -/
structure St where
  opts : Opts
  replies : List Bytes
  adds : List (Bytes × Key) := []

/-- `readonly`: `RDRW`, `RDONLY`, `ROQUIET` -/
inductive RO where
  | rw | ro | quiet
  deriving Repr, DecidableEq

/-- How the check ends; `crash` is the use of a null pointer. -/
inductive Res where
  | accept | refuse | fatal | crash
  deriving Repr, DecidableEq

/-! ## Small functions -/

def lower (c : UInt8) : UInt8 := if 65 ≤ c ∧ c ≤ 90 then c + 32 else c

/-- The word in a reply: sshconnect.c:589-590. -/
def replyWord (s : Bytes) : Bytes :=
  (s.dropWhile fun c => c = 32 || c = 9).takeWhile fun c => !(c = 32 || c = 9 || c = 10)

/-- sshconnect.c:591-595: is the reply no (`some false`), yes, or neither? -/
def judge (fp : Option Bytes) (w : Bytes) : Option Bool :=
  if w = [] || w.map lower = b!"no" then some false
  else if w.map lower = b!"yes" || fp = some w then some true
  else none

/-- sshconnect.c:586-599: the loop of `confirm`; the end of the replies is `read_passphrase` giving up. -/
def confirmLoop (fp : Option Bytes) : List Bytes → Bool × List Bytes
  | [] => (false, [])
  | r :: rs => match judge fp (replyWord r) with
    | some b => (b, rs)
    | none => confirmLoop fp rs

/-- sshconnect.c:575-600 `confirm` -/
def confirm (batch : Bool) (fp : Option Bytes) (rs : List Bytes) : Bool × List Bytes :=
  if batch then (false, rs) else confirmLoop fp rs

/-- Decimal digits. -/
def decimal (n : Nat) : Bytes := (Nat.toDigits 10 n).map fun c => c.toNat.toUInt8

/-- misc.c:725-736 `put_host_port` -/
def putHostPort (host : Bytes) (port : Nat) : Bytes :=
  if port = 0 ∨ port = 22 then host else b!"[" ++ host ++ b!"]:" ++ decimal port

/-- sshconnect.c:621-673 `get_hostfile_hostname_ipaddr`: the name. -/
def hostName (C : Cfg) (H : Srv) (port : Nat) : Bytes :=
  match C.alias with
  | some a => a
  | none => putHostPort H.hostname port

/-- sshconnect.c:621-673 `get_hostfile_hostname_ipaddr`: the address. -/
def ipName (C : Cfg) (H : Srv) (port : Nat) : Bytes :=
  if C.proxy then b!"<no hostip for proxy command>" else putHostPort H.addr port

/-- sshconnect.c:725-742 `hostkey_accepted_by_hostkeyalgs` -/
def algOk (C : Cfg) (W : World) (k : Key) : Bool :=
  if k.type = KEY_UNSPEC then false
  else if k.type = KEY_RSA ∧ (Match.matchPatternList b!"rsa-sha2-256" C.hostkeyAlgs false = 1 ∨
      Match.matchPatternList b!"rsa-sha2-512" C.hostkeyAlgs false = 1) then true
  else if k.type = KEY_RSA_CERT ∧
      (Match.matchPatternList b!"rsa-sha2-512-cert-v01@openssh.com" C.hostkeyAlgs false = 1 ∨
      Match.matchPatternList b!"rsa-sha2-256-cert-v01@openssh.com" C.hostkeyAlgs false = 1) then true
  else decide (Match.matchPatternList (W.keyName k) C.hostkeyAlgs false = 1)

/-- hostfile.c:361-398: the loop of `check_hostkeys_by_key_or_type`, as `Hostfile.keyLoop`, keeping where an
entry comes from. -/
def findLoop (k : Key) : List Ent → HostStatus × Option Ent → HostStatus × Option Ent
  | [], acc => acc
  | e :: es, acc =>
    if e.entry.marker ≠ (if k.isCert then Marker.ca else Marker.none) then findLoop k es acc
    else if k.isCert then
      if k.cert.any fun c => c.2 = e.entry.key.pub then (.ok, some e) else findLoop k es acc
    else if equal k e.entry.key then (.ok, some e)
    else findLoop k es (.changed, some e)

/-- hostfile.c:407-414 `check_key_in_hostkeys` -/
def findKey (es : List Ent) (k : Key) : HostStatus × Option Ent :=
  if isRevoked (es.map Ent.entry) (some k) then (.revoked, none) else findLoop k es (.new, none)

/-- A character that must not be written to the file as part of a name: sshconnect.c:999. -/
def oddName (hostname : Bytes) : Bool := hostname.any fun c => b!"@?*#[]|'\"\\".contains c

/-! ## The check -/

/-- One pass through the label `retry`: either the check is over, or it went to `fail` — with the status of
the key, or without one if the key's algorithm is not accepted. -/
inductive Out where
  | done (r : Res) (s : St)
  | fail (status : Option HostStatus) (ro : RO) (s : St)

/-- What one pass works with: the names and the loaded lines. -/
structure Ctx where
  host : Bytes
  ip : Bytes
  hostKeys : List Ent
  ipKeys : Option (List Ent)
  port : Nat
  clobber : Bool

/-- What the pass has found out about the key. -/
structure Found where
  status : HostStatus
  ent : Option Ent
  ipStatus : HostStatus
  ipEnt : Option Ent

/-- sshconnect.c:1050-1079: the lookups. -/
def found (X : Ctx) (k : Key) : Found :=
  match (if k.isCert then none else X.ipKeys) with
  | some es => ⟨(findKey X.hostKeys k).1, (findKey X.hostKeys k).2, (findKey es k).1, (findKey es k).2⟩
  | none => ⟨(findKey X.hostKeys k).1, (findKey X.hostKeys k).2, (findKey X.hostKeys k).1, none⟩

/-- sshconnect.c:1057-1059: a file is only written if there is one and the key did not come from the command. -/
def settle (C : Cfg) (F : Found) (ro : RO) : RO :=
  if ro = .rw ∧ (C.userFiles = [] ∨ F.ent.any Ent.note) then .ro else ro

/-- `add_host_to_hostfile` (hostfile.c:506-534) as far as it matters here. -/
def add (W : World) (names : Bytes) (k : Key) (s : St) : St :=
  if W.addOk names then { s with adds := s.adds ++ [(names, k)] } else s

def noUpdate (s : St) : St := { s with opts := { s.opts with update := false } }

/-- sshconnect.c:1386-1423: after the `switch`. -/
def afterSwitch (C : Cfg) (F : Found) (ro : RO) (trusted : Bool) (s : St) : Out :=
  if s.opts.checkIp ∧ F.status ≠ .changed ∧ F.ipStatus = .changed then
    match C.strict with
    | .ask =>
      if (confirm C.batch none s.replies).1 then
        .done .accept (if trusted then { s with replies := (confirm C.batch none s.replies).2 }
          else noUpdate { s with replies := (confirm C.batch none s.replies).2 })
      else .fail (some F.status) ro { s with replies := (confirm C.batch none s.replies).2 }
    | .off => .done .accept (if trusted then s else noUpdate s)
    | _ => .fail (some F.status) ro s
  else .done .accept (if trusted then s else noUpdate s)

/-- sshconnect.c:1100-1126: reasons to turn off the learning of further keys. -/
def okUpdate (C : Cfg) (F : Found) (k : Key) (s : St) : St :=
  if k.isCert || F.ent.any (fun e => C.sysFiles.contains e.file) ||
      (decide (F.ipStatus = .ok) && F.ipEnt.any (fun e => C.sysFiles.contains e.file)) || F.ent.any Ent.note
  then noUpdate s else s

/-- sshconnect.c:1127-1141: the key is also recorded under the address. -/
def okAdd (W : World) (X : Ctx) (F : Found) (k : Key) (ro : RO) (s : St) : St :=
  if s.opts.checkIp ∧ F.ipStatus = .new ∧ ro = .rw ∧ !k.isCert then add W X.ip k s else s

/-- sshconnect.c:1082-1156: `HOST_OK` -/
def caseOk (C : Cfg) (W : World) (H : Srv) (X : Ctx) (F : Found) (k : Key) (ro : RO) (s : St) : Out :=
  if k.isCert && !W.certOk k (C.alias.getD H.hostname) then .fail (some .ok) ro s
  else afterSwitch C F ro true (okAdd W X F k ro (okUpdate C F k s))

/-- sshconnect.c:1224-1250: recording a new key. -/
def record (C : Cfg) (W : World) (X : Ctx) (F : Found) (k : Key) (s : St) : St :=
  if s.opts.checkIp ∧ F.ipStatus = .new then
    if C.hash then
      if W.addOk X.host then add W X.ip k (add W X.host k s) else s
    else add W ((X.host ++ b!"," ++ X.ip).take 999) k s
  else add W X.host k s

/-- sshconnect.c:1169-1257: `HOST_NEW` without a match for the bare name. -/
def caseNew (C : Cfg) (W : World) (X : Ctx) (F : Found) (k : Key) (ro : RO) (s : St) : Out :=
  if ro ≠ .rw ∨ k.isCert then .fail (some .new) ro s
  else match C.strict with
    | .yes => .fail (some .new) ro s
    | .ask =>
      if (confirm C.batch (some (W.fp k)) s.replies).1 then
        afterSwitch C F ro true (record C W X F k { s with replies := (confirm C.batch (some (W.fp k)) s.replies).2 })
      else .fail (some .new) ro { s with replies := (confirm C.batch (some (W.fp k)) s.replies).2 }
    | _ => afterSwitch C F ro false (record C W X F k s)

/-- sshconnect.c:1158-1168: `HOST_NEW`; `nested` is the check without the port. -/
def caseNewPort (C : Cfg) (W : World) (X : Ctx) (F : Found) (nested : Key → St → Res × St) (k : Key) (ro : RO)
    (s : St) : Out :=
  if C.alias = none ∧ X.port ≠ 0 ∧ X.port ≠ 22 ∧ !X.clobber then
    match nested k s with
    | (.accept, s') => afterSwitch C F ro false s'
    | (.refuse, s') => caseNew C W X F k ro s'
    | (r, s') => .done r s'
  else caseNew C W X F k ro s

/-- sshconnect.c:1322-1365: was anything turned off? -/
def cancels (o : Opts) : Bool :=
  o.password || o.kbdint || o.agent || o.x11 || decide (0 < o.lfwd) || decide (0 < o.rfwd) || o.tun

/-- sshconnect.c:1322-1370: what is turned off. -/
def disarm (o : Opts) : Opts :=
  { password := false, kbdint := false, agent := false, x11 := false, lfwd := 0, rfwd := 0, tun := false
    update := false, checkIp := o.checkIp }

/-- sshconnect.c:1316-1382: `continue_unsafe` -/
def unsafe_ (C : Cfg) (F : Found) (ro : RO) (s : St) : Out :=
  if C.exitOnFail && cancels s.opts then .done .fatal { s with opts := disarm s.opts }
  else afterSwitch C F ro false { s with opts := disarm s.opts }

/-- sshconnect.c:1258-1277: `HOST_REVOKED` -/
def caseRevoked (C : Cfg) (F : Found) (ro : RO) (s : St) : Out :=
  if C.strict ≠ .off then .fail (some .revoked) ro s else unsafe_ C F ro s

/-- sshconnect.c:1068-1073: does the address tell a different story? -/
def ipDiffers (F : Found) : Bool :=
  F.ipStatus ≠ .changed || F.ipEnt.any fun i => F.ent.any fun h => !equal i.entry.key h.entry.key

/-- sshconnect.c:1279-1314: `HOST_CHANGED`.  The message at 1305-1307 uses `ip_found`, which is null if the
key is revoked for the address. -/
def caseChanged (C : Cfg) (F : Found) (hasIp : Bool) (k : Key) (ro : RO) (s : St) : Out :=
  if k.isCert then .fail (some .changed) ro s
  else if ro = .quiet then .fail (some .changed) ro s
  else if s.opts.checkIp && hasIp && ipDiffers F && decide (F.ipStatus ≠ .new) && F.ipEnt.isNone then .done .crash s
  else if C.strict ≠ .off then .fail (some .changed) ro s
  else unsafe_ C F ro s

/-- sshconnect.c:1036-1423: one pass. -/
def pass (C : Cfg) (W : World) (H : Srv) (X : Ctx) (nested : Key → St → Res × St) (k : Key) (ro : RO) (s : St) :
    Out :=
  if !algOk C W k then .fail none ro s
  else match (found X k).status with
    | .ok => caseOk C W H X (found X k) k (settle C (found X k) ro) s
    | .new => caseNewPort C W X (found X k) nested k (settle C (found X k) ro) s
    | .revoked => caseRevoked C (found X k) (settle C (found X k) ro) s
    | .changed => caseChanged C (found X k) (X.ipKeys.isSome && !k.isCert) k (settle C (found X k) ro) s
    | .found => .done .fatal s

/-- sshconnect.c:1434-1467: the pass with the plain key of a certificate.  If its algorithm is not accepted,
`want_cert` is still set and dropping the certificate again is fatal. -/
def second (C : Cfg) (W : World) (H : Srv) (X : Ctx) (nested : Key → St → Res × St) (k : Key) (ro : RO) (s : St) :
    Res × St :=
  match pass C W H X nested k ro s with
  | .done r s' => (r, s')
  | .fail none _ s' => (.fatal, s')
  | .fail (some _) _ s' => (.refuse, s')

/-- sshconnect.c:1434-1467: both passes. -/
def passes (C : Cfg) (W : World) (H : Srv) (X : Ctx) (nested : Key → St → Res × St) (k : Key) (ro : RO) (s : St) :
    Res × St :=
  match pass C W H X nested k ro s with
  | .done r s' => (r, s')
  | .fail st ro' s' =>
    if k.isCert && decide (st ≠ some .revoked) then
      match dropCert k with
      | some raw => second C W H X nested raw ro' s'
      | none => (.fatal, s')
    else (.refuse, s')

/-- sshconnect.c:1011-1017: when the address is not checked. -/
def tuneIp (C : Cfg) (H : Srv) (ip : Bytes) (s : St) : St :=
  if s.opts.checkIp && (H.isLocal || decide (H.hostname = ip) || C.proxy) then
    { s with opts := { s.opts with checkIp := false } }
  else s

/-- sshconnect.c:1019-1028 and 1030-1034: the lines for a name, from the files and from the command. -/
def lines (C : Cfg) (W : World) (clobber : Bool) (inv : Bytes) (k : Key) (name : Bytes) : Option (List Ent) :=
  if C.command && !clobber then (W.cmd inv k name).map fun es => W.known name ++ es else some (W.known name)

/-- sshconnect.c:1030-1034: the lines for the address, if it is checked. -/
def ipLines (C : Cfg) (W : World) (clobber : Bool) (k : Key) (ip : Bytes) (s : St) : Option (Option (List Ent)) :=
  if !k.isCert && s.opts.checkIp then (lines C W clobber b!"ADDRESS" k ip).map some else some none

/-- sshconnect.c:956-1467 `check_host_key` with the check without the port as a parameter. -/
def checkWith (C : Cfg) (W : World) (H : Srv) (nested : Key → St → Res × St) (port : Nat) (clobber : Bool) (k : Key)
    (ro : RO) (s : St) : Res × St :=
  if C.noHostAuth ∧ H.isLocal ∧ C.alias = none then (.accept, noUpdate s)
  else match lines C W clobber b!"HOSTNAME" k (hostName C H (if clobber then 0 else port)) with
    | none => (.fatal, s)
    | some hk =>
      match ipLines C W clobber k (ipName C H (if clobber then 0 else port))
          (tuneIp C H (ipName C H (if clobber then 0 else port)) s) with
      | none => (.fatal, s)
      | some ik =>
        passes C W H ⟨hostName C H (if clobber then 0 else port), ipName C H (if clobber then 0 else port), hk, ik,
          port, clobber⟩ nested k (if oddName H.hostname then .ro else ro)
          (tuneIp C H (ipName C H (if clobber then 0 else port)) s)

/-- sshconnect.c:1161-1165: the check without the port. -/
def portless (C : Cfg) (W : World) (H : Srv) (k : Key) (s : St) : Res × St :=
  checkWith C W H (fun _ s => (.refuse, s)) 0 true k .quiet s

/-- sshconnect.c:956-1467 `check_host_key` -/
def check (C : Cfg) (W : World) (H : Srv) (k : Key) (s : St) : Res × St :=
  checkWith C W H (portless C W H) H.port false k .rw s

/-! ## The whole -/

/-- What `RevokedHostKeys` and DNS say: `clean` is `none` without the option, otherwise it is true of a key if
`sshkey_check_revoked` returns 0; `dns` is whether `VerifyHostKeyDNS` is `yes` (not `ask`) and the answer
has `DNS_VERIFY_FOUND`, `DNS_VERIFY_MATCH` and `DNS_VERIFY_SECURE` for the plain key. -/
structure Extra where
  clean : Option (Key → Bool)
  dns : Key → Bool

/-- sshconnect.c:1470-1581 `verify_host_key` -/
def verify (C : Cfg) (W : World) (H : Srv) (E : Extra) (prev : Option Key) (k : Key) (s : St) :
    Res × Option Key × St :=
  if prev.any fun p => equal p k then (.accept, some k, s)
  else if E.clean.any fun f => !f k then (.refuse, prev, s)
  else if E.dns ((dropCert k).getD k) then (.accept, some k, s)
  else match check C W H k s with
    | (.accept, s') => (.accept, some k, s')
    | (r, s') => (r, prev, s')

end Verif.HostKey
