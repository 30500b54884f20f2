/-
Model of host-based authentication: the files of trusted hosts (auth-rhosts.c), the server (auth2-hostbased.c), and the helper
that signs for the client (ssh-keysign.c).

The file system, netgroups, parsing and verification of keys are parameters.  Known-hosts files are as in `Verif.Hostfile`.
-/
import Verif.WireMore
import Verif.Num
import Verif.Hostfile.Model
import Verif.KeyOpts.Model
import Verif.UserKey.Model

namespace Verif.HostBased
open Verif Wire
open _root_.Verif.UserKey (Stat User badStat)

/-! ### Files of trusted hosts -/

/-- `fgets` with a buffer of 1024 bytes: pieces that end with a newline or have 1023 bytes; `n` is the room left but one, and
`acc` what has been read, reversed -/
def pieces : Nat → Bytes → Bytes → List Bytes
  | _, acc, [] => if acc = [] then [] else [acc.reverse]
  | 0, acc, c :: l => (c :: acc).reverse :: pieces 1022 [] l
  | n + 1, acc, c :: l => if c = 10 then (c :: acc).reverse :: pieces 1022 [] l else pieces n (c :: acc) l

/-- A buffer as a string. -/
def cut (b : Bytes) : Bytes := b.takeWhile (· ≠ 0)

/-- The words that `sscanf` with "%1023s %1023s %1023s" can take; no piece is longer than 1023 bytes.  `acc` is the beginning of
the word, reversed. -/
def words : Bytes → Bytes → List Bytes
  | acc, [] => if acc = [] then [] else [acc.reverse]
  | acc, c :: l =>
    if Num.isSpace c then (if acc = [] then words [] l else acc.reverse :: words [] l) else words (c :: acc) l

/-- auth-rhosts.c:91-101: the line is passed over -/
def skipped (cp : Bytes) : Bool := cp = [] ∨ cp.head? = some 35 ∨ cp.head? = some 10 ∨ b!"NO_PLUS".isPrefixOf cp

/-- auth-rhosts.c:107-125: the fields for host and user -/
def hostUser (serverUser : Bytes) : List Bytes → Option (Bytes × Bytes)
  | [h] => some (h, serverUser.take 1023)
  | [h, u] => some (h, u)
  | _ => none

/-- auth-rhosts.c:131-142: a sign is removed; is it a minus? -/
def sign : Bytes → Bool × Bytes
  | [] => (false, [])
  | c :: l => if c = 45 then (true, l) else if c = 43 then (false, l) else (false, c :: l)

/-- A group of hosts or users: `innetgr` with the name of the group and of the host or user. -/
structure Groups where
  host : Bytes → Bytes → Bool
  user : Bytes → Bytes → Bool

/-- auth-rhosts.c:152-158 -/
def hostMatch (G : Groups) (hostname ip : Bytes) (h : Bytes) : Bool :=
  if h.head? = some 64 then G.host (h.drop 1) hostname || G.host (h.drop 1) ip
  else h.map Match.toLower = hostname.map Match.toLower || h = ip

/-- auth-rhosts.c:161-165 -/
def userMatch (G : Groups) (client : Bytes) (u : Bytes) : Bool :=
  if u.head? = some 64 then G.user (u.drop 1) client else u = client

/-- auth-rhosts.c:127-177: a line that matches gives the verdict -/
def lineVerdict (G : Groups) (hostname ip client : Bytes) (h u : Bytes) : Option Bool :=
  if (sign h).2 = [] ∨ (sign u).2 = [] then none
  else if hostMatch G hostname ip (sign h).2 = false then none
  else if userMatch G client (sign u).2 = false then none
  else some (!((sign h).1 || (sign u).1))

/-- auth-rhosts.c:86-177: one line -/
def line (G : Groups) (hostname ip client server : Bytes) (buf : Bytes) : Option Bool :=
  if skipped (buf.dropWhile fun c => c = 32 ∨ c = 9) then none
  else
    match hostUser server (words [] buf) with
    | none => none
    | some (h, u) => lineVerdict G hostname ip client h u

/-- auth-rhosts.c:85-182: the first line that gives a verdict -/
def lines (G : Groups) (hostname ip client server : Bytes) : List Bytes → Bool
  | [] => false
  | b :: bs =>
    match line G hostname ip client server (cut b) with
    | some v => v
    | none => lines G hostname ip client server bs

/-- The file system: `open` and `fstat`, with the contents; and `stat`. -/
structure Files where
  openf : Bytes → Option (Stat × Bytes)
  stat : Bytes → Option Stat

/-- auth-rhosts.c:56-183 `check_rhosts_file` -/
def checkFile (F : Files) (G : Groups) (file hostname ip client server : Bytes) : Bool :=
  match F.openf file with
  | none => false
  | some (st, content) =>
    if st.regular = false then false else lines G hostname ip client server (pieces 1022 [] content)

/-- IgnoreRhosts -/
inductive Ignore where
  | no | yes | shosts
  deriving DecidableEq, Repr

/-- The options concerned. -/
structure Conf where
  strict : Bool
  ignore : Ignore
  /-- HostbasedAcceptedAlgorithms -/
  accepted : Bytes
  /-- HostbasedUsesNameFromPacketOnly -/
  nameFromPacket : Bool
  /-- IgnoreUserKnownHosts -/
  ignoreKnown : Bool

/-- auth-rhosts.c:282-317: may the file in the home directory be used? -/
def usable (F : Files) (C : Conf) (pw : User) (name : Bytes) : Bool :=
  match F.stat (pw.dir ++ 47 :: name) with
  | none => false
  | some st =>
    if C.strict = true ∧ badStat pw.uid st = true then false
    else if C.ignore = .yes ∨ (C.ignore = .shosts ∧ name ≠ b!".shosts") then false
    else true

/-- auth-rhosts.c:279-336: the files in the home directory -/
def userFiles (F : Files) (G : Groups) (C : Conf) (pw : User) (client hostname ip : Bytes) : List Bytes → Bool
  | [] => false
  | n :: ns =>
    if usable F C pw n = true ∧ checkFile F G (pw.dir ++ 47 :: n) hostname ip client pw.name = true then true
    else userFiles F G C pw client hostname ip ns

/-- auth-rhosts.c:235-254: the files of the system -/
def systemFiles (F : Files) (G : Groups) (pw : User) (client hostname ip : Bytes) : Bool :=
  if pw.uid = 0 then false
  else if checkFile F G b!"/etc/hosts.equiv" hostname ip client pw.name then true
  else checkFile F G b!"/etc/ssh/shosts.equiv" hostname ip client pw.name

/-- auth-rhosts.c:256-276: the home directory will do -/
def homeOk (F : Files) (C : Conf) (pw : User) : Bool :=
  match F.stat pw.dir with
  | none => false
  | some st => !(C.strict && badStat pw.uid st)

/-- auth-rhosts.c:203-233: none of the files exists -/
def noFiles (F : Files) (pw : User) : Bool :=
  F.stat (pw.dir ++ 47 :: b!".shosts") = none ∧ F.stat (pw.dir ++ 47 :: b!".rhosts") = none ∧
  F.stat b!"/etc/hosts.equiv" = none ∧ F.stat b!"/etc/ssh/shosts.equiv" = none

/-- auth-rhosts.c:190-337 `auth_rhosts2` -/
def rhosts (F : Files) (G : Groups) (C : Conf) (pw : User) (client hostname ip : Bytes) : Bool :=
  if noFiles F pw then false
  else if systemFiles F G pw client hostname ip then true
  else if homeOk F C pw = false then false
  else userFiles F G C pw client hostname ip [b!".shosts", b!".rhosts"]

/-! ### The server -/

open _root_.Verif.Hostfile (Entry HostStatus)

/-- What is known of hosts and keys. -/
structure World where
  files : Files
  groups : Groups
  /-- lines of the system-wide file that apply to the name: `ssh_known_hosts`, and `ssh_known_hosts2` -/
  sysKnown : Bool → Bytes → List Entry
  /-- lines of the user's file: `~/.ssh/known_hosts`, and `~/.ssh/known_hosts2`, with what `stat` says of it -/
  userKnown : Bool → Bytes → Option Stat × List Entry
  /-- `auth_key_is_revoked` -/
  revoked : Hostfile.Key → Bool
  /-- the contents of a certificate -/
  cert : Hostfile.Key → KeyOpts.Cert
  now : Int
  /-- name and address of the client as the server finds them -/
  resolved : Bytes
  ip : Bytes
  /-- `sshkey_type_from_name` -/
  typeOf : Bytes → Option Nat
  /-- `sshkey_from_blob` -/
  parse : Bytes → Option Hostfile.Key
  /-- `sshkey_check_cert_sigtype` and `sshkey_check_rsa_length` -/
  keyOk : Hostfile.Key → Bool
  /-- `sshkey_verify`: key, signature, data, algorithm -/
  verify : Hostfile.Key → Bytes → Bytes → Bytes → Bool

/-- auth.c:416-459 `check_key_in_hostfiles`; `second` selects the files with the 2 -/
def inHostfiles (W : World) (C : Conf) (pw : User) (second : Bool) (key : Hostfile.Key) (host : Bytes) : HostStatus :=
  (Hostfile.checkKey
    (W.sysKnown second host ++
      (if C.ignoreKnown then []
       else if C.strict = true ∧ ((W.userKnown second host).1.any (badStat pw.uid)) = true then []
       else (W.userKnown second host).2)) key).1

/-- auth2-hostbased.c:187-190 -/
def stripDot (h : Bytes) : Bytes := if h.getLast? = some 46 then h.dropLast else h

/-- auth2-hostbased.c:192-211: the name under which the key is looked up, if the client may come from there -/
def lookup (W : World) (C : Conf) (pw : User) (cuser chost : Bytes) : Option Bytes :=
  if C.nameFromPacket then
    if rhosts W.files W.groups C pw cuser chost chost then some chost else none
  else if rhosts W.files W.groups C pw cuser W.resolved W.ip then some W.resolved else none

/-- auth2-hostbased.c:221-231: the status, with the second pair of files if nothing is known -/
def status (W : World) (C : Conf) (pw : User) (key : Hostfile.Key) (host : Bytes) : HostStatus :=
  if inHostfiles W C pw false key host = .new then inHostfiles W C pw true key host else inHostfiles W C pw false key host

/-- auth2-hostbased.c:169-253 `hostbased_key_allowed` -/
def keyAllowed (W : World) (C : Conf) (pw : User) (cuser chost : Bytes) (key : Hostfile.Key) : Bool :=
  if W.revoked key then false
  else
    match lookup W C pw cuser (stripDot chost) with
    | none => false
    | some name =>
      if key.isCert = true ∧ KeyOpts.certCheckNow (W.cert key) true false false W.now (some name) = false then false
      else status W C pw key name = .ok

/-- The connection. -/
structure Session where
  id : Bytes
  /-- the user is known and may log in -/
  valid : Bool
  user : Bytes
  service : Bytes

/-- auth2-hostbased.c:128-138: the packet as it was signed -/
def signedData (s : Session) (method alg blob chost cuser : Bytes) : Bytes :=
  str s.id ++ be 1 50 ++ str s.user ++ str s.service ++ str method ++ str alg ++ str blob ++ str chost ++ str cuser

/-- The fields of the request. -/
structure Req where
  alg : Bytes
  blob : Bytes
  chost : Bytes
  cuser : Bytes
  sig : Bytes
  deriving DecidableEq, Repr

/-- auth2-hostbased.c:71-76: what follows the signature is not looked at -/
def getReq (b : Bytes) : Option Req :=
  match getCstr b with
  | none => none
  | some (alg, b) =>
    match getStr b with
    | none => none
    | some (blob, b) =>
      match getCstr b with
      | none => none
      | some (chost, b) =>
        match getCstr b with
        | none => none
        | some (cuser, b) =>
          match getStr b with
          | none => none
          | some (sig, _) => some ⟨alg, blob, chost, cuser, sig⟩

/-- auth2-hostbased.c:84-119: the key, if it may be tried -/
def getKey (W : World) (C : Conf) (alg blob : Bytes) : Option Hostfile.Key :=
  match W.typeOf alg with
  | none => none
  | some t =>
    match W.parse blob with
    | none => none
    | some k =>
      if k.type ≠ t then none
      else if Match.matchPatternList alg C.accepted false ≠ 1 then none
      else if W.keyOk k = false then none
      else some k

inductive Res where
  /-- the connection ends -/
  | fatal
  | refused
  | accepted
  deriving DecidableEq, Repr

/-- auth2-hostbased.c:59-166 `userauth_hostbased`; `b` is the request from after the name of the method -/
def userauth (W : World) (C : Conf) (pw : User) (s : Session) (method b : Bytes) : Res :=
  match getReq b with
  | none => .fatal
  | some r =>
    match getKey W C r.alg r.blob with
    | none => .refused
    | some k =>
      if s.valid = false then .refused
      else if keyAllowed W C pw r.cuser r.chost k = true ∧
          W.verify k r.sig (signedData s method r.alg r.blob r.chost r.cuser) r.alg = true then .accepted
      else .refused

/-! ### Signing for the client -/

/-- ssh-keysign.c:131-141: the name of this host and a dot; the length is at least 1, as otherwise `len - 1` is not that of a
name -/
def isHost (host p : Bytes) : Bool :=
  if host.length + 1 ≠ p.length then false
  else if p.getLast? ≠ some 46 then false
  else host.map Match.toLower = (p.take host.length).map Match.toLower

/-- ssh-keysign.c:122-129 -/
def keyOf (W : World) (alg blob : Bytes) : Option Hostfile.Key :=
  match W.typeOf alg with
  | none => none
  | some t =>
    match W.parse blob with
    | none => none
    | some k => if k.type ≠ t then none else some k

/-- ssh-keysign.c:85-97 with the session identifier and kind of message -/
def idOk (id : Bytes) (type : Nat) : Bool :=
  (id.length = 20 ∨ id.length = 32 ∨ id.length = 48 ∨ id.length = 64) ∧ type = 50

/-- ssh-keysign.c:64-173 `valid_request`, with the end of the program and the answer -1 both `none`: the key and the algorithm -/
def validRequest (W : World) (name host : Bytes) (d : Bytes) : Option (Hostfile.Key × Bytes) :=
  match getStr d with
  | none => none
  | some (id, d) =>
    match getInt 1 d with
    | none => none
    | some (type, d) =>
      match getStr d with
      | none => none
      | some (_, d) =>
        match getCstr d with
        | none => none
        | some (service, d) =>
          match getCstr d with
          | none => none
          | some (method, d) =>
            match getCstr d with
            | none => none
            | some (alg, d) =>
              match getStr d with
              | none => none
              | some (blob, d) =>
                match getCstr d with
                | none => none
                | some (p, d) =>
                  match getCstr d with
                  | none => none
                  | some (luser, d) =>
                    match keyOf W alg blob with
                    | none => none
                    | some k =>
                      if idOk id type = true ∧ service = b!"ssh-connection" ∧ method = b!"hostbased" ∧ isHost host p = true ∧
                          luser = name ∧ d = [] then some (k, alg)
                      else none

/-- What the helper is asked by the client. -/
structure Asker where
  /-- name of the user who runs it -/
  name : Bytes
  /-- the name of the local end of the connection -/
  local_ : Nat → Option Bytes

/-- ssh-keysign.c:228-300: a message asks for a signature; the key to sign with, the data and the algorithm -/
def keysign (W : World) (enabled : Bool) (keys : List Hostfile.Key) (a : Asker) (msg : Bytes) :
    Option (Hostfile.Key × Bytes × Bytes) :=
  if enabled = false then none
  else
    match getInt 1 msg with
    | none => none
    | some (v, msg) =>
      if v ≠ 2 then none
      else
        match getInt 4 msg with
        | none => none
        | some (fd, msg) =>
          if fd ≤ 2 ∨ fd ≥ 2147483648 then none
          else
            match a.local_ fd with
            | none => none
            | some host =>
              match getStr msg with
              | none => none
              | some (data, _) =>
                match validRequest W a.name host data with
                | none => none
                | some (k, alg) =>
                  match keys.find? fun x => Hostfile.equalPublic k x with
                  | none => none
                  | some x => some (x, data, alg)

end Verif.HostBased
