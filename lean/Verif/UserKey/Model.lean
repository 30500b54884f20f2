/-
Model of public-key authentication in the server: which files are trusted (misc.c `safe_path`, auth2-pubkeyfile.c
`auth_openfile`), where keys are looked for (auth2-pubkey.c `user_key_allowed`), and the request itself (`userauth_pubkey`).

Lines of the files and certificates are modelled in `Verif.KeyOpts`.  The file system, `glob`, expansion of `%`, parsing of
keys and verification of signatures are parameters.  A memory failure does not occur.
-/
import Verif.WireMore
import Verif.KeyOpts.Model

namespace Verif.UserKey
open Verif Wire
open _root_.Verif.KeyOpts (Key Opts)

/-! ### Trusted paths -/

/-- The parts of `struct stat` used. -/
structure Stat where
  regular : Bool
  uid : Nat
  gid : Nat
  /-- the permission bits -/
  mode : Nat
  deriving DecidableEq, Repr

/-- The file system as the functions see it. -/
structure Fs where
  realpath : Bytes → Option Bytes
  stat : Bytes → Option Stat
  /-- `open` and `fstat` as the user, with the lines of the file -/
  openf : Bytes → Option (Stat × List Bytes)

/-- openbsd-compat/dirname.c:41-43, on the reversed text up to `endp`: trailing slashes -/
def stripSlash : Bytes → Bytes
  | c :: d :: l => if c = 47 then stripSlash (d :: l) else c :: d :: l
  | e => e

/-- openbsd-compat/dirname.c:46-47: back to a slash -/
def findSlash : Bytes → Bytes
  | c :: d :: l => if c ≠ 47 then findSlash (d :: l) else c :: d :: l
  | e => e

/-- openbsd-compat/dirname.c:50-59 -/
def dirEnd : Bytes → Bytes
  | [] => [46]
  | [c] => [if c = 47 then 47 else 46]
  | _ :: e => (stripSlash e).reverse

/-- openbsd-compat/dirname.c:27-70 `dirname`; the result is never too long, as the argument is not -/
def dirname (p : Bytes) : Bytes :=
  if p = [] then [46] else dirEnd (findSlash (stripSlash p.reverse))

/-- misc.c:2277-2278 and 2292-2293: bad ownership or modes; platform-misc.c `platform_sys_dir_uid` with no further system user -/
def badStat (uid : Nat) (st : Stat) : Bool := (st.uid ≠ 0 ∧ st.uid ≠ uid) ∨ st.mode &&& 0o22 ≠ 0

/-- misc.c:2284-2307: the directories upwards; `home` is the real path of the home directory if there is one.  The loop ends
since `dirname` shortens the path. -/
def walk (fs : Fs) (uid : Nat) (home : Option Bytes) : Nat → Bytes → Bool
  | 0, _ => false
  | fuel + 1, buf =>
    match fs.stat (dirname buf) with
    | none => false
    | some st =>
      if badStat uid st then false
      else if home = some (dirname buf) then true
      else if dirname buf = [47] ∨ dirname buf = [46] then true
      else walk fs uid home fuel (dirname buf)

/-- misc.c:2253-2309 `safe_path`; the answer 0 is `true` -/
def safePath (fs : Fs) (name : Bytes) (st : Stat) (home : Option Bytes) (uid : Nat) : Bool :=
  match fs.realpath name with
  | none => false
  | some buf =>
    if st.regular = false then false
    else if badStat uid st then false
    else walk fs uid (home.bind fs.realpath) (buf.length + 1) buf

/-- The user: `struct passwd` -/
structure User where
  name : Bytes
  uid : Nat
  dir : Bytes
  deriving DecidableEq, Repr

/-- auth2-pubkeyfile.c:441-485 `auth_openfile` with misc.c:2317-2330 `safe_path_fd`: the lines of the file -/
def openFile (fs : Fs) (pw : User) (strict : Bool) (file : Bytes) : Option (List Bytes) :=
  match fs.openf file with
  | none => none
  | some (st, lines) =>
    if st.regular = false then none
    else if strict = true ∧ safePath fs file st (some pw.dir) pw.uid = false then none
    else some lines

/-! ### Where keys are looked for -/

/-- The options concerned. -/
structure Conf where
  keyFiles : List Bytes
  principalsFile : Option Bytes
  strict : Bool
  /-- patterns of PubkeyAcceptedAlgorithms -/
  accepted : Bytes
  touch : Bool
  verify : Bool

/-- What the code calls. -/
structure World where
  fs : Fs
  /-- `glob` as the user: the names, or a failure -/
  glob : Bytes → Option (List Bytes)
  /-- `percent_expand` with `%h`, `%u`, `%U` -/
  percent : Bytes → Bytes
  /-- `sshkey_check_revoked` with RevokedKeys: a revoked key, or an error -/
  revoked : Key → Bool
  /-- the key is in TrustedUserCAKeys -/
  trusted : Nat → Bool
  /-- what AuthorizedPrincipalsCommand printed; `some none` if it failed or did not exit cleanly, `none` if not configured -/
  principalsCommand : Option (Option (List Bytes))
  /-- the same of AuthorizedKeysCommand -/
  keysCommand : Option (Option (List Bytes))
  opts : KeyOpts.World
  /-- `sshkey_read` for the kind of key wanted -/
  read : Bytes → Option Nat
  now : Int
  ip : Bytes
  host : Bytes

/-- auth.c:382-405 `expand_authorized_keys`; a path too long is not modelled -/
def expandFile (W : World) (pw : User) (f : Bytes) : Bytes :=
  if (W.percent f).head? = some 47 then W.percent f else pw.dir ++ 47 :: W.percent f

/-- strcasecmp with "none" -/
def isNone (f : Bytes) : Bool := f.map Match.toLower = b!"none"

/-- The files a configured name stands for. -/
def globbed (W : World) (pw : User) (f : Bytes) : List Bytes := (W.glob (expandFile W pw f)).getD []

/-- auth2-pubkey.c:623-646 `user_key_allowed2` -/
def inFile (W : World) (C : Conf) (pw : User) (key : Key) (path : Bytes) : Option Opts :=
  match openFile W.fs pw C.strict path with
  | none => none
  | some lines => KeyOpts.checkFile W.opts W.read W.now pw.name W.ip W.host key lines

/-- auth2-pubkey.c:838-845 -/
def inFiles (W : World) (C : Conf) (pw : User) (key : Key) : List Bytes → Option Opts
  | [] => none
  | p :: ps =>
    match inFile W C pw key p with
    | some o => some o
    | none => inFiles W C pw key ps

/-- auth2-pubkey.c:812-849 -/
def inConfigured (W : World) (C : Conf) (pw : User) (key : Key) : List Bytes → Option Opts
  | [] => none
  | f :: fs =>
    if isNone f then inConfigured W C pw key fs
    else
      match inFiles W C pw key (globbed W pw f) with
      | some o => some o
      | none => inConfigured W C pw key fs

/-- auth2-pubkey.c:322-373 `match_principals_file` and 380-512 `match_principals_command`: where principals are looked for -/
def sources (W : World) (C : Conf) (pw : User) : KeyOpts.Sources :=
  ⟨C.principalsFile.map fun f => (globbed W pw f).filterMap (openFile W.fs pw C.strict), W.principalsCommand⟩

/-- auth2-pubkey.c:851-858, `user_cert_trusted_ca` -/
def byCa (W : World) (C : Conf) (pw : User) : Key → Option Opts
  | .plain _ => none
  | .cert c => KeyOpts.trustedCert W.opts W.trusted (sources W C pw) W.now pw.name W.ip W.host c

/-- auth2-pubkey.c:652-783 `user_key_command_allowed2` -/
def byCommand (W : World) (pw : User) (key : Key) : Option Opts :=
  match W.keysCommand with
  | some (some lines) => KeyOpts.checkFile W.opts W.read W.now pw.name W.ip W.host key lines
  | _ => none

/-- auth2-pubkey.c:797-801: the key or the key that signed the certificate is revoked -/
def isRevoked (W : World) : Key → Bool
  | .plain k => W.revoked (.plain k)
  | .cert c => W.revoked (.cert c) || W.revoked (.plain c.ca)

/-- auth2-pubkey.c:788-873 `user_key_allowed` -/
def allowed (W : World) (C : Conf) (pw : User) (key : Key) : Option Opts :=
  if isRevoked W key then none
  else
    match inConfigured W C pw key C.keyFiles with
    | some o => some o
    | none =>
      match byCa W C pw key with
      | some o => some o
      | none => byCommand W pw key

/-! ### The request -/

/-- A key as `sshkey_from_blob` gives it. -/
structure PubKey where
  /-- `type` -/
  kind : Nat
  key : Key

/-- What the verification of a signature of a security key tells: the flags -/
structure SigDetails where
  flags : Nat
  deriving DecidableEq, Repr

/-- Functions on keys. -/
structure KeyWorld where
  /-- `sshkey_type_from_name`; `none` is KEY_UNSPEC -/
  typeOf : Bytes → Option Nat
  /-- `sshkey_from_blob` -/
  parse : Bytes → Option PubKey
  /-- `auth2_key_already_used` -/
  used : PubKey → Bool
  /-- `sshkey_check_cert_sigtype` with CASignatureAlgorithms -/
  caSigOk : PubKey → Bool
  /-- `sshkey_check_rsa_length` with RequiredRSASize -/
  sizeOk : PubKey → Bool
  /-- `mm_sshkey_verify`: key, signature, data, algorithm -/
  verify : PubKey → Bytes → Bytes → Option Bytes → Option (Option SigDetails)
  /-- `sshkey_equal` with the host key of the first exchange -/
  isHostKey : PubKey → Bool
  /-- its encoding -/
  hostBlob : Bytes

/-- The connection. -/
structure Session where
  id : Bytes
  /-- SSH_OLD_SESSIONID -/
  oldId : Bool
  /-- SSH_BUG_SIGTYPE -/
  bugSigtype : Bool
  /-- the user is known and may log in -/
  valid : Bool
  user : Bytes
  style : Option Bytes
  service : Bytes
  /-- the options in force, from keys accepted before -/
  current : Opts

inductive Res where
  /-- the connection ends -/
  | fatal
  | refused
  /-- the client is told that the key would do -/
  | pkOk (alg blob : Bytes)
  | accepted (o : Opts)

/-- auth2-pubkey.c:207-209 -/
def userStyle (s : Session) : Bytes := s.user ++ (match s.style with | none => [] | some t => 58 :: t)

/-- auth2-pubkey.c:192-222: the packet as it was signed -/
def signedData (K : KeyWorld) (s : Session) (method : Bytes) (hostbound : Bool) (have_ : Nat) (alg blob : Bytes) : Bytes :=
  (if s.oldId then s.id else str s.id) ++ be 1 50 ++ str (userStyle s) ++ str s.service ++ str method ++ be 1 have_ ++
    str alg ++ str blob ++ (if hostbound then str K.hostBlob else [])

/-- auth2-pubkey.c:105-126: the first fields of the request -/
def getRequest (K : KeyWorld) (hostbound : Bool) (b : Bytes) : Option (Nat × Bytes × Bytes × Bytes) :=
  match getInt 1 b with
  | none => none
  | some (h, b) =>
    match getCstr b with
    | none => none
    | some (alg, b) =>
      match getStr b with
      | none => none
      | some (blob, b) =>
        if hostbound then
          match getStr b with
          | none => none
          | some (hk, b) =>
            match K.parse hk with
            | none => none
            | some k => if K.isHostKey k then some (h, alg, blob, b) else none
        else some (h, alg, blob, b)

/-- auth2-pubkey.c:142-179: the key, if it may be tried -/
def getKey (K : KeyWorld) (C : Conf) (alg blob : Bytes) : Option PubKey :=
  match K.typeOf alg with
  | none => none
  | some t =>
    match K.parse blob with
    | none => none
    | some k =>
      if k.kind ≠ t then none
      else if K.used k then none
      else if Match.matchPatternList alg C.accepted false ≠ 1 then none
      else if K.caSigOk k = false then none
      else if K.sizeOk k = false then none
      else some k

/-- auth2-pubkey.c:235-273: the demands on security keys; bits SSH_SK_USER_PRESENCE_REQD and SSH_SK_USER_VERIFICATION_REQD -/
def presenceOk (C : Conf) (o : Opts) : Option SigDetails → Bool
  | none => true
  | some d =>
    if (C.touch = true ∨ o.noPresence = false) ∧ d.flags &&& 1 = 0 then false
    else if (C.verify = true ∨ o.verify = true) ∧ d.flags &&& 4 = 0 then false
    else true

/-- auth2-pubkey.c:309-312 with auth.c:750-762 `auth_activate_options` -/
def activated (s : Session) (o : Opts) : Res :=
  match KeyOpts.activate s.current o with
  | none => .refused
  | some _ => .accepted o

/-- auth2-pubkey.c:186-274: a request with a signature -/
def withSig (W : World) (K : KeyWorld) (C : Conf) (pw : User) (s : Session) (method : Bytes) (hostbound : Bool) (h : Nat)
    (alg blob : Bytes) (k : PubKey) (rest : Bytes) : Res :=
  match getStr rest with
  | none => .fatal
  | some (sig, rest) =>
    if rest ≠ [] then .fatal
    else if s.valid = false then .refused
    else
      match allowed W C pw k.key with
      | none => .refused
      | some o =>
        match K.verify k sig (signedData K s method hostbound h alg blob) (if s.bugSigtype then none else some alg) with
        | none => .refused
        | some d => if presenceOk C o d then activated s o else .refused

/-- auth2-pubkey.c:275-307: a question whether a key would do -/
def withoutSig (W : World) (C : Conf) (pw : User) (s : Session) (alg blob : Bytes) (k : PubKey) (rest : Bytes) : Res :=
  if rest ≠ [] then .fatal
  else if s.valid = false then .refused
  else
    match allowed W C pw k.key with
    | none => .refused
    | some _ => .pkOk alg blob

/-- auth2-pubkey.c:93-320 `userauth_pubkey`; `b` is the request from after the name of the method -/
def userauth (W : World) (K : KeyWorld) (C : Conf) (pw : User) (s : Session) (method b : Bytes) : Res :=
  match getRequest K (method = b!"publickey-hostbound-v00@openssh.com") b with
  | none => .fatal
  | some (h, alg, blob, rest) =>
    match getKey K C alg blob with
    | none => .refused
    | some k =>
      if h ≠ 0 then withSig W K C pw s method (method = b!"publickey-hostbound-v00@openssh.com") h alg blob k rest
      else withoutSig W C pw s alg blob k rest

end Verif.UserKey
