/-
Model of key options and certificate checks on the server: `auth-options.c`, the line checks of
`auth2-pubkeyfile.c`, `user_cert_trusted_ca` of `auth2-pubkey.c`, and the certificate checks of
`sshkey.c`.

Simplified: memory is never short; C strings are lists of bytes without NUL; names are compared in
the C locale; `inet_pton`, `getservbyname` and the calendar (`strptime`, `timegm`, `mktime`) are
parameters; a public key is known by a number, and reading a key from text (`sshkey_read`) is a
parameter.  The text of an authorized_keys or authorized_principals file is the list of its lines.
-/
import Verif.Base
import Verif.Text
import Verif.Wire
import Verif.Num
import Verif.Match.Model
import Verif.Addr.Model
import Verif.Permit.Model

namespace Verif.KeyOpts

open Match (toLower)

/-- auth-options.h:31-81 `struct sshauthopt`. Flags are 0 or 1 in the code. -/
structure Opts where
  portFwd : Bool := false
  agentFwd : Bool := false
  x11 : Bool := false
  pty : Bool := false
  userRc : Bool := false
  /-- `restricted`: "restrict" was given -/
  restricted : Bool := false
  /-- `valid_before`; 0 is "never expires" -/
  validBefore : Nat := 0
  certAuthority : Bool := false
  /-- `cert_principals` -/
  principals : Option Bytes := none
  /-- `force_tun_device`; -1 is "none forced" -/
  tun : Int := -1
  /-- `force_command` -/
  command : Option Bytes := none
  env : List Bytes := []
  permitopen : List Bytes := []
  permitlisten : List Bytes := []
  /-- `required_from_host_cert` -/
  fromCert : Option Bytes := none
  /-- `required_from_host_keys` -/
  fromKeys : Option Bytes := none
  /-- `no_require_user_presence` -/
  noPresence : Bool := false
  /-- `require_verify` -/
  verify : Bool := false
  deriving DecidableEq, Repr

/-- Outside functions. -/
structure World where
  pton : Bytes → Option Addr.XAddr
  serv : Bytes → Option Nat
  /-- `parse_absolute_time` (misc.c:2473-2530); `none` is a failure -/
  time : Bytes → Option Nat

/-- auth-options.c:194-203 `sshauthopt_new` -/
def new : Opts := {}

/-- auth-options.c:233-248 `sshauthopt_new_with_keys_defaults` -/
def keysDefaults : Opts := { portFwd := true, agentFwd := true, x11 := true, pty := true, userRc := true }

/-! ### Options in the text of authorized_keys -/

/-- `strncasecmp(s, name, strlen(name)) == 0` -/
def startsCase (name s : Bytes) : Bool := decide ((s.take name.length).map toLower = name.map toLower)

/-- misc.c:2605-2621 `opt_flag`: the value (`false`: negated) and the rest. -/
def optFlag (name : Bytes) (neg : Bool) (s : Bytes) : Option (Bool × Bytes) :=
  if neg && startsCase b!"no-" s then
    if startsCase name (s.drop 3) then some (false, (s.drop 3).drop name.length) else none
  else if startsCase name s then some (true, s.drop name.length) else none

/-- misc.c:2656-2665 `opt_match` -/
def optMatch (name s : Bytes) : Option Bytes :=
  if startsCase name s ∧ (s.drop name.length).head? = some 61 then some (s.drop (name.length + 1)) else none

/-- misc.c:2639-2643, the loop of `opt_dequote`; the rest starts with the closing quote -/
def dequoteGo : Bytes → Bytes × Bytes
  | [] => ([], [])
  | 34 :: r => ([], 34 :: r)
  | 92 :: 34 :: r => (34 :: (dequoteGo r).1, (dequoteGo r).2)
  | c :: r => (c :: (dequoteGo r).1, (dequoteGo r).2)

/-- misc.c:2623-2654 `opt_dequote` -/
def dequote : Bytes → Option (Bytes × Bytes)
  | 34 :: s =>
    match (dequoteGo s).2 with
    | [] => none
    | _ :: r => some ((dequoteGo s).1, r)
  | _ => none

/-- misc.c:2448-2460 `valid_env_name` -/
def validEnvName (n : Bytes) : Bool :=
  decide (n ≠ []) && n.all fun c => Num.isDigit c || (97 ≤ c && c ≤ 122) || (65 ≤ c && c ≤ 90) || c == 95

/-- misc.c:550-579 `a2tun` with `remote == NULL`; `none` is SSH_TUNID_ERR -/
def a2tun (s : Bytes) : Option Int :=
  if s.map toLower = b!"any" then some 2147483647 else Num.strtonum s 0 2147483645

/-- auth-options.c:289-303, the check of a permission's text -/
def permitValid (w : World) (e : Bytes) : Bool :=
  match Permit.hpdelim2 e with
  | some (h, some (_, p)) => decide (h.length < 1025) && (decide (p = b!"*") || decide (Permit.a2port w.serv p > 0))
  | _ => false

/-- auth-options.c:254-321 `handle_permit`: the entry recorded. -/
def handlePermit (w : World) (bare : Bool) (n : Nat) (v : Bytes) : Option Bytes :=
  if n > 4096 then none
  else
    let e := if bare && !v.contains 58 then b!"*:" ++ v else v
    if permitValid w e then some e else none

/-- The flag options in the order tried, auth-options.c:344-370: name, may it be negated, effect. -/
def flags : List (Bytes × Bool × (Bool → Opts → Opts)) :=
  [ (b!"restrict", false, fun _ o => { o with
      restricted := true, portFwd := false, agentFwd := false, x11 := false, pty := false, userRc := false }),
    (b!"cert-authority", false, fun v o => { o with certAuthority := v }),
    (b!"port-forwarding", true, fun v o => { o with portFwd := v }),
    (b!"agent-forwarding", true, fun v o => { o with agentFwd := v }),
    (b!"x11-forwarding", true, fun v o => { o with x11 := v }),
    (b!"touch-required", true, fun v o => { o with noPresence := !v }),
    (b!"verify-required", true, fun v o => { o with verify := v }),
    (b!"pty", true, fun v o => { o with pty := v }),
    (b!"user-rc", true, fun v o => { o with userRc := v }) ]

/-- auth-options.c:397-403 -/
def setExpiry (w : World) (v : Bytes) (o : Opts) : Option Opts :=
  match w.time v with
  | none => none
  | some t =>
    if t = 0 then none
    else if o.validBefore = 0 ∨ t < o.validBefore then some { o with validBefore := t } else some o

/-- auth-options.c:405-453: an environment setting; the first of a name counts. -/
def setEnv (v : Bytes) (o : Opts) : Option Opts :=
  if o.env.length > 1024 then none
  else if !v.contains 61 then none
  else
    let name := v.takeWhile (· ≠ 61)
    if !validEnvName name then none
    else if o.env.any fun e => decide ((name ++ [61]) <+: e) then some o
    else some { o with env := o.env ++ [v] }

/-- a clause that may be given once -/
def once (old : Option Bytes) (v : Bytes) (set : Option Bytes → Opts) : Option Opts :=
  match old with
  | some _ => none
  | none => some (set (some v))

/-- The clauses in the order tried, auth-options.c:371-472: name and effect of the unquoted value;
`none` refuses the line. -/
def clauses (w : World) : List (Bytes × (Bytes → Opts → Option Opts)) :=
  [ (b!"command", fun v o => once o.command v fun x => { o with command := x }),
    (b!"principals", fun v o => once o.principals v fun x => { o with principals := x }),
    (b!"from", fun v o => once o.fromKeys v fun x => { o with fromKeys := x }),
    (b!"expiry-time", fun v o => setExpiry w v o),
    (b!"environment", fun v o => setEnv v o),
    (b!"permitopen", fun v o =>
      (handlePermit w false o.permitopen.length v).map fun e => { o with permitopen := o.permitopen ++ [e] }),
    (b!"permitlisten", fun v o =>
      (handlePermit w true o.permitlisten.length v).map fun e => { o with permitlisten := o.permitlisten ++ [e] }),
    (b!"tunnel", fun v o => (a2tun v).map fun t => { o with tun := t }) ]

/-- the chain of `opt_flag` tests -/
def tryFlags (s : Bytes) (o : Opts) : List (Bytes × Bool × (Bool → Opts → Opts)) → Option (Opts × Bytes)
  | [] => none
  | (n, neg, f) :: fs =>
    match optFlag n neg s with
    | some (v, r) => some (f v o, r)
    | none => tryFlags s o fs

/-- the chain of `opt_match` tests: `none` when no clause matches; inside, `none` refuses -/
def tryClauses (s : Bytes) (o : Opts) : List (Bytes × (Bytes → Opts → Option Opts)) → Option (Option (Opts × Bytes))
  | [] => none
  | (n, f) :: cs =>
    match optMatch n s with
    | some r =>
      match dequote r with
      | none => some none
      | some (v, r') => some ((f v o).map fun o' => (o', r'))
    | none => tryClauses s o cs

/-- auth-options.c:342-472: one turn of the loop up to the comma; the position does not move when
nothing matches -/
def parseOne (w : World) (s : Bytes) (o : Opts) : Option (Opts × Bytes) :=
  match tryFlags s o flags with
  | some x => some x
  | none =>
    match tryClauses s o (clauses w) with
    | some x => x
    | none => some (o, s)

def isBlank (c : UInt8) : Bool := c == 32 || c == 9

/-- auth-options.c:341-489: the loop. The result carries the position reached. -/
def parseLoop (w : World) : Nat → Bytes → Opts → Option (Opts × Bytes)
  | 0, _, _ => none
  | fuel + 1, s, o =>
    match s with
    | [] => some (o, [])
    | c :: t =>
      if isBlank c then some (o, c :: t)
      else
        match parseOne w (c :: t) o with
        | none => none
        | some (o', []) => some (o', [])
        | some (o', d :: r) =>
          if isBlank d then some (o', d :: r)
          else if d ≠ 44 then none
          else if r = [] then none
          else parseLoop w fuel r o'

/-- auth-options.c:323-500 `sshauthopt_parse` -/
def parse (w : World) : Option Bytes → Option Opts
  | none => some keysDefaults
  | some s => (parseLoop w (s.length + 1) s keysDefaults).map (·.1)

/-! ### Options in certificates -/

/-- auth-options.c:101-124: the extensions -/
def setExtension (name : Bytes) (o : Opts) : Option Opts :=
  if name = b!"no-touch-required" then some { o with noPresence := true }
  else if name = b!"permit-X11-forwarding" then some { o with x11 := true }
  else if name = b!"permit-agent-forwarding" then some { o with agentFwd := true }
  else if name = b!"permit-port-forwarding" then some { o with portFwd := true }
  else if name = b!"permit-pty" then some { o with pty := true }
  else if name = b!"permit-user-rc" then some { o with userRc := true }
  else none

/-- What one entry of a certificate does: unknown name, refusal, or the new options with what is
left of the entry's data. -/
inductive Entry where
  | unknown | refuse
  | set (o : Opts) (left : Bytes)

/-- auth-options.c:125-165: the critical options -/
def setCritical (w : World) (name data : Bytes) (o : Opts) : Entry :=
  if name = b!"verify-required" then .set { o with verify := true } data
  else if name = b!"force-command" then
    match Wire.getCstr data with
    | none => .refuse
    | some (v, left) => if o.command ≠ none then .refuse else .set { o with command := some v } left
  else if name = b!"source-address" then
    match Wire.getCstr data with
    | none => .refuse
    | some (v, left) =>
      if o.fromCert ≠ none then .refuse
      else if Addr.matchCidrList w.pton none v = -1 then .refuse
      else .set { o with fromCert := some v } left
  else .unknown

/-- `which` is OPTIONS_CRITICAL (with `crit`) or OPTIONS_EXTENSIONS (without) in the only callers,
auth-options.c:520-529. -/
def setEntry (w : World) (crit : Bool) (name data : Bytes) (o : Opts) : Entry :=
  if crit then setCritical w name data o
  else match setExtension name o with
    | some o' => .set o' data
    | none => .unknown

/-- auth-options.c:167-180: the end of one turn -/
def afterEntry (crit : Bool) (o : Opts) : Entry → Option Opts
  | .refuse => none
  | .unknown => if crit then none else some o
  | .set o' left => if left ≠ [] then none else some o'

/-- auth-options.c:76-192 `cert_option_list` -/
def certOptionList (w : World) (crit : Bool) : Nat → Bytes → Opts → Option Opts
  | 0, _, _ => none
  | fuel + 1, b, o =>
    if b = [] then some o
    else
      match Wire.getCstr b with
      | none => none
      | some (name, r) =>
        match Wire.getStr r with
        | none => none
        | some (data, r') =>
          match afterEntry crit o (setEntry w crit name data o) with
          | none => none
          | some o' => certOptionList w crit fuel r' o'

/-- `struct sshkey_cert`, sshkey.h:117-130, as far as it is used here; `user` and `host` are
SSH2_CERT_TYPE_USER and SSH2_CERT_TYPE_HOST. -/
inductive CertType where
  | user | host
  deriving DecidableEq, Repr

structure Cert where
  type : CertType
  principals : List Bytes
  validAfter : Nat
  validBefore : Nat
  critical : Bytes
  extensions : Bytes
  /-- the key that signed -/
  ca : Nat

/-- auth-options.c:502-527 `sshauthopt_from_cert` -/
def fromCert (w : World) (c : Cert) : Option Opts :=
  if c.type ≠ .user then none
  else
    match certOptionList w true (c.critical.length + 1) c.critical new with
    | none => none
    | some o => certOptionList w false (c.extensions.length + 1) c.extensions o

/-! ### Combining -/

/-- auth-options.c:640-647: the expiry time of a merge -/
def mergeExpiry (p a : Nat) : Nat :=
  if a ≠ 0 ∧ a < p then a else p

/-- auth-options.c:649-675: the forced command of a merge; the outer `none` is the failure -/
def mergeCommand : Option Bytes → Option Bytes → Option (Option Bytes)
  | some p, some a => if p = a then some (some p) else none
  | some p, none => some (some p)
  | none, a => some a

/-- prefer the first list unless it is empty -/
def preferList (p a : List Bytes) : List Bytes := if p.length > 0 then p else a

/-- auth-options.c:533-655 `sshauthopt_merge` -/
def merge (p a : Opts) : Option Opts :=
  match mergeCommand p.command a.command with
  | none => none
  | some cmd => some {
      fromCert := p.fromCert.or a.fromCert
      fromKeys := p.fromKeys.or a.fromKeys
      tun := if p.tun = -1 then a.tun else p.tun
      env := preferList p.env a.env
      permitopen := preferList p.permitopen a.permitopen
      permitlisten := preferList p.permitlisten a.permitlisten
      portFwd := p.portFwd && a.portFwd
      agentFwd := p.agentFwd && a.agentFwd
      x11 := p.x11 && a.x11
      pty := p.pty && a.pty
      userRc := p.userRc && a.userRc
      noPresence := p.noPresence && a.noPresence
      verify := p.verify || a.verify
      validBefore := mergeExpiry p.validBefore a.validBefore
      command := cmd }

/-- auth.c:750-762 `auth_activate_options`: the options in force after one more key was accepted;
`none` when they do not fit (the key is then not accepted). -/
def activate (old new : Opts) : Option Opts := merge old new

/-! ### May this key be used -/

/-- auth2-pubkeyfile.c:80-103 -/
def fromOk (w : World) (ip host : Bytes) : Option Bytes → Bool
  | none => true
  | some l => decide (Match.matchHostAndIp (some host) (some ip) l (Addr.matchList w.pton) = 1)

/-- auth2-pubkeyfile.c:105-126 -/
def sourceOk (w : World) (ip : Bytes) : Option Bytes → Bool
  | none => true
  | some l => decide (Addr.matchCidrList w.pton (some ip) l = 1)

/-- auth2-pubkeyfile.c:54-144 `auth_authorise_keyopts`; `now` is `time(NULL)`. -/
def authorise (w : World) (now : Int) (o : Opts) (allowCA : Bool) (ip host : Bytes) : Bool :=
  if o.validBefore ≠ 0 ∧ now > 0 ∧ (o.validBefore : Int) < now then false
  else if o.principals ≠ none ∧ o.certAuthority = false then false
  else if allowCA = false ∧ o.certAuthority = true then false
  else if fromOk w ip host o.fromKeys = false then false
  else if sourceOk w ip o.fromCert = false then false
  else true

/-- sshkey.c:2442-2463: the names in the certificate -/
def nameOk (requirePrincipal wildcard : Bool) (principals : List Bytes) (name : Option Bytes) : Bool :=
  if principals = [] then !requirePrincipal
  else match name with
    | none => true
    | some n => principals.any fun p => if wildcard then Match.matchPattern p n else decide (n = p)

/-- sshkey.c:2408-2466 `sshkey_cert_check_authority`, of a certificate -/
def certCheck (c : Cert) (wantHost requirePrincipal wildcard : Bool) (t : Nat) (name : Option Bytes) : Bool :=
  if c.type ≠ (if wantHost then .host else .user) then false
  else if t < c.validAfter then false
  else if t ≥ c.validBefore then false
  else nameOk requirePrincipal wildcard c.principals name

/-- sshkey.c:2468-2482 `sshkey_cert_check_authority_now` -/
def certCheckNow (c : Cert) (wantHost requirePrincipal wildcard : Bool) (now : Int) (name : Option Bytes) : Bool :=
  if now < 0 then false else certCheck c wantHost requirePrincipal wildcard now.toNat name

/-- sshkey.c:2484-2504 `sshkey_cert_check_host`; `sigOk`: the signature algorithm is acceptable -/
def certCheckHost (c : Cert) (now : Int) (host : Bytes) (wildcard sigOk : Bool) : Bool :=
  if certCheckNow c true false wildcard now (some host) = false then false
  else if c.critical.length ≠ 0 then false
  else sigOk

/-- auth2-pubkeyfile.c:146-164 `match_principals_option` -/
def principalsOption (list : Bytes) (c : Cert) : Bool :=
  c.principals.any fun p => (Match.matchList p list).1.isSome

/-- What the client offers: a plain key or a certificate. -/
inductive Key where
  | plain (id : Nat)
  | cert (c : Cert)

/-- authfile.c:474-489 `sshkey_advance_past_options`: what follows the options, `none` for an open quote -/
def advance : Bool → Bytes → Option Bytes
  | q, [] => if q then none else some []
  | q, 92 :: 34 :: r => advance q r
  | q, c :: r =>
    if !q && isBlank c then some (c :: r)
    else if c = 34 then advance (!q) r else advance q r

/-- misc.c:2586-2594 `skip_space` -/
def skipSpace (s : Bytes) : Bytes := s.dropWhile isBlank

/-- auth2-pubkeyfile.c:282-300: the options text and the key of a line; `read` is `sshkey_read` (told
whether a certificate is being checked, as the wanted type differs) -/
def splitLine (read : Bytes → Option Nat) (line : Bytes) : Option (Option Bytes × Nat) :=
  match read line with
  | some k => some (none, k)
  | none =>
    match advance false line with
    | none => none
    | some r =>
      match read (skipSpace r) with
      | none => none
      | some k => some (some line, k)

/-- auth2-pubkeyfile.c:342-371: the further checks of a certificate under a CA line -/
def caLine (w : World) (now : Int) (user ip host : Bytes) (ko : Opts) (c : Cert) : Option Opts :=
  match fromCert w c with
  | none => none
  | some co =>
    if authorise w now co false ip host = false then none
    else
      match merge ko co with
      | none => none
      | some final =>
        match ko.principals with
        | some l =>
          if principalsOption l c = false then none
          else if certCheckNow c false false false now none = false then none
          else some final
        | none =>
          if certCheckNow c false false false now (some user) = false then none
          else some final

/-- auth2-pubkeyfile.c:263-399 `auth_check_authkey_line`: the options in force if the key is accepted. -/
def checkLine (w : World) (read : Bytes → Option Nat) (now : Int) (user ip host : Bytes) (key : Key)
    (line : Bytes) : Option Opts :=
  match splitLine read line with
  | none => none
  | some (opts, found) =>
    match parse w opts with
    | none => none
    | some ko =>
      match key with
      | .plain id =>
        if found ≠ id ∨ ko.certAuthority = true then none
        else if authorise w now ko false ip host = false then none
        else some ko
      | .cert c =>
        if found ≠ c.ca ∨ ko.certAuthority = false then none
        else if authorise w now ko true ip host = false then none
        else caLine w now user ip host ko c

/-- auth2-pubkeyfile.c:405-439 `auth_check_authkeys_file`: the first line that accepts the key. -/
def checkFile (w : World) (read : Bytes → Option Nat) (now : Int) (user ip host : Bytes) (key : Key) :
    List Bytes → Option Opts
  | [] => none
  | l :: ls =>
    let cp := skipSpace l
    if cp = [] ∨ cp.head? = some 10 ∨ cp.head? = some 35 then checkFile w read now user ip host key ls
    else
      match checkLine w read now user ip host key cp with
      | some o => some o
      | none => checkFile w read now user ip host key ls

/-- auth2-pubkeyfile.c:180-182: trailing blanks are cut, but the first byte is never looked at -/
def trimEnd : Bytes → Bytes
  | [] => []
  | c :: r => c :: (r.reverse.dropWhile fun x => x == 10 || isBlank x).reverse

/-- auth2-pubkeyfile.c:188-195: the options and the name of a principals line -/
def splitPrincipal (cp : Bytes) : Option Bytes × Bytes :=
  match Match.splitLast 32 cp with
  | some (_, n) => (some cp, n.dropWhile isBlank)
  | none =>
    match Match.splitLast 9 cp with
    | some (_, n) => (some cp, n.dropWhile isBlank)
    | none => (none, cp)

/-- auth2-pubkeyfile.c:171-219 `auth_check_principals_line` -/
def principalsLine (w : World) (c : Cert) (line : Bytes) : Option Opts :=
  match parse w (splitPrincipal (trimEnd line)).1 with
  | none => none
  | some o => if (splitPrincipal (trimEnd line)).2 ∈ c.principals then some o else none

/-- auth2-pubkeyfile.c:221-256 `auth_process_principals` -/
def principalsFile (w : World) (c : Cert) : List Bytes → Option Opts
  | [] => none
  | l :: ls =>
    let cp := (skipSpace l).takeWhile (· ≠ 35)
    if cp = [] ∨ cp.head? = some 10 then principalsFile w c ls
    else
      match principalsLine w c cp with
      | some o => some o
      | none => principalsFile w c ls

/-- The two sources of authorised principals: `none` when not configured.  A principals file is the
list of files its glob pattern names, each the list of its lines (auth2-pubkey.c:322-373); a command is
what it printed, or `none` when it failed (auth2-pubkey.c:380-512). -/
structure Sources where
  files : Option (List (List Bytes))
  command : Option (Option (List Bytes))

/-- auth2-pubkey.c:349-365 -/
def principalsFiles (w : World) (c : Cert) : List (List Bytes) → Option Opts
  | [] => none
  | f :: fs =>
    match principalsFile w c f with
    | some o => some o
    | none => principalsFiles w c fs

/-- auth2-pubkey.c:549-557 -/
def findPrincipal (w : World) (c : Cert) (s : Sources) : Option Opts :=
  match s.files.bind (principalsFiles w c) with
  | some o => some o
  | none => s.command.bind fun out => out.bind (principalsFile w c)

/-- auth2-pubkey.c:559-560 -/
def Sources.used (s : Sources) : Bool := s.files.isSome || s.command.isSome

/-- auth2-pubkey.c:571-601: the options of the certificate, and of the principal if there are any -/
def trustedCertOpts (w : World) (now : Int) (ip host : Bytes) (c : Cert) (po : Option Opts) : Option Opts :=
  match fromCert w c with
  | none => none
  | some co =>
    if authorise w now co false ip host = false then none
    else match po with
      | none => some co
      | some po => if authorise w now po false ip host = false then none else merge po co

/-- auth2-pubkey.c:516-617 `user_cert_trusted_ca`; `trusted`: the signing key is in TrustedUserCAKeys. -/
def trustedCert (w : World) (trusted : Nat → Bool) (s : Sources) (now : Int) (user ip host : Bytes) (c : Cert) :
    Option Opts :=
  if trusted c.ca = false then none
  else if s.used then
    match findPrincipal w c s with
    | none => none
    | some po =>
      if certCheckNow c false true false now none = false then none
      else trustedCertOpts w now ip host c (some po)
  else
    if certCheckNow c false true false now (some user) = false then none
    else trustedCertOpts w now ip host c none

end Verif.KeyOpts
