/-
Model of the privileged monitor: `monitor.c`, the process that answers the requests of the
unprivileged child that talks to the network.  The child is the adversary: it may send any bytes.

Build modelled: OpenSSL and PAM, without BSD authentication, GSSAPI and audit events.

Not modelled: the log channel, the content of the answers other than the verdicts, the tty work of
`mm_answer_pty`, memory shortage, Kerberos and Cygwin passwords, and the moment at which the options
of a `Match` block take effect (the options are those in force once the user is known; nothing read
before that depends on them).  Signature checks, key parsing, the password and PAM back ends and the
authorized_keys lookup are parameters or fields of the event.
-/
import Verif.Base
import Verif.Wire
import Verif.Auth.Model
import Verif.KeyOpts.Model

namespace Verif.Monitor

open Wire

/-! ### Requests and tables -/

/-- `monitor.h:32-70`, the requests of this build. -/
inductive Req where
  | moduli | authserv | sign | pwnam | banner | authpassword | keyallowed | keyverify
  | pty | ptycleanup | term | state
  | pamStart | pamAccount | pamInit | pamQuery | pamRespond | pamFree
  deriving DecidableEq, Repr

/-- `monitor.h:32-70` `enum monitor_reqtype` -/
def Req.code : Req → UInt8
  | .moduli => 0 | .authserv => 4 | .sign => 6 | .pwnam => 8 | .banner => 10
  | .authpassword => 12 | .keyallowed => 22 | .keyverify => 24 | .pty => 28 | .ptycleanup => 30
  | .term => 50 | .state => 51 | .pamStart => 100 | .pamAccount => 102 | .pamInit => 104
  | .pamQuery => 106 | .pamRespond => 108 | .pamFree => 110

/-- `monitor.c:171-184` `struct mon_table` and its flags; MON_PERMIT, which changes, is kept in the
state. -/
structure Ent where
  req : Req
  isauth : Bool := false
  decides : Bool := false
  once : Bool := false
  deriving DecidableEq, Repr

/-- monitor.c:190-227 `mon_dispatch_proto20` -/
def preTable : List Ent :=
  [ { req := .state, once := true }, { req := .moduli, once := true }, { req := .sign, once := true },
    { req := .pwnam, once := true }, { req := .authserv, once := true },
    { req := .banner, once := true },
    { req := .authpassword, isauth := true, decides := true },
    { req := .pamStart, once := true }, { req := .pamAccount }, { req := .pamInit, once := true },
    { req := .pamQuery }, { req := .pamRespond, once := true },
    { req := .pamFree, once := true, decides := true },
    { req := .keyallowed, isauth := true },
    { req := .keyverify, isauth := true, decides := true } ]

/-- monitor.c:229-242 `mon_dispatch_postauth20` -/
def postTable : List Ent :=
  [ { req := .state, once := true }, { req := .moduli }, { req := .sign }, { req := .pty },
    { req := .ptycleanup }, { req := .term } ]

/-! ### The world -/

/-- Outside functions. A key is its canonical public blob. -/
structure World where
  /-- `sshkey_from_blob`: the canonical blob of the key read -/
  parse : Bytes → Option Bytes
  /-- `sshkey_equal_public` -/
  samePublic : Bytes → Bytes → Bool
  /-- `sshkey_verify key sig data alg`: `some` when the signature is good, with the flags of a
  security key if it is one -/
  verify : Bytes → Bytes → Bytes → Option Bytes → Option (Option Nat)
  /-- sshd-session.c:548-572 `get_hostkey_index` -/
  hostIndex : Bytes → Option Nat
  /-- `get_hostkey_public_by_index`, as a blob -/
  hostPublic : Nat → Option Bytes
  /-- `key_base_type_match` against PubkeyAcceptedAlgorithms and HostbasedAcceptedAlgorithms -/
  userAlg : Bytes → Bool
  hostAlg : Bytes → Bool

/-- The configuration. -/
structure Cfg where
  auth : Auth.Cfg
  /-- `options.permit_empty_passwd` -/
  permitEmpty : Bool
  /-- `options.refuse_connection` -/
  refuse : Bool
  /-- `PUBKEYAUTH_TOUCH_REQUIRED`, `PUBKEYAUTH_VERIFY_REQUIRED` of `options.pubkey_auth_options` -/
  touch : Bool
  uv : Bool
  /-- `ssh->compat & SSH_OLD_SESSIONID` -/
  oldSid : Bool

/-- `key_blob` and its companions, `monitor.c:155-162`; all are set or cleared together. -/
structure KeySt where
  blob : Bytes
  /-- MM_USERKEY (otherwise MM_HOSTKEY) -/
  user : Bool
  opts : KeyOpts.Opts
  cuser : Bytes
  chost : Bytes

structure St where
  /-- MON_PERMIT -/
  permit : Req → Bool
  attempt : Nat
  user : Bytes
  /-- `authctxt->pw->pw_uid`; `none` for the fake entry of an unknown user -/
  uid : Option Nat
  valid : Bool
  style : Option Bytes
  /-- `options.num_auth_methods != 0` -/
  multi : Bool
  lists : List Bytes
  failures : Nat
  /-- `session_id2` -/
  sid : Option Bytes
  key : Option KeySt
  prevKeys : List Bytes
  /-- `auth_opts`; `none` is NULL -/
  opts : Option KeyOpts.Opts
  /-- `sshpam_ctxt != NULL`, `sshpam_authok != NULL` -/
  pamCtx : Bool
  pamOk : Bool
  /-- `call_count` of `mm_answer_authpassword` -/
  pwCalls : Nat
  /-- `auth_method`, `auth_submethod` -/
  method : Bytes
  sub : Option Bytes

/-- monitor.c:244-255 `monitor_permit` -/
def setPermit (p : Req → Bool) (r : Req) (b : Bool) : Req → Bool :=
  fun x => if x = r then b else p x

/-- monitor.c:257-269 `monitor_permit_authentications` -/
def permitAuth (t : List Ent) (p : Req → Bool) (b : Bool) : Req → Bool :=
  fun x => if t.any (fun e => decide (e.req = x) && (e.isauth || e.decides)) then b else p x

/-- What the outside decides while one request is handled. -/
structure Ans where
  /-- `user_key_allowed`: the options of the line that allows the key -/
  userKey : Option KeyOpts.Opts := none
  /-- `hostbased_key_allowed` -/
  hostKey : Bool := false
  /-- the password back end -/
  password : Bool := false
  /-- `do_pam_account` -/
  account : Bool := false
  /-- `sshpam_device.init_ctx` gave a context -/
  init : Bool := false
  /-- `sshpam_device.query`: did it return 0, and the number of prompts; `none`: unusable -/
  query : Option (Bool × Nat) := none
  /-- `sshpam_device.respond` returned 0 -/
  respond : Bool := false
  /-- `sshkey_sign` succeeded -/
  sign : Bool := false
  deriving DecidableEq, Repr

/-- One round of the loop: a request, the request that follows it if the loop asks for one, and the
outside's answers. -/
structure Ev where
  msg : Bytes
  follow : Bytes := []
  ans : Ans := {}
  deriving DecidableEq, Repr

/-- What was done for the child. -/
inductive Act where
  | state | moduli | banner | pamStart | pamAccount (ok : Bool)
  /-- host key number `key` signed `data` -/
  | sign (key : Nat) (data : Bytes)
  | pwnam (user : Bytes)
  | authserv (style : Bytes)
  | password (pw : Bytes) (ok : Bool)
  | keyAllowed (user : Bool) (key cuser chost : Bytes) (ok : Bool)
  | keyVerify (blob sig data alg : Bytes) (ok : Bool)
  | pamInit (ok : Bool) | pamQuery (ok : Bool) | pamRespond (ok : Bool) | pamFree (ok : Bool)
  | pty | ptycleanup
  deriving DecidableEq, Repr

/-- How a handler ends: `fatal`, a NULL pointer, or a return. -/
inductive Res where
  | die
  | crash
  | ret (v : Bool) (st : St) (a : Act)

/-! ### Handlers -/

/-- monitor.c:656-693 `mm_answer_moduli` -/
def answerModuli (st : St) (m : Bytes) : Res :=
  match getInt 4 m with
  | none => .die
  | some (mn, m1) =>
    match getInt 4 m1 with
    | none => .die
    | some (want, m2) =>
      match getInt 4 m2 with
      | none => .die
      | some (mx, _) => if mx < mn ∨ want < mn ∨ mx < want then .die else .ret false st .moduli

/-- the text a host key may sign for a client that asks for proof, `monitor.c:733-747` -/
def proofText (sid pub : Bytes) : Bytes := str b!"hostkeys-prove-00@openssh.com" ++ str sid ++ str pub

/-- `monitor.c:727-752`: is this something a host key may sign -/
def mayThisBeSigned (w : World) (st : St) (k : Nat) (d : Bytes) : Bool :=
  if d.length ≠ 20 ∧ d.length ≠ 32 ∧ d.length ≠ 48 ∧ d.length ≠ 64 then
    match st.sid, w.hostPublic k with
    | some sid, some pub => decide (d = proofText sid pub)
    | _, _ => false
  else true

/-- `monitor.c:754-759`: the first thing signed is the session id -/
def saveSid (st : St) (d : Bytes) : Option Bytes :=
  match st.sid with
  | none => some d
  | some s => some s

/-- the fields of a signing request, `monitor.c:711-715` -/
def parseSign (w : World) (m : Bytes) : Option (Bytes × Bytes) := do
  let k ← getStr m
  let key ← w.parse k.1
  let d ← getStr k.2
  let a ← getCstr d.2
  let _ ← getInt 4 a.2
  return (key, d.1)

/-- monitor.c:696-793 `mm_answer_sign` -/
def answerSign (w : World) (st : St) (m : Bytes) (a : Ans) : Res :=
  match parseSign w m with
  | none => .die
  | some (key, d) =>
    match w.hostIndex key with
    | none => .die
    | some k =>
      if mayThisBeSigned w st k d then
        if a.sign then
          .ret false { st with sid := saveSid st d, permit := setPermit st.permit .pwnam true }
            (.sign k d)
        else .die
      else .die

/-- the table changes made by `mm_answer_pwnamallow`, `monitor.c:912-920` -/
def pwnamPermit (c : Cfg) (p : Req → Bool) : Req → Bool :=
  if c.auth.usePam then
    setPermit (setPermit (setPermit p .authserv true) .banner true) .pamStart true
  else setPermit (setPermit p .authserv true) .banner true

/-- `auth2_setup_methods_lists` as used by the monitor, `monitor.c:899-907`: on failure it goes on
without lists -/
def monLists (c : Cfg) : Bool × List Bytes :=
  match Auth.setupLists c.auth true with
  | some r => r
  | none => (true, [])

/-- monitor.c:830-923 `mm_answer_pwnamallow` -/
def answerPwnam (c : Cfg) (st : St) (m : Bytes) : Res :=
  if st.attempt ≠ 0 then .die
  else
    match getCstr m with
    | none => .die
    | some (u, _) =>
      if c.refuse then .die
      else
        .ret false { st with attempt := st.attempt + 1, user := u, uid := c.auth.getpw u,
                             valid := (c.auth.getpw u).isSome, multi := (monLists c).1,
                             lists := (monLists c).2, permit := pwnamPermit c st.permit } (.pwnam u)

/-- monitor.c:940-958 `mm_answer_authserv` -/
def answerAuthserv (st : St) (m : Bytes) : Res :=
  match getCstr m with
  | none => .die
  | some (_, m1) =>
    match getCstr m1 with
    | none => .die
    | some (s, _) =>
      .ret false { st with permit := permitAuth preTable st.permit true,
                           style := if s = [] then none else some s } (.authserv s)

/-- auth-passwd.c:76-129 `auth_password` -/
def authPassword (c : Cfg) (st : St) (pw : Bytes) (a : Ans) : Bool :=
  if pw.length > 1024 then false
  else if pw = [] ∧ c.permitEmpty = false then false
  else a.password && st.valid && !(decide (st.uid = some 0) && decide (c.auth.root ≠ .yes))

/-- monitor.c:989-1026 `mm_answer_authpassword` -/
def answerPassword (c : Cfg) (st : St) (m : Bytes) (a : Ans) : Res :=
  if c.auth.enabled (b!"password") then
    match getCstr m with
    | none => .die
    | some (pw, _) =>
      .ret (authPassword c st pw a)
        { st with pwCalls := st.pwCalls + 1,
                  method := if pw = [] ∧ st.pwCalls = 0 then b!"none" else b!"password" }
        (.password pw (authPassword c st pw a))
  else .die

/-- the table changes made by `mm_answer_pam_start`, `monitor.c:1106-1108` -/
def pamStartPermit (c : Cfg) (p : Req → Bool) : Req → Bool :=
  if c.auth.enabled b!"keyboard-interactive" = true then
    setPermit (setPermit p .pamAccount true) .pamInit true
  else setPermit p .pamAccount true

/-- monitor.c:1097-1110 `mm_answer_pam_start` -/
def answerPamStart (c : Cfg) (st : St) : Res :=
  if c.auth.usePam then .ret false { st with permit := pamStartPermit c st.permit } .pamStart
  else .die

/-- monitor.c:1112-1130 `mm_answer_pam_account` -/
def answerPamAccount (c : Cfg) (st : St) (a : Ans) : Res :=
  if c.auth.usePam then .ret a.account st (.pamAccount a.account) else .die

/-- monitor.c:1135-1158 `mm_answer_pam_init_ctx` -/
def answerPamInit (c : Cfg) (st : St) (a : Ans) : Res :=
  if c.auth.enabled (b!"keyboard-interactive") then
    if st.pamCtx then .die
    else if a.init then
      .ret false { st with pamCtx := true, pamOk := false,
                           permit := setPermit (setPermit st.permit .pamFree true) .pamQuery true }
        (.pamInit true)
    else .ret false { st with pamOk := false } (.pamInit false)
  else .die

/-- monitor.c:1160-1199 `mm_answer_pam_query` -/
def answerPamQuery (st : St) (a : Ans) : Res :=
  if st.pamCtx then
    match a.query with
    | none => .die
    | some (zero, num) =>
      if num > 1 then .die
      else
        .ret false { st with pamOk := zero && decide (num = 0),
                             permit := setPermit st.permit .pamRespond true,
                             method := b!"keyboard-interactive", sub := some b!"pam" }
          (.pamQuery (zero && decide (num = 0)))
  else .die

/-- the answers in a response, `monitor.c:1221-1226` -/
def getCstrs : Nat → Bytes → Option Bytes
  | 0, m => some m
  | n + 1, m =>
    match getCstr m with
    | none => none
    | some (_, m1) => getCstrs n m1

/-- monitor.c:1201-1241 `mm_answer_pam_respond` -/
def answerPamRespond (st : St) (m : Bytes) (a : Ans) : Res :=
  if st.pamCtx then
    match getInt 4 m with
    | none => .die
    | some (num, m1) =>
      if num > 32 then .die
      else
        match getCstrs num m1 with
        | none => .die
        | some _ =>
          .ret false { st with pamOk := a.respond, method := b!"keyboard-interactive",
                               sub := some b!"pam" } (.pamRespond a.respond)
  else .die

/-- monitor.c:1243-1260 `mm_answer_pam_free_ctx` -/
def answerPamFree (st : St) : Res :=
  if st.pamCtx then
    .ret st.pamOk { st with pamCtx := false, pamOk := false,
                            permit := setPermit st.permit .pamInit true,
                            method := b!"keyboard-interactive", sub := some b!"pam" }
      (.pamFree st.pamOk)
  else .die

/-- auth2.c:746-764 `auth2_key_already_used` -/
def alreadyUsed (w : World) (st : St) (key : Bytes) : Bool := st.prevKeys.any fun p => w.samePublic key p

/-- the fields of a question about a key, `monitor.c:1277-1282` -/
def parseAllowed (w : World) (m : Bytes) : Option (Nat × Bytes × Bytes × Bytes) := do
  let t ← getInt 4 m
  let cu ← getCstr t.2
  let ch ← getCstr cu.2
  let k ← getStr ch.2
  let key ← w.parse k.1
  let _ ← getInt 4 k.2
  return (t.1, cu.1, ch.1, key)

/-- `monitor.c:1286-1297`: the options if a user's key is allowed -/
def userKeyAllowed (w : World) (c : Cfg) (st : St) (key : Bytes) (a : Ans) : Option KeyOpts.Opts :=
  if c.auth.enabled (b!"publickey") then
    if alreadyUsed w st key then none
    else if w.userAlg key then a.userKey else none
  else none

/-- `monitor.c:1298-1312` -/
def hostKeyAllowed (w : World) (c : Cfg) (st : St) (key : Bytes) (a : Ans) : Bool :=
  if c.auth.enabled (b!"hostbased") then
    if alreadyUsed w st key then false
    else if w.hostAlg key then a.hostKey else false
  else false

/-- the key state after a question about a user's key, `monitor.c:1330-1345` -/
def userKeySt (key cuser chost : Bytes) : Option KeyOpts.Opts → Option KeySt
  | none => none
  | some o => some { blob := key, user := true, opts := o, cuser := cuser, chost := chost }

/-- monitor.c:1263-1353 `mm_answer_keyallowed`.  MM_HOSTKEY is 1, MM_USERKEY is 2
(`monitor_wrap.h:31`). -/
def answerKeyAllowed (w : World) (c : Cfg) (st : St) (m : Bytes) (a : Ans) : Res :=
  match parseAllowed w m with
  | none => .die
  | some (t, cuser, chost, key) =>
    if st.valid then
      if t = 2 then
        .ret false { st with method := b!"publickey",
                             key := userKeySt key cuser chost (userKeyAllowed w c st key a) }
          (.keyAllowed true key cuser chost (userKeyAllowed w c st key a).isSome)
      else if t = 1 then
        .ret false { st with method := b!"hostbased",
                             key := if hostKeyAllowed w c st key a then
                               some { blob := key, user := false, opts := {}, cuser := cuser,
                                      chost := chost } else none }
          (.keyAllowed false key cuser chost (hostKeyAllowed w c st key a))
      else .die
    else .ret false { st with key := none } (.keyAllowed (decide (t = 2)) key cuser chost false)

/-- `monitor.c:1386-1388` -/
def userStyle (st : St) : Bytes :=
  match st.style with
  | none => st.user
  | some s => st.user ++ b!":" ++ s

/-- the session id at the front of signed data, `monitor.c:1369-1384`: is it right, and the rest -/
def takeSid (old : Bool) (sid : Option Bytes) (d : Bytes) : Option (Bool × Bytes) :=
  if old then
    if d.length < (sid.getD []).length then none
    else some (sid.isSome && decide (d.take (sid.getD []).length = sid.getD []),
      d.drop (sid.getD []).length)
  else
    match getStr d with
    | none => none
    | some (s, r) => some (decide (sid = some s), r)

/-- the host key of a host bound request, `monitor.c:1413` and `monitor.c:1418-1427`: the rest of
the data; `none` is fatal -/
def takeHost (w : World) (bound : Bool) (d : Bytes) : Option Bytes :=
  if bound then do
    let k ← getStr d
    let key ← w.parse k.1
    let _ ← w.hostIndex key
    return k.2
  else some d

/-- monitor.c:1355-1434 `monitor_valid_userblob`; `none` is fatal. The host key is looked up before
the length is checked here; both refusals end the connection. -/
def validUserblob (w : World) (c : Cfg) (st : St) (d : Bytes) : Option Bool := do
  let s ← takeSid c.oldSid st.sid d
  let t ← getInt 1 s.2
  let u ← getCstr t.2
  let v ← getStr u.2
  let n ← getCstr v.2
  let g ← getInt 1 n.2
  let al ← getStr g.2
  let bl ← getStr al.2
  let r ← takeHost w (decide (n.1 = b!"publickey-hostbound-v00@openssh.com")) bl.2
  return s.1 && decide (t.1 = 50) && decide (u.1 = userStyle st) &&
    (decide (n.1 = b!"publickey") || decide (n.1 = b!"publickey-hostbound-v00@openssh.com")) &&
    decide (g.1 ≠ 0) && decide (r = [])

/-- `monitor.c:1484-1485` -/
def stripDot (s : Bytes) : Bytes := if s.getLast? = some 46 then s.dropLast else s

/-- monitor.c:1436-1503 `monitor_valid_hostbasedblob` -/
def validHostblob (st : St) (d cuser chost : Bytes) : Option Bool := do
  let s ← takeSid false st.sid d
  let t ← getInt 1 s.2
  let u ← getCstr t.2
  let v ← getStr u.2
  let n ← getCstr v.2
  let al ← getStr n.2
  let bl ← getStr al.2
  let h ← getCstr bl.2
  let r ← getCstr h.2
  return s.1 && decide (t.1 = 50) && decide (u.1 = userStyle st) && decide (n.1 = b!"hostbased") &&
    decide (stripDot h.1 = chost) && decide (r.1 = cuser) && decide (r.2 = [])

/-- the fields of a verification request, `monitor.c:1516-1520` -/
def parseVerify (m : Bytes) : Option (Bytes × Bytes × Bytes × Bytes) := do
  let b ← getStr m
  let s ← getStr b.2
  let d ← getStr s.2
  let a ← getCstr d.2
  return (b.1, s.1, d.1, a.1)

/-- the data check, `monitor.c:1539-1557` -/
def validData (w : World) (c : Cfg) (st : St) (ks : KeySt) (d : Bytes) : Bool :=
  (if ks.user then validUserblob w c st d else validHostblob st d ks.cuser ks.chost) = some true

/-- touch and PIN of a security key, `monitor.c:1572-1600`; SSH_SK_USER_PRESENCE_REQD is 1 and
SSH_SK_USER_VERIFICATION_REQD is 4 (sk-api.h:27-28) -/
def skOk (c : Cfg) (o : KeyOpts.Opts) : Option Nat → Bool
  | none => true
  | some f =>
    !((c.touch || !o.noPresence) && decide (f &&& 1 = 0)) && !((c.uv || o.verify) && decide (f &&& 4 = 0))

/-- `monitor.c:1565-1600`: does the signature count -/
def sigCounts (w : World) (c : Cfg) (ks : KeySt) (key sig d alg : Bytes) : Bool :=
  match w.verify key sig d (if alg = [] then none else some alg) with
  | none => false
  | some sk => if ks.user then skOk c ks.opts sk else true

/-- auth.c:750-762 `auth_activate_options`, whose result `mm_answer_keyverify` ignores
(`monitor.c:1604-1605`): the inner `none` is the NULL left behind when the options do not fit, the
outer one the NULL pointer used. -/
def activate (st : St) (ks : KeySt) (ok : Bool) : Option (Option KeyOpts.Opts) :=
  if ks.user && ok then
    match st.opts with
    | none => none
    | some p => some (KeyOpts.merge p ks.opts)
  else some st.opts

/-- monitor.c:1505-1620 `mm_answer_keyverify` -/
def answerKeyVerify (w : World) (c : Cfg) (st : St) (m : Bytes) : Res :=
  match parseVerify m with
  | none => .die
  | some (blob, sig, d, alg) =>
    match st.key with
    | none => .die
    | some ks =>
      if ks.blob = blob then
        match w.parse blob with
        | none => .die
        | some key =>
          if validData w c st ks d then
            match activate st ks (sigCounts w c ks key sig d alg) with
            | none => .crash
            | some o =>
              .ret (sigCounts w c ks key sig d alg)
                { st with method := if ks.user then b!"publickey" else b!"hostbased", key := none,
                          opts := o,
                          prevKeys := if sigCounts w c ks key sig d alg then key :: st.prevKeys
                            else st.prevKeys }
                (.keyVerify blob sig d alg (sigCounts w c ks key sig d alg))
          else .die
      else .die

/-- The handler of each request, in the first table. -/
def handle (w : World) (c : Cfg) (st : St) (r : Req) (m : Bytes) (a : Ans) : Res :=
  match r with
  | .state => .ret false st .state
  | .moduli => answerModuli st m
  | .sign => answerSign w st m a
  | .pwnam => answerPwnam c st m
  | .authserv => answerAuthserv st m
  | .banner => .ret false st .banner
  | .authpassword => answerPassword c st m a
  | .pamStart => answerPamStart c st
  | .pamAccount => answerPamAccount c st a
  | .pamInit => answerPamInit c st a
  | .pamQuery => answerPamQuery st a
  | .pamRespond => answerPamRespond st m a
  | .pamFree => answerPamFree st
  | .keyallowed => answerKeyAllowed w c st m a
  | .keyverify => answerKeyVerify w c st m
  | .pty => .die
  | .ptycleanup => .die
  | .term => .die

/-- the first entry for a request, `monitor.c:521-525` -/
def findEnt (t : List Ent) (ty : UInt8) : Option Ent := t.find? fun e => decide (e.req.code = ty)

/-- a request used up, `monitor.c:535-538` -/
def useOnce (e : Ent) (st : St) : St :=
  if e.once then { st with permit := setPermit st.permit e.req false } else st

/-- the table and the flags consulted for a request, `monitor.c:516-531`: the entry and the rest of
the message -/
def gate (t : List Ent) (st : St) (msg : Bytes) : Option (Ent × Bytes) :=
  match msg with
  | [] => none
  | ty :: m =>
    match findEnt t ty with
    | none => none
    | some e => if st.permit e.req then some (e, m) else none

/-! ### The loop before authentication -/

inductive Fate where
  /-- wait for the next request -/
  | go
  /-- the user is in -/
  | accepted
  /-- the connection ends -/
  | dead
  /-- the monitor uses a NULL pointer -/
  | crashed
  deriving DecidableEq, Repr

structure Out where
  act : Option Act
  log : Option Auth.Log
  fate : Fate
  deriving DecidableEq, Repr

/-- `auth_root_allowed` (auth.c:350-372) on the monitor's options; `none` is the NULL pointer -/
def rootMay (c : Cfg) (st : St) : Option Bool :=
  if st.uid = some 0 then
    if c.auth.root = .forcedOnly then
      match st.opts with
      | none => none
      | some o => some (Auth.rootAllowed c.auth o.command.isSome st.method)
    else some (Auth.rootAllowed c.auth false st.method)
  else some true

/-- the end of one round, `monitor.c:339-360` and `monitor.c:362-365` -/
def finish (c : Cfg) (e : Ent) (st : St) (a : Act) (authed part : Bool) : Out × St :=
  let log : Option Auth.Log := if e.decides then
    some { verdict := Auth.verdict authed part false, method := st.method, sub := st.sub } else none
  let st' := if e.decides && !part && !authed then { st with failures := st.failures + 1 } else st
  if st'.failures > c.auth.maxTries then (⟨some a, log, .dead⟩, st')
  else if authed then
    if st'.valid = true ∧ st'.method ≠ b!"unknown" then (⟨some a, log, .accepted⟩, st')
    else (⟨some a, log, .dead⟩, st')
  else (⟨some a, log, .go⟩, st')

/-- the account check, `monitor.c:325-337` -/
def account (c : Cfg) (e : Ent) (st : St) (ev : Ev) (a : Act) : Out × St :=
  if c.auth.usePam then
    if ev.follow.head? = some Req.pamAccount.code then finish c e st a ev.ans.account false
    else (⟨some a, none, .dead⟩, st)
  else finish c e st a true false

/-- a success that completes the login, `monitor.c:318-324` -/
def decided (c : Cfg) (e : Ent) (st : St) (ev : Ev) (a : Act) : Out × St :=
  if e.decides then
    match rootMay c st with
    | none => (⟨some a, none, .crashed⟩, st)
    | some true => account c e st ev a
    | some false => finish c e st a false false
  else (⟨some a, none, .dead⟩, st)

/-- what follows a handler, `monitor.c:304-361` -/
def after (c : Cfg) (e : Ent) (st : St) (ev : Ev) (a : Act) (v : Bool) : Out × St :=
  if v then
    if st.multi then
      match Auth.updateLists st.method st.sub st.lists false with
      | none => (⟨some a, none, .dead⟩, st)
      | some (true, ls) => decided c e { st with lists := ls } ev a
      | some (false, ls) => finish c e { st with lists := ls } a false true
    else decided c e st ev a
  else finish c e st a false false

/-- monitor.c:271-383 `monitor_child_preauth` (one round) with `monitor_read` (monitor.c:481-550) -/
def step (w : World) (c : Cfg) (st : St) (ev : Ev) : Out × St :=
  match gate preTable st ev.msg with
  | none => (⟨none, none, .dead⟩, st)
  | some (e, m) =>
    match handle w c { st with method := b!"unknown", sub := none } e.req m ev.ans with
    | .die => (⟨none, none, .dead⟩, st)
    | .crash => (⟨none, none, .crashed⟩, st)
    | .ret v st1 a => after c e (useOnce e st1) ev a v

/-- the start, `monitor.c:288-295` and `sshd-session.c` (`auth_opts` has the defaults for keys) -/
def init (c : Cfg) : St :=
  { permit := fun r => decide (r = .state ∨ r = .moduli ∨ r = .sign)
    attempt := 0, user := [], uid := none, valid := false, style := none,
    multi := decide (c.auth.lists ≠ []), lists := [], failures := 0, sid := none, key := none,
    prevKeys := [], opts := some KeyOpts.keysDefaults, pamCtx := false, pamOk := false,
    pwCalls := 0, method := b!"unknown", sub := none }

/-! ### The loop after authentication -/

/-- the requests permitted after authentication, `monitor.c:413-423` -/
def postPermit (o : KeyOpts.Opts) (r : Req) : Bool :=
  decide (r = .state ∨ r = .moduli ∨ r = .sign ∨ r = .term) ||
    (o.pty && decide (r = .pty ∨ r = .ptycleanup))

/-- monitor.c:397-424, the start of `monitor_child_postauth`; `none` is a NULL pointer -/
def postInit (st : St) : Option St :=
  match st.opts with
  | none => none
  | some o => some { st with permit := postPermit o }

/-- The handlers of the second table; `mm_answer_state` refuses (monitor.c:640-644), `mm_answer_term`
(monitor.c:1746-1770) ends the process. -/
def handlePost (w : World) (st : St) (r : Req) (m : Bytes) (a : Ans) : Res :=
  match r with
  | .moduli => answerModuli st m
  | .sign => answerSign w st m a
  | .pty => .ret false st .pty
  | .ptycleanup => .ret false st .ptycleanup
  | _ => .die

/-- monitor.c:425-426, one round -/
def stepPost (w : World) (st : St) (ev : Ev) : Out × St :=
  match gate postTable st ev.msg with
  | none => (⟨none, none, .dead⟩, st)
  | some (e, m) =>
    match handlePost w st e.req m ev.ans with
    | .die => (⟨none, none, .dead⟩, st)
    | .crash => (⟨none, none, .crashed⟩, st)
    | .ret _ st1 a => (⟨some a, none, .go⟩, useOnce e st1)

end Verif.Monitor
