/-
Model of the server side of user authentication: the request handler and its bookkeeping in
`auth2.c`, the table of methods in `auth2-methods.c`, keyboard-interactive in `auth2-chall.c` and
the root rule of `auth.c`.

The build modelled has no GSSAPI (`#ifdef GSSAPI` parts are left out).  What a method itself
decides (is the signature good, is the password right) is a field of the event, chosen by the
adversary of the theorems; everything the framework does with that answer is modelled.  Packet
parsing errors, which end the connection, are not modelled.  Logging is modelled as the log line
`auth_log` writes.
-/
import Verif.Base
import Verif.Text

namespace Verif.Auth

/-! ### The methods table -/

/-- Synonyms of a method: `auth2-methods.c:49-53`; only public key has one. -/
def synonym (m : Bytes) : Option Bytes :=
  if m = b!"publickey" then some b!"publickey-hostbound-v00@openssh.com" else none

/-- `auth2.c:77-87` `authmethods` (and `auth2-methods.c:76-86`), in table order. -/
def methodNames : List Bytes :=
  [b!"none", b!"publickey", b!"password", b!"keyboard-interactive", b!"hostbased"]

/-- `auth.c:350-372`, the settings of PermitRootLogin. -/
inductive RootLogin where
  | no | yes | withoutPassword | forcedOnly
  deriving DecidableEq, Repr

/-- The configuration in force once the user is known. -/
structure Cfg where
  /-- `options.pubkey_authentication` and its companions, by method name ("none" is not here: its
  flag is part of the state) -/
  enabled : Bytes → Bool
  /-- `options.auth_methods` -/
  lists : List Bytes
  /-- `options.max_authtries` -/
  maxTries : Nat
  /-- `options.use_pam` -/
  usePam : Bool
  /-- `options.permit_root_login` -/
  root : RootLogin
  /-- `mm_getpwnamallow`: the numeric id of a user that exists and may log in -/
  getpw : Bytes → Option Nat
  /-- built with BSD authentication -/
  bsdauth : Bool

/-- The keyboard-interactive devices, `auth2-chall.c:62-71`; `auth2-chall.c:108-109` removes "pam"
when PAM is off (a build without BSD authentication is taken to have PAM). -/
def devicesOf (bsdauth usePam : Bool) : List Bytes :=
  if bsdauth then [b!"bsdauth"] else if usePam then [b!"pam"] else []

def Cfg.devices (c : Cfg) : List Bytes := devicesOf c.bsdauth c.usePam

/-- `auth2-chall.c:69-76` `KbdintAuthctxt` -/
structure Kbd where
  /-- names still to be tried; `NULL` when exhausted -/
  names : Option Bytes
  /-- the device in use -/
  device : Option Bytes
  /-- `devices_done`: one flag per device -/
  used : List Bool
  deriving DecidableEq, Repr

/-- `Authctxt`, `auth.h:51-88`, with `none_enabled` (`auth2-methods.c:41`). -/
structure St where
  attempt : Nat
  failures : Nat
  user : Bytes
  service : Bytes
  valid : Bool
  /-- `pw->pw_uid` -/
  uid : Nat
  postponed : Bool
  serverFail : Bool
  noneEnabled : Bool
  /-- what remains of each method list -/
  lists : List Bytes
  /-- `options.num_auth_methods != 0`, after "any" has been normalised away -/
  multi : Bool
  kbd : Option Kbd
  /-- the connection has ended or authentication has succeeded -/
  over : Bool

def init : St :=
  { attempt := 0, failures := 0, user := [], service := [], valid := false, uid := 1,
    postponed := false, serverFail := false, noneEnabled := true, lists := [], multi := false,
    kbd := none, over := false }

/-- What the outside world decides while one message is handled. -/
structure Result where
  /-- the method's own verdict -/
  ok : Bool
  /-- a method other than keyboard-interactive answered the client itself and waits -/
  wait : Bool
  /-- the method set `server_caused_failure` -/
  serverFail : Bool
  /-- keyboard-interactive: a further challenge was sent -/
  more : Bool
  /-- keyboard-interactive: the device tried next could be started and sent its challenge -/
  avail : Bool
  /-- the key's options contain a forced command (`auth_opts->force_command`) -/
  forced : Bool
  /-- the PAM account check -/
  account : Bool
  deriving DecidableEq, Repr

inductive Ev where
  /-- `SSH2_MSG_USERAUTH_REQUEST`; `devs` is the device list of a keyboard-interactive request -/
  | request (user service method devs : Bytes) (r : Result)
  /-- `SSH2_MSG_USERAUTH_INFO_RESPONSE` -/
  | response (r : Result)
  deriving DecidableEq, Repr

inductive Verdict where
  | accepted | partly | postponed | failed
  deriving DecidableEq, Repr

/-- The log line written by `auth_log`, `auth.c:265-330`. -/
structure Log where
  verdict : Verdict
  method : Bytes
  sub : Option Bytes
  deriving DecidableEq, Repr

inductive Reply where
  /-- `SSH2_MSG_USERAUTH_SUCCESS` -/
  | success
  /-- `SSH2_MSG_USERAUTH_FAILURE` with the methods that can continue and the partial flag -/
  | failure (methods : Bytes) (part : Bool)
  /-- no reply here (the method has sent its own) -/
  | quiet
  /-- the connection ends -/
  | fatal
  deriving DecidableEq, Repr

structure Out where
  log : Option Log
  reply : Reply
  deriving DecidableEq, Repr

/-! ### Method lists -/

inductive LMatch where
  | none | method | both | part
  deriving DecidableEq, Repr

/-- the tail of `list_starts_with`: `*p` must be a comma or the terminator -/
def atEnd (p : Bytes) (m : LMatch) : LMatch :=
  match p with
  | [] => m
  | c :: _ => if c = 44 then m else .none

/-- the part of `list_starts_with` after a colon -/
def afterColon (p : Bytes) : Option Bytes → LMatch
  | Option.none => .part
  | some s => if p.take s.length ≠ s then .none else atEnd (p.drop s.length) .both

/-- the part of `list_starts_with` after the method name -/
def afterName (p : Bytes) (sub : Option Bytes) : LMatch :=
  match p with
  | [] => atEnd [] .method
  | x :: xs => if x = 58 then afterColon xs sub else atEnd (x :: xs) .method

/-- auth2.c:602-627 `list_starts_with` -/
def listStartsWith (methods method : Bytes) (sub : Option Bytes) : LMatch :=
  if methods.take method.length ≠ method then .none
  else afterName (methods.drop method.length) sub

/-- the comma skipped by `remove_method` -/
def skipComma : Bytes → Bytes
  | 44 :: p => p
  | p => p

/-- auth2.c:634-652 `remove_method`: `none` when the list did not start with the method. -/
def removeMethod (methods method : Bytes) (sub : Option Bytes) : Option Bytes :=
  match listStartsWith methods method sub with
  | .method => some (skipComma (methods.drop method.length))
  | .both =>
    some (skipComma (methods.drop (method.length + match sub with
      | some s => 1 + s.length
      | none => 0)))
  | _ => none

/-- auth2.c:660-683 `auth2_update_methods_lists`: `none` is the fatal "method not in
AuthenticationMethods"; otherwise whether a list was completed, and the lists.  Lists after the
completed one are left as they were. -/
def updateLists (method : Bytes) (sub : Option Bytes) : List Bytes → Bool → Option (Bool × List Bytes)
  | [], found => if found then some (false, []) else none
  | l :: ls, found =>
    match removeMethod l method sub with
    | none => (updateLists method sub ls found).map fun r => (r.1, l :: r.2)
    | some l' =>
      if l' = [] then some (true, l' :: ls)
      else (updateLists method sub ls true).map fun r => (r.1, l' :: r.2)

/-- `*(cfg->enabled)`: "none" is allowed once. -/
def isEnabled (c : Cfg) (noneEnabled : Bool) (m : Bytes) : Bool :=
  if m = b!"none" then noneEnabled else c.enabled m

/-- `*strchr(s, ':') = 0` -/
def cutColon (t : Bytes) : Bytes := t.takeWhile (· ≠ 58)

/-- the loop of `auth2_methods_valid` over the names, cut at the first colon -/
def namesValid (en : Bytes → Bool) : List Bytes → Bool
  | [] => true
  | t :: ts =>
    if cutColon t ∈ methodNames then (if en (cutColon t) then namesValid en ts else false) else false

/-- auth2-methods.c:92-134 `auth2_methods_valid`, with `need_enable` set -/
def methodsValid (en : Bytes → Bool) (l : Bytes) : Bool :=
  if l = [] then false else namesValid en (Text.split 44 l)

/-- auth2.c:563-600 `auth2_setup_methods_lists`: whether several methods are required, and the
lists; `none` is the failure. -/
def setupLists (c : Cfg) (noneEnabled : Bool) : Option (Bool × List Bytes) :=
  if c.lists = [b!"any"] then some (false, [])
  else if c.lists = [] then some (false, [])
  else
    let ls := c.lists.filter (methodsValid (isEnabled c noneEnabled))
    if ls = [] then none else some (true, ls)

/-- auth2.c:471-489 `auth2_method_allowed` -/
def methodAllowed (st : St) (method : Bytes) (sub : Option Bytes) : Bool :=
  if st.multi then st.lists.any fun l => decide (listStartsWith l method sub ≠ .none)
  else true

/-- auth2.c:491-517 `authmethods_get` -/
def methodsGet (c : Cfg) (st : St) : List Bytes :=
  methodNames.filter fun m =>
    decide (m ≠ b!"none") && isEnabled c st.noneEnabled m && methodAllowed st m none

/-- auth2.c:519-534 `authmethod_byname`: the primary name -/
def byName (name : Bytes) : Option Bytes :=
  methodNames.find? fun m => decide (name = m) || decide (synonym m = some name)

/-- auth2.c:536-554 `authmethod_lookup` -/
def lookup (c : Cfg) (st : St) (name : Bytes) : Option Bytes :=
  match byName name with
  | none => none
  | some m =>
    if isEnabled c st.noneEnabled m then (if methodAllowed st m none then some m else none)
    else none

/-- auth.c:350-372 `auth_root_allowed` -/
def rootAllowed (c : Cfg) (forced : Bool) (method : Bytes) : Bool :=
  match c.root with
  | .yes => true
  | .withoutPassword =>
    decide (method = b!"publickey" ∨ method = b!"hostbased" ∨ method = b!"gssapi-with-mic")
  | .forcedOnly => forced
  | .no => false

/-! ### Keyboard-interactive -/

/-- the tests of the inner loop of `kbdint_next_device` -/
def deviceFits (st : St) (tok d : Bytes) (used : Bool) : Bool :=
  !used && methodAllowed st b!"keyboard-interactive" (some d) && decide (d.take tok.length = tok)

/-- the inner loop of `kbdint_next_device`: mark every device that is not used yet, is allowed and
matches; the last of them is chosen -/
def scanDevices (st : St) (tok : Bytes) : List Bytes → List Bool → Option Bytes →
    Option Bytes × List Bool
  | [], used, cur => (cur, used)
  | d :: ds, used, cur =>
    if deviceFits st tok d (used.headD false) then
      ((scanDevices st tok ds used.tail (some d)).1, true :: (scanDevices st tok ds used.tail (some d)).2)
    else
      ((scanDevices st tok ds used.tail cur).1,
        used.headD false :: (scanDevices st tok ds used.tail cur).2)

/-- auth2-chall.c:152-186 `kbdint_next_device`.  The loop runs at most once per remaining name. -/
def nextDevice (c : Cfg) (st : St) : Nat → Kbd → Kbd
  | 0, k => { k with device := none }
  | fuel + 1, k =>
    match k.names with
    | none => { k with device := none }
    | some ns =>
      let (tok, rest) := Text.strsep 44 ns
      if tok = [] then { k with device := none }
      else
        let (cur, used) := scanDevices st tok c.devices k.used none
        match cur with
        | some d => { names := rest, device := some d, used := used }
        | none => nextDevice c st fuel { names := rest, device := none, used := used }

/-- the number of iterations is bounded by the number of remaining names -/
def kbdFuel (k : Kbd) : Nat := (k.names.getD []).length + 1

/-- auth2-chall.c:221-250 `auth2_challenge_start`: the new context (`none` after
`auth2_challenge_stop`) and whether a challenge is outstanding -/
def challengeStart (c : Cfg) (st : St) (k : Kbd) (avail : Bool) : Option Kbd × Bool :=
  let k' := nextDevice c st (kbdFuel k) k
  match k'.device with
  | none => (none, false)
  | some _ => if avail then (some k', true) else (none, false)

/-- auth2-chall.c:100-133 `kbdint_alloc`: an empty list means all devices -/
def kbdAlloc (c : Cfg) (devs : Bytes) : Kbd :=
  { names := some (if devs = [] then Text.join 44 c.devices else devs), device := none,
    used := c.devices.map fun _ => false }

/-! ### The request handler -/

/-- how a finished attempt is logged, `auth.c:283-292` -/
def verdict (authed part postponed : Bool) : Verdict :=
  if postponed then .postponed else if part then .partly else if authed then .accepted else .failed

/-- the second half of `userauth_finish`, `auth2.c:400-463`: log, PAM account check, reply -/
def finishReply (c : Cfg) (st : St) (r : Result) (authed part : Bool) (method : Bytes)
    (sub : Option Bytes) : Out × St :=
  let log : Log := { verdict := verdict authed part st.postponed, method := method, sub := sub }
  if st.postponed then ({ log := some log, reply := .quiet }, st)
  else if authed then
    if c.usePam = true ∧ r.account = false then
      ({ log := some log, reply := .fatal }, { st with over := true })
    else ({ log := some log, reply := .success }, { st with over := true })
  else
    let f := if part = false ∧ st.serverFail = false ∧ (st.attempt > 1 ∨ method ≠ b!"none")
      then st.failures + 1 else st.failures
    if f ≥ c.maxTries then
      ({ log := some log, reply := .fatal }, { st with failures := f, over := true })
    else
      ({ log := some log, reply := .failure (Text.join 44 (methodsGet c st)) part },
        { st with failures := f })

/-- a fatal error or disconnection before anything is logged -/
def die (st : St) : Out × St := ({ log := none, reply := .fatal }, { st with over := true })

/-- auth2.c:360-464 `userauth_finish` -/
def finish (c : Cfg) (st : St) (r : Result) (authed : Bool) (packetMethod : Bytes)
    (sub : Option Bytes) : Out × St :=
  if authed then
    if st.valid = false then die st
    else if st.postponed then die st
    else
      match byName packetMethod with
      | none => die st
      | some method =>
        if st.uid = 0 ∧ rootAllowed c r.forced method = false then
          finishReply c st r false false method sub
        else if st.multi then
          match updateLists method sub st.lists false with
          | none => die st
          | some (true, ls) => finishReply c { st with lists := ls } r true false method sub
          | some (false, ls) => finishReply c { st with lists := ls } r false true method sub
        else finishReply c st r true false method sub
  else finishReply c st r false false packetMethod sub

/-- What one method routine does, `m->userauth(ssh, method)`: its verdict and the state.
`auth2-none.c:58-69` clears the flag of "none"; `auth2-kbdint.c:47-67` and
`auth2-chall.c:200-215` start a challenge; the others answer through `r`. -/
def runMethod (c : Cfg) (st : St) (m devs : Bytes) (r : Result) : Bool × St :=
  if m = b!"none" then (r.ok, { st with noneEnabled := false })
  else if m = b!"keyboard-interactive" then
    let (k, wait) := challengeStart c st (kbdAlloc c devs) r.avail
    (false, { st with kbd := k, postponed := wait })
  else (r.ok, { st with postponed := r.wait, serverFail := r.serverFail })

/-- the first request sets up the context, `auth2.c:297-333`; `none` is the disconnection "no
authentication methods enabled" -/
def setup (c : Cfg) (st : St) (user service : Bytes) : Option St :=
  match setupLists c st.noneEnabled with
  | none => none
  | some (multi, ls) =>
    some { st with
      user := user, service := service, multi := multi, lists := ls
      valid := decide ((c.getpw user).isSome ∧ service = b!"ssh-connection")
      -- for an invalid user this is the id of `fakepw()`; it is never looked at
      uid := if service = b!"ssh-connection" then (c.getpw user).getD 4294967295 else 4294967295 }

/-- the user name is cut at the first colon (the rest is the BSD auth style) -/
def userPart (user : Bytes) : Bytes := cutColon user

/-- the middle of the request handler: reset, look the method up, run it, finish -/
def tryMethod (c : Cfg) (st : St) (method devs : Bytes) (r : Result) : Out × St :=
  let st := { st with kbd := none, postponed := false, serverFail := false }
  match lookup c st method with
  | some m =>
    if st.failures < c.maxTries then
      let (authed, st') := runMethod c st m devs r
      finish c st' r authed method none
    else finish c st r false method none
  | none => finish c st r false method none

/-- auth2.c:268-358 `input_userauth_request` -/
def request (c : Cfg) (st : St) (user service method devs : Bytes) (r : Result) : Out × St :=
  if st.attempt ≥ 1024 then die st
  else if st.attempt = 0 then
    match setup c st (userPart user) service with
    | none => die st
    | some st' => tryMethod c { st' with attempt := 1 } method devs r
  else if userPart user ≠ st.user ∨ service ≠ st.service then die st
  else tryMethod c { st with attempt := st.attempt + 1 } method devs r

/-- auth2-chall.c:289-360 `input_userauth_info_response`.  When no challenge is outstanding the
message has no handler and is answered with "unimplemented". -/
def response (c : Cfg) (st : St) (r : Result) : Out × St :=
  match st.kbd with
  | none => ({ log := none, reply := .quiet }, st)
  | some k =>
    if r.ok then
      -- `authenticated = authctxt->valid`
      if st.valid then
        finish c { st with postponed := false, kbd := none } r true b!"keyboard-interactive" k.device
      else
        let (k', wait) := challengeStart c st k r.avail
        finish c { st with postponed := wait, kbd := k' } r false b!"keyboard-interactive" k.device
    else if r.more then
      finish c { st with postponed := true } r false b!"keyboard-interactive" k.device
    else
      let (k', wait) := challengeStart c st k r.avail
      finish c { st with postponed := wait, kbd := k' } r false b!"keyboard-interactive" k.device

/-- One message from the client.  Once authentication has succeeded or the connection has ended
nothing is handled here any more (`auth2.c:441-443`; the loop `ssh_dispatch_run_fatal` of
`auth2.c:174-188` returns when `success` is set). -/
def step (c : Cfg) (st : St) : Ev → Out × St
  | .request u s m d r =>
    if st.over then ({ log := none, reply := .quiet }, st) else request c st u s m d r
  | .response r =>
    if st.over then ({ log := none, reply := .quiet }, st) else response c st r

/-- A conversation: the messages with the server's reactions, and the state reached. -/
inductive Hist (c : Cfg) : List (Ev × Out) → St → Prop where
  | nil : Hist c [] init
  | snoc {h st} (e : Ev) : Hist c h st → Hist c (h ++ [(e, (step c st e).1)]) (step c st e).2

end Verif.Auth
