/-
Model of sessions in the server (session.c): the requests of the client on a session channel, what is run for them, the
environment it is given, the files run at login, and the change of the root directory.
-/
import Verif.Base
import Verif.Text
import Verif.Num
import Verif.Wire
import Verif.Match.Model

namespace Verif.Session
open Verif Verif.Wire

/-! ### What the server is set to -/

structure Cfg where
  /-- ForceCommand (not `none`) -/
  admForced : Option Bytes
  /-- the command forced by the key or certificate -/
  keyForced : Option Bytes
  /-- Subsystem: name, program, and program with arguments -/
  subsystems : List (Bytes × Bytes × Bytes)
  acceptEnv : List Bytes
  permitTty : Bool
  keyPty : Bool
  agent : Bool
  keyAgent : Bool
  x11 : Bool
  keyX11 : Bool
  /-- DisableForwarding -/
  noForward : Bool
  /-- XAuthLocation, if the file exists -/
  xauth : Option Bytes
  /-- X11UseLocalhost -/
  x11Local : Bool
  hostname : Bytes
  userRc : Bool
  keyUserRc : Bool
  /-- the password must be changed -/
  pwchange : Bool
  /-- /etc/nologin exists and applies to the user -/
  nologin : Bool

/-- session.c:161-164 -/
inductive Kind where
  | none | ext | sftp | sftpError
  deriving DecidableEq, Repr

/-- session.h:32-70, as far as of interest, and whether the channel is in the state LARVAL; the two variables of session.c about
the agent are those of this session, as if the connection had no other. -/
structure Sess where
  larval : Bool
  kind : Kind
  forced : Bool
  running : Bool
  tty : Option Bytes
  term : Option Bytes
  env : List (Bytes × Bytes)
  authProto : Option Bytes
  authData : Option Bytes
  display : Option Bytes
  authDisplay : Bytes
  agentAsked : Bool
  agentSock : Option Bytes
  deriving DecidableEq, Repr

/-- session.c:1783-1799 `session_open`: a session just opened -/
def fresh : Sess := ⟨true, .none, false, false, none, none, [], none, none, none, [], false, none⟩

/-- What the system answers while one request is served. -/
structure World where
  /-- the terminal allocated -/
  pty : Option Bytes
  /-- pipes and processes can be had -/
  starts : Bool
  /-- the number of the display listened for -/
  display : Option Nat
  /-- the socket for the agent -/
  agentSock : Option Bytes
  /-- sending a signal or a break works -/
  works : Bool

/-- session.c: what `do_child` is called with -/
structure Launch where
  command : Option Bytes
  /-- `original_command` -/
  original : Option Bytes
  s : Sess
  deriving DecidableEq, Repr

inductive Event where
  | launch (l : Launch)
  | signal (name : Bytes)
  deriving DecidableEq, Repr

inductive Res where
  /-- the connection is closed -/
  | fatal
  | done (ok : Bool) (s : Sess) (e : Option Event)
  deriving DecidableEq, Repr

/-! ### Starting something -/

/-- session.c:117-121 `IS_INTERNAL_SFTP` -/
def internal (c : Bytes) : Bool :=
  c.take 13 = b!"internal-sftp" ∧ ((c.drop 13).head? = none ∨ (c.drop 13).head? = some 32 ∨ (c.drop 13).head? = some 9)

/-- session.c:672-681: the command forced -/
def forcedCmd (C : Cfg) : Option Bytes :=
  match C.admForced with
  | some f => some f
  | none => C.keyForced

/-- session.c:682-691: the kind of a session with a forced command -/
def forcedKind (k : Kind) (f : Bytes) : Kind :=
  if internal f then (if k = .none then .sftpError else .sftp) else if k = .none then .none else .ext

/-- session.c:672-691: the session and the command as `do_exec_pty` and `do_exec_no_pty` get them -/
def prepare (C : Cfg) (s : Sess) (cmd : Option Bytes) : Launch :=
  match forcedCmd C with
  | some f => ⟨some f, cmd, { s with forced := true, kind := forcedKind s.kind f }⟩
  | none => ⟨cmd, none, { s with forced := false }⟩

/-- session.c:667-744 `do_exec`, with session.c:398-661 reduced to whether the process can be started -/
def doExec (C : Cfg) (W : World) (s : Sess) (cmd : Option Bytes) : Res :=
  if W.starts then .done true { (prepare C s cmd).s with larval := false, running := true } (some (.launch (prepare C s cmd)))
  else .done false (prepare C s cmd).s none

/-! ### Requests -/

/-- session.c:2017-2028 `session_shell_req` -/
def shellReq (C : Cfg) (W : World) (s : Sess) (p : Bytes) : Res := if p = [] then doExec C W s none else .fatal

/-- session.c:2030-2046 `session_exec_req` -/
def execReq (C : Cfg) (W : World) (s : Sess) (p : Bytes) : Res :=
  match getCstr p with
  | some (c, []) => doExec C W s (some c)
  | _ => .fatal

/-- session.c:1950-1971: the first subsystem of that name -/
def findSub : List (Bytes × Bytes × Bytes) → Bytes → Option (Bytes × Bytes)
  | [], _ => none
  | (n, prog, args) :: l, name => if name = n then some (prog, args) else findSub l name

/-- session.c:1937-1979 `session_subsystem_req` -/
def subsystemReq (C : Cfg) (W : World) (s : Sess) (p : Bytes) : Res :=
  match getCstr p with
  | some (n, []) =>
    match findSub C.subsystems n with
    | none => .done false s none
    | some (prog, args) =>
      doExec C W { s with kind := if prog = b!"internal-sftp" then .sftp else .ext } (some args)
  | _ => .fatal

/-- four numbers -/
def four (p : Bytes) : Option Bytes :=
  match getInt 4 p with
  | none => none
  | some (_, p) =>
    match getInt 4 p with
    | none => none
    | some (_, p) =>
      match getInt 4 p with
      | none => none
      | some (_, p) =>
        match getInt 4 p with
        | none => none
        | some (_, p) => some p

/-- session.c:1887-1935 `session_pty_req`; the terminal modes are a string (their contents: C49) -/
def ptyReq (C : Cfg) (W : World) (s : Sess) (p : Bytes) : Res :=
  if C.keyPty = false ∨ C.permitTty = false then .done false s none
  else if s.tty ≠ none then .fatal
  else
    match getCstr p with
    | none => .fatal
    | some (term, p) =>
      match four p with
      | none => .fatal
      | some p =>
        match W.pty with
        | none => .done false { s with term := none } none
        | some tty =>
          match getStr p with
          | some (_, []) => .done true { s with term := if term = [] then none else some term, tty := some tty } none
          | _ => .fatal

/-- session.c:378-390 `xauth_valid_string` -/
def xauthValid (l : Bytes) : Bool :=
  l.all fun c => (48 ≤ c ∧ c ≤ 57) ∨ (65 ≤ c ∧ c ≤ 90) ∨ (97 ≤ c ∧ c ≤ 122) ∨ c = 46 ∨ c = 58 ∨ c = 47 ∨ c = 45 ∨ c = 95

/-- decimal digits of a number -/
def decF : Nat → Nat → Bytes
  | 0, _ => []
  | f + 1, n => if n < 10 then [UInt8.ofNat (48 + n)] else decF f (n / 10) ++ [UInt8.ofNat (48 + n % 10)]

def dec (n : Nat) : Bytes := decF (n + 1) n

/-- session.c:2558-2632 `session_setup_x11fwd`, without IPADDR_IN_DISPLAY: the display and its name for xauth -/
def setupX11 (C : Cfg) (W : World) (s : Sess) (screen : Nat) : Option (Bytes × Bytes) :=
  if C.keyX11 = false ∨ C.x11 = false ∨ C.noForward = true ∨ C.xauth = none ∨ s.display ≠ none then none
  else
    match W.display with
    | none => none
    | some n =>
      if C.x11Local then
        some (b!"localhost:" ++ dec n ++ b!"." ++ dec screen, b!"unix:" ++ dec n ++ b!"." ++ dec screen)
      else some ((C.hostname.take 400) ++ b!":" ++ dec n ++ b!"." ++ dec screen,
        (C.hostname.take 400) ++ b!":" ++ dec n ++ b!"." ++ dec screen)

/-- the fields of a request for X11 forwarding: protocol, data, screen -/
def x11Fields (p : Bytes) : Option (Bytes × Bytes × Nat) :=
  match getInt 1 p with
  | none => none
  | some (_, p) =>
    match getCstr p with
    | none => none
    | some (proto, p) =>
      match getCstr p with
      | none => none
      | some (data, p) =>
        match getInt 4 p with
        | some (screen, []) => some (proto, data, screen)
        | _ => none

/-- session.c:1981-2015 `session_x11_req` -/
def x11Req (C : Cfg) (W : World) (s : Sess) (p : Bytes) : Res :=
  if s.authProto ≠ none ∨ s.authData ≠ none then .done false s none
  else
    match x11Fields p with
    | none => .fatal
    | some (proto, data, screen) =>
      if xauthValid proto ∧ xauthValid data then
        match setupX11 C W s screen with
        | none => .done false s none
        | some (d, a) =>
          .done true { s with authProto := some proto, authData := some data, display := some d, authDisplay := a } none
      else .done false s none

/-- session.c:2165-2185 `session_auth_agent_req` -/
def agentReq (C : Cfg) (W : World) (s : Sess) (p : Bytes) : Res :=
  if p ≠ [] then .fatal
  else if C.keyAgent = false ∨ C.agent = false ∨ C.noForward = true then .done false s none
  else if s.agentAsked then .done false s none
  else .done W.agentSock.isSome { s with agentAsked := true, agentSock := W.agentSock } none

/-- session.c:2062-2097 `session_env_req` -/
def envReq (C : Cfg) (s : Sess) (p : Bytes) : Res :=
  match getCstr p with
  | none => .fatal
  | some (name, p) =>
    match getCstr p with
    | some (val, []) =>
      if s.env.length > 128 then .done false s none
      else if C.acceptEnv.any (fun pat => Match.matchPattern name pat) then
        .done true { s with env := s.env ++ [(name, val)] } none
      else .done false s none
    | _ => .fatal

/-- session.c:2104-2121 `name2sig`, where there is no SIGINFO -/
def isSignal (n : Bytes) : Bool :=
  n = b!"HUP" ∨ n = b!"INT" ∨ n = b!"KILL" ∨ n = b!"QUIT" ∨ n = b!"TERM" ∨ n = b!"USR1" ∨ n = b!"USR2"

/-- session.c:2123-2163 `session_signal_req` -/
def signalReq (W : World) (s : Sess) (p : Bytes) : Res :=
  match getCstr p with
  | some (n, []) =>
    if isSignal n = false ∨ s.running = false ∨ s.forced = true ∨ s.kind ≠ .none then .done false s none
    else .done W.works s (some (.signal n))
  | _ => .done false s none

/-- session.c:1872-1885 `session_window_change_req` -/
def windowReq (s : Sess) (p : Bytes) : Res :=
  match four p with
  | some [] => .done true s none
  | _ => .fatal

/-- session.c:2048-2060 `session_break_req`; the descriptor looked at is set when a program is started with a terminal -/
def breakReq (W : World) (s : Sess) (p : Bytes) : Res :=
  match getInt 4 p with
  | some (_, []) => .done (s.running && s.tty.isSome && W.works) s none
  | _ => .fatal

/-- session.c:2187-2229 `session_input_channel_req` -/
def request (C : Cfg) (W : World) (s : Sess) (rtype p : Bytes) : Res :=
  if s.larval = true ∧ rtype = b!"shell" then shellReq C W s p
  else if s.larval = true ∧ rtype = b!"exec" then execReq C W s p
  else if s.larval = true ∧ rtype = b!"pty-req" then ptyReq C W s p
  else if s.larval = true ∧ rtype = b!"x11-req" then x11Req C W s p
  else if s.larval = true ∧ rtype = b!"auth-agent-req@openssh.com" then agentReq C W s p
  else if s.larval = true ∧ rtype = b!"subsystem" then subsystemReq C W s p
  else if s.larval = true ∧ rtype = b!"env" then envReq C s p
  else if rtype = b!"window-change" then windowReq s p
  else if rtype = b!"break" then breakReq W s p
  else if rtype = b!"signal" then signalReq W s p
  else .done false s none

/-- One request with what the system answers. -/
structure Req where
  W : World
  rtype : Bytes
  payload : Bytes

/-- A sequence of requests on one session: what happens, and the session in the end. -/
def run (C : Cfg) : List Req → Sess → List Event × Sess
  | [], s => ([], s)
  | r :: l, s =>
    match request C r.W s r.rtype r.payload with
    | .fatal => ([], s)
    | .done _ s' e => (e.toList ++ (run C l s').1, (run C l s').2)

/-! ### What the child does -/

inductive Prog where
  /-- the program to change the password -/
  | passwd
  /-- nothing, for want of a terminal to change the password -/
  | noTty
  /-- nothing, since nobody may log in -/
  | nologin
  /-- nothing: `This service allows sftp connections only.` -/
  | sftpOnly
  /-- the internal server for SFTP with these arguments -/
  | sftp (args : List Bytes)
  /-- the user's shell as a login shell -/
  | login
  /-- the user's shell with `-c` and this command -/
  | command (c : Bytes)
  deriving DecidableEq, Repr

/-- strtok with " " -/
def words (c : Bytes) : List Bytes := (Text.split 32 c).filter fun w => w ≠ []

/-- session.c:1502-1704 `do_child`: what is executed in the end; names of shells are short enough -/
def child (C : Cfg) (L : Launch) : Prog :=
  if C.pwchange then (if L.s.tty = none then .noTty else .passwd)
  else if C.nologin then .nologin
  else
    match L.s.kind with
    | .sftpError => .sftpOnly
    | .sftp => .sftp ((words (L.command.getD b!"sftp-server")).take 9)
    | _ =>
      match L.command with
      | none => .login
      | some c => .command c

/-- what is run at login besides, with its input -/
inductive Rc where
  | user (input : Bytes)
  | system (input : Bytes)
  | xauth (input : Bytes)
  | nothing
  deriving DecidableEq, Repr

/-- session.c:1195-1196 with 1207-1208: the line about X11 for the scripts -/
def rcInput (s : Sess) : Bytes :=
  match s.display, s.authProto, s.authData with
  | some _, some p, some d => p ++ [32] ++ d ++ [10]
  | _, _, _ => []

/-- session.c:1240-1248: the input of xauth -/
def xauthInput (s : Sess) (p d : Bytes) : Bytes :=
  b!"remove " ++ s.authDisplay ++ [10] ++ b!"add " ++ s.authDisplay ++ [32] ++ p ++ [32] ++ d ++ [10]

/-- session.c:1189-1260 `do_rc_files` -/
def rc (C : Cfg) (s : Sess) (userExists sysExists : Bool) : Rc :=
  if s.kind = .none ∧ C.admForced = none ∧ C.keyUserRc = true ∧ C.userRc = true ∧ userExists = true then .user (rcInput s)
  else if sysExists then .system (rcInput s)
  else
    match s.display, s.authProto, s.authData, C.xauth with
    | some _, some p, some d, some _ => .xauth (xauthInput s p d)
    | _, _, _, _ => .nothing

/-! ### The root directory -/

structure Stat where
  uid : Nat
  mode : Nat
  dir : Bool

/-- session.c:1304-1333: the beginnings of the path that are looked at: up to and with each slash, and the whole -/
def components : Bytes → Bytes → List Bytes
  | pre, [] => [pre]
  | pre, c :: l => if c = 47 then (pre ++ [c]) :: components (pre ++ [c]) l else components (pre ++ [c]) l

/-- session.c:1321-1330 -/
def statOk (st : Option Stat) : Bool :=
  match st with
  | none => false
  | some s => s.uid = 0 ∧ s.mode &&& 18 = 0 ∧ s.dir = true

/-- session.c:1295-1343 `safely_chroot`: whether the root directory is changed (else the session ends); PATH_MAX is 4096 -/
def chroot (stat : Bytes → Option Stat) (path : Bytes) : Bool :=
  path.head? = some 47 ∧ path.length < 4096 ∧ (components [] path).all (fun c => statOk (stat c))

end Verif.Session
