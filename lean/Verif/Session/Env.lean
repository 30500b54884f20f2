/-
Model of the environment of a session (session.c, misc.c).
-/
import Verif.Session.Model

namespace Verif.Session
open Verif

/-- The array of the environment: the strings in it, and the number of pointers it has room for. -/
structure Env where
  slots : List Bytes
  size : Nat
  deriving DecidableEq, Repr

inductive R (α : Type) where
  | ok (x : α)
  /-- the process ends -/
  | fatal
  /-- a write beyond the array -/
  | overrun
  deriving DecidableEq, Repr

def R.bind {α β : Type} : R α → (α → R β) → R β
  | .ok x, f => f x
  | .fatal, _ => .fatal
  | .overrun, _ => .overrun

/-- misc.c:2369: the string is an entry for the name -/
def isFor (name entry : Bytes) : Bool := entry.take name.length = name ∧ (entry.drop name.length).head? = some 61

/-- misc.c:2368-2373, 2390-2391: the slot of the name is overwritten; `none` if there is none -/
def replace (name value : Bytes) : List Bytes → Option (List Bytes)
  | [] => none
  | e :: l => if isFor name e then some ((name ++ [61] ++ value) :: l) else (replace name value l).map (e :: ·)

/-- misc.c:2336-2392 `child_set_env`; a list not yet there gets one pointer (2353-2359) -/
def setEnv (name value : Bytes) (E : Env) : R Env :=
  if 61 ∈ name then .ok E
  else
    match replace name value E.slots with
    | some l => .ok { E with slots := l }
    | none =>
      if E.slots.length ≥ E.size - 1 then
        if E.size ≥ 1000 then .fatal
        else if E.slots.length + 1 ≥ E.size + 50 then .overrun
        else .ok ⟨E.slots ++ [name ++ [61] ++ value], E.size + 50⟩
      else if E.slots.length + 1 ≥ E.size then .overrun
      else .ok { E with slots := E.slots ++ [name ++ [61] ++ value] }

/-- several, one after the other -/
def setAll : List (Bytes × Bytes) → Env → R Env
  | [], E => .ok E
  | (n, v) :: l, E => (setEnv n v E).bind (setAll l)

/-- strchr with `=`: the text before and after -/
def cutEq (l : Bytes) : Option (Bytes × Bytes) :=
  if 61 ∈ l then some (l.takeWhile (· ≠ 61), (l.dropWhile (· ≠ 61)).drop 1) else none

/-- the lines that getline gives, without their newlines -/
def fileLines (content : Bytes) : List Bytes :=
  if content = [] then []
  else if content.getLast? = some 10 then Text.split 10 content.dropLast else Text.split 10 content

/-- session.c:848-869: what one line of an environment file assigns; a NUL ends the line -/
def envLine (allow : Option Bytes) (line : Bytes) : Option (Bytes × Bytes) :=
  match (line.takeWhile (· ≠ 0)).dropWhile (fun c => c = 32 ∨ c = 9) with
  | [] => none
  | c :: l =>
    if c = 35 then none
    else
      match cutEq (c :: l) with
      | none => none
      | some (n, v) =>
        match allow with
        | none => some (n, v)
        | some pats => if Match.matchPatternList n pats false = 1 then some (n, v) else none

/-- session.c:832-874 `read_environment_file`; `none` if there is no such file -/
def readEnvFile (allow : Option Bytes) (content : Option Bytes) (E : Env) : R Env :=
  match content with
  | none => .ok E
  | some t =>
    if (fileLines t).length > 1000 then (setAll (((fileLines t).take 1000).filterMap (envLine allow)) E).bind fun _ => .fatal
    else setAll ((fileLines t).filterMap (envLine allow)) E

/-- What the environment is made from. -/
structure Src where
  userName : Bytes
  home : Bytes
  shell : Bytes
  root : Bool
  superPath : Bytes
  stdPath : Bytes
  mailDir : Bytes
  usePam : Bool
  tz : Option Bytes
  krb5 : Option Bytes
  /-- PermitUserEnvironment -/
  userEnv : Bool
  userEnvAllow : Option Bytes
  /-- `environment=` of the key -/
  keyEnv : List Bytes
  /-- a file by its name -/
  file : Bytes → Option Bytes
  /-- the environment of PAM, both parts -/
  pam : List Bytes
  /-- SetEnv -/
  setenv : List Bytes
  remoteIp : Bytes
  remotePort : Nat
  localIp : Bytes
  localPort : Nat
  tunnel : Option Bytes
  authInfo : Option Bytes

/-- session.c:1091-1106: variables from the key -/
def keyVar (allow : Option Bytes) (e : Bytes) : Option (Bytes × Bytes) :=
  match cutEq e with
  | none => none
  | some (n, v) =>
    match allow with
    | none => some (n, v)
    | some pats => if Match.matchPatternList n pats false = 1 then some (n, v) else none

/-- session.c:933-959 `copy_environment_denylist` with PAM_ENV_DENYLIST (session.c:1128) -/
def pamVar (e : Bytes) : Option (Bytes × Bytes) :=
  match cutEq e with
  | none => none
  | some (n, v) => if Match.matchPatternList n b!"SSH_AUTH_INFO*,SSH_CONNECTION*" false = 1 then none else some (n, v)

def opt (n : Bytes) (v : Option Bytes) : List (Bytes × Bytes) :=
  match v with
  | none => []
  | some v => [(n, v)]

/-- session.c:1009-1087: from the client's variables to the agent's socket; without login classes, /etc/default/login and AIX -/
def basic (S : Src) (s : Sess) : List (Bytes × Bytes) :=
  s.env ++ [(b!"USER", S.userName), (b!"LOGNAME", S.userName), (b!"HOME", S.home),
    (b!"PATH", if S.root then S.superPath else S.stdPath)] ++
  (if S.usePam then [] else [(b!"MAIL", ((S.mailDir.take 200) ++ [47] ++ (S.userName.take 50)).take 255)]) ++
  [(b!"SHELL", S.shell)] ++ opt b!"TZ" S.tz ++ opt b!"TERM" s.term ++ opt b!"DISPLAY" s.display ++ opt b!"KRB5CCNAME" S.krb5 ++
  opt b!"SSH_AUTH_SOCK" s.agentSock

/-- session.c:1110-1111: the name of the user's file -/
def envFileName (S : Src) : Bytes := ((S.home.take 200) ++ b!"/.ssh/environment").take 255

/-- session.c:1141-1151: SetEnv; `none` is fatal -/
def adminVars : List Bytes → Option (List (Bytes × Bytes))
  | [] => some []
  | e :: l =>
    match cutEq e with
    | none => none
    | some p => (adminVars l).map (p :: ·)

/-- session.c:1153-1174: what the server says of the connection -/
def connVars (S : Src) (L : Launch) : List (Bytes × Bytes) :=
  [(b!"SSH_CLIENT", (S.remoteIp.take 50) ++ [32] ++ dec S.remotePort ++ [32] ++ dec S.localPort),
   (b!"SSH_CONNECTION", (S.remoteIp.take 50) ++ [32] ++ dec S.remotePort ++ [32] ++ (S.localIp.take 50) ++ [32] ++ dec S.localPort)] ++
  opt b!"SSH_TUNNEL" S.tunnel ++ opt b!"SSH_USER_AUTH" S.authInfo ++ opt b!"SSH_TTY" L.s.tty ++
  opt b!"SSH_ORIGINAL_COMMAND" L.original

/-- session.c:1141-1175, the last part of do_setup_env: the administrator's variables and those about the connection -/
def finish (S : Src) (L : Launch) (E : Env) : R Env :=
  match adminVars S.setenv with
  | none => .fatal
  | some a => (setAll a E).bind fun E => setAll (connVars S L) E

/-- session.c:970-1183 `do_setup_env` -/
def setupEnv (S : Src) (L : Launch) : R Env :=
  (setAll (basic S L.s) ⟨[], 100⟩).bind fun E =>
  (setAll (if S.userEnv then S.keyEnv.filterMap (keyVar S.userEnvAllow) else []) E).bind fun E =>
  (if S.userEnv then readEnvFile S.userEnvAllow (S.file (envFileName S)) E else .ok E).bind fun E =>
  (setAll (if S.usePam then S.pam.filterMap pamVar else []) E).bind fun E =>
  finish S L E

/-- getenv in the program run: the value of the first entry for the name -/
def getenv (name : Bytes) : List Bytes → Option Bytes
  | [] => none
  | e :: l => if isFor name e then some (e.drop (name.length + 1)) else getenv name l

end Verif.Session
