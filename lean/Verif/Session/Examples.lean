/-
Concrete cases for the theorems about sessions, and cases in which what one would expect does not hold.
-/
import Verif.Session.EnvProps
import Verif.Session.RootProps

namespace Verif.Session
open Verif Verif.Wire

def cfg : Cfg where
  admForced := none
  keyForced := none
  subsystems := [(b!"sftp", b!"internal-sftp", b!"internal-sftp -R")]
  acceptEnv := [b!"LANG", b!"LC_*"]
  permitTty := true
  keyPty := true
  agent := true
  keyAgent := true
  x11 := true
  keyX11 := true
  noForward := false
  xauth := some b!"/usr/bin/xauth"
  x11Local := true
  hostname := b!"host"
  userRc := true
  keyUserRc := true
  pwchange := false
  nologin := false

def world : World := ⟨some b!"/dev/pts/3", true, some 10, none, true⟩
def broken : World := { world with starts := false }

def req (t p : Bytes) : Req := ⟨world, t, p⟩

def progs (C : Cfg) (reqs : List Req) : List Prog := (launches (run C reqs fresh).1).map (child C)

/-! ### C103 -/

example : progs cfg [req b!"exec" (str b!"ls")] = [.command b!"ls"] := by decide +kernel
example : progs cfg [req b!"shell" [], req b!"exec" (str b!"ls")] = [.login] := by decide +kernel
example : progs cfg [req b!"subsystem" (str b!"sftp")] = [.sftp [b!"internal-sftp", b!"-R"]] := by decide +kernel
example : progs { cfg with keyForced := some b!"date" } [req b!"exec" (str b!"ls")] = [.command b!"date"] := by decide +kernel
example : progs { cfg with admForced := some b!"internal-sftp" } [req b!"exec" (str b!"ls")] = [.sftpOnly] := by decide +kernel
example : progs { cfg with nologin := true } [req b!"exec" (str b!"ls")] = [.nologin] := by decide +kernel
example : (run cfg [req b!"env" (str b!"LANG" ++ str b!"C"), req b!"env" (str b!"PATH" ++ str b!"/tmp")] fresh).2.env =
    [(b!"LANG", b!"C")] := by decide +kernel
example : signals (run cfg [req b!"shell" [], req b!"signal" (str b!"TERM"), req b!"signal" (str b!"STOP")] fresh).1 = [b!"TERM"] := by
  decide +kernel
example : ∃ ok s' L, request cfg world fresh b!"exec" (str b!"ls") = .done ok s' (some (.launch L)) ∧
    child cfg L = .command b!"ls" ∧ L.original = none :=
  (C103_step cfg world fresh rfl rfl rfl rfl _ _ _ _).2 ⟨rfl, some b!"ls", .none,
    .exec _ _ ⟨Or.inl rfl, by decide⟩ (by decide), .command _ ⟨rfl, rfl⟩⟩
example : Forces { cfg with keyForced := some b!"date" } b!"date" := Or.inr ⟨rfl, rfl⟩

/-- `internal-sftp`, a tab and `-R` (read only), as a forced command: the tab is taken for the end of the name, but not for the end of a
word. -/
def tabbed : Bytes := b!"internal-sftp" ++ [9] ++ b!"-R"

/-- **C103, a case to know of.** Options that follow a tab are not options: a server forced to be read only with
`ForceCommand internal-sftp<TAB>-R` is started without options.  Its only word is the name of the program. -/
theorem C103_tab :
    Internal tabbed ∧ progs { cfg with admForced := some tabbed } [req b!"subsystem" (str b!"sftp")] = [.sftp [tabbed]] :=
  ⟨Or.inr ⟨9, b!"-R", Or.inr rfl, rfl⟩, by decide +kernel⟩

/-- **C103, a case to know of.** After a subsystem that could not be started the session still counts as one: the command asked for next
is not run, but given to the internal server as its options.  So `C103_step` needs the session to be of no kind. -/
theorem C103_stale :
    progs cfg [⟨broken, b!"subsystem", str b!"sftp"⟩, req b!"exec" (str b!"ls -l")] = [.sftp [b!"ls", b!"-l"]] := by decide +kernel

/-! ### C104 -/

def src : Src where
  userName := b!"joe"
  home := b!"/home/joe"
  shell := b!"/bin/sh"
  root := false
  superPath := b!"/sbin:/bin"
  stdPath := b!"/bin"
  mailDir := b!"/var/mail"
  usePam := true
  tz := none
  krb5 := none
  userEnv := true
  userEnvAllow := some b!"LANG,X*"
  keyEnv := [b!"XA=1", b!"PATH=/tmp"]
  file := fun n => if n = b!"/home/joe/.ssh/environment" then some (b!"# text" ++ [10] ++ b!"  XB=2=3" ++ [10] ++ b!"LD=x" ++ [10]) else none
  pam := [b!"XC=4", b!"SSH_CONNECTION=no"]
  setenv := [b!"XA=5"]
  remoteIp := b!"1.2.3.4"
  remotePort := 1000
  localIp := b!"5.6.7.8"
  localPort := 22
  tunnel := none
  authInfo := none

def slotsOf : R Env → List Bytes
  | .ok E => E.slots
  | _ => []

example : slotsOf (setupEnv src ⟨none, none, { fresh with env := [(b!"LANG", b!"C"), (b!"USER", b!"root")] }⟩) =
    [b!"LANG=C", b!"USER=joe", b!"LOGNAME=joe", b!"HOME=/home/joe", b!"PATH=/bin", b!"SHELL=/bin/sh", b!"XA=5", b!"XB=2=3", b!"XC=4",
     b!"SSH_CLIENT=1.2.3.4 1000 22", b!"SSH_CONNECTION=1.2.3.4 1000 5.6.7.8 22"] := by decide +kernel
example : envLine (some b!"X*") b!" XB=2=3" = some (b!"XB", b!"2=3") := by decide +kernel
example : keyVar (some b!"X*") b!"PATH=/tmp" = none := by decide +kernel
example : (assignments src ⟨none, none, fresh⟩ [(b!"XA", b!"5")]).length ≤ 999 := by decide +kernel

/-- The environment a program gets after the requests. -/
def envAfter (C : Cfg) (S : Src) (reqs : List Req) (name : Bytes) : List (Option Bytes) :=
  (launches (run C reqs fresh).1).map fun L => getenv name (slotsOf (setupEnv S L))

/-- **C104, a case to know of.** With `AcceptEnv SSH_*` the client itself may say what command it asked for: if it asks for the shell and
the key forces a command, that command finds the client's text in SSH_ORIGINAL_COMMAND, though nothing was asked for. -/
theorem C104_original_false :
    envAfter { cfg with keyForced := some b!"date", acceptEnv := [b!"SSH_*"] } src
      [req b!"env" (str b!"SSH_ORIGINAL_COMMAND" ++ str b!"ls"), req b!"shell" []] b!"SSH_ORIGINAL_COMMAND" = [some b!"ls"] ∧
    (launches (run { cfg with keyForced := some b!"date", acceptEnv := [b!"SSH_*"] }
      [req b!"env" (str b!"SSH_ORIGINAL_COMMAND" ++ str b!"ls"), req b!"shell" []] fresh).1).map (·.original) = [none] := by
  decide +kernel

/-! ### C105 -/

def x11 (proto data : Bytes) : Req := req b!"x11-req" ([0] ++ str proto ++ str data ++ be 4 0)

example : (launches (run cfg [x11 b!"MIT-MAGIC-COOKIE-1" b!"ab12", req b!"shell" []] fresh).1).map (fun L => rc cfg L.s false false) =
    [.xauth (b!"remove unix:10.0" ++ [10] ++ b!"add unix:10.0 MIT-MAGIC-COOKIE-1 ab12" ++ [10])] := by decide +kernel
example : (launches (run cfg [x11 b!"MIT-MAGIC-COOKIE-1" (b!"ab" ++ [10] ++ b!"source /etc/shadow"), req b!"shell" []] fresh).1).map
    (fun L => rc cfg L.s false false) = [.nothing] := by decide +kernel
example : (∀ c ∈ cfg.hostname, c ∉ special) := by decide
example : rc cfg fresh true false = .user [] := by decide
example : rc { cfg with admForced := some b!"date" } fresh true false = .nothing := by decide

def disk (p : Bytes) : Option Stat :=
  if p = b!"/" ∨ p = b!"/srv/" ∨ p = b!"/srv/jail" then some ⟨0, 0o755, true⟩
  else if p = b!"/tmp/" then some ⟨0, 0o1777, true⟩
  else if p = b!"/tmp/jail" then some ⟨0, 0o755, true⟩
  else none

example : chroot disk b!"/srv/jail" = true := by decide
example : chroot disk b!"/tmp/jail" = false := by decide
example : chroot disk b!"srv/jail" = false := by decide

end Verif.Session
