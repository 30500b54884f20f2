/-
What is to hold of sessions.
-/
import Verif.Session.Env
import Verif.WireMore
import Verif.Match.Spec

namespace Verif.Session
open Verif Verif.Wire

/-! ### What is run -/

/-- The command forced on this user: that of the configuration, else that of the key. -/
def Forces (C : Cfg) (f : Bytes) : Prop := C.admForced = some f ∨ (C.admForced = none ∧ C.keyForced = some f)

def NotForced (C : Cfg) : Prop := C.admForced = none ∧ C.keyForced = none

/-- The command is `internal-sftp`, alone or followed by a blank and more. -/
def Internal (f : Bytes) : Prop := f = b!"internal-sftp" ∨ ∃ b rest, (b = 32 ∨ b = 9) ∧ f = b!"internal-sftp" ++ b :: rest

/-- What the client asks to be run: a command or the shell, and whether as a subsystem.  A text may have a NUL at its end. -/
inductive Asks (C : Cfg) : Bytes → Bytes → Option Bytes → Kind → Prop
  | shell : Asks C b!"shell" [] none .none
  | exec (v c : Bytes) : Named v c → v.length ≤ maxString → Asks C b!"exec" (str v) (some c) .none
  | internal (v n args : Bytes) (before after : List (Bytes × Bytes × Bytes)) : Named v n → v.length ≤ maxString →
      C.subsystems = before ++ (n, b!"internal-sftp", args) :: after → (∀ e ∈ before, e.1 ≠ n) →
      Asks C b!"subsystem" (str v) (some args) .sftp
  | external (v n prog args : Bytes) (before after : List (Bytes × Bytes × Bytes)) : Named v n → v.length ≤ maxString →
      C.subsystems = before ++ (n, prog, args) :: after → (∀ e ∈ before, e.1 ≠ n) → prog ≠ b!"internal-sftp" →
      Asks C b!"subsystem" (str v) (some args) .ext

/-- The internal server is given the words of the command, separated by spaces, but no more than nine. -/
def sftpWords (c : Bytes) : List Bytes := ((Text.split 32 c).filter (· ≠ [])).take 9

/-- What is to be run, and what is told of the client's wish, if the password is not to be changed first and users may log in. -/
inductive Meant (C : Cfg) : Option Bytes → Kind → Prog → Option Bytes → Prop
  | forced (f : Bytes) (cmd : Option Bytes) (k : Kind) : Forces C f → ¬ Internal f → Meant C cmd k (.command f) cmd
  | forcedSftp (f : Bytes) (cmd : Option Bytes) (k : Kind) : Forces C f → Internal f → k ≠ .none →
      Meant C cmd k (.sftp (sftpWords f)) cmd
  | refused (f : Bytes) (cmd : Option Bytes) : Forces C f → Internal f → Meant C cmd .none .sftpOnly cmd
  | login : NotForced C → Meant C none .none .login none
  | command (c : Bytes) : NotForced C → Meant C (some c) .none (.command c) none
  | subsystem (c : Bytes) : NotForced C → Meant C (some c) .ext (.command c) none
  | sftp (c : Bytes) : NotForced C → Meant C (some c) .sftp (.sftp (sftpWords c)) none

/-- The programs run in a sequence of events. -/
def launches : List Event → List Launch
  | [] => []
  | .launch l :: t => l :: launches t
  | .signal _ :: t => launches t

def signals : List Event → List Bytes
  | [] => []
  | .launch _ :: t => signals t
  | .signal n :: t => n :: signals t

/-- The name of a display for xauth: of this host, made by the server. -/
def OwnName (C : Cfg) (a : Bytes) : Prop :=
  ∃ (h : Bytes) (n screen : Nat), (h = b!"unix" ∨ h = C.hostname.take 400) ∧ a = h ++ [58] ++ dec n ++ [46] ++ dec screen

/-- What a session may have come to have. -/
structure Permitted (C : Cfg) (s : Sess) : Prop where
  tty : s.tty ≠ none → C.permitTty = true ∧ C.keyPty = true
  display : s.display ≠ none → C.x11 = true ∧ C.keyX11 = true ∧ C.noForward = false
  agent : s.agentSock ≠ none → C.agent = true ∧ C.keyAgent = true ∧ C.noForward = false
  env : s.env.length ≤ 129 ∧ ∀ e ∈ s.env, ∃ pat ∈ C.acceptEnv, Match.Glob pat e.1
  name : s.display ≠ none → OwnName C s.authDisplay
  xauth : ∀ t, s.authProto = some t ∨ s.authData = some t → ∀ c ∈ t, c ∉ ([0, 9, 10, 13, 32, 34, 35, 39, 59, 92] : List UInt8)

/-! ### The environment -/

/-- The value the last of the assignments gives to a name. -/
def lastFor (name : Bytes) (as : List (Bytes × Bytes)) : Option Bytes := ((as.filter (fun a => a.1 = name)).getLast?).map (·.2)

/-- A line of an environment file assigns: blanks are skipped, comments and lines without `=` assign nothing. -/
def Assigns (allow : Option Bytes) (line n v : Bytes) : Prop :=
  ∃ blanks, (∀ c ∈ blanks, c = 32 ∨ c = 9) ∧ (line = blanks ++ n ++ [61] ++ v ∨ ∃ t, line = blanks ++ n ++ [61] ++ v ++ 0 :: t) ∧
    0 ∉ n ∧ 0 ∉ v ∧ 61 ∉ n ∧ (∀ c, n.head? = some c → c ≠ 32 ∧ c ≠ 9 ∧ c ≠ 35) ∧
    (∀ pats, allow = some pats → Match.matchPatternList n pats false = 1)

end Verif.Session
