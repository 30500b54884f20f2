/-
Model of the exchange of identification strings (kex.c `kex_exchange_identification`) and of what is deduced from the
peer's software version (compat.c).

Abstracted: waiting, time-outs and failing reads are one outcome (the stream of bytes ends); messages sent after a
failure are left out; buffers grow without failing.  `sscanf` follows glibc: numbers saturate at 64 bits and are
then cut to 32.
-/
import Verif.Match.Model
import Verif.Num

namespace Verif.Banner
open Verif Text

/-- compat.h:30-59 -/
inductive Bug
  | utf8Tty | sigType | sigType74 | oldSessionId | debug | scanner | oldDhGex | noRekey | extEof | probe | oldForwardAddr | newOpenSSH | dynamicRport | curve25519Pad | hostKeys | dhGexLarge
  deriving DecidableEq, Repr

/-- compat.c:45-125: the table -/
def checks : List (Bytes × List Bug) :=
  [(b!"OpenSSH_2.*,OpenSSH_3.0*,OpenSSH_3.1*", [.extEof, .oldForwardAddr, .sigType]),
   (b!"OpenSSH_3.*", [.oldForwardAddr, .sigType]),
   (b!"Sun_SSH_1.0*", [.noRekey, .extEof, .sigType]),
   (b!"OpenSSH_2*,OpenSSH_3*,OpenSSH_4*", [.sigType]),
   (b!"OpenSSH_5*", [.newOpenSSH, .dynamicRport, .sigType]),
   (b!"OpenSSH_6.6.1*", [.newOpenSSH, .sigType]),
   (b!"OpenSSH_6.5*,OpenSSH_6.6*", [.newOpenSSH, .curve25519Pad, .sigType]),
   (b!"OpenSSH_7.4*", [.newOpenSSH, .sigType, .sigType74]),
   (b!"OpenSSH_7.0*,OpenSSH_7.1*,OpenSSH_7.2*,OpenSSH_7.3*,OpenSSH_7.5*,OpenSSH_7.6*,OpenSSH_7.7*", [.newOpenSSH, .sigType]),
   (b!"OpenSSH*", [.newOpenSSH]),
   (b!"*MindTerm*", []),
   (b!"3.0.*", [.debug]),
   (b!"3.0 SecureCRT*", [.oldSessionId]),
   (b!"1.7 SecureFX*", [.oldSessionId]),
   (b!"Cisco-1.*", [.dhGexLarge, .hostKeys]),
   (b!"*SSH_Version_Mapper*", [.scanner]),
   (b!"PuTTY_Local:*,PuTTY-Release-0.5*,PuTTY_Release_0.5*,PuTTY_Release_0.60*,PuTTY_Release_0.61*,PuTTY_Release_0.62*,PuTTY_Release_0.63*,PuTTY_Release_0.64*", [.oldDhGex]),
   (b!"FuTTY*", [.oldDhGex]),
   (b!"Probe-*", [.probe]),
   (b!"TeraTerm SSH*,TTSSH/1.5.*,TTSSH/2.1*,TTSSH/2.2*,TTSSH/2.3*,TTSSH/2.4*,TTSSH/2.5*,TTSSH/2.6*,TTSSH/2.70*,TTSSH/2.71*,TTSSH/2.72*", [.hostKeys]),
   (b!"WinSCP_release_4*,WinSCP_release_5.0*,WinSCP_release_5.1,WinSCP_release_5.1.*,WinSCP_release_5.5,WinSCP_release_5.5.*,WinSCP_release_5.6,WinSCP_release_5.6.*,WinSCP_release_5.7,WinSCP_release_5.7.1,WinSCP_release_5.7.2,WinSCP_release_5.7.3,WinSCP_release_5.7.4", [.oldDhGex]),
   (b!"ConfD-*", [.utf8Tty]),
   (b!"Twisted_*", []),
   (b!"Twisted*", [.debug])]

/-- compat.c:41-138 `compat_banner`: the flags of the first entry matching -/
def compatBanner (version : Bytes) : List (Bytes × List Bug) → List Bug
  | [] => []
  | (pat, bugs) :: rest => if Match.matchPatternList version pat false = 1 then bugs else compatBanner version rest

/-- `ssh->compat` after `compat_banner` -/
def compat (version : Bytes) : List Bug := compatBanner version checks

/-- compat.c:151 -/
def curveName : Bytes := b!"curve25519-sha256@libssh.org"
/-- compat.c:155 -/
def gex256 : Bytes := b!"diffie-hellman-group-exchange-sha256"
/-- compat.c:156 -/
def gex1 : Bytes := b!"diffie-hellman-group-exchange-sha1"
/-- compat.c:155-156 -/
def gexList : Bytes := gex256 ++ 44 :: gex1

/-- compat.c:141-165 `compat_kex_proposal`; `none`: the program ends -/
def kexProposal (bugs : List Bug) (p : Bytes) : Option Bytes :=
  if .curve25519Pad ∉ bugs ∧ .oldDhGex ∉ bugs then some p
  else nonEmpty (dropDh bugs (dropCurve bugs p))
where
  /-- compat.c:149-152 -/
  dropCurve (bugs : List Bug) (p : Bytes) : Bytes :=
    if .curve25519Pad ∈ bugs then Match.filterDenylist p curveName else p
  /-- compat.c:153-160 -/
  dropDh (bugs : List Bug) (p : Bytes) : Bytes :=
    if .oldDhGex ∈ bugs then Match.filterDenylist p gexList else p
  /-- compat.c:161-162 -/
  nonEmpty (p : Bytes) : Option Bytes := if p = [] then none else some p

/-- `SSH_VERSION`, version.h:3 -/
def software : Bytes := b!"OpenSSH_10.0"

/-- kex.c:1251-1256, 1270: what is sent is this and CR LF; this is what enters the exchange hash. -/
def ourVersion (addendum : Option Bytes) : Bytes :=
  b!"SSH-2.0-" ++ software ++ (match addendum with | none => [] | some a => if a = [] then [] else 32 :: a)

/-- What is written to the connection (kex.c:1253-1264). -/
def sent (addendum : Option Bytes) : Bytes := ourVersion addendum ++ [13, 10]

/-- What reading a line gives: the line and the bytes not read, or a failure. -/
inductive Line
  | line (l rest : Bytes)
  | invalid
  | ended
  deriving DecidableEq, Repr

/-- kex.c:1295-1346: the inner loop; `nl` is `expect_nl` -/
def readLine (acc : Bytes) (nl : Bool) : Bytes → Line
  | [] => .ended
  | c :: r =>
    if c = 13 then readLine acc true r
    else if c = 10 then .line acc r
    else if c = 0 ∨ nl = true then .invalid
    else if acc.length + 1 > 8192 then .invalid
    else readLine (acc ++ [c]) nl r

/-- kex.c:1348-1349 -/
def isIdent (l : Bytes) : Bool := decide (l.length > 4) && decide (l.take 4 = b!"SSH-")

/-- What reading the peer's lines gives. -/
inductive Banner
  | got (v rest : Bytes)
  | invalid
  | noIdent
  | ended
  deriving DecidableEq, Repr

/-- kex.c:1284-1366: the outer loop; `n` lines may still be read -/
def readBanner (server : Bool) : Nat → Bytes → Banner
  | 0, _ => .noIdent
  | n + 1, s =>
    match readLine [] false s with
    | .ended => .ended
    | .invalid => .invalid
    | .line l rest =>
      if isIdent l then .got l rest
      else if server then .invalid
      else readBanner server n rest

/-- The conversion of a `long` to `int`. -/
def toInt32 (v : Int) : Int := (v + 2147483648) % 4294967296 - 2147483648

/-- `strtol`: values out of range are replaced by the nearest in range. -/
def saturate (v : Int) : Int :=
  if v > 9223372036854775807 then 9223372036854775807 else if v < -9223372036854775808 then -9223372036854775808 else v

/-- `%d` of `sscanf` -/
def scanInt (s : Bytes) : Option (Int × Bytes) :=
  match Num.strtoll s with
  | none => none
  | some (v, r) => some (toInt32 (saturate v), r)

/-- An ordinary character of the format. -/
def scanLit (c : UInt8) : Bytes → Option Bytes
  | [] => none
  | x :: r => if x = c then some r else none

/-- kex.c:1381-1382 `sscanf(s, "SSH-%d.%d-%[^\n]\n", …)`: the three values if all are there.  The text has no newline
and is known to begin with `SSH-`. -/
def scanVersion (s : Bytes) : Option (Int × Int × Bytes) :=
  match scanInt (s.drop 4) with
  | none => none
  | some (major, r) =>
    match scanLit 46 r with
    | none => none
    | some r =>
      match scanInt r with
      | none => none
      | some (minor, r) =>
        match scanLit 45 r with
        | none => none
        | some sw => if sw = [] then none else some (major, minor, sw)

/-- The result of the exchange. -/
inductive Result
  | ok (v : Bytes) (bugs : List Bug) (rest : Bytes)
  | invalid
  | noIdent
  | ended
  | mismatch
  | dropped
  deriving DecidableEq, Repr

/-- kex.c:1394-1405: the versions spoken -/
def versionOk (major minor : Int) : Bool := if major = 2 then true else if major = 1 then decide (minor = 99) else false

/-- kex.c:1381-1427: what is made of the peer's string -/
def judge (server : Bool) (v rest : Bytes) : Result :=
  match scanVersion v with
  | none => .invalid
  | some (major, minor, sw) =>
    if versionOk major minor = false then .mismatch
    else if server = true ∧ (.probe ∈ compat sw ∨ .scanner ∈ compat sw) then .dropped
    else .ok v (compat sw) rest

/-- kex.c:1234-1437 `kex_exchange_identification`, the receiving part -/
def exchange (server : Bool) (s : Bytes) : Result :=
  match readBanner server 1024 s with
  | .got v rest => judge server v rest
  | .invalid => .invalid
  | .noIdent => .noIdent
  | .ended => .ended

end Verif.Banner
