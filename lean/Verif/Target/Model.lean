/-
Where the client connects to: the destination on the command line (ssh.c, misc.c), canonical host names (ssh.c), and the
command for a jump host.
-/
import Verif.Permit.Model
import Verif.Match.Model
import Verif.Scp.Model
import Verif.Text

namespace Verif.Target
open Verif
open _root_.Verif.Match (toLower matchPatternList)
open _root_.Verif.Permit (hpdelim hpdelim2 cleanhostname a2port)
open _root_.Verif.Scp (dec)

/-! ## Names -/

def isAlpha (c : UInt8) : Bool := (65 ≤ c && c ≤ 90) || (97 ≤ c && c ≤ 122)
def isDigit (c : UInt8) : Bool := 48 ≤ c && c ≤ 57
def isSpace (c : UInt8) : Bool := c = 32 || (9 ≤ c && c ≤ 13)
def isCntrl (c : UInt8) : Bool := c < 32 || c = 127

/-- The characters of ssh.c:642 -/
def hostBad : Bytes := b!"'`\"$\\;&<>|(){},"

/-- ssh.c:634-647 `valid_hostname` (in the C locale) -/
def validHostname (s : Bytes) : Bool :=
  s.head? ≠ some 45 && s.all fun c => !(hostBad.contains c || isSpace c || isCntrl c)

/-- The characters of ssh.c:657 -/
def userBad : Bytes := b!"'`\";&<>|(){}"

/-- ssh.c:656-665: the loop of `valid_ruser` -/
def ruserGo : Bytes → Bool
  | [] => true
  | c :: l =>
    if userBad.contains c then false
    else if isSpace c && l.head? = some 45 then false
    else if c = 92 && l = [] then false
    else ruserGo l

/-- ssh.c:649-667 `valid_ruser` -/
def validRuser (s : Bytes) : Bool := s.head? ≠ some 45 && ruserGo s

/-- misc.c:2415-2431: the loop of `valid_domain`; `last` is the character before -/
def domainGo : UInt8 → Bytes → Bool
  | _, [] => true
  | last, c :: l =>
    if last = 46 ∧ c = 46 then false
    else if c ≠ 46 ∧ c ≠ 45 ∧ isAlpha (toLower c) = false ∧ isDigit c = false ∧ c ≠ 95 then false
    else domainGo c l

/-- misc.c:2398-2441 `valid_domain` with `makelower` 0: the name, without a dot at the end -/
def validDomain (s : Bytes) : Option Bytes :=
  match s with
  | [] => none
  | c :: _ =>
    if isAlpha c = false ∧ isDigit c = false ∧ c ≠ 95 then none
    else if domainGo 0 s = false then none
    else some (if s.getLast? = some 46 then s.dropLast else s)

/-! ## Destinations -/

/-- `isxdigit` and the value of a digit (misc.c:962-979 `hexchar`) -/
def hexVal (c : UInt8) : Option Nat :=
  if 48 ≤ c ∧ c ≤ 57 then some (c.toNat - 48)
  else if 97 ≤ c ∧ c ≤ 102 then some (c.toNat - 87)
  else if 65 ≤ c ∧ c ≤ 70 then some (c.toNat - 55)
  else none

/-- misc.c:1001-1010: after a percent sign -/
def escape (go : Bytes → Option Bytes) : Bytes → Option Bytes
  | x :: y :: l =>
    match hexVal x, hexVal y with
    | some a, some b => (go l).map (UInt8.ofNat (16 * a + b) :: ·)
    | _, _ => none
  | _ => none

/-- misc.c:985-1018 `urldecode`, before the result is read as a C string -/
def urlGo : Nat → Bytes → Option Bytes
  | 0, _ => none
  | _ + 1, [] => some []
  | f + 1, c :: l =>
    if c = 43 then (urlGo f l).map (32 :: ·)
    else if c = 37 then escape (urlGo f) l
    else (urlGo f l).map (c :: ·)

/-- misc.c:985-1018 `urldecode`: a decoded NUL ends the string -/
def urldecode (s : Bytes) : Option Bytes := (urlGo (s.length + 1) s).map fun d => d.takeWhile (· ≠ 0)

/-- What is parsed: user, host, port -/
structure Dest where
  user : Option Bytes
  host : Bytes
  port : Option Int
  deriving DecidableEq

/-- `parse_uri` and `parse_ssh_uri`: not a URI (1), an error (-1), or a destination (0) -/
inductive Uri where
  | notUri
  | bad
  | ok (d : Dest)
  deriving DecidableEq

/-- misc.c:1058-1074: user and rest -/
def uriUser (s : Bytes) : Option (Option Bytes × Bytes) :=
  if 64 ∈ s then
    if (s.takeWhile (· ≠ 64)).takeWhile (· ≠ 59) = [] then none
    else (urldecode ((s.takeWhile (· ≠ 64)).takeWhile (· ≠ 59))).map fun u => (some u, (s.dropWhile (· ≠ 64)).drop 1)
  else some (none, s)

/-- misc.c:1083-1097: port and path -/
def uriRest (serv : Bytes → Option Nat) (ch : UInt8) (r : Bytes) : Option (Option Int × Option Bytes) :=
  if r = [] then some (none, none)
  else if ch = 58 then
    if a2port serv (r.takeWhile (· ≠ 47)) ≤ 0 then none
    else if (r.dropWhile (· ≠ 47)).drop 1 = [] then some (some (a2port serv (r.takeWhile (· ≠ 47))), none)
    else (urldecode ((r.dropWhile (· ≠ 47)).drop 1)).map fun p => (some (a2port serv (r.takeWhile (· ≠ 47))), some p)
  else (urldecode r).map fun p => (none, some p)

/-- misc.c:1057-1097: a URI without its scheme -/
def uriBody (serv : Bytes → Option Nat) (s : Bytes) : Option (Dest × Option Bytes) :=
  (uriUser s).bind fun ur =>
    match hpdelim2 ur.2 with
    | none => none
    | some (h, tl) =>
      if h = [] then none
      else (validDomain (cleanhostname h)).bind fun d =>
        match tl with
        | none => some (⟨ur.1, d, none⟩, none)
        | some (ch, r) => (uriRest serv ch r).map fun pp => (⟨ur.1, d, pp.1⟩, pp.2)

/-- "ssh://" -/
def scheme : Bytes := b!"ssh://"

/-- misc.c:1032-1121 `parse_uri` and readconf.c:3434-3459 `parse_ssh_uri`: a path is not allowed -/
def parseSshUri (serv : Bytes → Option Nat) (s : Bytes) : Uri :=
  if s.take 6 ≠ scheme then .notUri
  else match uriBody serv (s.drop 6) with
    | some (d, none) => .ok d
    | _ => .bad

/-- At the last `c`: what is before and what is after -/
def splitLast (c : UInt8) (s : Bytes) : Option (Bytes × Bytes) :=
  if c ∈ s then some (((s.reverse.dropWhile (· ≠ c)).drop 1).reverse, (s.reverse.takeWhile (· ≠ c)).reverse) else none

/-- ssh.c:1118-1150: the destination on the command line; `none`: usage -/
def destination (serv : Bytes → Option Nat) (s : Bytes) : Option Dest :=
  match parseSshUri serv s with
  | .bad => none
  | .ok d => some d
  | .notUri =>
    match splitLast 64 s with
    | none => some ⟨none, s, none⟩
    | some (u, h) => if u = [] then none else some ⟨some u, h, none⟩

/-- misc.c:932-941: host and port, when the user is known -/
def hostPort (serv : Bytes → Option Nat) (user : Option Bytes) (t : Bytes) : Option Dest :=
  match hpdelim t with
  | none => none
  | some (h, tl) =>
    if h = [] then none
    else match tl with
      | none => some ⟨user, cleanhostname h, none⟩
      | some (_, p) =>
        if p = [] then some ⟨user, cleanhostname h, none⟩
        else if a2port serv p ≤ 0 then none
        else some ⟨user, cleanhostname h, some (a2port serv p)⟩

/-- misc.c:905-956 `parse_user_host_port` -/
def userHostPort (serv : Bytes → Option Nat) (s : Bytes) : Option Dest :=
  match splitLast 64 s with
  | none => hostPort serv none s
  | some (u, t) => if u = [] then none else hostPort serv (some u) t

/-- readconf.c:3396-3399: one hop of `ProxyJump` -/
def hop (serv : Bytes → Option Nat) (s : Bytes) : Option Dest :=
  match parseSshUri serv s with
  | .bad => none
  | .ok d => some d
  | .notUri => userHostPort serv s

/-- `strcasecmp` is 0 -/
def same (a b : Bytes) : Bool := a.map toLower = b.map toLower

/-- misc.c:97-108 `rtrim`: every blank is overwritten, except in the first place -/
def rtrim : Bytes → Bytes
  | [] => []
  | c :: l => c :: l.takeWhile fun x => !isSpace x

/-- readconf.c:3415-3418: all before the last comma, of the line as it was given -/
def extraOf (s : Bytes) : Option Bytes :=
  match splitLast 44 s with
  | some (c :: l, _) => some (c :: l)
  | _ => none

/-- What `parse_jump` sets: nothing as it is not correct, the word none, or a host with the hosts on the way to it -/
inductive Jump where
  | bad
  | none
  | via (d : Dest) (extra : Option Bytes)
  deriving DecidableEq

/-- readconf.c:3377-3382: without comment and blanks -/
def jumpText (s : Bytes) : Bytes := rtrim (s.takeWhile (· ≠ 35))

/-- readconf.c:3369-3432 `parse_jump`, when the line counts and nothing was set before. The hops are checked from the last to
the first. -/
def parseJump (serv : Bytes → Option Nat) (s : Bytes) : Jump :=
  if same s b!"none" then .none
  else if (Text.split 44 (jumpText s)).all fun x => (hop serv x).isSome then
    match (Text.split 44 (jumpText s)).getLast?.bind (hop serv) with
    | some d => .via d (extraOf s)
    | none => .bad
  else .bad

/-- ssh.c:1337-1355: the command for a jump host, still with `%h` and `%p`; `v` is how often `-v` was given (at most 3) -/
def jumpCommand (sshbin : Bytes) (d : Dest) (extra config : Option Bytes) (v : Nat) : Bytes :=
  sshbin ++ (match d.user with | none => [] | some u => b!" -l " ++ u) ++
    (match d.port with | none => [] | some p => b!" -p " ++ dec p.toNat) ++
    (match extra with | none => [] | some e => b!" -J " ++ e) ++
    (match config with | none => [] | some c => b!" -F " ++ c) ++
    (if v = 0 then [] else b!" -" ++ List.replicate (min v 3) 118) ++ b!" -W '[%h]:%p' " ++ d.host

/-! ## Canonical names -/

/-- `CanonicalizeHostname` -/
inductive Canon where
  | no | yes | always
  deriving DecidableEq

/-- The options: `direct` is whether there is neither a proxy command nor a jump host (ssh.c:466-467, 1262-1263), `rules` are
source and target lists of `CanonicalizePermittedCNAMEs`. -/
structure Cfg where
  canon : Canon
  direct : Bool
  maxDots : Int
  domains : List Bytes
  fallback : Bool
  rules : List (Bytes × Bytes)

/-- The resolver: `numeric` is what `resolve_addr` (ssh.c:336-380) yields for a name, the address in its usual form; `single`
whether `getaddrinfo` takes it for a single address (ssh.c:313-327); `look` looks up a name, with the canonical name if
there is one. -/
structure Resolver where
  numeric : Bytes → Option Bytes
  single : Bytes → Bool
  look : Bytes → Option (Option Bytes)

/-- ssh.c:253-294 `resolve_host`: `none` if it fails, otherwise the alias, empty if there is none that can be used -/
def resolveHost (R : Resolver) (n : Bytes) : Option Bytes :=
  match R.look n with
  | none => none
  | some none => some []
  | some (some c) =>
    match validDomain c with
    | none => some []
    | some d => some (if d.length ≥ 1025 then [] else d)

/-- ssh.c:297-302 `is_addr_fast` -/
def isAddrFast (n : Bytes) : Bool := n.contains 37 || n.contains 58 || n.all fun c => isDigit c || c = 46

/-- ssh.c:305-328 `is_addr` -/
def isAddr (R : Resolver) (n : Bytes) : Bool := isAddrFast n || R.single n

/-- readconf.c:2628-2636 `config_has_permitted_cnames` -/
def hasRules (C : Cfg) : Bool :=
  match C.rules with
  | [] => false
  | [(s, t)] => !(same s b!"none" && t = [])
  | _ => true

/-- ssh.c:387-418 `check_follow_cname`: the new name, if it is followed -/
def follow (C : Cfg) (name cname : Bytes) : Option Bytes :=
  if cname = [] ∨ hasRules C = false ∨ name = cname then none
  else if C.canon = .no then none
  else if C.direct = false ∧ C.canon ≠ .always then none
  else if C.rules.any fun r => matchPatternList name r.1 true = 1 && matchPatternList cname r.2 true = 1 then some cname
  else none

/-- What `resolve_canonicalize` does: it reads outside of the name, ends the program, finds nothing, or finds addresses
under a new name -/
inductive CRes where
  | ub
  | fatal
  | nothing
  | found (host : Bytes)
  deriving DecidableEq

/-- ssh.c:518-522 -/
def notFound (C : Cfg) : CRes := if C.fallback then .nothing else .fatal

/-- ssh.c:507-516 -/
def found (C : Cfg) (full cname : Bytes) : CRes := .found ((follow C full cname).getD full)

/-- ssh.c:494-517: the suffixes -/
def suffixes (C : Cfg) (R : Resolver) (host : Bytes) : List Bytes → CRes
  | [] => notFound C
  | d :: l =>
    if same d b!"none" then notFound C
    else match resolveHost R (host ++ [46] ++ d ++ [46]) with
      | none => suffixes C R host l
      | some c => found C (host ++ [46] ++ d) c

/-- ssh.c:426-523 `resolve_canonicalize` -/
def canonicalize (C : Cfg) (R : Resolver) (host : Bytes) : CRes :=
  match R.numeric host with
  | some a => .found (if same host a then host else a)
  | none =>
    if isAddrFast host then .nothing
    else if C.canon = .no then .nothing
    else if C.direct = false ∧ C.canon ≠ .always then .nothing
    else match host.getLast? with
      | none => .ub
      | some c =>
        if c = 46 then
          match resolveHost R host with
          | some c => found C host.dropLast c
          | none => notFound C
        else if ((host.filter fun c => decide (c = 46)).length : Int) > C.maxDots then .nothing
        else suffixes C R host C.domains

/-- What comes out: undefined behaviour, the program ends, or it goes on with a name, resolved or not -/
inductive Res where
  | ub
  | exit
  | host (h : Bytes) (resolved : Bool)
  deriving DecidableEq

/-- ssh.c:1250-1274: without an address so far, the alias of the name itself -/
def plain (C : Cfg) (R : Resolver) (h : Bytes) : Res :=
  if hasRules C ∧ (C.direct = true ∨ C.canon = .always) then
    match resolveHost R h with
    | none => if C.direct then .exit else .host h false
    | some c => .host ((follow C h c).getD h) true
  else .host h false

/-- ssh.c:1238-1240: addresses are left as they are, names are put into lower case -/
def start (R : Resolver) (host : Bytes) : Bytes := if isAddr R host then host else host.map toLower

/-- ssh.c:1238-1274: the name from `Hostname` or the command line -/
def target (C : Cfg) (R : Resolver) (host : Bytes) : Res :=
  if C.canon ≠ .no ∨ isAddr R host = true then
    match canonicalize C R (start R host) with
    | .ub => .ub
    | .fatal => .exit
    | .found h => .host h true
    | .nothing => plain C R (start R host)
  else plain C R (start R host)

end Verif.Target
