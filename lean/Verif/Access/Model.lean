/-
Model of the check whether an account may log in at all: `allowed_user` of `auth.c` and the group list
of `groupaccess.c`.

Simplified: the account data, the shell's file status, the locked-account test of the platform and the
group data base are given; the host name the code would look up is given; `CUSTOM_SYS_AUTH_ALLOWED_USER`
(AIX) is not built.
-/
import Verif.Base
import Verif.Match.Model
import Verif.Addr.Model

namespace Verif.Access

open Match (matchPattern matchUser matchUsergroup toLower)

/-- What `stat` says of the shell, auth.c:125-136: missing, or whether it is a regular file and
whether any execute bit is set. -/
inductive Shell where
  | missing
  | found (regular exec : Bool)
  deriving DecidableEq, Repr

/-- The account, `struct passwd` with what the system knows of it. -/
structure Account where
  name : Bytes
  /-- `platform_locked_account` -/
  locked : Bool
  /-- the shell, or /bin/sh when the field is empty (auth.c:122-123) -/
  shell : Shell
  /-- what `getgrouplist` returns, in the data base's order -/
  gids : List Nat

/-- The settings consulted. -/
structure Config where
  usePam : Bool
  chroot : Option Bytes
  denyUsers : List Bytes
  allowUsers : List Bytes
  denyGroups : List Bytes
  allowGroups : List Bytes

inductive Verdict where
  | allowed | refused
  /-- `fatal`: the process ends -/
  | fatal
  deriving DecidableEq, Repr

/-- groupaccess.c:49-78 `ga_init`: the names of the groups; numbers without a name are dropped -/
def gaInit (getgrgid : Nat → Option Bytes) (gids : List Nat) : List Bytes := gids.filterMap getgrgid

/-- groupaccess.c:84-94 `ga_match` -/
def gaMatch (groups pats : List Bytes) : Bool := groups.any fun g => pats.any fun p => matchPattern g p

/-- groupaccess.c:100-117 `ga_match_pattern_list`; the accumulator is `found` -/
def gaMatchPatternListGo (pattern : Bytes) : List Bytes → Bool → Bool
  | [], found => found
  | g :: gs, found =>
    if matchUsergroup g pattern = -1 then false
    else if matchUsergroup g pattern = 1 then gaMatchPatternListGo pattern gs true
    else gaMatchPatternListGo pattern gs found

def gaMatchPatternList (groups : List Bytes) (pattern : Bytes) : Bool := gaMatchPatternListGo pattern groups false

/-- auth.c:117-139 -/
def shellOk (c : Config) (a : Account) : Bool :=
  match c.chroot with
  | some d => if d.map toLower = b!"none" then a.shell == .found true true else true
  | none => a.shell == .found true true

/-- auth.c:148-161: DenyUsers; `none` goes on -/
def denyUsers (m : Bytes → Int) : List Bytes → Option Verdict
  | [] => none
  | p :: ps => if m p < 0 then some .fatal else if m p ≠ 0 then some .refused else denyUsers m ps

/-- auth.c:164-177: the loop over AllowUsers -/
def allowUsersGo (m : Bytes → Int) : List Bytes → Option Verdict
  | [] => some .refused
  | p :: ps => if m p < 0 then some .fatal else if m p = 1 then none else allowUsersGo m ps

/-- auth.c:163-177 -/
def allowUsers (m : Bytes → Int) (l : List Bytes) : Option Verdict :=
  if l.length > 0 then allowUsersGo m l else none

/-- auth.c:179-211 -/
def groupsOk (groups : List Bytes) (c : Config) : Bool :=
  if c.denyGroups.length > 0 ∨ c.allowGroups.length > 0 then
    if groups.length = 0 then false
    else if c.denyGroups.length > 0 ∧ gaMatch groups c.denyGroups = true then false
    else if c.allowGroups.length > 0 ∧ gaMatch groups c.allowGroups = false then false
    else true
  else true

/-- auth.c:98-222 `allowed_user`; `host` and `ip` are the client's name and address. -/
def allowedUser (pton : Bytes → Option Addr.XAddr) (getgrgid : Nat → Option Bytes) (c : Config) (a : Account)
    (host ip : Bytes) : Verdict :=
  if c.usePam = false ∧ a.locked = true then .refused
  else if shellOk c a = false then .refused
  else
    match denyUsers (fun p => matchUser (some a.name) (some host) (some ip) p (Addr.matchList pton)) c.denyUsers with
    | some v => v
    | none =>
      match allowUsers (fun p => matchUser (some a.name) (some host) (some ip) p (Addr.matchList pton)) c.allowUsers with
      | some v => v
      | none => if groupsOk (gaInit getgrgid a.gids) c then .allowed else .refused

end Verif.Access
