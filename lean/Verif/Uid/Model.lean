/-
Model of changing identities (uidswap.c) and of the system calls behind it.

The system calls are those of Linux (not part of OpenSSH): a process is privileged if its effective user id is 0; the three user
ids and the three group ids follow credentials(7), setresuid(2), seteuid(2), setuid(2), setgroups(2).  Any call may fail for
other reasons as well.  The variant with `SAVED_IDS_WORK_WITH_SETEUID` and the test of restoration, neither Cygwin nor macOS.
-/

namespace Verif.Uid

structure Creds where
  ruid : Nat
  euid : Nat
  suid : Nat
  rgid : Nat
  egid : Nat
  sgid : Nat
  groups : List Nat
deriving DecidableEq

/-- `struct passwd`. -/
structure Pw where
  name : Nat
  uid : Nat
  gid : Nat
deriving DecidableEq

/-- System calls that change identities. -/
inductive Call where
  | seteuid (u : Nat)
  | setuid (u : Nat)
  | setresuid (r e s : Nat)
  | setegid (g : Nat)
  | setgid (g : Nat)
  | setresgid (r e s : Nat)
  | setgroups (l : List Nat)
deriving DecidableEq

/-- What Linux makes of a call that it does not refuse for other reasons. -/
def kernel (c : Creds) : Call → Option Creds
  | .seteuid u => if c.euid = 0 ∨ u = c.ruid ∨ u = c.euid ∨ u = c.suid then some { c with euid := u } else none
  | .setuid u =>
    if c.euid = 0 then some { c with ruid := u, euid := u, suid := u }
    else if u = c.ruid ∨ u = c.suid then some { c with euid := u } else none
  | .setresuid r e s =>
    if c.euid = 0 ∨ ((r = c.ruid ∨ r = c.euid ∨ r = c.suid) ∧ (e = c.ruid ∨ e = c.euid ∨ e = c.suid) ∧
      (s = c.ruid ∨ s = c.euid ∨ s = c.suid)) then some { c with ruid := r, euid := e, suid := s } else none
  | .setegid g => if c.euid = 0 ∨ g = c.rgid ∨ g = c.egid ∨ g = c.sgid then some { c with egid := g } else none
  | .setgid g =>
    if c.euid = 0 then some { c with rgid := g, egid := g, sgid := g }
    else if g = c.rgid ∨ g = c.sgid then some { c with egid := g } else none
  | .setresgid r e s =>
    if c.euid = 0 ∨ ((r = c.rgid ∨ r = c.egid ∨ r = c.sgid) ∧ (e = c.rgid ∨ e = c.egid ∨ e = c.sgid) ∧
      (s = c.rgid ∨ s = c.egid ∨ s = c.sgid)) then some { c with rgid := r, egid := e, sgid := s } else none
  | .setgroups l => if c.euid = 0 then some { c with groups := l } else none

/-- The system: what calls do; which of them fail although they are permitted, by their number; and the groups of users
(`initgroups`). -/
structure World where
  kernel : Creds → Call → Option Creds
  refuses : Nat → Bool
  groupsOf : Pw → List Nat

/-- The process and the static variables, uidswap.c:44-54. -/
structure St where
  creds : Creds
  /-- calls so far -/
  count : Nat
  savedEuid : Nat
  savedEgid : Nat
  privileged : Bool
  effective : Bool
  userGroupsUid : Nat
  savedGroups : List Nat
  /-- `none`: `user_groupslen` is -1 -/
  userGroups : Option (List Nat)
deriving DecidableEq

/-- A system call: the credentials change or it fails. -/
def sys (W : World) (s : St) (c : Call) : Bool × St :=
  match (if W.refuses s.count then none else W.kernel s.creds c) with
  | some k => (true, { s with creds := k, count := s.count + 1 })
  | none => (false, { s with count := s.count + 1 })

/-- A system call whose failure is fatal. -/
def must (W : World) (s : St) (c : Call) : Option St :=
  match sys W s c with
  | (true, s) => some s
  | (false, _) => none

/-- uidswap.c:99-119: the groups of the user, asked for only once. -/
def userGroups (W : World) (s : St) (pw : Pw) : Option St :=
  if s.userGroups = none ∨ s.userGroupsUid ≠ pw.uid then
    match must W s (.setgroups (W.groupsOf pw)) with
    | none => none
    | some s => some { s with userGroups := some s.creds.groups, userGroupsUid := pw.uid }
  else some s

/-- uidswap.c:67-97: what is remembered. -/
def remember (s : St) : St :=
  { s with
    savedEuid := s.creds.euid, savedEgid := s.creds.egid, privileged := true, effective := true, savedGroups := s.creds.groups }

/-- uidswap.c:60-136 `temporarily_use_uid`; `none`: fatal. -/
def temporarily (W : World) (s : St) (pw : Pw) : Option St :=
  if s.creds.euid ≠ 0 then some { s with savedEuid := s.creds.euid, savedEgid := s.creds.egid, privileged := false }
  else
    match userGroups W (remember s) pw with
    | none => none
    | some s =>
      match must W s (.setgroups (s.userGroups.getD [])) with
      | none => none
      | some s =>
        match must W s (.setegid pw.gid) with
        | none => none
        | some s => must W s (.seteuid pw.uid)

/-- uidswap.c:141-174 `restore_uid`; `none`: fatal. -/
def restore (W : World) (s : St) : Option St :=
  if s.privileged = false then some s
  else if s.effective = false then none
  else
    match must W s (.seteuid s.savedEuid) with
    | none => none
    | some s =>
      match must W s (.setegid s.savedEgid) with
      | none => none
      | some s =>
        match must W s (.setgroups s.savedGroups) with
        | none => none
        | some s => some { s with effective := false }

/-- uidswap.c:218-222, 233-236: is there a way back? -/
def wayBack (W : World) (s : St) (a b : Call) : Bool × St :=
  match sys W s a with
  | (true, s) => (true, s)
  | (false, s) => sys W s b

/-- uidswap.c:216-238: the tests after the change. -/
def uidChecks (W : World) (s : St) (pw : Pw) (oldUid : Nat) : Option St :=
  match (if oldUid ≠ pw.uid then wayBack W s (.setuid oldUid) (.seteuid oldUid) else (false, s)) with
  | (true, _) => none
  | (false, s) => if s.creds.ruid ≠ pw.uid ∨ s.creds.euid ≠ pw.uid then none else some s

def checks (W : World) (s : St) (pw : Pw) (oldUid oldGid : Nat) : Option St :=
  match (if oldGid ≠ pw.gid ∧ pw.uid ≠ 0 then wayBack W s (.setgid oldGid) (.setegid oldGid) else (false, s)) with
  | (true, _) => none
  | (false, s) => if s.creds.rgid ≠ pw.gid ∨ s.creds.egid ≠ pw.gid then none else uidChecks W s pw oldUid

/-- uidswap.c:180-238 `permanently_set_uid`; `none`: fatal. -/
def permanently (W : World) (s : St) (pw : Pw) : Option St :=
  if s.effective then none
  else
    match must W s (.setresgid pw.gid pw.gid pw.gid) with
    | none => none
    | some s' =>
      match must W s' (.setresuid pw.uid pw.uid pw.uid) with
      | none => none
      | some s'' => checks W s'' pw s.creds.ruid s.creds.rgid

/-- A process that has not called any of these functions yet, uidswap.c:44-54. -/
def start (c : Creds) : St := ⟨c, 0, 0, 0, false, false, 0, [], none⟩

inductive Op where
  | temporarily (pw : Pw)
  | restore

/-- Calls of the first two functions in any order; `none`: fatal. -/
def history (W : World) (s : St) : List Op → Option St
  | [] => some s
  | .temporarily pw :: l =>
    match temporarily W s pw with
    | none => none
    | some s => history W s l
  | .restore :: l =>
    match restore W s with
    | none => none
    | some s => history W s l

end Verif.Uid
