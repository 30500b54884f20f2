/-
The SFTP server: sftp-server.c, with sftp-common.c's attributes.

What the server asks of the system is a tree of calls with any answers (`Prog`).  Logging is left out (so are the
counters of bytes that only it uses).  Constants are those of Linux.
-/
import Verif.Match.Model
import Verif.Wire

namespace Verif.Sftp
open Verif Wire

/-! ### The system -/

/-- The part of `struct stat` that is used. -/
structure St where
  size : Nat := 0
  uid : Nat := 0
  gid : Nat := 0
  mode : Nat := 0
  atime : Nat := 0
  mtime : Nat := 0
  deriving DecidableEq, Repr

inductive Acc where
  | rd
  | wr
  | rw
  deriving DecidableEq, Repr

/-- The flags of open(2). -/
structure OFlags where
  acc : Acc := .rd
  append : Bool := false
  creat : Bool := false
  trunc : Bool := false
  excl : Bool := false
  deriving DecidableEq, Repr

/-- What is asked of the system.  Files and directories are named by numbers; `readAll` and `writeAll` are `atomicio`;
`realpath` is `sftp_realpath`; `home` is getpwnam(3)'s directory. -/
inductive Call where
  | open_ (path : Bytes) (flags : OFlags) (mode : Nat)
  | close (fd : Nat)
  | opendir (path : Bytes)
  | readdir (d : Nat)
  | closedir (d : Nat)
  | lseek (fd off : Nat)
  | read (fd n : Nat)
  | write (fd : Nat) (data : Bytes)
  | readAll (fd n : Nat)
  | writeAll (fd : Nat) (data : Bytes)
  | stat (path : Bytes)
  | lstat (path : Bytes)
  | fstat (fd : Nat)
  | truncate (path : Bytes) (size : Nat)
  | chmod (path : Bytes) (mode : Nat)
  | utimes (path : Bytes) (atime mtime : Nat)
  | chown (path : Bytes) (uid gid : Nat)
  | ftruncate (fd size : Nat)
  | fchmod (fd mode : Nat)
  | futimes (fd atime mtime : Nat)
  | fchown (fd uid gid : Nat)
  | lchmod (path : Bytes) (mode : Nat)
  | lutimes (path : Bytes) (atime mtime : Nat)
  | lchown (path : Bytes) (uid gid : Nat)
  | unlink (path : Bytes)
  | mkdir (path : Bytes) (mode : Nat)
  | rmdir (path : Bytes)
  | link (old new : Bytes)
  | rename (old new : Bytes)
  | symlink (old new : Bytes)
  | readlink (path : Bytes)
  | realpath (path : Bytes)
  | statvfs (path : Bytes)
  | fstatvfs (fd : Nat)
  | fsync (fd : Nat)
  | getcwd
  | tilde (path : Bytes)
  | home (user : Bytes)
  | getpwuid (uid : Nat)
  | getgrgid (gid : Nat)
  | getrlimit
  deriving DecidableEq, Repr

/-- An answer: an error number, or what is wanted in one of the other fields. -/
structure Resp where
  err : Option Nat := none
  num : Nat := 0
  data : Bytes := []
  st : St := {}
  deriving DecidableEq, Repr

inductive Prog (α : Type) where
  | ret (a : α)
  | call (c : Call) (k : Resp → Prog α)

def Prog.map {α β : Type} (f : α → β) : Prog α → Prog β
  | .ret a => .ret (f a)
  | .call c k => .call c fun r => (k r).map f

/-! ### Attributes -/

/-- `Attrib`, sftp-common.h:32-41 -/
structure Attrib where
  flags : Nat := 0
  size : Nat := 0
  uid : Nat := 0
  gid : Nat := 0
  perm : Nat := 0
  atime : Nat := 0
  mtime : Nat := 0
  deriving DecidableEq, Repr

scoped notation "A_SIZE" => (0 : Nat)
scoped notation "A_UIDGID" => (1 : Nat)
scoped notation "A_PERM" => (2 : Nat)
scoped notation "A_TIME" => (3 : Nat)
scoped notation "A_EXT" => (31 : Nat)

/-- sftp-common.c:67-82 `stat_to_attrib` -/
def statAttrib (s : St) : Attrib := ⟨15, s.size, s.uid, s.gid, s.mode, s.atime, s.mtime⟩

/-- sftp-common.c:156-182 `encode_attrib` -/
def encAttrib (a : Attrib) : Bytes :=
  be 4 a.flags ++ (if a.flags.testBit A_SIZE then be 8 a.size else []) ++
    (if a.flags.testBit A_UIDGID then be 4 a.uid ++ be 4 a.gid else []) ++
    (if a.flags.testBit A_PERM then be 4 a.perm else []) ++
    (if a.flags.testBit A_TIME then be 4 a.atime ++ be 4 a.mtime else [])

/-! ### Parsing -/

abbrev Parser (α : Type) := Bytes → Option (α × Bytes)

def pret {α : Type} (a : α) : Parser α := fun b => some (a, b)
def pfail {α : Type} : Parser α := fun _ => none
def pbind {α β : Type} (p : Parser α) (f : α → Parser β) : Parser β := fun b =>
  match p b with
  | none => none
  | some (a, r) => f a r

/-- sftp-common.c:142-152: `n` extended attributes, which are dropped -/
def extAttribs : Nat → Parser Unit
  | 0 => pret ()
  | n + 1 => pbind getCstr fun _ => pbind getStr fun _ => extAttribs n

/-- sftp-common.c:105-153 `decode_attrib` -/
def decAttrib : Parser Attrib :=
  pbind (getInt 4) fun flags =>
  pbind (if flags.testBit A_SIZE then getInt 8 else pret 0) fun size =>
  pbind (if flags.testBit A_UIDGID then getInt 4 else pret 0) fun uid =>
  pbind (if flags.testBit A_UIDGID then getInt 4 else pret 0) fun gid =>
  pbind (if flags.testBit A_PERM then getInt 4 else pret 0) fun perm =>
  pbind (if flags.testBit A_TIME then getInt 4 else pret 0) fun atime =>
  pbind (if flags.testBit A_TIME then getInt 4 else pret 0) fun mtime =>
  pbind (if flags.testBit A_EXT then pbind (getInt 4) fun n => if n > 0x100000 then pfail else extAttribs n else pret ()) fun _ =>
  pret ⟨flags, size, uid, gid, perm, atime, mtime⟩

/-- A request; handles are still as the client wrote them. -/
inductive Req where
  | open_ (name : Bytes) (pflags : Nat) (a : Attrib)
  | close (h : Bytes)
  | read (h : Bytes) (off len : Nat)
  | write (h : Bytes) (off : Nat) (data : Bytes)
  | stat (name : Bytes)
  | lstat (name : Bytes)
  | fstat (h : Bytes)
  | setstat (name : Bytes) (a : Attrib)
  | fsetstat (h : Bytes) (a : Attrib)
  | opendir (path : Bytes)
  | readdir (h : Bytes)
  | remove (name : Bytes)
  | mkdir (name : Bytes) (a : Attrib)
  | rmdir (name : Bytes)
  | realpath (path : Bytes)
  | rename (old new : Bytes)
  | readlink (path : Bytes)
  | symlink (old new : Bytes)
  | posixRename (old new : Bytes)
  | statvfs (path : Bytes)
  | fstatvfs (h : Bytes)
  | hardlink (old new : Bytes)
  | fsync (h : Bytes)
  | lsetstat (name : Bytes) (a : Attrib)
  | limits
  | expand (path : Bytes)
  | copyData (rh : Bytes) (roff rlen : Nat) (wh : Bytes) (woff : Nat)
  | homeDir (user : Bytes)
  | usersGroups (uids gids : List Nat)
  deriving DecidableEq, Repr

def pname (f : Bytes → Req) : Parser Req := pbind getCstr fun n => pret (f n)
def phandle (f : Bytes → Req) : Parser Req := pbind getStr fun h => pret (f h)
def pnames (f : Bytes → Bytes → Req) : Parser Req := pbind getCstr fun a => pbind getCstr fun b => pret (f a b)
def pnameAttr (f : Bytes → Attrib → Req) : Parser Req := pbind getCstr fun n => pbind decAttrib fun a => pret (f n a)

/-- sftp-server.c:1742-1751 and 1752-1761: the numbers in a string, to its end -/
def idList : Nat → Bytes → Option (List Nat)
  | _, [] => some []
  | 0, _ => none
  | fuel + 1, b =>
    match getInt 4 b with
    | none => none
    | some (n, r) => (idList fuel r).map (n :: ·)

def pids : Parser (List Nat) := pbind getStr fun b =>
  match idList b.length b with
  | none => pfail
  | some l => pret l

/-- `struct sftp_handler`, sftp-server.c:109-115, without the function -/
structure Handler where
  name : Bytes
  writes : Bool
  parse : Parser Req

/-- sftp-server.c:117-138 `handlers`, with the parsing at the start of each `process_*` -/
def handlers : List (Nat × Handler) := [
  (3, ⟨b!"open", false, pbind getCstr fun n => pbind (getInt 4) fun f => pbind decAttrib fun a => pret (.open_ n f a)⟩),
  (4, ⟨b!"close", false, phandle .close⟩),
  (5, ⟨b!"read", false, pbind getStr fun h => pbind (getInt 8) fun o => pbind (getInt 4) fun l => pret (.read h o l)⟩),
  (6, ⟨b!"write", true, pbind getStr fun h => pbind (getInt 8) fun o => pbind getStr fun d => pret (.write h o d)⟩),
  (7, ⟨b!"lstat", false, pname .lstat⟩),
  (8, ⟨b!"fstat", false, phandle .fstat⟩),
  (9, ⟨b!"setstat", true, pnameAttr .setstat⟩),
  (10, ⟨b!"fsetstat", true, pbind getStr fun h => pbind decAttrib fun a => pret (.fsetstat h a)⟩),
  (11, ⟨b!"opendir", false, pname .opendir⟩),
  (12, ⟨b!"readdir", false, phandle .readdir⟩),
  (13, ⟨b!"remove", true, pname .remove⟩),
  (14, ⟨b!"mkdir", true, pnameAttr .mkdir⟩),
  (15, ⟨b!"rmdir", true, pname .rmdir⟩),
  (16, ⟨b!"realpath", false, pname .realpath⟩),
  (17, ⟨b!"stat", false, pname .stat⟩),
  (18, ⟨b!"rename", true, pnames .rename⟩),
  (19, ⟨b!"readlink", false, pname .readlink⟩),
  (20, ⟨b!"symlink", true, pnames .symlink⟩)]

/-- sftp-server.c:140-160 `extended_handlers` -/
def extHandlers : List (Bytes × Handler) := [
  (b!"posix-rename@openssh.com", ⟨b!"posix-rename", true, pnames .posixRename⟩),
  (b!"statvfs@openssh.com", ⟨b!"statvfs", false, pname .statvfs⟩),
  (b!"fstatvfs@openssh.com", ⟨b!"fstatvfs", false, phandle .fstatvfs⟩),
  (b!"hardlink@openssh.com", ⟨b!"hardlink", true, pnames .hardlink⟩),
  (b!"fsync@openssh.com", ⟨b!"fsync", true, phandle .fsync⟩),
  (b!"lsetstat@openssh.com", ⟨b!"lsetstat", true, pnameAttr .lsetstat⟩),
  (b!"limits@openssh.com", ⟨b!"limits", false, pret .limits⟩),
  (b!"expand-path@openssh.com", ⟨b!"expand-path", false, pname .expand⟩),
  (b!"copy-data", ⟨b!"copy-data", true, pbind getStr fun rh => pbind (getInt 8) fun ro => pbind (getInt 8) fun rl =>
    pbind getStr fun wh => pbind (getInt 8) fun wo => pret (.copyData rh ro rl wh wo)⟩),
  (b!"home-directory", ⟨b!"home-directory", false, pname .homeDir⟩),
  (b!"users-groups-by-id@openssh.com", ⟨b!"users-groups-by-id", false, pbind pids fun u => pbind pids fun g => pret (.usersGroups u g)⟩)]

/-- How the server was started.  `ls` is `ls_file`, `homedir` the user's directory; `dirMax` bounds how many entries of
a directory are looked at for one request (the code has no bound). -/
structure Cfg where
  readonly : Bool := false
  allow : Option Bytes := none
  deny : Option Bytes := none
  ls : Bytes → St → Bytes := fun n _ => n
  homedir : Bytes := []
  dirMax : Nat := 1000

/-- `match_list(name, list, NULL) != NULL` for a list that may be absent -/
def listed (name : Bytes) : Option Bytes → Bool
  | none => false
  | some l => (Match.matchList name l).1.isSome

/-- sftp-server.c:192-218 `request_permitted` -/
def permitted (cfg : Cfg) (h : Handler) : Bool :=
  if cfg.readonly && h.writes then false
  else if listed h.name cfg.deny then false
  else if listed h.name cfg.allow then true
  else if cfg.allow.isSome then false
  else true

/-- What a message is to do. -/
inductive Act where
  | init (version : Nat)
  | unknown
  | denied (id : Nat)
  | unsupported (id : Nat)
  | req (id : Nat) (r : Req)
  deriving DecidableEq, Repr

/-- `process` and `process_extended` once the handler is known -/
def withHandler (cfg : Cfg) (id : Nat) (h : Handler) : Parser Act :=
  if permitted cfg h then pbind h.parse fun r => pret (.req id r) else pret (.denied id)

/-- sftp-server.c:1779-1798 `process_extended` -/
def planExt (cfg : Cfg) (id : Nat) : Parser Act := pbind getCstr fun name =>
  match extHandlers.lookup name with
  | none => pret (.unsupported id)
  | some h => withHandler cfg id h

/-- sftp-server.c:1847-1863: the handlers by type -/
def planType (cfg : Cfg) (id type : Nat) : Parser Act :=
  match handlers.lookup type with
  | none => pret .unknown
  | some h => withHandler cfg id h

/-- sftp-server.c:1828-1863: the type and what follows from it; `none` is fatal -/
def plan (cfg : Cfg) (initDone : Bool) : Parser Act := pbind (getInt 1) fun type =>
  if type = 1 then pbind (getInt 4) fun v => pret (.init v)
  else if initDone = false then pfail
  else pbind (getInt 4) fun id => if type = 200 then planExt cfg id else planType cfg id type

/-! ### Handles -/

inductive Use where
  | unused
  | dir
  | file
  deriving DecidableEq, Repr

/-- `struct Handle`, sftp-server.c:310-318; `obj` is `fd` or `dirp` -/
structure Handle where
  use : Use
  obj : Nat
  flags : OFlags
  name : Bytes
  nextUnused : Option Nat
  deriving DecidableEq, Repr

/-- sftp-server.c:326-328 -/
structure Table where
  handles : List Handle := []
  first : Option Nat := none
  deriving DecidableEq, Repr

def noHandle : Handle := ⟨.unused, 0, {}, [], none⟩

/-- sftp-server.c:330-335 `handle_unused` -/
def handleUnused (t : Table) (i : Nat) : Table :=
  ⟨t.handles.set i { t.handles.getD i noHandle with use := .unused, nextUnused := t.first }, some i⟩

/-- sftp-server.c:342-348: a new place, if none is free -/
def grow (t : Table) : Option Table :=
  if t.first = none then
    if t.handles.length + 1 ≥ 2 ^ 32 then none
    else some (handleUnused { t with handles := t.handles ++ [noHandle] } t.handles.length)
  else some t

/-- sftp-server.c:337-361 `handle_new` -/
def handleNew (t : Table) (use : Use) (name : Bytes) (obj : Nat) (flags : OFlags) : Option (Nat × Table) :=
  match grow t with
  | none => none
  | some t =>
    match t.first with
    | none => none
    | some i => some (i, ⟨t.handles.set i ⟨use, obj, flags, name, none⟩, (t.handles.getD i noHandle).nextUnused⟩)

/-- sftp-server.c:363-367 `handle_is_ok`; numbers from 2^31 are negative -/
def isOk (t : Table) (i : Nat) (use : Use) : Bool :=
  decide (i < 2 ^ 31) && decide (i < t.handles.length) && decide ((t.handles.getD i noHandle).use = use)

/-- sftp-server.c:369-378 `handle_to_string` -/
def toStr (i : Nat) : Bytes := be 4 i

/-- sftp-server.c:380-392 `handle_from_string` -/
def fromStr (t : Table) (s : Bytes) : Option Nat :=
  if s.length ≠ 4 then none
  else if isOk t (ofBE s) .file || isOk t (ofBE s) .dir then some (ofBE s) else none

/-- sftp-server.c:502-516 `get_handle`, once the string is read -/
def getHandle (t : Table) (s : Bytes) : Option Nat := if s.length < 256 then fromStr t s else none

/-- sftp-server.c:411-417 `handle_to_fd` of the handle -/
def toFd (t : Table) (h : Option Nat) : Option Nat :=
  match h with
  | none => none
  | some i => if isOk t i .file then some (t.handles.getD i noHandle).obj else none

/-- sftp-server.c:403-409 `handle_to_dir` -/
def toDir (t : Table) (h : Option Nat) : Option Nat :=
  match h with
  | none => none
  | some i => if isOk t i .dir then some (t.handles.getD i noHandle).obj else none

/-- sftp-server.c:394-401 `handle_to_name` -/
def toName (t : Table) (h : Option Nat) : Bytes :=
  match h with
  | none => []
  | some i => (t.handles.getD i noHandle).name

/-- sftp-server.c:419-425 `handle_to_flags`: whether to append -/
def toAppend (t : Table) (h : Option Nat) : Bool :=
  match h with
  | none => false
  | some i => if isOk t i .file then (t.handles.getD i noHandle).flags.append else false

/-! ### Answers -/

inductive Reply where
  | status (id code : Nat) (msg : Option Bytes)
  | handle (id : Nat) (s : Bytes)
  | data (id : Nat) (b : Bytes)
  | names (id : Nat) (l : List (Bytes × Bytes × Attrib))
  | attrs (id : Nat) (a : Attrib)
  | ext (id : Nat) (body : Bytes)
  | version (l : List (Bytes × Bytes))
  deriving DecidableEq, Repr

scoped notation "FX_OK" => (0 : Nat)
scoped notation "FX_EOF" => (1 : Nat)
scoped notation "FX_NO_SUCH_FILE" => (2 : Nat)
scoped notation "FX_DENIED" => (3 : Nat)
scoped notation "FX_FAILURE" => (4 : Nat)
scoped notation "FX_BAD_MESSAGE" => (5 : Nat)
scoped notation "FX_UNSUPPORTED" => (8 : Nat)

/-- sftp-server.c:220-252 `errno_to_portable` -/
def portable (e : Nat) : Nat :=
  if e = 0 then FX_OK
  else if e = 2 ∨ e = 20 ∨ e = 9 ∨ e = 40 then FX_NO_SUCH_FILE
  else if e = 1 ∨ e = 13 ∨ e = 14 then FX_DENIED
  else if e = 36 ∨ e = 22 then FX_BAD_MESSAGE
  else if e = 38 then FX_UNSUPPORTED
  else FX_FAILURE

/-- sftp-server.c:530-546 `status_to_message` -/
def statusMessage (code : Nat) : Bytes :=
  [b!"Success", b!"End of file", b!"No such file", b!"Permission denied", b!"Failure", b!"Bad message", b!"No connection",
    b!"Connection lost", b!"Operation unsupported"].getD (min code 8) []

/-- sftp-server.c:548-653, 709-739: what is sent, without the length in front -/
def encReply (version : Nat) : Reply → Bytes
  | .status id code msg => [101] ++ be 4 id ++ be 4 code ++
      (if version ≥ 3 then str (msg.getD (statusMessage code)) ++ str [] else [])
  | .handle id s => [102] ++ be 4 id ++ str s
  | .data id b => [103] ++ be 4 id ++ str b
  | .names id l => [104] ++ be 4 id ++ be 4 l.length ++ (l.map fun x => str x.1 ++ str x.2.1 ++ encAttrib x.2.2).flatten
  | .attrs id a => [105] ++ be 4 id ++ encAttrib a
  | .ext id body => [201] ++ be 4 id ++ body
  | .version l => [2] ++ be 4 3 ++ (l.map fun x => str x.1 ++ str x.2).flatten

/-! ### Carrying out requests -/

/-- The server's state. -/
structure Srv where
  version : Nat := 0
  initDone : Bool := false
  tab : Table := {}
  deriving DecidableEq, Repr

abbrev Run := Prog (Srv × List Reply)

def status (s : Srv) (id code : Nat) : Srv × List Reply := (s, [.status id code none])

/-- Status for the answer of a call. -/
def stOf (r : Resp) : Nat :=
  match r.err with
  | some e => portable e
  | none => FX_OK

/-- A call whose only outcome is a status. -/
def simple (s : Srv) (id : Nat) (c : Call) : Run := .call c fun r => .ret (status s id (stOf r))

/-- A call of `process_setstat` and its like: done if wanted, a failure is remembered. -/
def optCall (want : Bool) (c : Call) (st : Nat) (k : Nat → Run) : Run :=
  if want then .call c fun r => k (match r.err with | some e => portable e | none => st) else k st

/-- sftp-server.c:254-276 `flags_from_portable` -/
def oflags (p : Nat) : OFlags where
  acc := if p.testBit 0 && p.testBit 1 then .rw else if p.testBit 0 then .rd else if p.testBit 1 then .wr else .rd
  append := p.testBit 2
  creat := p.testBit 3
  trunc := p.testBit 4
  excl := p.testBit 5

/-- sftp-server.c:767-774 and 1113-1120: the handle of what was opened -/
def issue (s : Srv) (id : Nat) (use : Use) (name : Bytes) (obj : Nat) (flags : OFlags) (undo : Call) : Run :=
  match handleNew s.tab use name obj flags with
  | none => .call undo fun _ => .ret (status s id FX_FAILURE)
  | some (i, t) =>
    if i ≥ 2 ^ 31 then .call undo fun _ => .ret (status { s with tab := t } id FX_FAILURE)
    else .ret ({ s with tab := t }, [.handle id (toStr i)])

/-- sftp-server.c:741-781 `process_open` -/
def doOpen (cfg : Cfg) (s : Srv) (id : Nat) (name : Bytes) (pflags : Nat) (a : Attrib) : Run :=
  if cfg.readonly && (decide ((oflags pflags).acc ≠ .rd) || (oflags pflags).creat || (oflags pflags).trunc) then
    .ret (status s id FX_DENIED)
  else .call (.open_ name (oflags pflags) (if a.flags.testBit A_PERM then a.perm else 0o666)) fun r =>
    match r.err with
    | some e => .ret (status s id (portable e))
    | none => issue s id .file name r.num (oflags pflags) (.close r.num)

/-- sftp-server.c:457-474 `handle_close` and 783-796 `process_close` -/
def doClose (s : Srv) (id : Nat) (h : Option Nat) : Run :=
  match h with
  | none => .ret (status s id FX_NO_SUCH_FILE)
  | some i =>
    if isOk s.tab i .file then
      .call (.close (s.tab.handles.getD i noHandle).obj) fun r => .ret (status { s with tab := handleUnused s.tab i } id (stOf r))
    else if isOk s.tab i .dir then
      .call (.closedir (s.tab.handles.getD i noHandle).obj) fun r => .ret (status { s with tab := handleUnused s.tab i } id (stOf r))
    else .ret (status s id FX_NO_SUCH_FILE)

scoped notation "MAX_MSG" => (262144 : Nat)
scoped notation "MAX_READ" => (261120 : Nat)

/-- sftp-server.c:798-851 `process_read` -/
def doRead (s : Srv) (id : Nat) (h : Option Nat) (off len : Nat) : Run :=
  match toFd s.tab h with
  | none => .ret (status s id FX_FAILURE)
  | some fd => .call (.lseek fd off) fun r =>
    match r.err with
    | some e => .ret (status s id (portable e))
    | none =>
      if len = 0 then .ret (s, [.data id []])
      else .call (.read fd (min len MAX_READ)) fun r =>
        match r.err with
        | some e => .ret (status s id (portable e))
        | none => if r.data.length = 0 then .ret (status s id FX_EOF) else .ret (s, [.data id (r.data.take (min len MAX_READ))])

/-- sftp-server.c:877-891 -/
def writeOut (s : Srv) (id fd : Nat) (data : Bytes) : Run := .call (.write fd data) fun r =>
  match r.err with
  | some e => .ret (status s id (portable e))
  | none => .ret (status s id (if r.num = data.length then FX_OK else FX_FAILURE))

/-- sftp-server.c:853-896 `process_write` -/
def doWrite (s : Srv) (id : Nat) (h : Option Nat) (off : Nat) (data : Bytes) : Run :=
  match toFd s.tab h with
  | none => .ret (status s id FX_FAILURE)
  | some fd =>
    if toAppend s.tab h then writeOut s id fd data
    else .call (.lseek fd off) fun r =>
      match r.err with
      | some e => .ret (status s id (portable e))
      | none => writeOut s id fd data

/-- sftp-server.c:909-919 and 945-957: attributes or an error -/
def doStat (s : Srv) (id : Nat) (c : Call) : Run := .call c fun r =>
  match r.err with
  | some e => .ret (status s id (portable e))
  | none => .ret (s, [.attrs id (statAttrib r.st)])

/-- sftp-server.c:986-1031 `process_setstat` -/
def doSetstat (s : Srv) (id : Nat) (name : Bytes) (a : Attrib) : Run :=
  optCall (a.flags.testBit A_SIZE) (.truncate name a.size) FX_OK fun st =>
  optCall (a.flags.testBit A_PERM) (.chmod name (a.perm % 0o10000)) st fun st =>
  optCall (a.flags.testBit A_TIME) (.utimes name a.atime a.mtime) st fun st =>
  optCall (a.flags.testBit A_UIDGID) (.chown name a.uid a.gid) st fun st => .ret (status s id st)

/-- sftp-server.c:1033-1096 `process_fsetstat` -/
def doFsetstat (s : Srv) (id : Nat) (h : Option Nat) (a : Attrib) : Run :=
  match toFd s.tab h with
  | none => .ret (status s id FX_FAILURE)
  | some fd =>
    optCall (a.flags.testBit A_SIZE) (.ftruncate fd a.size) FX_OK fun st =>
    optCall (a.flags.testBit A_PERM) (.fchmod fd (a.perm % 0o10000)) st fun st =>
    optCall (a.flags.testBit A_TIME) (.futimes fd a.atime a.mtime) st fun st =>
    optCall (a.flags.testBit A_UIDGID) (.fchown fd a.uid a.gid) st fun st => .ret (status s id st)

/-- sftp-server.c:1467-1514 `process_extended_lsetstat` -/
def doLsetstat (s : Srv) (id : Nat) (name : Bytes) (a : Attrib) : Run :=
  if a.flags.testBit A_SIZE then .ret (status s id FX_BAD_MESSAGE)
  else
    optCall (a.flags.testBit A_PERM) (.lchmod name (a.perm % 0o10000)) FX_OK fun st =>
    optCall (a.flags.testBit A_TIME) (.lutimes name a.atime a.mtime) st fun st =>
    optCall (a.flags.testBit A_UIDGID) (.lchown name a.uid a.gid) st fun st => .ret (status s id st)

/-- sftp-server.c:1098-1126 `process_opendir` -/
def doOpendir (s : Srv) (id : Nat) (path : Bytes) : Run := .call (.opendir path) fun r =>
  match r.err with
  | some e => .ret (status s id (portable e))
  | none => issue s id .dir path r.num {} (.closedir r.num)

/-- sftp-server.c:1154-1157: the path of an entry, cut to its array -/
def entryPath (path name : Bytes) : Bytes := ((if path = [47] then path else path ++ [47]) ++ name).take 4095

/-- sftp-server.c:1171-1179 -/
def sendNames (s : Srv) (id : Nat) (l : List (Bytes × Bytes × Attrib)) : Run :=
  if l.length > 0 then .ret (s, [.names id l]) else .ret (status s id FX_EOF)

/-- sftp-server.c:1147-1170: the loop over entries; the end of the directory is an answer with `err` -/
def readdirLoop (cfg : Cfg) (s : Srv) (id d : Nat) (path : Bytes) : Nat → List (Bytes × Bytes × Attrib) → Run
  | 0, l => sendNames s id l
  | fuel + 1, l => .call (.readdir d) fun r =>
    match r.err with
    | some _ => sendNames s id l
    | none => .call (.lstat (entryPath path r.data)) fun r' =>
      match r'.err with
      | some _ => readdirLoop cfg s id d path fuel l
      | none =>
        if (l ++ [(r.data, cfg.ls r.data r'.st, statAttrib r'.st)]).length = 100 then
          sendNames s id (l ++ [(r.data, cfg.ls r.data r'.st, statAttrib r'.st)])
        else readdirLoop cfg s id d path fuel (l ++ [(r.data, cfg.ls r.data r'.st, statAttrib r'.st)])

/-- sftp-server.c:1128-1183 `process_readdir` -/
def doReaddir (cfg : Cfg) (s : Srv) (id : Nat) (h : Option Nat) : Run :=
  match toDir s.tab h with
  | none => .ret (status s id FX_FAILURE)
  | some d => readdirLoop cfg s id d (toName s.tab h) cfg.dirMax []

/-- sftp-server.c:1258-1262, 1343-1348, 1602-1604, 1716-1718: one name -/
def oneName (s : Srv) (id : Nat) (name : Bytes) : Run := .ret (s, [.names id [(name, name, {})]])

/-- sftp-server.c:1240-1265 `process_realpath`, the second half -/
def doRealpath (s : Srv) (id : Nat) (path : Bytes) : Run := .call (.realpath path) fun r =>
  match r.err with
  | some e => .ret (status s id (portable e))
  | none => oneName s id r.data

/-- sftp-server.c:1298-1304 and 1315-1320: renaming onto a name that is not there -/
def renameNew (s : Srv) (id : Nat) (old new : Bytes) : Run := .call (.stat new) fun r =>
  if r.err = none then .ret (status s id FX_FAILURE) else simple s id (.rename old new)

/-- sftp-server.c:1281-1313: a regular file -/
def renameFile (s : Srv) (id : Nat) (old new : Bytes) : Run := .call (.link old new) fun r =>
  match r.err with
  | some e => if e = 95 ∨ e = 38 ∨ e = 18 then renameNew s id old new else .ret (status s id (portable e))
  | none => .call (.unlink old) fun r =>
    match r.err with
    | some e => .call (.unlink new) fun _ => .ret (status s id (portable e))
    | none => .ret (status s id FX_OK)

/-- sftp-server.c:1267-1325 `process_rename` -/
def doRename (s : Srv) (id : Nat) (old new : Bytes) : Run := .call (.lstat old) fun r =>
  match r.err with
  | some e => .ret (status s id (portable e))
  | none => if r.st.mode / 0o10000 % 16 = 8 then renameFile s id old new else renameNew s id old new

/-- sftp-server.c:1327-1350 `process_readlink` -/
def doReadlink (s : Srv) (id : Nat) (path : Bytes) : Run := .call (.readlink path) fun r =>
  match r.err with
  | some e => .ret (status s id (portable e))
  | none => oneName s id r.data

/-- sftp-server.c:1401-1406 and 1424-1427; the fields of `struct statvfs` are the answer's data -/
def doStatvfs (s : Srv) (id : Nat) (c : Call) : Run := .call c fun r =>
  match r.err with
  | some e => .ret (status s id (portable e))
  | none => .ret (s, [.ext id r.data])

/-- sftp-server.c:1516-1548 `process_extended_limits` -/
def doLimits (s : Srv) (id : Nat) : Run := .call .getrlimit fun r =>
  .ret (s, [.ext id (be 8 MAX_MSG ++ be 8 MAX_READ ++ be 8 MAX_READ ++
    be 8 (if r.err = none ∧ r.num > 5 then r.num - 5 else 0))])

/-- sftp-server.c:1550-1607 `process_extended_expand` -/
def doExpand (s : Srv) (id : Nat) (path : Bytes) : Run := .call .getcwd fun r =>
  match r.err with
  | some e => .ret (status s id (portable e))
  | none =>
    if path = [] then doRealpath s id [46]
    else if path = [126] then doRealpath s id r.data
    else if path.take 2 = [126, 47] then doRealpath s id (r.data ++ [47] ++ path.drop 2)
    else if path.head? = some 126 then .call (.tilde path) fun r' =>
      if r'.err = none then doRealpath s id r'.data
      else .ret (s, [.status id FX_NO_SUCH_FILE (some b!"no such user")])
    else if path.head? = some 47 then doRealpath s id path
    else doRealpath s id (r.data ++ [47] ++ path)

/-- sftp-server.c:1658-1688: what the loop leaves: the status and `read_len` -/
abbrev CopyEnd := Nat × Nat

/-- sftp-server.c:1658-1688: copying in chunks.  Every round but one that ends the loop makes `readLen` smaller, so
`readLen + 1` is enough fuel. -/
def copyLoop (rfd wfd : Nat) (eof : Bool) (k : CopyEnd → Run) : Nat → Nat → Run
  | 0, readLen => k (FX_UNSUPPORTED, readLen)
  | fuel + 1, readLen =>
    if readLen = 0 ∧ eof = false then k (FX_UNSUPPORTED, 0)
    else if min 65536 readLen = 0 then k (portable 0, 0)
    else .call (.readAll rfd (min 65536 readLen)) fun r =>
      if r.data.length = 0 then
        k (if r.err = some 32 then (if eof then FX_OK else FX_EOF) else portable (r.err.getD 0), readLen - min 65536 readLen)
      else .call (.writeAll wfd (r.data.take (min 65536 readLen))) fun r' =>
        if r'.num ≠ (r.data.take (min 65536 readLen)).length then k (portable (r'.err.getD 0), readLen - min 65536 readLen)
        else copyLoop rfd wfd eof k fuel (readLen - min 65536 readLen)

/-- sftp-server.c:1690-1694 -/
def copyDone (s : Srv) (id : Nat) (e : CopyEnd) : Run := .ret (status s id (if e.2 = 0 then FX_OK else e.1))

/-- sftp-server.c:1648-1694, after the checks and the first seek -/
def copySeek (s : Srv) (id : Nat) (rfd wfd rlen woff : Nat) (eof append : Bool) : Run :=
  if append then copyLoop rfd wfd eof (copyDone s id) (rlen + 1) rlen
  else .call (.lseek wfd woff) fun r =>
    match r.err with
    | some e => .ret (status s id (portable e))
    | none => copyLoop rfd wfd eof (copyDone s id) (rlen + 1) rlen

/-- sftp-server.c:1609-1695 `process_extended_copy_data` -/
def doCopy (s : Srv) (id : Nat) (rh wh : Option Nat) (roff rlen woff : Nat) : Run :=
  match toFd s.tab rh, toFd s.tab wh with
  | some rfd, some wfd =>
    if rh = wh ∨ toName s.tab rh = toName s.tab wh then .ret (status s id FX_FAILURE)
    else .call (.lseek rfd roff) fun r =>
      match r.err with
      | some e => .ret (status s id (portable e))
      | none => copySeek s id rfd wfd (if rlen = 0 then 2 ^ 64 - 1 - roff else rlen) woff (decide (rlen = 0)) (toAppend s.tab wh)
  | _, _ => .ret (status s id FX_FAILURE)

/-- sftp-server.c:1449-1465 `process_extended_fsync` -/
def doFsync (s : Srv) (id : Nat) (h : Option Nat) : Run :=
  match toFd s.tab h with
  | none => .ret (status s id FX_NO_SUCH_FILE)
  | some fd => simple s id (.fsync fd)

/-- sftp-server.c:1697-1722 `process_extended_home_directory` -/
def doHome (cfg : Cfg) (s : Srv) (id : Nat) (user : Bytes) : Run :=
  if user = [] then oneName s id cfg.homedir
  else .call (.home user) fun r => if r.err = none then oneName s id r.data else .ret (status s id FX_FAILURE)

/-- sftp-server.c:1742-1761: names of users or groups -/
def lookupAll (c : Nat → Call) (k : Bytes → Run) : List Nat → Bytes → Run
  | [], acc => k acc
  | n :: l, acc => .call (c n) fun r => lookupAll c k l (acc ++ str (if r.err = none then r.data else []))

/-- The handlers, sftp-server.c:741-1777. -/
def exec (cfg : Cfg) (s : Srv) (id : Nat) : Req → Run
  | .open_ name f a => doOpen cfg s id name f a
  | .close h => doClose s id (getHandle s.tab h)
  | .read h off len => doRead s id (getHandle s.tab h) off len
  | .write h off data => doWrite s id (getHandle s.tab h) off data
  | .stat name => doStat s id (.stat name)
  | .lstat name => doStat s id (.lstat name)
  | .fstat h =>
    match toFd s.tab (getHandle s.tab h) with
    | none => .ret (status s id FX_FAILURE)
    | some fd => doStat s id (.fstat fd)
  | .setstat name a => doSetstat s id name a
  | .fsetstat h a => doFsetstat s id (getHandle s.tab h) a
  | .opendir path => doOpendir s id path
  | .readdir h => doReaddir cfg s id (getHandle s.tab h)
  | .remove name => simple s id (.unlink name)
  | .mkdir name a => simple s id (.mkdir name (if a.flags.testBit A_PERM then a.perm % 0o10000 else 0o777))
  | .rmdir name => simple s id (.rmdir name)
  | .realpath path => doRealpath s id (if path = [] then [46] else path)
  | .rename old new => doRename s id old new
  | .readlink path => doReadlink s id path
  | .symlink old new => simple s id (.symlink old new)
  | .posixRename old new => simple s id (.rename old new)
  | .statvfs path => doStatvfs s id (.statvfs path)
  | .fstatvfs h =>
    match toFd s.tab (getHandle s.tab h) with
    | none => .ret (status s id FX_FAILURE)
    | some fd => doStatvfs s id (.fstatvfs fd)
  | .hardlink old new => simple s id (.link old new)
  | .fsync h => doFsync s id (getHandle s.tab h)
  | .lsetstat name a => doLsetstat s id name a
  | .limits => doLimits s id
  | .expand path => doExpand s id path
  | .copyData rh roff rlen wh woff => doCopy s id (getHandle s.tab rh) (getHandle s.tab wh) roff rlen woff
  | .homeDir user => doHome cfg s id user
  | .usersGroups uids gids =>
    lookupAll .getpwuid (fun us => lookupAll .getgrgid (fun gs => .ret (s, [.ext id (str us ++ str gs)])) gids []) uids []

/-- sftp-server.c:720-732: the extensions that are announced -/
def announced : List (Bytes × Bytes) := [
  (b!"posix-rename@openssh.com", b!"1"), (b!"statvfs@openssh.com", b!"2"), (b!"fstatvfs@openssh.com", b!"2"),
  (b!"hardlink@openssh.com", b!"1"), (b!"fsync@openssh.com", b!"1"), (b!"lsetstat@openssh.com", b!"1"),
  (b!"limits@openssh.com", b!"1"), (b!"expand-path@openssh.com", b!"1"), (b!"copy-data", b!"1"),
  (b!"home-directory", b!"1"), (b!"users-groups-by-id@openssh.com", b!"1")]

/-- sftp-server.c:689-705 `compose_extension`: whether it is announced -/
def announces (cfg : Cfg) (x : Bytes × Bytes) : Bool :=
  match extHandlers.lookup x.1 with
  | none => false
  | some h => permitted cfg h

/-- What a message does: sftp-server.c:709-739 `process_init`, 1779-1798 `process_extended`, 1847-1863. -/
def act (cfg : Cfg) (s : Srv) : Act → Run
  | .init v => .ret ({ s with version := v, initDone := true }, [.version (announced.filter (announces cfg))])
  | .unknown => .ret (s, [])
  | .denied id => .ret (status s id FX_DENIED)
  | .unsupported id => .ret (status s id FX_UNSUPPORTED)
  | .req id r => exec cfg s id r

/-! ### The queue -/

/-- What `process` does with the queue. -/
inductive Step where
  /-- nothing yet -/
  | wait
  /-- the server ends -/
  | exit
  /-- one message done: what is left of the queue, and what is to be sent -/
  | done (s : Srv) (iq out : Bytes)
  deriving DecidableEq, Repr

/-- sftp-server.c:520-528 `send_msg` for each answer -/
def sendAll (s : Srv) (l : List Reply) : Bytes := (l.map fun r => str (encReply s.version r)).flatten

/-- sftp-server.c:1864-1874: what is left of the message is dropped; a message that used more than its length is the
end (`rest` is what the message left of the queue) -/
def finish (msgLen bufLen : Nat) (rest : Bytes) (x : Srv × List Reply) : Step :=
  if msgLen < bufLen - rest.length then .exit
  else .done x.1 (rest.drop (msgLen - (bufLen - rest.length))) (sendAll x.1 x.2)

/-- sftp-server.c:1802-1875 `process` -/
def process (cfg : Cfg) (s : Srv) (iq : Bytes) : Prog Step :=
  if iq.length < 5 then .ret .wait
  else if ofBE (iq.take 4) > MAX_MSG then .ret .exit
  else if iq.length < ofBE (iq.take 4) + 4 then .ret .wait
  else
    match plan cfg s.initDone (iq.drop 4) with
    | none => .ret .exit
    | some (a, rest) => (act cfg s a).map (finish (ofBE (iq.take 4)) (iq.length - 4) rest)

/-! ### The main loop -/

/-- The answers of a system that is in a state `w`. -/
def interp {α σ : Type} (sys : Call → σ → Resp × σ) : Prog α → σ → α × σ
  | .ret a, w => (a, w)
  | .call c k, w => interp sys (k (sys c w).1) (sys c w).2

/-- What happens in one round of the loop: the bytes read (none if nothing was there, the read failed for now, or
there was no room for them), how many bytes were written, and whether there is room for an answer. -/
structure Event where
  arrived : Bytes := []
  written : Nat := 0
  room : Bool := true
  deriving DecidableEq, Repr

/-- The server, what is around it, and what it has written so far. -/
structure Conn (σ : Type) where
  srv : Srv
  world : σ
  iq : Bytes
  oq : Bytes
  wire : Bytes

/-- sftp-server.c:2068-2095: reading and writing -/
def transfer {σ : Type} (e : Event) (c : Conn σ) : Conn σ :=
  { c with iq := c.iq ++ e.arrived, oq := c.oq.drop e.written, wire := c.wire ++ c.oq.take e.written }

/-- sftp-server.c:2097-2106: after `process` -/
def afterProcess {σ : Type} (c : Conn σ) : Step × σ → Option (Conn σ)
  | (.wait, w) => some { c with world := w }
  | (.exit, _) => none
  | (.done s iq out, w) => some { c with srv := s, world := w, iq := iq, oq := c.oq ++ out }

/-- sftp-server.c:2035-2107: one round of the loop; `none` if the server ended.  The end of its input, which ends it
too, is not an event here. -/
def round {σ : Type} (cfg : Cfg) (sys : Call → σ → Resp × σ) (e : Event) (c : Conn σ) : Option (Conn σ) :=
  if e.room then
    afterProcess (transfer e c) (interp sys (process cfg c.srv (c.iq ++ e.arrived)) c.world)
  else some (transfer e c)

def rounds {σ : Type} (cfg : Cfg) (sys : Call → σ → Resp × σ) : List Event → Conn σ → Option (Conn σ)
  | [], c => some c
  | e :: l, c => (round cfg sys e c).bind (rounds cfg sys l)

end Verif.Sftp
