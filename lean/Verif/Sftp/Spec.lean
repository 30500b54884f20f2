/-
What is said about the SFTP server.
-/
import Verif.Sftp.Model
import Verif.Match.Spec

namespace Verif.Sftp
open Verif Wire

/-- The calls that a program can make, with any answers, and what it ends in. -/
inductive Runs {α : Type} : Prog α → List (Call × Resp) → α → Prop
  | ret (a : α) : Runs (.ret a) [] a
  | call {c : Call} {k : Resp → Prog α} {r : Resp} {tr : List (Call × Resp)} {a : α} (h : Runs (k r) tr a) :
      Runs (.call c k) ((c, r) :: tr) a

/-! ### Handles -/

/-- What a handle may stand for. -/
inductive Obj where
  | file (fd : Nat) (append : Bool) (name : Bytes)
  | dir (d : Nat) (name : Bytes)
  deriving DecidableEq, Repr

/-- What happens to handles, as the client sees it. -/
inductive HEv where
  | opened (s : Bytes) (o : Obj)
  | closed (s : Bytes)
  deriving DecidableEq, Repr

/-- Which file or directory was opened or closed by a message, seen from the calls made and the answer given. -/
def seen : Act → List (Call × Resp) → List Reply → List HEv
  | .req _ (.open_ name _ _), (.open_ _ fl _, r) :: _, [.handle _ s] => [.opened s (.file r.num fl.append name)]
  | .req _ (.opendir path), (.opendir _, r) :: _, [.handle _ s] => [.opened s (.dir r.num path)]
  | .req _ (.close h), _, _ => [.closed h]
  | _, _, _ => []

def change (m : Bytes → Option Obj) : HEv → Bytes → Option Obj
  | .opened s o => fun x => if x = s then some o else m x
  | .closed s => fun x => if x = s then none else m x

/-- What a string stands for after these events: what was opened last under it, unless it was closed since. -/
def current (l : List HEv) : Bytes → Option Obj := l.foldl change fun _ => none

/-- The states the server can be in, with what happened to handles. -/
inductive Hist (cfg : Cfg) : List HEv → Srv → Prop
  | start : Hist cfg [] {}
  | step {l : List HEv} {s s' : Srv} {a : Act} {tr : List (Call × Resp)} {rs : List Reply} (h : Hist cfg l s)
      (r : Runs (act cfg s a) tr (s', rs)) : Hist cfg (l ++ seen a tr rs) s'

/-- The open file or directory a call is about. -/
inductive Key where
  | fd (n : Nat)
  | dir (n : Nat)
  deriving DecidableEq, Repr

def Obj.key : Obj → Key
  | .file fd _ _ => .fd fd
  | .dir d _ => .dir d

def touches : Call → Option Key
  | .close fd | .lseek fd _ | .read fd _ | .write fd _ | .readAll fd _ | .writeAll fd _ | .fstat fd | .ftruncate fd _
  | .fchmod fd _ | .futimes fd _ _ | .fchown fd _ _ | .fstatvfs fd | .fsync fd => some (.fd fd)
  | .readdir d | .closedir d => some (.dir d)
  | _ => none

/-- The handles in a request. -/
def handlesOf : Req → List Bytes
  | .close h | .read h _ _ | .write h _ _ | .fstat h | .fsetstat h _ | .readdir h | .fstatvfs h | .fsync h => [h]
  | .copyData rh _ _ wh _ => [rh, wh]
  | _ => []

/-- Requests that open something. -/
def opens : Req → Bool
  | .open_ .. | .opendir .. => true
  | _ => false

/-! ### Permission -/

/-- Calls that change files, their attributes or directories. -/
def modifies : Call → Bool
  | .open_ _ f _ => decide (f.acc ≠ .rd) || f.creat || f.trunc
  | .write .. | .writeAll .. | .truncate .. | .chmod .. | .utimes .. | .chown .. | .ftruncate .. | .fchmod .. | .futimes ..
  | .fchown .. | .lchmod .. | .lutimes .. | .lchown .. | .unlink .. | .mkdir .. | .rmdir .. | .link .. | .rename ..
  | .symlink .. => true
  | _ => false

/-- The name of a request in the lists of requests, as listed by `sftp-server -Q requests`. -/
def Req.name : Req → Bytes
  | .open_ .. => b!"open"
  | .close .. => b!"close"
  | .read .. => b!"read"
  | .write .. => b!"write"
  | .stat .. => b!"stat"
  | .lstat .. => b!"lstat"
  | .fstat .. => b!"fstat"
  | .setstat .. => b!"setstat"
  | .fsetstat .. => b!"fsetstat"
  | .opendir .. => b!"opendir"
  | .readdir .. => b!"readdir"
  | .remove .. => b!"remove"
  | .mkdir .. => b!"mkdir"
  | .rmdir .. => b!"rmdir"
  | .realpath .. => b!"realpath"
  | .rename .. => b!"rename"
  | .readlink .. => b!"readlink"
  | .symlink .. => b!"symlink"
  | .posixRename .. => b!"posix-rename"
  | .statvfs .. => b!"statvfs"
  | .fstatvfs .. => b!"fstatvfs"
  | .hardlink .. => b!"hardlink"
  | .fsync .. => b!"fsync"
  | .lsetstat .. => b!"lsetstat"
  | .limits => b!"limits"
  | .expand .. => b!"expand-path"
  | .copyData .. => b!"copy-data"
  | .homeDir .. => b!"home-directory"
  | .usersGroups .. => b!"users-groups-by-id"

/-- The names of requests that a read-only server refuses whatever they contain. -/
def writeNames : List Bytes := [b!"write", b!"setstat", b!"fsetstat", b!"remove", b!"mkdir", b!"rmdir", b!"rename", b!"symlink",
  b!"posix-rename", b!"hardlink", b!"fsync", b!"lsetstat", b!"copy-data"]

/-- The names in a list of requests: those before an empty one, at most forty. -/
def inList (l : Bytes) : List Bytes := (Match.names l).take 40

def Permitted (cfg : Cfg) (name : Bytes) : Prop :=
  (cfg.readonly = true → name ∉ writeNames) ∧ (∀ l, cfg.deny = some l → name ∉ inList l) ∧
    (∀ l, cfg.allow = some l → name ∈ inList l)

/-! ### The stream -/

/-- A message on the wire. -/
def frame (m : Bytes) : Bytes := be 4 m.length ++ m

/-- A message by itself: the server's state, the system's and what is answered; `none` if it cannot be understood. -/
def alone {σ : Type} (cfg : Cfg) (sys : Call → σ → Resp × σ) (m : Bytes) (x : Srv × σ) : Option ((Srv × σ) × Bytes) :=
  (plan cfg x.1.initDone m).map fun p =>
    (((interp sys (act cfg x.1 p.1) x.2).1.1, (interp sys (act cfg x.1 p.1) x.2).2),
      sendAll (interp sys (act cfg x.1 p.1) x.2).1.1 (interp sys (act cfg x.1 p.1) x.2).1.2)

/-- Messages one after another. -/
def serve {σ : Type} (cfg : Cfg) (sys : Call → σ → Resp × σ) : List Bytes → Srv × σ → Option ((Srv × σ) × Bytes)
  | [], x => some (x, [])
  | m :: l, x => (alone cfg sys m x).bind fun y => (serve cfg sys l y.1).map fun z => (z.1, y.2 ++ z.2)

/-- Whether a whole message is waiting, or a length that is refused. -/
def Ready (iq : Bytes) : Prop :=
  5 ≤ iq.length ∧ (ofBE (iq.take 4) > 262144 ∨ ofBE (iq.take 4) + 4 ≤ iq.length)

/-! ### Answers -/

def Reply.id : Reply → Option Nat
  | .status id _ _ | .handle id _ | .data id _ | .names id _ | .attrs id _ | .ext id _ => some id
  | .version _ => none

/-- The types of messages from the server (draft-ietf-secsh-filexfer-02, section 3). -/
def Reply.type : Reply → UInt8
  | .version _ => 2
  | .status .. => 101
  | .handle .. => 102
  | .data .. => 103
  | .names .. => 104
  | .attrs .. => 105
  | .ext .. => 201

/-- The kinds of answer a request may have besides an error. -/
def kindOk : Req → Reply → Prop
  | .open_ .., .handle .. | .opendir .., .handle .. => True
  | .read .., .data .. => True
  | .stat .., .attrs .. | .lstat .., .attrs .. | .fstat .., .attrs .. => True
  | .readdir .., .names .. | .realpath .., .names .. | .readlink .., .names .. | .expand .., .names ..
  | .homeDir .., .names .. => True
  | .statvfs .., .ext .. | .fstatvfs .., .ext .. | .limits, .ext .. | .usersGroups .., .ext .. => True
  | _, .status .. => True
  | _, _ => False

end Verif.Sftp
