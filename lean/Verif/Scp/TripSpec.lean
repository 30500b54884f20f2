import Verif.Scp.Spec

namespace Verif.Scp
open Verif

/-! A small file system, written without reference to scp. -/

/-- An entry; the times are those set last by `utimes`. -/
inductive Node where
  | dir (mode : Nat) (times : Option Times)
  | file (mode : Nat) (times : Option Times) (content : Bytes)
  deriving Repr, DecidableEq

abbrev FS := Bytes → Option Node

def FS.set (fs : FS) (p : Bytes) (n : Node) : FS := fun q => if q = p then some n else fs q

def Node.chmod (m : Nat) : Node → Node
  | .dir _ t => .dir m t
  | .file _ t c => .file m t c
def Node.utimes (t : Times) : Node → Node
  | .dir m _ => .dir m (some t)
  | .file m _ c => .file m (some t) c
def Node.content : Node → Bytes
  | .dir _ _ => []
  | .file _ _ c => c
def Node.withContent (c : Bytes) : Node → Node
  | .dir m t => .dir m t
  | .file m t _ => .file m t c

def FS.change (fs : FS) (p : Bytes) (g : Node → Node) : FS := fun q => if q = p then (fs p).map g else fs q

/-- The file system, and the open file with its offset. -/
structure FState where
  fs : FS
  fd : Option (Bytes × Nat)

/-- Writing `d` at an offset. -/
def writeAt (c : Bytes) (off : Nat) (d : Bytes) : Bytes := c.take off ++ d ++ c.drop (off + d.length)

/-- The effect of a successful call; `umask` is the process's. -/
def apply (umask : Nat) (x : FState) : Event → FState
  | .mkdir p m => { x with fs := x.fs.set p (.dir (m ^^^ (m &&& umask)) none) }
  | .chmod p m => { x with fs := x.fs.change p (.chmod m) }
  | .utimes p t => { x with fs := x.fs.change p (.utimes t) }
  | .open_ p m =>
    { fs := if (x.fs p).isSome then x.fs else x.fs.set p (.file (m ^^^ (m &&& umask)) none []), fd := some (p, 0) }
  | .write d =>
    match x.fd with
    | some (p, off) => { fs := x.fs.change p fun n => n.withContent (writeAt n.content off d), fd := some (p, off + d.length) }
    | none => x
  | .truncate n =>
    match x.fd with
    | some (p, _) =>
      { x with fs := x.fs.change p fun nd => nd.withContent (nd.content.take n ++ List.replicate (n - nd.content.length) 0) }
    | none => x
  | .fchmod m =>
    match x.fd with
    | some (p, _) => { x with fs := x.fs.change p (.chmod m) }
    | none => x
  | .close => { x with fd := none }
  | .ack => x
  | .complain => x

def replay (umask : Nat) (fs : FS) (tr : List Event) : FState := tr.foldl (apply umask) ⟨fs, none⟩

def kindOf : Option Node → Kind
  | none => .missing
  | some (.dir _ _) => .dir
  | some (.file _ _ _) => .reg

/-- The process's umask: cleared with `-p` (scp.c:1686-1688). -/
def umaskOf (C : Conf) : Nat := if C.pflag then 0 else C.mask

/-- A system on which every call succeeds and `stat` tells the truth. -/
structure Honest (C : Conf) (E : Env) (fs : FS) : Prop where
  stat : ∀ tr p, E.stat tr p = kindOf ((replay (umaskOf C) fs tr).fs p)
  ok : ∀ tr, E.ok tr = true
  alloc : ∀ tr, ∃ cnt, 0 < cnt ∧ E.alloc tr = some cnt

/-! What the receiver should do with a forest. -/

/-- The mode a new entry gets: the one sent, less the umask unless `-p`. -/
def newMode (C : Conf) (mode : Nat) : Nat := if C.pflag then mode else mode ^^^ (mode &&& C.mask)

def sentTimes (t : Option (Nat × Nat)) : Option Times := t.map fun x => ⟨(x.1, 0), (x.2, 0)⟩

/-- The file as it should be afterwards. -/
def placedFile (C : Conf) (old : Option Node) (mode : Nat) (t : Option (Nat × Nat)) (content : Bytes) : Node :=
  match old with
  | some (.file m ot _) => .file (if C.pflag then mode else m) ((sentTimes t).or ot) content
  | _ => .file (newMode C mode) (sentTimes t) content

/-- The directory as it should be when its contents arrive (it is writable then), -/
def openedDir (C : Conf) (old : Option Node) (mode : Nat) : Node :=
  match old with
  | some (.dir m ot) => .dir (if C.pflag then mode else m) ot
  | _ => .dir ((newMode C mode ||| 0o700) ^^^ ((newMode C mode ||| 0o700) &&& umaskOf C)) none

/-- and afterwards. -/
def closedDir (C : Conf) (existed : Bool) (mode : Nat) (t : Option (Nat × Nat)) : Node → Node
  | .dir m ot => .dir (if C.pflag || !existed then newMode C mode else m) ((sentTimes t).or ot)
  | n => n

/-- The forest laid out in the directory `d`, over what is there. -/
def place (C : Conf) (d : Bytes) : Forest → FS → FS
  | .nil, fs => fs
  | .file name mode t content rest, fs =>
    place C d rest (fs.set (below d [name]) (placedFile C (fs (below d [name])) mode t content))
  | .dir name mode t sub rest, fs =>
    place C d rest ((place C (below d [name]) sub (fs.set (below d [name]) (openedDir C (fs (below d [name])) mode))).change
      (below d [name]) (closedDir C (fs (below d [name])).isSome mode t))

/-- Names and modes that the format can express. -/
def Sendable (C : Conf) (E : Env) : Forest → Prop
  | .nil => True
  | .file name mode t content rest =>
    Safe name ∧ 10 ∉ name ∧ 0 ∉ name ∧ name.length ≤ 1024 ∧ Asked C E name ∧ mode < 4096 ∧ content.length < 2 ^ 63 ∧
    (∀ x, t = some x → x.1 < 2 ^ 63 ∧ x.2 < 2 ^ 63) ∧ Sendable C E rest
  | .dir name mode t sub rest =>
    Safe name ∧ 10 ∉ name ∧ 0 ∉ name ∧ name.length ≤ 1024 ∧ Asked C E name ∧ mode < 4096 ∧
    (∀ x, t = some x → x.1 < 2 ^ 63 ∧ x.2 < 2 ^ 63) ∧ Sendable C E sub ∧ Sendable C E rest

def IsFile : Option Node → Prop
  | some (.dir _ _) => False
  | _ => True
def IsDir : Option Node → Prop
  | some (.file _ _ _) => False
  | _ => True

/-- No file is sent onto a directory and no directory onto a file. -/
def Fits (C : Conf) (d : Bytes) : Forest → FS → Prop
  | .nil, _ => True
  | .file name mode t content rest, fs =>
    IsFile (fs (below d [name])) ∧
    Fits C d rest (fs.set (below d [name]) (placedFile C (fs (below d [name])) mode t content))
  | .dir name mode t sub rest, fs =>
    IsDir (fs (below d [name])) ∧
    Fits C (below d [name]) sub (fs.set (below d [name]) (openedDir C (fs (below d [name])) mode)) ∧
    Fits C d rest ((place C (below d [name]) sub (fs.set (below d [name]) (openedDir C (fs (below d [name])) mode))).change
      (below d [name]) (closedDir C (fs (below d [name])).isSome mode t))

/-- The forest has no directory (needed without `-r`). -/
def Flat : Forest → Prop
  | .nil => True
  | .file _ _ _ _ rest => Flat rest
  | .dir _ _ _ _ _ => False

end Verif.Scp
