/-
What the filter should do: which system calls go through, which fail, and that all others are the end of the process.
-/
import Verif.Sandbox.Model

namespace Verif.Sandbox

/-- System calls that are permitted whatever their arguments are. -/
def plain : List Sys := [
  .brk, .clockGettime, .clockGettime64, .close, .exit, .exitGroup, .geteuid, .geteuid32, .getpgid, .getpid, .getrandom, .gettid,
  .gettimeofday, .getuid, .getuid32, .mremap, .munmap, .nanosleep, .clockNanosleep, .clockNanosleepTime64, .newselect, .ppoll,
  .ppollTime64, .poll, .pselect6, .pselect6Time64, .read, .rtSigprocmask, .select, .shutdown, .sigprocmask, .time, .write, .writev]

/-- System calls that fail with EACCES. -/
def files : List Sys := [
  .lstat, .lstat64, .fstat, .fstat64, .fstatat64, .open_, .openat, .newfstatat, .stat, .stat64, .shmget, .shmat, .shmdt, .ipc,
  .statx]

/-- Nothing is asked for but memory that can be read and written. -/
def ReadWrite (prot : BitVec 64) : Prop := prot.toNat < 4

/-- Bits that may be among the flags of a mapping. -/
def MapBit (P : Platform) (i : Nat) : Prop :=
  P.mapPrivate.getLsbD i = true ∨ P.mapAnonymous.getLsbD i = true ∨ P.mapFixed.getLsbD i = true ∨
    ∃ x, P.mapNoReplace = some x ∧ x.getLsbD i = true

/-- Only such flags. -/
def MapFlags (P : Platform) (flags : BitVec 64) : Prop := ∀ i, flags.getLsbD i = true → MapBit P i

/-- The kinds of advice that may be given. -/
def Advised (P : Platform) (v : BitVec 64) : Prop :=
  ∃ a, P.advice a = some v ∧ (a = .normal ∨ a = .free ∨ a = .dontneed ∨ a = .dontfork ∨ a = .dontdump ∨ a = .wipeonfork)

/-- The operations on futexes, apart from two flags (bits 7 and 8). -/
def FutexOp (v : BitVec 64) : Prop :=
  ∃ op ∈ [0, 1, 3, 4, 9, 10], ∀ i, v.getLsbD i = (if i = 7 ∨ i = 8 then v.getLsbD i else Nat.testBit op i)

/-- The call is permitted. -/
inductive Permitted (P : Platform) (d : Call) : Prop
  | plain (s : Sys) : s ∈ plain → P.nr s = some d.nr → Permitted P d
  | futex : P.nr .futex = some d.nr → FutexOp (d.arg 1) → Permitted P d
  | madvise : P.nr .madvise = some d.nr → Advised P (d.arg 2) → Permitted P d
  | mmap (s : Sys) : s = .mmap ∨ s = .mmap2 → P.nr s = some d.nr → MapFlags P (d.arg 3) → ReadWrite (d.arg 2) → Permitted P d
  | mprotect : P.nr .mprotect = some d.nr → ReadWrite (d.arg 2) → Permitted P d
  | socketcall : P.nr .socketcall = some d.nr → d.arg 0 = 13 → Permitted P d
  | ioctl (l : List (BitVec 64)) : P.s390 = some l → P.nr .ioctl = some d.nr → d.arg 1 ∈ l → Permitted P d
  | x32 (bit n : BitVec 32) : P.x32 = some bit → P.nr .clockGettime = some n → d.nr = n &&& ~~~bit → Permitted P d

/-- The call fails with an error number, and the process goes on. -/
inductive Refused (P : Platform) (d : Call) : Errno → Prop
  | files (s : Sys) : s ∈ files → P.nr s = some d.nr → Refused P d .eacces
  | madvise : P.nr .madvise = some d.nr → ¬ Advised P (d.arg 2) → Refused P d .einval
  | mmap (s : Sys) : s = .mmap ∨ s = .mmap2 → P.nr s = some d.nr → ¬ MapFlags P (d.arg 3) → Refused P d .einval
  | socketcall : P.nr .socketcall = some d.nr → d.arg 0 ≠ 13 → Refused P d .eacces

/-- Different system calls have different numbers.  (With x32 all numbers have a bit that the one of line 420 has not.) -/
structure Sound (P : Platform) : Prop where
  distinct : ∀ s t n, P.nr s = some n → P.nr t = some n → s = t
  x32 : ∀ bit s n, P.x32 = some bit → P.nr s = some n → n &&& bit ≠ 0

/-- A program that the kernel accepts (`bpf_check_classic`, `seccomp_check_filter`): jumps stay inside, loads are from the fields,
the last instruction returns, and it is not too long. -/
def Inside : List Insn → Prop
  | [] => False
  | [.ret _] => True
  | .ret _ :: l => Inside l
  | .ld off :: l => off % 4 = 0 ∧ off < 64 ∧ Inside l
  | .jeq _ jt jf :: l => jt < l.length ∧ jf < l.length ∧ Inside l
  | .and _ :: l => Inside l

def Accepted (p : List Insn) : Prop := Inside p ∧ p.length ≤ 4096

end Verif.Sandbox
