/-
Model of the system call filter that confines the process which talks to clients before they are authenticated
(sandbox-seccomp-filter.c), and of the classic BPF machine that runs it.

The machine is that of the kernel (not part of OpenSSH): an accumulator of 32 bits, loads from `struct seccomp_data`, jumps
forward, and the end of the program is never reached by a program that the kernel accepts.  Which system calls exist, their
numbers, the byte order and some constants depend on the platform and are a parameter.
-/

namespace Verif.Sandbox

/-- System calls mentioned in sandbox-seccomp-filter.c:215-421, and all others. -/
inductive Sys where
  | lstat | lstat64 | fstat | fstat64 | fstatat64 | open_ | openat | newfstatat | stat | stat64 | shmget | shmat | shmdt | ipc
  | statx | brk | clockGettime | clockGettime64 | close | exit | exitGroup | futex | futexTime64 | geteuid | geteuid32 | getpgid
  | getpid | getrandom | gettid | gettimeofday | getuid | getuid32 | madvise | mmap | mmap2 | mprotect | mremap | munmap
  | nanosleep | clockNanosleep | clockNanosleepTime64 | newselect | ppoll | ppollTime64 | poll | pselect6 | pselect6Time64 | read
  | rtSigprocmask | select | shutdown | sigprocmask | time | write | writev | socketcall | ioctl
  | other (i : Nat)
deriving DecidableEq

/-- sandbox-seccomp-filter.c:314-329. -/
inductive Advice where
  | normal | free | dontneed | dontfork | dontdump | wipeonfork
  | other (i : Nat)
deriving DecidableEq

/-- What the headers of the platform say: `__NR_*`, `SECCOMP_AUDIT_ARCH`, byte order, `MADV_*`, `MAP_*`. -/
structure Platform where
  nr : Sys → Option (BitVec 32)
  arch : BitVec 32
  big : Bool
  advice : Advice → Option (BitVec 64)
  mapPrivate : BitVec 64
  mapAnonymous : BitVec 64
  mapFixed : BitVec 64
  mapNoReplace : Option (BitVec 64)
  /-- `__s390__`: the five ioctls of lines 407-412. -/
  s390 : Option (List (BitVec 64))
  /-- `__x86_64__` with `__ILP32__`: `__X32_SYSCALL_BIT`. -/
  x32 : Option (BitVec 32)

/-- `struct seccomp_data`. -/
structure Call where
  nr : BitVec 32
  arch : BitVec 32
  ip : BitVec 64
  arg : Nat → BitVec 64

inductive Errno where
  | eacces
  | einval
deriving DecidableEq

/-- What a filter returns: `SECCOMP_RET_ALLOW`, `SECCOMP_RET_ERRNO|e`, `SECCOMP_RET_KILL`. -/
inductive Verdict where
  | allow
  | errno (e : Errno)
  | kill
deriving DecidableEq

/-- The instructions used: `BPF_LD+BPF_W+BPF_ABS`, `BPF_JMP+BPF_JEQ+BPF_K`, `BPF_ALU+BPF_AND+BPF_K`, `BPF_RET+BPF_K`. -/
inductive Insn where
  | ld (off : Nat)
  | jeq (k : BitVec 32) (jt jf : Nat)
  | and (k : BitVec 32)
  | ret (v : Verdict)

inductive Outcome where
  | verdict (v : Verdict)
  | fault
deriving DecidableEq

def lo (a : BitVec 64) : BitVec 32 := a.setWidth 32
def hi (a : BitVec 64) : BitVec 32 := (a >>> 32).setWidth 32

/-- The word of a 64 bit field that comes first in memory, or second. -/
def word (big second : Bool) (a : BitVec 64) : BitVec 32 := if big = second then lo a else hi a

/-- A load from `struct seccomp_data`: nr at 0, arch at 4, instruction_pointer at 8, args at 16. -/
def load (P : Platform) (d : Call) (off : Nat) : Option (BitVec 32) :=
  if off = 0 then some d.nr
  else if off = 4 then some d.arch
  else if off = 8 then some (word P.big false d.ip)
  else if off = 12 then some (word P.big true d.ip)
  else if off % 4 = 0 ∧ off < 64 then some (word P.big (off % 8 = 4) (d.arg ((off - 16) / 8)))
  else none

/-- The machine: what is left of the program, how many instructions are to be skipped, the accumulator. -/
def exec (P : Platform) (d : Call) : List Insn → Nat → BitVec 32 → Outcome
  | [], _, _ => .fault
  | _ :: l, k + 1, a => exec P d l k a
  | .ld off :: l, 0, _ =>
    match load P d off with
    | some w => exec P d l 0 w
    | none => .fault
  | .jeq k jt jf :: l, 0, a => exec P d l (if a = k then jt else jf) a
  | .and k :: l, 0, a => exec P d l 0 (a &&& k)
  | .ret v :: _, 0, _ => .verdict v

def run (P : Platform) (p : List Insn) (d : Call) : Outcome := exec P d p 0 0

/-! ### The macros -/

/-- sandbox-seccomp-filter.c:86-94 `ARG_LO_OFFSET`, `ARG_HI_OFFSET`. -/
def loOffset (P : Platform) : Nat := if P.big then 4 else 0
def hiOffset (P : Platform) : Nat := if P.big then 0 else 4

/-- `offsetof(struct seccomp_data, args[i])`. -/
def argOffset (i : Nat) : Nat := 16 + 8 * i

/-- sandbox-seccomp-filter.c:97-99 `SC_DENY`. -/
def deny (n : BitVec 32) (e : Errno) : List Insn := [.jeq n 0 1, .ret (.errno e)]

/-- sandbox-seccomp-filter.c:100-102 `SC_ALLOW`. -/
def allow (n : BitVec 32) : List Insn := [.jeq n 0 1, .ret .allow]

/-- sandbox-seccomp-filter.c:103-118 `SC_ALLOW_ARG`. -/
def allowArg (P : Platform) (n : BitVec 32) (i : Nat) (v : BitVec 64) : List Insn := [
  .jeq n 0 6,
  .ld (argOffset i + loOffset P),
  .jeq (lo v) 0 3,
  .ld (argOffset i + hiOffset P),
  .jeq (hi v) 0 1,
  .ret .allow,
  .ld 0]

/-- sandbox-seccomp-filter.c:120-136 `SC_ALLOW_ARG_MASK`. -/
def allowMask (P : Platform) (n : BitVec 32) (i : Nat) (m : BitVec 64) : List Insn := [
  .jeq n 0 8,
  .ld (argOffset i + loOffset P),
  .and (~~~(lo m)),
  .jeq 0 0 4,
  .ld (argOffset i + hiOffset P),
  .and (~~~(hi m)),
  .jeq 0 0 1,
  .ret .allow,
  .ld 0]

/-- sandbox-seccomp-filter.c:138-154 `SC_DENY_UNLESS_ARG_MASK`. -/
def denyUnless (P : Platform) (n : BitVec 32) (i : Nat) (m : BitVec 64) (e : Errno) : List Insn := [
  .jeq n 0 8,
  .ld (argOffset i + loOffset P),
  .and (~~~(lo m)),
  .jeq 0 0 3,
  .ld (argOffset i + hiOffset P),
  .and (~~~(hi m)),
  .jeq 0 1 0,
  .ret (.errno e),
  .ld 0]

/-- sandbox-seccomp-filter.c:158 `SC_FUTEX_MASK`: FUTEX_PRIVATE_FLAG and FUTEX_CLOCK_REALTIME. -/
def futexMask : BitVec 64 := 128 ||| 256

/-- sandbox-seccomp-filter.c:159-179 `SC_ALLOW_FUTEX_OP`. -/
def futexOp (P : Platform) (n : BitVec 32) (op : BitVec 64) : List Insn := [
  .jeq n 0 8,
  .ld (argOffset 1 + loOffset P),
  .and (~~~(lo futexMask)),
  .jeq (lo op) 0 4,
  .ld (argOffset 1 + hiOffset P),
  .and (~~~(hi futexMask)),
  .jeq (hi op) 0 1,
  .ret .allow,
  .ld 0]

/-- sandbox-seccomp-filter.c:182-188 `SC_FUTEX`: FUTEX_WAIT, FUTEX_WAIT_BITSET, FUTEX_WAKE, FUTEX_WAKE_BITSET, FUTEX_REQUEUE,
FUTEX_CMP_REQUEUE. -/
def futex (P : Platform) (n : BitVec 32) : List Insn :=
  futexOp P n 0 ++ futexOp P n 9 ++ futexOp P n 1 ++ futexOp P n 10 ++ futexOp P n 3 ++ futexOp P n 4

/-- sandbox-seccomp-filter.c:192-196 `SC_MMAP_FLAGS`. -/
def mmapFlags (P : Platform) : BitVec 64 :=
  match P.mapNoReplace with
  | some x => P.mapPrivate ||| P.mapAnonymous ||| P.mapFixed ||| x
  | none => P.mapPrivate ||| P.mapAnonymous ||| P.mapFixed

/-- PROT_READ|PROT_WRITE|PROT_NONE. -/
def protRW : BitVec 64 := 1 ||| 2 ||| 0

/-- sandbox-seccomp-filter.c:198-200 `SC_MMAP`. -/
def mmap (P : Platform) (n : BitVec 32) : List Insn :=
  denyUnless P n 3 (mmapFlags P) .einval ++ allowMask P n 2 protRW

/-- sandbox-seccomp-filter.c:313-331: the lines for `madvise`. -/
def madviseOne (P : Platform) (n : BitVec 32) (a : Advice) : List Insn :=
  match P.advice a with
  | some v => allowArg P n 2 v
  | none => []

def madvise (P : Platform) (n : BitVec 32) : List Insn :=
  madviseOne P n .normal ++ madviseOne P n .free ++ madviseOne P n .dontneed ++ madviseOne P n .dontfork ++
    madviseOne P n .dontdump ++ madviseOne P n .wipeonfork ++ deny n .einval

/-- sandbox-seccomp-filter.c:401-404: `socketcall`, SYS_SHUTDOWN. -/
def socketcall (P : Platform) (n : BitVec 32) : List Insn := allowArg P n 0 13 ++ deny n .eacces

/-- sandbox-seccomp-filter.c:405-413. -/
def ioctl (P : Platform) (n : BitVec 32) : List Insn :=
  match P.s390 with
  | some l => l.flatMap (allowArg P n 1)
  | none => []

/-- A line under `#ifdef __NR_x`. -/
structure Line where
  /-- The system call asked about by `#ifdef`. -/
  guard : Sys
  /-- The system call whose number is used. -/
  sys : Sys
  insns : Platform → BitVec 32 → List Insn

def Line.deny (s : Sys) : Line := ⟨s, s, fun _ n => Sandbox.deny n .eacces⟩
def Line.allow (s : Sys) : Line := ⟨s, s, fun _ n => Sandbox.allow n⟩

/-- sandbox-seccomp-filter.c:214-413.  `SC_FUTEX(_nr)` uses `__NR_futex` whatever its argument is. -/
def lines : List Line := [
  .deny .lstat, .deny .lstat64, .deny .fstat, .deny .fstat64, .deny .fstatat64, .deny .open_, .deny .openat, .deny .newfstatat,
  .deny .stat, .deny .stat64, .deny .shmget, .deny .shmat, .deny .shmdt, .deny .ipc, .deny .statx,
  .allow .brk, .allow .clockGettime, .allow .clockGettime64, .allow .close, .allow .exit, .allow .exitGroup,
  ⟨.futex, .futex, futex⟩, ⟨.futexTime64, .futex, futex⟩,
  .allow .geteuid, .allow .geteuid32, .allow .getpgid, .allow .getpid, .allow .getrandom, .allow .gettid, .allow .gettimeofday,
  .allow .getuid, .allow .getuid32,
  ⟨.madvise, .madvise, madvise⟩, ⟨.mmap, .mmap, mmap⟩, ⟨.mmap2, .mmap2, mmap⟩,
  ⟨.mprotect, .mprotect, fun P n => allowMask P n 2 protRW⟩,
  .allow .mremap, .allow .munmap, .allow .nanosleep, .allow .clockNanosleep, .allow .clockNanosleepTime64, .allow .clockGettime64,
  .allow .newselect, .allow .ppoll, .allow .ppollTime64, .allow .poll, .allow .pselect6, .allow .pselect6Time64, .allow .read,
  .allow .rtSigprocmask, .allow .select, .allow .shutdown, .allow .sigprocmask, .allow .time, .allow .write, .allow .writev,
  ⟨.socketcall, .socketcall, socketcall⟩, ⟨.ioctl, .ioctl, ioctl⟩]

/-- The preprocessor. -/
def expand (P : Platform) (l : Line) : List Insn :=
  match P.nr l.guard, P.nr l.sys with
  | some _, some n => l.insns P n
  | _, _ => []

/-- sandbox-seccomp-filter.c:414-421. -/
def x32 (P : Platform) : List Insn :=
  match P.x32, P.nr .clockGettime with
  | some bit, some n => allow (n &&& ~~~bit)
  | _, _ => []

/-- sandbox-seccomp-filter.c:204-212: the beginning of `preauth_insns`. -/
def head (P : Platform) : List Insn := [.ld 4, .jeq P.arch 1 0, .ret .kill, .ld 0]

/-- sandbox-seccomp-filter.c:204-425 `preauth_insns`. -/
def program (P : Platform) : List Insn := head P ++ lines.flatMap (expand P) ++ x32 P ++ [.ret .kill]

/-! ### Turning it on -/

/-- What the kernel says to the five calls of `ssh_sandbox_child`: does each succeed? -/
structure Kernel where
  fsize : Bool
  nofile : Bool
  nproc : Bool
  noNewPrivs : Bool
  seccomp : Bool

/-- How a process leaves `ssh_sandbox_child`, if it does. -/
structure Confined where
  noFiles : Bool
  oneDescriptor : Bool
  noProcesses : Bool
  noNewPrivs : Bool
  filter : Bool
deriving DecidableEq

/-- sandbox-seccomp-filter.c:481-526 `ssh_sandbox_child`; `none`: fatal. -/
def sandboxChild (k : Kernel) : Option Confined :=
  if k.fsize = false then none
  else if k.nofile = false then none
  else if k.nproc = false then none
  else if k.seccomp = false then some ⟨true, true, true, k.noNewPrivs, false⟩
  else if k.noNewPrivs = false then none
  else some ⟨true, true, true, true, true⟩

end Verif.Sandbox
