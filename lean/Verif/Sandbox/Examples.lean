/-
The filter on x86-64.
-/
import Verif.Sandbox.Props

namespace Verif.Sandbox

/-- Numbers of asm/unistd_64.h; others: execve, fork, socket, connect, ptrace. -/
def x86Numbers : List (Sys × Nat) := [
  (.read, 0), (.write, 1), (.open_, 2), (.close, 3), (.stat, 4), (.fstat, 5), (.lstat, 6), (.poll, 7), (.mmap, 9), (.mprotect, 10),
  (.munmap, 11), (.brk, 12), (.rtSigprocmask, 14), (.ioctl, 16), (.writev, 20), (.select, 23), (.mremap, 25), (.madvise, 28),
  (.shmget, 29), (.shmat, 30), (.nanosleep, 35), (.getpid, 39), (.shutdown, 48), (.exit, 60), (.shmdt, 67), (.gettimeofday, 96),
  (.getuid, 102), (.geteuid, 107), (.getpgid, 121), (.gettid, 186), (.time, 201), (.futex, 202), (.clockGettime, 228),
  (.clockNanosleep, 230), (.exitGroup, 231), (.openat, 257), (.newfstatat, 262), (.pselect6, 270), (.ppoll, 271), (.getrandom, 318),
  (.statx, 332), (.other 0, 59), (.other 1, 57), (.other 2, 41), (.other 3, 42), (.other 4, 101)]

def x86 : Platform where
  nr := fun s => (x86Numbers.lookup s).map (BitVec.ofNat 32)
  arch := 0xC000003E
  big := false
  advice := fun a => match a with
    | .normal => some 0 | .free => some 8 | .dontneed => some 4 | .dontfork => some 10 | .dontdump => some 16 | .wipeonfork => some 18
    | .other _ => none
  mapPrivate := 2
  mapAnonymous := 32
  mapFixed := 16
  mapNoReplace := some 0x100000
  s390 := none
  x32 := none

theorem lookup_mem {α : Type} [BEq α] [LawfulBEq α] {β : Type} {l : List (α × β)} {a : α} {b : β} (h : l.lookup a = some b) :
    (a, b) ∈ l := by
  induction l with
  | nil => cases h
  | cons x l ih =>
    obtain ⟨y, z⟩ := x
    rw [List.lookup_cons] at h
    split at h
    · rename_i he
      cases h
      rw [eq_of_beq he]
      exact List.mem_cons_self
    · exact List.mem_cons_of_mem _ (ih h)

/-- The hypothesis of C110 can be met. -/
theorem x86_sound : Sound x86 where
  distinct := by
    have key : ∀ p ∈ x86Numbers, ∀ q ∈ x86Numbers, BitVec.ofNat 32 p.2 = BitVec.ofNat 32 q.2 → p.1 = q.1 := by decide +kernel
    intro s t n h1 h2
    obtain ⟨a, ha, ha'⟩ := Option.map_eq_some_iff.1 h1
    obtain ⟨b, hb, hb'⟩ := Option.map_eq_some_iff.1 h2
    exact key (s, a) (lookup_mem ha) (t, b) (lookup_mem hb) (ha'.trans hb'.symm)
  x32 := by intro bit s n h; cases h

def call (nr : Nat) (args : List Nat) : Call := ⟨BitVec.ofNat 32 nr, 0xC000003E, 0, fun i => BitVec.ofNat 64 (args.getD i 0)⟩

/-- read, open, execve; mmap without and with PROT_EXEC, and shared. -/
example : run x86 (program x86) (call 0 []) = .verdict .allow ∧ run x86 (program x86) (call 2 []) = .verdict (.errno .eacces) ∧
    run x86 (program x86) (call 59 []) = .verdict .kill ∧ run x86 (program x86) (call 9 [0, 0, 3, 34]) = .verdict .allow ∧
    run x86 (program x86) (call 9 [0, 0, 7, 34]) = .verdict .kill ∧
    run x86 (program x86) (call 9 [0, 0, 3, 33]) = .verdict (.errno .einval) := by decide +kernel

/-- futex: wake, and an operation that is not permitted; advice; the high word counts. -/
example : run x86 (program x86) (call 202 [0, 129]) = .verdict .allow ∧ run x86 (program x86) (call 202 [0, 5]) = .verdict .kill ∧
    run x86 (program x86) (call 28 [0, 0, 4]) = .verdict .allow ∧
    run x86 (program x86) (call 28 [0, 0, 9]) = .verdict (.errno .einval) ∧
    run x86 (program x86) (call 28 [0, 0, 2 ^ 32 + 4]) = .verdict (.errno .einval) := by decide +kernel

/-- The convention of 32 bit programs, and x32. -/
example : run x86 (program x86) { call 0 [] with arch := 0x40000003 } = .verdict .kill ∧
    run x86 (program x86) (call 0x40000000 []) = .verdict .kill := by decide +kernel

/-- `C110_others`, `C110_no_exec`: the hypotheses can be met. -/
example : x86.nr (.other 0) = some (call 59 []).nr ∧ x86.nr .mmap = some (call 9 [0, 0, 3, 34]).nr := by decide +kernel

/-- `C110_accepted`, `C110_entered`: likewise. -/
example : (∀ l, x86.s390 = some l → l.length ≤ 5) ∧ (sandboxChild ⟨true, true, true, true, true⟩).isSome :=
  ⟨fun l h => (by cases h), rfl⟩

/-- `C110_futex_time64`: a platform with both. -/
def arm : Platform := { x86 with nr := fun s => match s with | .futex => some 240 | .futexTime64 => some 422 | _ => none }

example : arm.nr .futexTime64 = some (call 422 [0, 0]).nr ∧
    run arm (program arm) { call 422 [0, 0] with arch := arm.arch } = .verdict .kill := by decide +kernel

end Verif.Sandbox
