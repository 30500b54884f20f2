/-
C110: the system calls that a process can make before the client is authenticated.
-/
import Verif.Sandbox.Lemmas

namespace Verif.Sandbox

theorem block_not {P : Platform} {d : Call} {b : List Insn} {p : Prop} [Decidable p] {v : Verdict}
    (h : Block P d b (if p then some v else none)) (hp : ¬ p) : Block P d b none := by
  rwa [if_neg hp] at h

theorem block_is {P : Platform} {d : Call} {b : List Insn} {p : Prop} [Decidable p] {v : Verdict}
    (h : Block P d b (if p then some v else none)) (hp : p) : Block P d b (some v) := by
  rwa [if_pos hp] at h

/-- What the lines of a system call say, if it is called. -/
def verdictOf (P : Platform) (d : Call) : Sys → Option Verdict
  | .futex => if d.arg 1 &&& ~~~futexMask ∈ ([0, 9, 1, 10, 3, 4] : List (BitVec 64)) then some .allow else none
  | .madvise =>
    if some (d.arg 2) ∈ [P.advice .normal, P.advice .free, P.advice .dontneed, P.advice .dontfork, P.advice .dontdump,
      P.advice .wipeonfork] then some .allow else some (.errno .einval)
  | .mmap | .mmap2 =>
    if ¬ d.arg 3 &&& ~~~(mmapFlags P) = 0 then some (.errno .einval)
    else if d.arg 2 &&& ~~~protRW = 0 then some .allow else none
  | .mprotect => if d.arg 2 &&& ~~~protRW = 0 then some .allow else none
  | .socketcall => if d.arg 0 = 13 then some .allow else some (.errno .eacces)
  | .ioctl => if d.arg 1 ∈ P.s390.getD [] then some .allow else none
  | s => if s ∈ files then some (.errno .eacces) else if s ∈ plain then some .allow else none

/-- A line does what it should for the number it is given. -/
def Good (P : Platform) (d : Call) (l : Line) : Prop :=
  Block P d (l.insns P d.nr) (verdictOf P d l.sys) ∧ ∀ n, d.nr ≠ n → Block P d (l.insns P n) none

theorem deny_good {P : Platform} {d : Call} {s : Sys} (h : verdictOf P d s = some (.errno .eacces)) : Good P d (.deny s) :=
  ⟨by show Block P d _ (verdictOf P d s); rw [h]; exact block_is (deny_block P d d.nr .eacces) rfl,
    fun n hn => block_not (deny_block P d n .eacces) hn⟩

theorem allow_good {P : Platform} {d : Call} {s : Sys} (h : verdictOf P d s = some .allow) : Good P d (.allow s) :=
  ⟨by show Block P d _ (verdictOf P d s); rw [h]; exact block_is (allow_block P d d.nr) rfl,
    fun n hn => block_not (allow_block P d n) hn⟩

theorem futex_good (P : Platform) (d : Call) (g : Sys) : Good P d ⟨g, .futex, futex⟩ := by
  refine ⟨?_, fun n hn => ?_⟩
  · show Block P d (futex P d.nr) (verdictOf P d .futex)
    have h := ((((((futexOp_block P d d.nr 0).append (futexOp_block P d d.nr 9)).append (futexOp_block P d d.nr 1)).append
      (futexOp_block P d d.nr 10)).append (futexOp_block P d d.nr 3)).append (futexOp_block P d d.nr 4))
    unfold futex verdictOf
    refine cast (congrArg _ ?_) h
    simp only [true_and, List.mem_cons, List.not_mem_nil, or_false]
    generalize d.arg 1 &&& ~~~futexMask = x
    by_cases h0 : x = 0
    · simp [h0]
    by_cases h9 : x = 9
    · simp [h9]
    by_cases h1 : x = 1
    · simp [h1]
    by_cases h10 : x = 10
    · simp [h10]
    by_cases h3 : x = 3
    · simp [h3]
    by_cases h4 : x = 4
    · simp [h4]
    simp only [h0, h9, h1, h10, h3, h4, or_self, if_false, Option.or_none]
  · have h : ∀ op, Block P d (futexOp P n op) none := fun op => block_not (futexOp_block P d n op) fun h => hn h.1
    exact (((((h 0).append (h 9)).append (h 1)).append (h 10)).append (h 3)).append (h 4)

theorem madviseOne_block (P : Platform) (d : Call) (n : BitVec 32) (a : Advice) :
    Block P d (madviseOne P n a) (if d.nr = n ∧ P.advice a = some (d.arg 2) then some .allow else none) := by
  unfold madviseOne
  cases h : P.advice a with
  | none => simp only [reduceCtorEq, and_false, if_false]; exact .nil
  | some v =>
    have := allowArg_block P d n (i := 2) (by decide) v
    simpa only [Option.some.injEq, eq_comm (a := v)] using this

theorem madvise_good (P : Platform) (d : Call) : Good P d ⟨.madvise, .madvise, madvise⟩ := by
  refine ⟨?_, fun n hn => ?_⟩
  · show Block P d (madvise P d.nr) (verdictOf P d .madvise)
    have h := ((((((madviseOne_block P d d.nr .normal).append (madviseOne_block P d d.nr .free)).append
      (madviseOne_block P d d.nr .dontneed)).append (madviseOne_block P d d.nr .dontfork)).append
      (madviseOne_block P d d.nr .dontdump)).append (madviseOne_block P d d.nr .wipeonfork)).append (deny_block P d d.nr .einval)
    unfold madvise verdictOf
    refine cast (congrArg _ ?_) h
    simp only [true_and, List.mem_cons, List.not_mem_nil, or_false, if_true, eq_comm (a := some (d.arg 2))]
    by_cases h0 : P.advice .normal = some (d.arg 2)
    · simp [h0]
    by_cases h1 : P.advice .free = some (d.arg 2)
    · simp [h0, h1]
    by_cases h2 : P.advice .dontneed = some (d.arg 2)
    · simp [h0, h1, h2]
    by_cases h3 : P.advice .dontfork = some (d.arg 2)
    · simp [h0, h1, h2, h3]
    by_cases h4 : P.advice .dontdump = some (d.arg 2)
    · simp [h0, h1, h2, h3, h4]
    by_cases h5 : P.advice .wipeonfork = some (d.arg 2)
    · simp [h0, h1, h2, h3, h4, h5]
    simp [h0, h1, h2, h3, h4, h5]
  · have h : ∀ a, Block P d (madviseOne P n a) none := fun a => block_not (madviseOne_block P d n a) fun h => hn h.1
    exact ((((((h .normal).append (h .free)).append (h .dontneed)).append (h .dontfork)).append (h .dontdump)).append
      (h .wipeonfork)).append (block_not (deny_block P d n .einval) hn)

theorem mmap_good (P : Platform) (d : Call) {s : Sys} (hs : s = .mmap ∨ s = .mmap2) : Good P d ⟨s, s, mmap⟩ := by
  refine ⟨?_, fun n hn => ?_⟩
  · show Block P d (mmap P d.nr) (verdictOf P d s)
    have h := (denyUnless_block P d d.nr (i := 3) (by decide) (mmapFlags P) .einval).append
      (allowMask_block P d d.nr (i := 2) (by decide) protRW)
    refine cast (congrArg _ ?_) h
    have hv : verdictOf P d s = if ¬ d.arg 3 &&& ~~~(mmapFlags P) = 0 then some (.errno .einval)
        else if d.arg 2 &&& ~~~protRW = 0 then some .allow else none := by
      rcases hs with rfl | rfl <;> rfl
    rw [hv]
    by_cases h1 : d.arg 3 &&& ~~~(mmapFlags P) = 0
    · simp only [h1, not_true_eq_false, and_false, if_false, true_and, Option.none_or]
    · simp only [h1, not_false_eq_true, and_self, if_true, Option.some_or]
  · exact (block_not (denyUnless_block P d n (i := 3) (by decide) (mmapFlags P) .einval) fun h => hn h.1).append
      (block_not (allowMask_block P d n (i := 2) (by decide) protRW) fun h => hn h.1)

theorem mprotect_good (P : Platform) (d : Call) : Good P d ⟨.mprotect, .mprotect, fun P n => allowMask P n 2 protRW⟩ := by
  refine ⟨?_, fun n hn => block_not (allowMask_block P d n (i := 2) (by decide) protRW) fun h => hn h.1⟩
  have := allowMask_block P d d.nr (i := 2) (by decide) protRW
  simpa only [verdictOf, true_and] using this

theorem socketcall_good (P : Platform) (d : Call) : Good P d ⟨.socketcall, .socketcall, socketcall⟩ := by
  refine ⟨?_, fun n hn => ?_⟩
  · show Block P d (socketcall P d.nr) (verdictOf P d .socketcall)
    refine cast (congrArg _ ?_) ((allowArg_block P d d.nr (i := 0) (by decide) 13).append (deny_block P d d.nr .eacces))
    unfold verdictOf
    by_cases h : d.arg 0 = 13
    · simp only [h, and_self, if_true, Option.some_or]
    · simp only [h, and_false, if_false, if_true, Option.none_or]
  · exact (block_not (allowArg_block P d n (i := 0) (by decide) 13) fun h => hn h.1).append (block_not (deny_block P d n .eacces) hn)

theorem ioctl_good (P : Platform) (d : Call) : Good P d ⟨.ioctl, .ioctl, ioctl⟩ := by
  have key : ∀ (l : List (BitVec 64)) (n : BitVec 32),
      Block P d (l.flatMap (allowArg P n 1)) (if d.nr = n ∧ d.arg 1 ∈ l then some .allow else none) := by
    intro l n
    induction l with
    | nil => simp only [List.not_mem_nil, and_false, if_false]; exact .nil
    | cons v l ih =>
      rw [List.flatMap_cons]
      refine cast (congrArg _ ?_) ((allowArg_block P d n (i := 1) (by decide) v).append ih)
      by_cases h : d.nr = n
      · by_cases h1 : d.arg 1 = v
        · simp [h, h1]
        · simp [h, h1]
      · simp [h]
  refine ⟨?_, fun n hn => ?_⟩
  · show Block P d (ioctl P d.nr) (verdictOf P d .ioctl)
    unfold ioctl verdictOf
    cases h : P.s390 with
    | none => exact .nil
    | some l => simpa only [true_and, Option.getD_some] using key l d.nr
  · show Block P d (ioctl P n) none
    unfold ioctl
    cases h : P.s390 with
    | none => exact .nil
    | some l => exact block_not (key l n) fun h => hn h.1

theorem lines_good (P : Platform) (d : Call) : ∀ l ∈ lines, Good P d l := by
  unfold lines
  repeat' first
    | exact fun _ h => absurd h List.not_mem_nil
    | exact deny_good rfl
    | exact allow_good rfl
    | exact futex_good P d _
    | exact madvise_good P d
    | exact mmap_good P d (.inl rfl)
    | exact mmap_good P d (.inr rfl)
    | exact mprotect_good P d
    | exact socketcall_good P d
    | exact ioctl_good P d
    | refine List.forall_mem_cons.2 ⟨?_, ?_⟩

/-- The lines together, if the number is the one of `s`. -/
theorem lines_block {P : Platform} (hP : Sound P) {d : Call} {s : Sys} (hs : P.nr s = some d.nr) (L : List Line)
    (hL : ∀ l ∈ L, Good P d l) :
    Block P d (L.flatMap (expand P)) (if L.any (fun l => (P.nr l.guard).isSome ∧ l.sys = s) then verdictOf P d s else none) := by
  induction L with
  | nil => exact .nil
  | cons l L ih =>
    rw [List.flatMap_cons, List.any_cons]
    have hl := hL l (by simp)
    have hx := ih fun x hx => hL x (List.mem_cons_of_mem _ hx)
    have hoff : (¬ (P.nr l.guard).isSome ∨ l.sys ≠ s) → Block P d (expand P l) none := by
      intro h
      unfold expand
      cases hg : P.nr l.guard with
      | none => exact .nil
      | some g =>
        cases hn : P.nr l.sys with
        | none => exact .nil
        | some n =>
          refine hl.2 n fun he => ?_
          rcases h with h | h
          · rw [hg] at h; simp at h
          · exact h (hP.distinct _ _ n hn (by rw [hs, he]))
    by_cases h : (P.nr l.guard).isSome ∧ l.sys = s
    · have hon : Block P d (expand P l) (verdictOf P d s) := by
        unfold expand
        obtain ⟨g, hg⟩ := Option.isSome_iff_exists.1 h.1
        rw [hg, h.2, hs, ← h.2]
        exact hl.1
      refine cast (congrArg _ ?_) (hon.append hx)
      simp only [h, and_self, decide_true, Bool.true_or, if_true]
      cases verdictOf P d s with
      | some v => rfl
      | none => split <;> rfl
    · refine cast (congrArg _ ?_) ((hoff (by
        by_cases h1 : (P.nr l.guard).isSome
        · exact .inr fun h2 => h ⟨h1, h2⟩
        · exact .inl h1)).append hx)
      simp only [h, decide_false, Bool.false_or, Option.none_or]

/-- The lines together, if the number is of no system call. -/
theorem lines_none {P : Platform} {d : Call} (hs : ∀ s, P.nr s ≠ some d.nr) (L : List Line) (hL : ∀ l ∈ L, Good P d l) :
    Block P d (L.flatMap (expand P)) none := by
  induction L with
  | nil => exact .nil
  | cons l L ih =>
    rw [List.flatMap_cons]
    refine Block.append (v := none) (w := none) ?_ (ih fun x hx => hL x (List.mem_cons_of_mem _ hx))
    unfold expand
    cases hg : P.nr l.guard with
    | none => exact .nil
    | some g =>
      cases hn : P.nr l.sys with
      | none => exact .nil
      | some n => exact (hL l (by simp)).2 n fun he => hs l.sys (by rw [hn, he])

/-- Each system call with a verdict has a line of its own. -/
theorem lines_all (s : Sys) : (∃ l ∈ lines, l.guard = s ∧ l.sys = s) ∨ (∀ P d, verdictOf P d s = none) := by
  have key : lines.any (fun l => l.guard = s ∧ l.sys = s) = true → ∃ l ∈ lines, l.guard = s ∧ l.sys = s := by
    intro h
    obtain ⟨l, hl, h⟩ := List.any_eq_true.1 h
    exact ⟨l, hl, of_decide_eq_true h⟩
  cases s <;> first
    | exact .inr fun _ _ => rfl
    | exact .inl (key (by decide))

theorem verdictOf_block {P : Platform} (hP : Sound P) {d : Call} {s : Sys} (hs : P.nr s = some d.nr) :
    Block P d (lines.flatMap (expand P)) (verdictOf P d s) := by
  have h := lines_block hP hs lines (lines_good P d)
  rcases lines_all s with ⟨l, hl, h1, h2⟩ | hn
  · have : lines.any (fun l => (P.nr l.guard).isSome ∧ l.sys = s) = true := by
      rw [List.any_eq_true]
      refine ⟨l, hl, ?_⟩
      rw [h1, hs, h2]
      simp
    rwa [if_pos this] at h
  · rw [hn] at h ⊢
    simpa using h

theorem x32_block {P : Platform} (d : Call) :
    Block P d (x32 P) (if ∃ bit n, P.x32 = some bit ∧ P.nr .clockGettime = some n ∧ d.nr = n &&& ~~~bit then some .allow else none) := by
  unfold x32
  cases h1 : P.x32 with
  | none => simp; exact .nil
  | some bit =>
    cases h2 : P.nr .clockGettime with
    | none => simp; exact .nil
    | some n => simpa using allow_block P d (n &&& ~~~bit)

/-- The program as a whole. -/
theorem run_program {P : Platform} {d : Call} {v w : Option Verdict} (h1 : Block P d (lines.flatMap (expand P)) v)
    (h2 : Block P d (x32 P) w) :
    run P (program P) d = if d.arch = P.arch then .verdict ((v.or w).getD .kill) else .verdict .kill := by
  unfold run program head
  rw [List.append_assoc, List.append_assoc]
  show exec P d (.ld 4 :: .jeq P.arch 1 0 :: .ret .kill :: .ld 0 :: _) 0 0 = _
  have hl : load P d 4 = some d.arch := rfl
  by_cases h : d.arch = P.arch
  · rw [if_pos h]
    simp only [exec, hl, h, if_true, load_nr]
    show exec P d (lines.flatMap (expand P) ++ (x32 P ++ [.ret .kill])) 0 d.nr = _
    rw [← List.append_assoc, h1.append h2]
    cases v.or w with
    | some v => rfl
    | none => rfl
  · rw [if_neg h]
    simp [exec, hl, h]

/-! ### The verdicts, as the specification has them -/

theorem futex_iff (v : BitVec 64) : v &&& ~~~futexMask ∈ ([0, 9, 1, 10, 3, 4] : List (BitVec 64)) ↔ FutexOp v := by
  have h := fun op ho => futex_op_iff v op ho
  unfold FutexOp
  simp only [List.mem_cons, List.not_mem_nil, or_false, exists_eq_or_imp, exists_eq_left]
  have e0 := h 0 (by decide); have e1 := h 1 (by decide); have e3 := h 3 (by decide)
  have e4 := h 4 (by decide); have e9 := h 9 (by decide); have e10 := h 10 (by decide)
  rw [← e0, ← e1, ← e3, ← e4, ← e9, ← e10]
  simp only [BitVec.ofNat_eq_ofNat]
  constructor
  · rintro (h | h | h | h | h | h) <;> simp [h]
  · rintro (h | h | h | h | h | h) <;> simp [h]

theorem advised_iff (P : Platform) (v : BitVec 64) :
    some v ∈ [P.advice .normal, P.advice .free, P.advice .dontneed, P.advice .dontfork, P.advice .dontdump, P.advice .wipeonfork] ↔
      Advised P v := by
  simp only [List.mem_cons, List.not_mem_nil, or_false, Advised]
  constructor
  · rintro (h | h | h | h | h | h)
    · exact ⟨_, h.symm, by simp⟩
    · exact ⟨_, h.symm, by simp⟩
    · exact ⟨_, h.symm, by simp⟩
    · exact ⟨_, h.symm, by simp⟩
    · exact ⟨_, h.symm, by simp⟩
    · exact ⟨_, h.symm, by simp⟩
  · rintro ⟨a, h, rfl | rfl | rfl | rfl | rfl | rfl⟩ <;> simp [h]

/-- Without a number of a system call the extra line for x32 is all there is. -/
theorem x32_other {P : Platform} (hP : Sound P) {d : Call} {s : Sys} (hs : P.nr s = some d.nr) :
    ¬ ∃ bit n, P.x32 = some bit ∧ P.nr .clockGettime = some n ∧ d.nr = n &&& ~~~bit := by
  rintro ⟨bit, n, h1, h2, h3⟩
  refine hP.x32 bit s d.nr h1 hs ?_
  rw [h3, BitVec.and_assoc]
  have : ~~~bit &&& bit = 0#32 := by
    apply BitVec.eq_of_getLsbD_eq
    intro i hi
    cases hb : bit.getLsbD i <;> simp [hb, hi]
  rw [this]
  simp

theorem run_named {P : Platform} (hP : Sound P) {d : Call} {s : Sys} (hs : P.nr s = some d.nr) :
    run P (program P) d = if d.arch = P.arch then .verdict ((verdictOf P d s).getD .kill) else .verdict .kill := by
  rw [run_program (verdictOf_block hP hs) (block_not (x32_block d) (x32_other hP hs)), Option.or_none]

theorem permitted_named {P : Platform} (hP : Sound P) {d : Call} {s : Sys} (hs : P.nr s = some d.nr) :
    verdictOf P d s = some .allow ↔ Permitted P d := by
  constructor
  · intro h
    unfold verdictOf at h
    split at h
    · split at h
      · exact .futex hs ((futex_iff _).1 (by assumption))
      · cases h
    · split at h
      · exact .madvise hs ((advised_iff _ _).1 (by assumption))
      · cases h
    · split at h
      · cases h
      · rename_i hf
        split at h
        · exact .mmap _ (.inl rfl) hs ((mapFlags_iff _ _).1 (Decidable.not_not.1 hf)) ((readWrite_iff _).1 (by assumption))
        · cases h
    · split at h
      · cases h
      · rename_i hf
        split at h
        · exact .mmap _ (.inr rfl) hs ((mapFlags_iff _ _).1 (Decidable.not_not.1 hf)) ((readWrite_iff _).1 (by assumption))
        · cases h
    · split at h
      · exact .mprotect hs ((readWrite_iff _).1 (by assumption))
      · cases h
    · split at h
      · exact .socketcall hs (by assumption)
      · cases h
    · split at h
      · rename_i hm
        cases hl : P.s390 with
        | none => rw [hl] at hm; simp at hm
        | some l => rw [hl] at hm; exact .ioctl l hl hs hm
      · cases h
    · split at h
      · cases h
      · split at h
        · exact .plain s (by assumption) hs
        · cases h
  · intro h
    cases h with
    | plain t ht hn =>
      rw [hP.distinct _ _ _ hs hn]
      cases t <;> first | rfl | (exact absurd ht (by decide)) | (exact absurd ht (by simp [plain]))
    | futex hn ho => rw [hP.distinct _ _ _ hs hn]; exact if_pos ((futex_iff _).2 ho)
    | madvise hn ho => rw [hP.distinct _ _ _ hs hn]; exact if_pos ((advised_iff _ _).2 ho)
    | mmap t ht hn hf hw =>
      rw [hP.distinct _ _ _ hs hn]
      have hf := (mapFlags_iff _ _).2 hf
      have hw := (readWrite_iff _).2 hw
      rcases ht with rfl | rfl
      · show (if _ then _ else _) = _
        rw [if_neg (not_not_intro hf), if_pos hw]
      · show (if _ then _ else _) = _
        rw [if_neg (not_not_intro hf), if_pos hw]
    | mprotect hn hw => rw [hP.distinct _ _ _ hs hn]; exact if_pos ((readWrite_iff _).2 hw)
    | socketcall hn hv => rw [hP.distinct _ _ _ hs hn]; exact if_pos hv
    | ioctl l hl hn hv => rw [hP.distinct _ _ _ hs hn]; exact if_pos (by rw [hl]; exact hv)
    | x32 bit n h1 h2 h3 => exact absurd ⟨bit, n, h1, h2, h3⟩ (x32_other hP hs)

theorem refused_named {P : Platform} (hP : Sound P) {d : Call} {s : Sys} (hs : P.nr s = some d.nr) (e : Errno) :
    verdictOf P d s = some (.errno e) ↔ Refused P d e := by
  constructor
  · intro h
    unfold verdictOf at h
    split at h
    · split at h <;> cases h
    · split at h
      · cases h
      · cases h; exact .madvise hs (fun h => by rename_i hn; exact hn ((advised_iff _ _).2 h))
    · split at h
      · rename_i hf
        cases h; exact .mmap _ (.inl rfl) hs (fun h => hf ((mapFlags_iff _ _).2 h))
      · split at h <;> cases h
    · split at h
      · rename_i hf
        cases h; exact .mmap _ (.inr rfl) hs (fun h => hf ((mapFlags_iff _ _).2 h))
      · split at h <;> cases h
    · split at h <;> cases h
    · split at h
      · cases h
      · cases h; exact .socketcall hs (by assumption)
    · split at h <;> cases h
    · split at h
      · cases h; exact .files s (by assumption) hs
      · split at h <;> cases h
  · intro h
    cases h with
    | files t ht hn =>
      rw [hP.distinct _ _ _ hs hn]
      cases t <;> first | rfl | (exact absurd ht (by decide)) | (exact absurd ht (by simp [files]))
    | madvise hn ho => rw [hP.distinct _ _ _ hs hn]; exact if_neg (fun h => ho ((advised_iff _ _).1 h))
    | mmap t ht hn hf =>
      rw [hP.distinct _ _ _ hs hn]
      have hf := fun h => hf ((mapFlags_iff _ _).1 h)
      rcases ht with rfl | rfl
      · exact if_pos hf
      · exact if_pos hf
    | socketcall hn hv => rw [hP.distinct _ _ _ hs hn]; exact if_neg hv

/-! ### C110 -/

/-- The result for any call: one of the three, never beyond the end of the program. -/
theorem C110_exact {P : Platform} (hP : Sound P) (d : Call) :
    ∃ v, run P (program P) d = .verdict v ∧
      (v = .allow ↔ d.arch = P.arch ∧ Permitted P d) ∧ (∀ e, v = .errno e ↔ d.arch = P.arch ∧ Refused P d e) := by
  by_cases ha : d.arch = P.arch
  · by_cases hs : ∃ s, P.nr s = some d.nr
    · obtain ⟨s, hs⟩ := hs
      refine ⟨_, (run_named hP hs).trans (if_pos ha), ?_, fun e => ?_⟩
      · rw [← permitted_named hP hs]
        cases h : verdictOf P d s with
        | none => simp
        | some v => simp [ha]
      · rw [← refused_named hP hs]
        cases h : verdictOf P d s with
        | none => simp
        | some v => simp [ha]
    · have hs : ∀ s, P.nr s ≠ some d.nr := fun s h => hs ⟨s, h⟩
      refine ⟨_, (run_program (lines_none hs lines (lines_good P d)) (x32_block d)).trans (if_pos ha), ?_, fun e => ?_⟩
      · rw [Option.none_or]
        constructor
        · intro h
          refine ⟨ha, ?_⟩
          split at h
          · rename_i hx
            obtain ⟨bit, n, h1, h2, h3⟩ := hx
            exact .x32 bit n h1 h2 h3
          · cases h
        · rintro ⟨-, h⟩
          cases h with
          | plain s _ h => exact absurd h (hs s)
          | futex h _ => exact absurd h (hs _)
          | madvise h _ => exact absurd h (hs _)
          | mmap s _ h _ _ => exact absurd h (hs s)
          | mprotect h _ => exact absurd h (hs _)
          | socketcall h _ => exact absurd h (hs _)
          | ioctl l _ h _ => exact absurd h (hs _)
          | x32 bit n h1 h2 h3 => rw [if_pos ⟨bit, n, h1, h2, h3⟩]; rfl
      · rw [Option.none_or]
        constructor
        · intro h
          split at h <;> cases h
        · rintro ⟨-, h⟩
          cases h with
          | files s _ h => exact absurd h (hs s)
          | madvise h _ => exact absurd h (hs _)
          | mmap s _ h _ => exact absurd h (hs s)
          | socketcall h _ => exact absurd h (hs _)
  · have hr : run P (program P) d = .verdict .kill := by
      by_cases hs : ∃ s, P.nr s = some d.nr
      · obtain ⟨s, hs⟩ := hs
        rw [run_named hP hs, if_neg ha]
      · rw [run_program (lines_none (fun s h => hs ⟨s, h⟩) lines (lines_good P d)) (x32_block d), if_neg ha]
    exact ⟨_, hr, by simp [ha], fun e => by simp [ha]⟩

/-- Any system call that is not named in the specification is the end of the process; so is one by another convention. -/
theorem C110_others {P : Platform} (hP : Sound P) (d : Call) (h : d.arch ≠ P.arch ∨ ∃ i, P.nr (.other i) = some d.nr) :
    run P (program P) d = .verdict .kill := by
  obtain ⟨v, hv, h1, h2⟩ := C110_exact hP d
  rw [hv]
  have hno : ∀ s, (∃ i, P.nr (.other i) = some d.nr) → P.nr s = some d.nr → ∃ i, s = .other i := by
    rintro s ⟨i, hi⟩ hs
    exact ⟨i, hP.distinct _ _ _ hs hi⟩
  cases v with
  | kill => rfl
  | allow =>
    obtain ⟨ha, hp⟩ := h1.1 rfl
    rcases h with h | h
    · exact absurd ha h
    · exfalso
      cases hp with
      | plain s hs hn => obtain ⟨i, rfl⟩ := hno s h hn; exact absurd hs (by simp [plain])
      | futex hn _ => obtain ⟨i, hi⟩ := hno _ h hn; cases hi
      | madvise hn _ => obtain ⟨i, hi⟩ := hno _ h hn; cases hi
      | mmap s hs hn _ _ => obtain ⟨i, rfl⟩ := hno s h hn; rcases hs with hs | hs <;> cases hs
      | mprotect hn _ => obtain ⟨i, hi⟩ := hno _ h hn; cases hi
      | socketcall hn _ => obtain ⟨i, hi⟩ := hno _ h hn; cases hi
      | ioctl l _ hn _ => obtain ⟨i, hi⟩ := hno _ h hn; cases hi
      | x32 bit n a1 a2 a3 => obtain ⟨i, hi⟩ := h; exact x32_other hP hi ⟨bit, n, a1, a2, a3⟩
  | errno e =>
    obtain ⟨ha, hp⟩ := (h2 e).1 rfl
    rcases h with h | h
    · exact absurd ha h
    · exfalso
      cases hp with
      | files s hs hn => obtain ⟨i, rfl⟩ := hno s h hn; exact absurd hs (by simp [files])
      | madvise hn _ => obtain ⟨i, hi⟩ := hno _ h hn; cases hi
      | mmap s hs hn _ => obtain ⟨i, rfl⟩ := hno s h hn; rcases hs with hs | hs <;> cases hs
      | socketcall hn _ => obtain ⟨i, hi⟩ := hno _ h hn; cases hi

/-- No memory becomes executable: PROT_EXEC, bit 2, is never in what goes through. -/
theorem C110_no_exec {P : Platform} (hP : Sound P) (d : Call) {s : Sys} (hs : s = .mmap ∨ s = .mmap2 ∨ s = .mprotect)
    (hn : P.nr s = some d.nr) (h : run P (program P) d = .verdict .allow) : (d.arg 2).getLsbD 2 = false := by
  have hrw : ReadWrite (d.arg 2) := by
    obtain ⟨v, hv, h1, -⟩ := C110_exact hP d
    rw [hv] at h
    cases h
    obtain ⟨-, hp⟩ := h1.1 rfl
    cases hp with
    | plain t ht h => rw [hP.distinct _ _ _ h hn] at ht; rcases hs with rfl | rfl | rfl <;> exact absurd ht (by decide)
    | futex h _ => have := hP.distinct _ _ _ h hn; rw [← this] at hs; rcases hs with hs | hs | hs <;> cases hs
    | madvise h _ => have := hP.distinct _ _ _ h hn; rw [← this] at hs; rcases hs with hs | hs | hs <;> cases hs
    | mmap _ _ _ _ hw => exact hw
    | mprotect _ hw => exact hw
    | socketcall h _ => have := hP.distinct _ _ _ h hn; rw [← this] at hs; rcases hs with hs | hs | hs <;> cases hs
    | ioctl l _ h _ => have := hP.distinct _ _ _ h hn; rw [← this] at hs; rcases hs with hs | hs | hs <;> cases hs
    | x32 bit n a1 a2 a3 => exact absurd ⟨bit, n, a1, a2, a3⟩ (x32_other hP hn)
  rw [← BitVec.testBit_toNat]
  exact Nat.testBit_lt_two_pow hrw

/-- The line for `futex_time64` does not allow it: the process is killed. -/
theorem C110_futex_time64 {P : Platform} (hP : Sound P) (d : Call) (hn : P.nr .futexTime64 = some d.nr) :
    run P (program P) d = .verdict .kill := by
  rw [run_named hP hn]
  split <;> rfl

/-! ### The kernel takes the program -/

theorem inside_ret (v : Verdict) {l : List Insn} (h : Inside l) : Inside (.ret v :: l) := by
  cases l with
  | nil => exact trivial
  | cons a l => cases a <;> exact h

/-- Instructions that can stand before others: they jump at most just behind themselves. -/
def Fits (b : List Insn) : Prop := ∀ rest, Inside rest → Inside (b ++ rest)

theorem Inside.pos {l : List Insn} (h : Inside l) : 0 < l.length := by
  cases l with
  | nil => exact absurd h id
  | cons a l => simp

theorem Fits.append {a b : List Insn} (h1 : Fits a) (h2 : Fits b) : Fits (a ++ b) := by
  intro rest h
  rw [List.append_assoc]
  exact h1 _ (h2 rest h)

theorem Fits.nil : Fits [] := fun _ h => h

theorem Fits.flatMap {α : Type} {f : α → List Insn} (l : List α) (h : ∀ a ∈ l, Fits (f a)) : Fits (l.flatMap f) := by
  induction l with
  | nil => exact .nil
  | cons a l ih => exact (h a (by simp)).append (ih fun x hx => h x (List.mem_cons_of_mem _ hx))

theorem deny_fits (n : BitVec 32) (e : Errno) : Fits (deny n e) := by
  intro rest h
  have := h.pos
  refine ⟨?_, ?_, inside_ret _ h⟩ <;> (show _ < rest.length + 1; omega)

theorem allow_fits (n : BitVec 32) : Fits (allow n) := by
  intro rest h
  have := h.pos
  refine ⟨?_, ?_, inside_ret _ h⟩ <;> (show _ < rest.length + 1; omega)

theorem offset_lo (P : Platform) {i : Nat} (hi : i < 6) : (argOffset i + loOffset P) % 4 = 0 ∧ argOffset i + loOffset P < 64 := by
  unfold argOffset loOffset
  split <;> omega

theorem offset_hi (P : Platform) {i : Nat} (hi : i < 6) : (argOffset i + hiOffset P) % 4 = 0 ∧ argOffset i + hiOffset P < 64 := by
  unfold argOffset hiOffset
  split <;> omega

theorem allowArg_fits (P : Platform) (n : BitVec 32) {i : Nat} (hi : i < 6) (v : BitVec 64) : Fits (allowArg P n i v) := by
  intro rest h
  have h0 := h.pos
  obtain ⟨l1, l2⟩ := offset_lo P hi
  obtain ⟨g1, g2⟩ := offset_hi P hi
  have hr : Inside (.ld 0 :: rest) := ⟨by decide, by decide, h⟩
  refine ⟨?_, ?_, l1, l2, ?_, ?_, g1, g2, ?_, ?_, inside_ret _ hr⟩ <;> simp <;> omega

theorem allowMask_fits (P : Platform) (n : BitVec 32) {i : Nat} (hi : i < 6) (m : BitVec 64) : Fits (allowMask P n i m) := by
  intro rest h
  have h0 := h.pos
  obtain ⟨l1, l2⟩ := offset_lo P hi
  obtain ⟨g1, g2⟩ := offset_hi P hi
  have hr : Inside (.ld 0 :: rest) := ⟨by decide, by decide, h⟩
  refine ⟨?_, ?_, l1, l2, ?_, ?_, g1, g2, ?_, ?_, inside_ret _ hr⟩ <;> simp <;> omega

theorem denyUnless_fits (P : Platform) (n : BitVec 32) {i : Nat} (hi : i < 6) (m : BitVec 64) (e : Errno) :
    Fits (denyUnless P n i m e) := by
  intro rest h
  have h0 := h.pos
  obtain ⟨l1, l2⟩ := offset_lo P hi
  obtain ⟨g1, g2⟩ := offset_hi P hi
  have hr : Inside (.ld 0 :: rest) := ⟨by decide, by decide, h⟩
  refine ⟨?_, ?_, l1, l2, ?_, ?_, g1, g2, ?_, ?_, inside_ret _ hr⟩ <;> simp <;> omega

theorem futexOp_fits (P : Platform) (n : BitVec 32) (op : BitVec 64) : Fits (futexOp P n op) := by
  intro rest h
  have h0 := h.pos
  obtain ⟨l1, l2⟩ := offset_lo P (i := 1) (by decide)
  obtain ⟨g1, g2⟩ := offset_hi P (i := 1) (by decide)
  have hr : Inside (.ld 0 :: rest) := ⟨by decide, by decide, h⟩
  refine ⟨?_, ?_, l1, l2, ?_, ?_, g1, g2, ?_, ?_, inside_ret _ hr⟩ <;> simp <;> omega

/-- A line fits, and it is not long. -/
def Short (P : Platform) (l : Line) : Prop := ∀ n, Fits (l.insns P n) ∧ (l.insns P n).length ≤ 54

theorem short_deny (P : Platform) (s : Sys) : Short P (.deny s) := fun n => ⟨deny_fits n _, by simp [Line.deny, deny]⟩
theorem short_allow (P : Platform) (s : Sys) : Short P (.allow s) := fun n => ⟨allow_fits n, by simp [Line.allow, allow]⟩

theorem short_futex (P : Platform) (s : Sys) : Short P ⟨s, .futex, futex⟩ := fun n =>
  ⟨(((((futexOp_fits P n 0).append (futexOp_fits P n 9)).append (futexOp_fits P n 1)).append (futexOp_fits P n 10)).append
    (futexOp_fits P n 3)).append (futexOp_fits P n 4), by simp [futex, futexOp]⟩

theorem madviseOne_fits (P : Platform) (n : BitVec 32) (a : Advice) : Fits (madviseOne P n a) := by
  unfold madviseOne
  split
  · exact allowArg_fits P n (by decide) _
  · exact .nil

theorem madviseOne_length (P : Platform) (n : BitVec 32) (a : Advice) : (madviseOne P n a).length ≤ 7 := by
  unfold madviseOne
  split <;> simp [allowArg]

theorem short_madvise (P : Platform) : Short P ⟨.madvise, .madvise, madvise⟩ := fun n =>
  ⟨((((((madviseOne_fits P n _).append (madviseOne_fits P n _)).append (madviseOne_fits P n _)).append (madviseOne_fits P n _)).append
    (madviseOne_fits P n _)).append (madviseOne_fits P n _)).append (deny_fits n _), by
    have := madviseOne_length P n
    have h1 := this .normal; have h2 := this .free; have h3 := this .dontneed; have h4 := this .dontfork
    have h5 := this .dontdump; have h6 := this .wipeonfork
    simp only [madvise, deny, List.length_append, List.length_cons, List.length_nil]
    omega⟩

theorem short_ioctl (P : Platform) (hs : ∀ l, P.s390 = some l → l.length ≤ 5) : Short P ⟨.ioctl, .ioctl, ioctl⟩ := by
  intro n
  show Fits (ioctl P n) ∧ (ioctl P n).length ≤ 54
  unfold ioctl
  cases h : P.s390 with
  | none => exact ⟨.nil, by simp⟩
  | some l =>
    refine ⟨Fits.flatMap l fun v _ => allowArg_fits P n (by decide) v, ?_⟩
    have hlen : ∀ l : List (BitVec 64), (l.flatMap (allowArg P n 1)).length = 7 * l.length := by
      intro l
      induction l with
      | nil => rfl
      | cons v l ih => rw [List.flatMap_cons, List.length_append, ih]; simp [allowArg]; omega
    show (l.flatMap (allowArg P n 1)).length ≤ 54
    rw [hlen]
    have := hs l h
    omega

theorem lines_short (P : Platform) (hs : ∀ l, P.s390 = some l → l.length ≤ 5) : ∀ l ∈ lines, Short P l := by
  unfold lines
  repeat' first
    | exact fun _ h => absurd h List.not_mem_nil
    | exact short_deny P _
    | exact short_allow P _
    | exact short_futex P _
    | exact short_madvise P
    | exact fun n => ⟨(denyUnless_fits P n (by decide) _ _).append (allowMask_fits P n (by decide) _), by simp [mmap, denyUnless, allowMask]⟩
    | exact fun n => ⟨allowMask_fits P n (by decide) _, by simp [allowMask]⟩
    | exact fun n => ⟨(allowArg_fits P n (by decide) _).append (deny_fits n _), by simp [socketcall, allowArg, deny]⟩
    | exact short_ioctl P hs
    | refine List.forall_mem_cons.2 ⟨?_, ?_⟩

theorem expand_short {P : Platform} {l : Line} (h : Short P l) : Fits (expand P l) ∧ (expand P l).length ≤ 54 := by
  unfold expand
  split
  · exact h _
  · exact ⟨.nil, by simp⟩

/-- The kernel takes the program on every platform. -/
theorem C110_accepted (P : Platform) (hs : ∀ l, P.s390 = some l → l.length ≤ 5) : Accepted (program P) := by
  have hx : Fits (x32 P) ∧ (x32 P).length ≤ 2 := by
    unfold x32
    split
    · exact ⟨allow_fits _, by simp [allow]⟩
    · exact ⟨.nil, by simp⟩
  have hl : Fits (lines.flatMap (expand P)) := .flatMap _ fun l hl => (expand_short (lines_short P hs l hl)).1
  have hlen : ∀ L : List Line, (∀ l ∈ L, Short P l) → (L.flatMap (expand P)).length ≤ 54 * L.length := by
    intro L
    induction L with
    | nil => intro _; simp
    | cons l L ih =>
      intro h
      have h1 := (expand_short (h l (by simp))).2
      have h2 := ih fun x hx => h x (List.mem_cons_of_mem _ hx)
      rw [List.flatMap_cons, List.length_append, List.length_cons]
      omega
  have h1 := hlen lines (lines_short P hs)
  have h58 : lines.length = 58 := rfl
  constructor
  · have hend := (hl.append hx.1) [.ret .kill] trivial
    have := hend.pos
    unfold program head
    rw [List.append_assoc, List.append_assoc, ← List.append_assoc (lines.flatMap _)]
    refine ⟨by decide, by decide, ?_, ?_, inside_ret _ ⟨by decide, by decide, hend⟩⟩
    · show 1 < List.length (.ret .kill :: .ld 0 :: (lines.flatMap (expand P) ++ x32 P ++ [.ret .kill]))
      simp
    · show 0 < List.length (.ret .kill :: .ld 0 :: (lines.flatMap (expand P) ++ x32 P ++ [.ret .kill]))
      simp
  · unfold program head
    rw [List.length_append, List.length_append, List.length_append]
    simp only [List.length_cons, List.length_nil]
    omega

/-- After the sandbox has been entered: no files, no processes, one descriptor; the filter is there unless the kernel refused it,
and with it no privileges can be gained. -/
theorem C110_entered (k : Kernel) (c : Confined) (h : sandboxChild k = some c) :
    c.noFiles = true ∧ c.oneDescriptor = true ∧ c.noProcesses = true ∧ (c.filter = true ↔ k.seccomp = true) ∧
      (c.filter = true → c.noNewPrivs = true) := by
  unfold sandboxChild at h
  split at h
  · cases h
  split at h
  · cases h
  split at h
  · cases h
  split at h
  · rename_i hs; cases h; simp [hs]
  split at h
  · cases h
  · rename_i hs _; cases h; simpa using hs

/-- If the kernel refuses the filter the process goes on without it. -/
theorem C110_without : sandboxChild ⟨true, true, true, true, false⟩ = some ⟨true, true, true, true, false⟩ := rfl

end Verif.Sandbox
