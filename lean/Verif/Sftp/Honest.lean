/-
C69 and C70: what the answers of the SFTP server say is what was done; attributes.
-/
import Verif.Sftp.Props

namespace Verif.Sftp
open Verif Wire

/-! ### C69 -/

/-- The errors of the system have numbers other than 0. -/
def Real (tr : List (Call × Resp)) : Prop := ∀ x ∈ tr, x.2.err ≠ some 0

theorem portable_ok {e : Nat} (h : portable e = FX_OK) : e = 0 := by
  unfold portable at h
  repeat' split at h
  all_goals first | assumption | omega

/-- C69: what a client is told of an error (the numbers are Linux's): nothing is a success but the lack of one; a missing
file and a refused permission are told as such. -/
theorem C69_errors (e : Nat) :
    (portable e = FX_OK ↔ e = 0) ∧
    (portable e = FX_NO_SUCH_FILE ↔ e ∈ [2, 20, 9, 40]) ∧ -- ENOENT, ENOTDIR, EBADF, ELOOP
    (portable e = FX_DENIED ↔ e ∈ [1, 13, 14]) ∧ -- EPERM, EACCES, EFAULT
    (portable e = FX_BAD_MESSAGE ↔ e ∈ [36, 22]) ∧ -- ENAMETOOLONG, EINVAL
    (portable e = FX_UNSUPPORTED ↔ e = 38) ∧ -- ENOSYS
    (portable e = FX_FAILURE ↔ e ∉ [0, 2, 20, 9, 40, 1, 13, 14, 36, 22, 38]) := by
  unfold portable
  refine ⟨?_, ?_, ?_, ?_, ?_, ?_⟩ <;>
    (try simp only [List.mem_cons, List.not_mem_nil, or_false]) <;> (repeat' split) <;> omega

/-- Requests that are one call. -/
def oneCall (now : Bytes → Option Obj) : Req → Option Call
  | .remove n => some (.unlink n)
  | .mkdir n a => some (.mkdir n (if a.flags.testBit A_PERM then a.perm % 4096 else 0o777))
  | .rmdir n => some (.rmdir n)
  | .symlink o n => some (.symlink o n)
  | .posixRename o n => some (.rename o n)
  | .hardlink o n => some (.link o n)
  | .fsync h => match now h with | some (.file fd _ _) => some (.fsync fd) | _ => none
  | _ => none

/-- C69: such a request makes that call and no other, and is answered "success" exactly if the call succeeded. -/
theorem C69_one_call (cfg : Cfg) (l : List HEv) (s s' : Srv) (id : Nat) (q : Req) (c : Call) (tr : List (Call × Resp)) (rs : List Reply)
    (h : Hist cfg l s) (hc : oneCall (current l) q = some c) (r : Runs (act cfg s (.req id q)) tr (s', rs)) (hr : Real tr) :
    ∃ a code, tr = [(c, a)] ∧ rs = [.status id code none] ∧ (code = FX_OK ↔ a.err = none) := by
  obtain ⟨hi, hn⟩ := hist_named h
  have key : Runs (simple s id c) tr (s', rs) → ∃ a code, tr = [(c, a)] ∧ rs = [.status id code none] ∧ (code = FX_OK ↔ a.err = none) := by
    intro r
    simp only [simple, runs_call, runs_ret, status, Prod.mk.injEq] at r
    obtain ⟨a, tr', rfl, rfl, -, rfl⟩ := r
    refine ⟨a, _, rfl, rfl, ?_⟩
    have := hr (c, a) (by simp)
    cases he : a.err with
    | none => simp [stOf, he]
    | some e =>
      simp only [stOf, he, reduceCtorEq, iff_false]
      intro hx
      exact this (by rw [he, portable_ok hx])
  simp only [act] at r
  cases q with
  | remove | mkdir | rmdir | symlink | posixRename | hardlink =>
    simp only [oneCall, Option.some.injEq] at hc
    subst hc
    exact key r
  | fsync x =>
    simp only [oneCall] at hc
    split at hc
    · rename_i fd ap nm ho
      simp only [Option.some.injEq] at hc
      subst hc
      rw [← hn] at ho
      simp only [exec, doFsync, (toFd_of ho).1] at r
      exact key r
    · cases hc
  | _ => simp [oneCall] at hc

/-- The changes that attributes ask for. -/
def setCalls (a : Attrib) (size perm time owner : Call) : List Call :=
  (if a.flags.testBit A_SIZE then [size] else []) ++ (if a.flags.testBit A_PERM then [perm] else []) ++
    (if a.flags.testBit A_TIME then [time] else []) ++ (if a.flags.testBit A_UIDGID then [owner] else [])

/-- What is to be done for a request that sets attributes. -/
def wantedSets (now : Bytes → Option Obj) : Req → Option (List Call)
  | .setstat n a => some (setCalls a (.truncate n a.size) (.chmod n (a.perm % 4096)) (.utimes n a.atime a.mtime) (.chown n a.uid a.gid))
  | .fsetstat h a => match now h with
    | some (.file fd _ _) => some (setCalls a (.ftruncate fd a.size) (.fchmod fd (a.perm % 4096)) (.futimes fd a.atime a.mtime) (.fchown fd a.uid a.gid))
    | _ => none
  | .lsetstat n a => if a.flags.testBit A_SIZE then none else
      some (setCalls a (.truncate n a.size) (.lchmod n (a.perm % 4096)) (.lutimes n a.atime a.mtime) (.lchown n a.uid a.gid))
  | _ => none

theorem runs_optCall {want : Bool} {c : Call} {st : Nat} {k : Nat → Run} {tr : List (Call × Resp)} {x : Srv × List Reply}
    (h : Runs (optCall want c st k) tr x) (hr : Real tr) :
    ∃ t1 t2 st', tr = t1 ++ t2 ∧ t1.map Prod.fst = (if want then [c] else []) ∧ Runs (k st') t2 x ∧
      (st' = FX_OK ↔ st = FX_OK ∧ ∀ y ∈ t1, y.2.err = none) := by
  unfold optCall at h
  cases want with
  | false => exact ⟨[], tr, st, rfl, rfl, by simpa using h, by simp⟩
  | true =>
    simp only [if_true, runs_call] at h
    obtain ⟨r, tr', rfl, h⟩ := h
    refine ⟨[(c, r)], tr', _, rfl, rfl, h, ?_⟩
    have := hr (c, r) (by simp)
    cases he : r.err with
    | none => simp [he]
    | some e =>
      simp only [List.mem_singleton, forall_eq, he, reduceCtorEq, and_false, iff_false]
      intro hx
      exact this (by rw [he, portable_ok hx])

theorem real_append {a b : List (Call × Resp)} (h : Real (a ++ b)) : Real a ∧ Real b :=
  ⟨fun x hx => h x (by simp [hx]), fun x hx => h x (by simp [hx])⟩

/-- C69: a request to set attributes makes exactly the calls for the attributes given, in this order, and is answered
"success" exactly if all of them succeeded. -/
theorem C69_setstat (cfg : Cfg) (l : List HEv) (s s' : Srv) (id : Nat) (q : Req) (cs : List Call) (tr : List (Call × Resp))
    (rs : List Reply) (h : Hist cfg l s) (hc : wantedSets (current l) q = some cs) (r : Runs (act cfg s (.req id q)) tr (s', rs))
    (hr : Real tr) :
    tr.map Prod.fst = cs ∧ ∃ code, rs = [.status id code none] ∧ (code = FX_OK ↔ ∀ x ∈ tr, x.2.err = none) := by
  obtain ⟨hi, hn⟩ := hist_named h
  have key : ∀ (w1 w2 w3 w4 : Bool) (c1 c2 c3 c4 : Call),
      Runs (optCall w1 c1 FX_OK fun st => optCall w2 c2 st fun st => optCall w3 c3 st fun st => optCall w4 c4 st fun st =>
        .ret (status s id st)) tr (s', rs) →
      tr.map Prod.fst = (if w1 then [c1] else []) ++ (if w2 then [c2] else []) ++ (if w3 then [c3] else []) ++ (if w4 then [c4] else []) ∧
        ∃ code, rs = [.status id code none] ∧ (code = FX_OK ↔ ∀ x ∈ tr, x.2.err = none) := by
    intro w1 w2 w3 w4 c1 c2 c3 c4 r
    obtain ⟨t1, u1, s1, rfl, e1, r, f1⟩ := runs_optCall r hr
    obtain ⟨-, hr⟩ := real_append hr
    obtain ⟨t2, u2, s2, rfl, e2, r, f2⟩ := runs_optCall r hr
    obtain ⟨-, hr⟩ := real_append hr
    obtain ⟨t3, u3, s3, rfl, e3, r, f3⟩ := runs_optCall r hr
    obtain ⟨-, hr⟩ := real_append hr
    obtain ⟨t4, u4, s4, rfl, e4, r, f4⟩ := runs_optCall r hr
    simp only [runs_ret, status, Prod.mk.injEq] at r
    obtain ⟨rfl, -, rfl⟩ := r
    refine ⟨by simp only [List.map_append, e1, e2, e3, e4, List.map_nil, List.append_nil, List.append_assoc], _, rfl, ?_⟩
    rw [f4, f3, f2, f1]
    simp only [List.append_nil, List.mem_append, true_and]
    constructor
    · rintro ⟨⟨⟨a, b⟩, c⟩, d⟩ x (hx | hx | hx | hx)
      · exact a x hx
      · exact b x hx
      · exact c x hx
      · exact d x hx
    · intro hx
      exact ⟨⟨⟨fun y hy => hx y (.inl hy), fun y hy => hx y (.inr (.inl hy))⟩, fun y hy => hx y (.inr (.inr (.inl hy)))⟩,
        fun y hy => hx y (.inr (.inr (.inr hy)))⟩
  simp only [act] at r
  cases q with
  | setstat n a =>
    simp only [wantedSets, Option.some.injEq] at hc
    subst hc
    simp only [exec, doSetstat] at r
    exact key _ _ _ _ _ _ _ _ r
  | fsetstat x a =>
    simp only [wantedSets] at hc
    split at hc
    · rename_i fd ap nm ho
      simp only [Option.some.injEq] at hc
      subst hc
      rw [← hn] at ho
      simp only [exec, doFsetstat, (toFd_of ho).1] at r
      exact key _ _ _ _ _ _ _ _ r
    · cases hc
  | lsetstat n a =>
    simp only [wantedSets] at hc
    split at hc
    · cases hc
    · rename_i hs
      simp only [Option.some.injEq] at hc
      subst hc
      simp only [exec, doLsetstat] at r
      rw [if_neg hs] at r
      have := key false _ _ _ (.truncate n a.size) _ _ _ (by unfold optCall at r ⊢; exact r)
      simp only [setCalls, hs]
      exact this
  | _ => simp [wantedSets] at hc

/-- C69: a write is answered "success" only if the data was written in full, at the place asked for (unless the file
was opened to append). -/
theorem C69_write (cfg : Cfg) (l : List HEv) (s s' : Srv) (id : Nat) (x : Bytes) (off : Nat) (data : Bytes) (fd : Nat) (ap : Bool)
    (nm : Bytes) (tr : List (Call × Resp)) (h : Hist cfg l s) (ho : current l x = some (.file fd ap nm))
    (r : Runs (act cfg s (.req id (.write x off data))) tr (s', [.status id FX_OK none])) (hr : Real tr) :
    ∃ a b, tr = (if ap then [(.write fd data, b)] else [(.lseek fd off, a), (.write fd data, b)]) ∧
      a.err = none ∧ b.err = none ∧ b.num = data.length := by
  obtain ⟨hi, hn⟩ := hist_named h
  rw [← hn] at ho
  obtain ⟨h1, -, h3⟩ := toFd_of ho
  simp only [act, exec, doWrite, h1, h3] at r
  have key : ∀ {t}, Real t → Runs (writeOut s id fd data) t (s', [.status id FX_OK none]) →
      ∃ b, t = [(.write fd data, b)] ∧ b.err = none ∧ b.num = data.length := by
    intro t ht r
    simp only [writeOut, runs_call] at r
    obtain ⟨b, t', rfl, r⟩ := r
    have := ht _ (List.mem_cons_self ..)
    cases he : b.err with
    | some e =>
      exfalso
      simp only [he, runs_ret, status, Prod.mk.injEq, List.cons.injEq, Reply.status.injEq] at r
      exact this (by rw [he, portable_ok r.2.2.1.2.1.symm])
    | none =>
      simp only [he, runs_ret, status, Prod.mk.injEq, List.cons.injEq, Reply.status.injEq] at r
      refine ⟨b, by rw [r.1], he, ?_⟩
      have h5 := r.2.2.1.2.1
      split at h5
      · assumption
      · cases h5
  cases ap with
  | true =>
    simp only [if_true] at r
    obtain ⟨b, rfl, e1, e2⟩ := key hr r
    exact ⟨{}, b, rfl, rfl, e1, e2⟩
  | false =>
    simp only [Bool.false_eq_true, if_false, runs_call] at r
    obtain ⟨a, tr', rfl, r⟩ := r
    have := hr _ (List.mem_cons_self ..)
    cases he : a.err with
    | some e =>
      exfalso
      simp only [he, runs_ret, status, Prod.mk.injEq, List.cons.injEq, Reply.status.injEq] at r
      exact this (by rw [he, portable_ok r.2.2.1.2.1.symm])
    | none =>
      simp only [he] at r
      obtain ⟨b, rfl, e1, e2⟩ := key (fun y hy => hr y (List.mem_cons_of_mem _ hy)) r
      exact ⟨a, b, rfl, he, e1, e2⟩

/-- C69: data that is returned was read at the place asked for, and is no more than was asked for. -/
theorem C69_read (cfg : Cfg) (l : List HEv) (s s' : Srv) (id : Nat) (x : Bytes) (off len : Nat) (fd : Nat) (ap : Bool) (nm b : Bytes)
    (tr : List (Call × Resp)) (h : Hist cfg l s) (ho : current l x = some (.file fd ap nm))
    (r : Runs (act cfg s (.req id (.read x off len))) tr (s', [.data id b])) :
    ∃ a, a.err = none ∧ ((len = 0 ∧ tr = [(.lseek fd off, a)] ∧ b = []) ∨
      ∃ d, tr = [(.lseek fd off, a), (.read fd (min len 261120), d)] ∧ d.err = none ∧ b = d.data.take (min len 261120) ∧ b ≠ []) := by
  obtain ⟨hi, hn⟩ := hist_named h
  rw [← hn] at ho
  obtain ⟨h1, -, -⟩ := toFd_of ho
  simp only [act, exec, doRead, h1, runs_call] at r
  obtain ⟨a, tr', rfl, r⟩ := r
  cases he : a.err with
  | some e => simp [he, status] at r
  | none =>
    refine ⟨a, he, ?_⟩
    simp only [he] at r
    by_cases h0 : len = 0
    · rw [if_pos h0] at r
      simp only [runs_ret, Prod.mk.injEq, List.cons.injEq, Reply.data.injEq] at r
      exact .inl ⟨h0, by rw [r.1], r.2.2.1.2⟩
    · rw [if_neg h0] at r
      simp only [runs_call] at r
      obtain ⟨d, tr'', rfl, r⟩ := r
      right
      cases hd : d.err with
      | some e => simp [hd, status] at r
      | none =>
        simp only [hd] at r
        split at r
        · simp [status] at r
        · rename_i hl
          simp only [runs_ret, Prod.mk.injEq, List.cons.injEq, Reply.data.injEq] at r
          refine ⟨d, by rw [r.1], hd, r.2.2.1.2, ?_⟩
          rw [r.2.2.1.2]
          intro e
          rw [List.take_eq_nil_iff] at e
          rcases e with e | e
          · omega
          · simp [e] at hl

/-- C69: a rename is answered "success" only if the file was linked under the new name and removed under the old one,
or if it was renamed after the new name was found free. -/
theorem C69_rename (cfg : Cfg) (s s' : Srv) (id : Nat) (old new : Bytes) (tr : List (Call × Resp))
    (r : Runs (act cfg s (.req id (.rename old new))) tr (s', [.status id FX_OK none])) (hr : Real tr) :
    ∃ a b c, a.err = none ∧
      ((tr = [(.lstat old, a), (.link old new, b), (.unlink old, c)] ∧ b.err = none ∧ c.err = none) ∨
        ∃ tr', tr = (.lstat old, a) :: tr' ++ [(.stat new, b), (.rename old new, c)] ∧ b.err ≠ none ∧ c.err = none ∧
          (tr' = [] ∨ ∃ d, tr' = [(.link old new, d)] ∧ d.err ≠ none)) := by
  have bad : ∀ {e t}, e ≠ 0 → ¬ Runs (.ret (status s id (portable e))) t (s', [.status id FX_OK none]) := by
    intro e t he r
    simp only [runs_ret, status, Prod.mk.injEq, List.cons.injEq, Reply.status.injEq] at r
    exact he (portable_ok r.2.2.1.2.1.symm)
  have nz : ∀ {x : Call × Resp} {e}, x ∈ tr → x.2.err = some e → e ≠ 0 := fun hx he h0 => hr _ hx (by rw [he, h0])
  have hnew : ∀ {t}, (∀ x ∈ t, x ∈ tr) → Runs (renameNew s id old new) t (s', [.status id FX_OK none]) →
      ∃ b c, t = [(.stat new, b), (.rename old new, c)] ∧ b.err ≠ none ∧ c.err = none := by
    intro t ht r
    simp only [renameNew, runs_call] at r
    obtain ⟨b, t', rfl, r⟩ := r
    split at r
    · simp [status] at r
    · rename_i hb
      simp only [simple, runs_call, runs_ret, status, Prod.mk.injEq, List.cons.injEq, Reply.status.injEq] at r
      obtain ⟨c, t'', rfl, rfl, -, ⟨-, e, -⟩, -⟩ := r
      refine ⟨b, c, rfl, hb, ?_⟩
      cases hc : c.err with
      | none => rfl
      | some n =>
        rw [stOf, hc] at e
        exact absurd (portable_ok e.symm) (nz (ht (.rename old new, c) (by simp)) hc)
  simp only [act, exec, doRename, runs_call] at r
  obtain ⟨a, tr1, rfl, r⟩ := r
  cases he : a.err with
  | some e =>
    simp only [he] at r
    exact absurd r (bad (nz (List.mem_cons_self ..) he))
  | none =>
    simp only [he] at r
    split at r
    · simp only [renameFile, runs_call] at r
      obtain ⟨b, tr2, rfl, r⟩ := r
      cases hb : b.err with
      | some e =>
        simp only [hb] at r
        split at r
        · obtain ⟨b', c, rfl, h1, h2⟩ := hnew (fun x hx => by simp [hx]) r
          exact ⟨a, b', c, he, .inr ⟨[(.link old new, b)], rfl, h1, h2, .inr ⟨b, rfl, by simp [hb]⟩⟩⟩
        · exact absurd r (bad (nz (x := (.link old new, b)) (by simp) hb))
      | none =>
        simp only [hb, runs_call] at r
        obtain ⟨c, tr3, rfl, r⟩ := r
        cases hc : c.err with
        | some e =>
          simp only [hc, runs_call] at r
          obtain ⟨d, tr4, rfl, r⟩ := r
          exact absurd r (bad (nz (x := (.unlink old, c)) (by simp) hc))
        | none =>
          simp only [hc, runs_ret] at r
          exact ⟨a, b, c, he, .inl ⟨by rw [r.1], hb, hc⟩⟩
    · obtain ⟨b', c, rfl, h1, h2⟩ := hnew (fun x hx => by simp [hx]) r
      exact ⟨a, b', c, he, .inr ⟨[], rfl, h1, h2, .inl rfl⟩⟩

/-! #### Copying -/

/-- What was read, and what was written, in a copy. -/
def readBytes : List (Call × Resp) → Bytes
  | [] => []
  | (.readAll _ n, r) :: l => r.data.take n ++ readBytes l
  | _ :: l => readBytes l

def writtenBytes : List (Call × Resp) → Bytes
  | [] => []
  | (.writeAll _ d, _) :: l => d ++ writtenBytes l
  | _ :: l => writtenBytes l

def nReads : List (Call × Resp) → Nat
  | [] => 0
  | (.readAll _ _, _) :: l => nReads l + 1
  | _ :: l => nReads l

/-- `atomicio` fails with an error. -/
def Atomic (tr : List (Call × Resp)) : Prop :=
  ∀ x ∈ tr, (∀ f n, x.1 = .readAll f n → x.2.data = [] → x.2.err ≠ none) ∧
    (∀ f d, x.1 = .writeAll f d → x.2.num ≠ d.length → x.2.err ≠ none)

theorem getD_nz {o : Option Nat} (h : o ≠ some 0) (h' : o ≠ none) : portable (o.getD 0) ≠ FX_OK := by
  cases o with
  | none => exact absurd rfl h'
  | some e =>
    intro hx
    exact h (congrArg some (portable_ok hx))

theorem copyLoop_eof {s s' : Srv} {id rfd wfd : Nat} (fuel n : Nat) (tr : List (Call × Resp))
    (r : Runs (copyLoop rfd wfd true (copyDone s id) fuel n) tr (s', [.status id FX_OK none])) (hr : Real tr) (ha : Atomic tr)
    (hn : 65536 * nReads tr < n) :
    writtenBytes tr = readBytes tr ∧ (∀ x ∈ tr, ∀ d, x.1 = .writeAll wfd d → x.2.num = d.length) ∧
      ∃ tr' k a, tr = tr' ++ [(.readAll rfd k, a)] ∧ a.data = [] ∧ a.err = some 32 := by
  have fin : ∀ {e : CopyEnd} {t}, Runs (copyDone s id e) t (s', [.status id FX_OK none]) → t = [] ∧ (e.2 = 0 ∨ e.1 = FX_OK) := by
    intro e t r
    simp only [copyDone, runs_ret, status, Prod.mk.injEq, List.cons.injEq, Reply.status.injEq] at r
    refine ⟨r.1, ?_⟩
    have := r.2.2.1.2.1
    split at this
    · exact .inl ‹_›
    · exact .inr this.symm
  induction fuel generalizing n tr with
  | zero =>
    obtain ⟨rfl, h | h⟩ := fin r
    · simp only at h; omega
    · cases h
  | succ fuel ih =>
    simp only [copyLoop] at r
    rw [if_neg (by simp)] at r
    rw [if_neg (by omega)] at r
    simp only [runs_call] at r
    obtain ⟨a, tr1, rfl, r⟩ := r
    have hn1 : 65536 * (nReads tr1 + 1) < n := hn
    have hreal := hr _ (List.mem_cons_self ..)
    have hat := ha _ (List.mem_cons_self ..)
    simp only at hreal hat
    split at r
    · rename_i hl
      obtain ⟨rfl, h | h⟩ := fin r
      · simp only at h; omega
      · have hd : a.data = [] := List.length_eq_zero_iff.1 hl
        have he : a.err = some 32 := by
          simp only at h
          split at h
          · assumption
          · exact absurd h (getD_nz hreal (hat.1 _ _ rfl hd))
        refine ⟨by simp [writtenBytes, readBytes, hd], ?_, [], _, a, rfl, hd, he⟩
        intro x hx d hxd
        simp only [List.mem_singleton] at hx
        rw [hx] at hxd; cases hxd
    · rename_i hl
      simp only [runs_call] at r
      obtain ⟨b, tr2, rfl, r⟩ := r
      have hreal2 := hr (.writeAll wfd (a.data.take (min 65536 n)), b) (by simp)
      have hat2 := (ha (.writeAll wfd (a.data.take (min 65536 n)), b) (by simp)).2
      have hn2 : 65536 * (nReads tr2 + 1) < n := hn1
      split at r
      · rename_i hw
        exfalso
        obtain ⟨rfl, h | h⟩ := fin r
        · simp only at h; omega
        · exact getD_nz hreal2 (hat2 _ _ rfl hw) h
      · rename_i hw
        obtain ⟨h1, h2, tr', k, z, h3, h4⟩ := ih (n - min 65536 n) tr2 r (fun x hx => hr x (by simp [hx])) (fun x hx => ha x (by simp [hx])) (by omega)
        refine ⟨by simp [writtenBytes, readBytes, h1], ?_, (.readAll rfd (min 65536 n), a) :: (.writeAll wfd (a.data.take (min 65536 n)), b) :: tr', k, z, by rw [h3]; rfl, h4⟩
        intro x hx d hxd
        simp only [List.mem_cons] at hx
        rcases hx with rfl | rfl | hx
        · cases hxd
        · simp only [Call.writeAll.injEq, true_and] at hxd
          rw [← hxd]
          simpa using hw
        · exact h2 x hx d hxd

/-- C69: a copy to the end of the file is answered "success" only if the end was reached, every write was complete,
and what was written is what was read.  (Fewer than 2^48 chunks, so that the count of what is left to read does not
reach zero.) -/
theorem C69_copy_to_end (cfg : Cfg) (l : List HEv) (s s' : Srv) (id : Nat) (x y : Bytes) (roff woff : Nat) (tr : List (Call × Resp))
    (h : Hist cfg l s) (hro : roff < 2 ^ 63) (hn : nReads tr < 2 ^ 46)
    (r : Runs (act cfg s (.req id (.copyData x roff 0 y woff))) tr (s', [.status id FX_OK none])) (hr : Real tr) (ha : Atomic tr) :
    writtenBytes tr = readBytes tr ∧
    ∃ rfd a1 n1 wfd a2 n2, current l x = some (.file rfd a1 n1) ∧ current l y = some (.file wfd a2 n2) ∧
      (∀ z ∈ tr, ∀ d, z.1 = .writeAll wfd d → z.2.num = d.length) ∧
      ∃ tr' k a, tr = tr' ++ [(.readAll rfd k, a)] ∧ a.data = [] ∧ a.err = some 32 := by
  obtain ⟨hi, hnm⟩ := hist_named h
  simp only [act, exec, doCopy] at r
  split at r
  · rename_i rfd wfd h1 h2
    obtain ⟨a1, n1, e1⟩ := toFd_some h1
    obtain ⟨a2, n2, e2⟩ := toFd_some h2
    rw [hnm] at e1 e2
    have loop : ∀ t, Real t → Atomic t → nReads t < 2 ^ 46 →
        Runs (copyLoop rfd wfd true (copyDone s id) (2 ^ 64 - 1 - roff + 1) (2 ^ 64 - 1 - roff)) t (s', [.status id FX_OK none]) →
        writtenBytes t = readBytes t ∧ (∀ x ∈ t, ∀ d, x.1 = .writeAll wfd d → x.2.num = d.length) ∧
          ∃ tr' k a, t = tr' ++ [(.readAll rfd k, a)] ∧ a.data = [] ∧ a.err = some 32 :=
      fun t h1 h2 h3 h4 => copyLoop_eof _ _ t h4 h1 h2 (by omega)
    split at r
    · simp [status] at r
    · simp only [runs_call] at r
      obtain ⟨b, tr1, rfl, r⟩ := r
      have hr1 : Real tr1 := fun x hx => hr x (by simp [hx])
      have ha1 : Atomic tr1 := fun x hx => ha x (by simp [hx])
      cases hb : b.err with
      | some e =>
        exfalso
        simp only [hb, runs_ret, status, Prod.mk.injEq, List.cons.injEq, Reply.status.injEq] at r
        exact hr _ (List.mem_cons_self ..) (by rw [hb, portable_ok r.2.2.1.2.1.symm])
      | none =>
        simp only [hb, if_true, copySeek, decide_true] at r
        split at r
        · obtain ⟨q1, q2, tr', k, z, q3, q4⟩ := loop tr1 hr1 ha1 hn r
          refine ⟨by simp [writtenBytes, readBytes, q1], rfd, a1, n1, wfd, a2, n2, e1, e2, ?_, _ :: tr', k, z, by rw [q3]; rfl, q4⟩
          intro v hv d hvd
          rcases List.mem_cons.1 hv with rfl | hv
          · cases hvd
          · exact q2 v hv d hvd
        · simp only [runs_call] at r
          obtain ⟨c, tr2, rfl, r⟩ := r
          cases hc : c.err with
          | some e =>
            exfalso
            simp only [hc, runs_ret, status, Prod.mk.injEq, List.cons.injEq, Reply.status.injEq] at r
            exact hr1 _ (List.mem_cons_self ..) (by rw [hc, portable_ok r.2.2.1.2.1.symm])
          | none =>
            simp only [hc] at r
            obtain ⟨q1, q2, tr', k, z, q3, q4⟩ := loop tr2 (fun x hx => hr1 x (by simp [hx])) (fun x hx => ha1 x (by simp [hx])) hn r
            refine ⟨by simp [writtenBytes, readBytes, q1], rfd, a1, n1, wfd, a2, n2, e1, e2, ?_, _ :: _ :: tr', k, z, by rw [q3]; rfl, q4⟩
            intro v hv d hvd
            rcases List.mem_cons.1 hv with rfl | hv
            · cases hvd
            · rcases List.mem_cons.1 hv with rfl | hv
              · cases hvd
              · exact q2 v hv d hvd
  · simp [status] at r

/-- How much was asked of read(2). -/
def askedBytes : List (Call × Resp) → Nat
  | [] => 0
  | (.readAll _ n, _) :: l => n + askedBytes l
  | _ :: l => askedBytes l

/-- A call of a copy that did its work. -/
def Worked (z : Call × Resp) : Prop :=
  (∀ f n, z.1 = .readAll f n → z.2.data ≠ []) ∧ (∀ f d, z.1 = .writeAll f d → z.2.num = d.length)

theorem copyLoop_len {s s' : Srv} {id rfd wfd : Nat} (fuel n : Nat) (tr : List (Call × Resp)) (hf : n < fuel)
    (r : Runs (copyLoop rfd wfd false (copyDone s id) fuel n) tr (s', [.status id FX_OK none])) (hr : Real tr) (ha : Atomic tr) :
    askedBytes tr = n ∧ (∀ pre z suf, tr = pre ++ z :: suf → suf ≠ [] → Worked z) := by
  have fin : ∀ {e : CopyEnd} {t}, Runs (copyDone s id e) t (s', [.status id FX_OK none]) → t = [] ∧ (e.2 = 0 ∨ e.1 = FX_OK) := by
    intro e t r
    simp only [copyDone, runs_ret, status, Prod.mk.injEq, List.cons.injEq, Reply.status.injEq] at r
    refine ⟨r.1, ?_⟩
    have := r.2.2.1.2.1
    split at this
    · exact .inl ‹_›
    · exact .inr this.symm
  induction fuel generalizing n tr with
  | zero => omega
  | succ fuel ih =>
    simp only [copyLoop] at r
    by_cases h0 : n = 0
    · rw [if_pos ⟨h0, trivial⟩] at r
      obtain ⟨rfl, -⟩ := fin r
      refine ⟨h0.symm, ?_⟩
      intro pre z suf h
      simp at h
    rw [if_neg (by simp [h0]), if_neg (by omega)] at r
    simp only [runs_call] at r
    obtain ⟨a, tr1, rfl, r⟩ := r
    have hreal := hr _ (List.mem_cons_self ..)
    have hat := ha _ (List.mem_cons_self ..)
    simp only at hreal hat
    split at r
    · rename_i hl
      have hd : a.data = [] := List.length_eq_zero_iff.1 hl
      obtain ⟨rfl, h | h⟩ := fin r
      · refine ⟨by simp only at h; simp only [askedBytes]; omega, ?_⟩
        intro pre z suf h hs
        cases pre with
        | nil => simp only [List.nil_append, List.cons.injEq] at h; exact absurd h.2.symm hs
        | cons p q => simp at h
      · exfalso
        simp only at h
        split at h
        · cases h
        · exact getD_nz hreal (hat.1 _ _ rfl hd) h
    · rename_i hl
      simp only [runs_call] at r
      obtain ⟨b, tr2, rfl, r⟩ := r
      have hreal2 := hr (.writeAll wfd (a.data.take (min 65536 n)), b) (by simp)
      have hat2 := (ha (.writeAll wfd (a.data.take (min 65536 n)), b) (by simp)).2
      have w1 : Worked (.readAll rfd (min 65536 n), a) := by
        refine ⟨fun f n h hd => hl (by rw [show a.data = [] from hd]; rfl), fun f d h => ?_⟩
        cases h
      split at r
      · rename_i hw
        obtain ⟨rfl, h | h⟩ := fin r
        · refine ⟨by simp only at h; simp only [askedBytes]; omega, ?_⟩
          intro pre z suf h hs
          rcases pre with _ | ⟨p, _ | ⟨q, t⟩⟩
          · simp only [List.nil_append, List.cons.injEq] at h; rw [← h.1]; exact w1
          · simp only [List.cons_append, List.nil_append, List.cons.injEq] at h; exact absurd h.2.2.symm hs
          · simp at h
        · exact absurd h (getD_nz hreal2 (hat2 _ _ rfl hw))
      · rename_i hw
        obtain ⟨h1, h2⟩ := ih (n - min 65536 n) tr2 (by omega) r (fun x hx => hr x (by simp [hx])) (fun x hx => ha x (by simp [hx]))
        refine ⟨by simp only [askedBytes, h1]; omega, ?_⟩
        intro pre z suf h hs
        rcases pre with _ | ⟨p, _ | ⟨q, t⟩⟩
        · simp only [List.nil_append, List.cons.injEq] at h; rw [← h.1]; exact w1
        · simp only [List.cons_append, List.nil_append, List.cons.injEq] at h
          rw [← h.2.1]
          refine ⟨fun f n h => ?_, fun f d h => ?_⟩
          · cases h
          · simp only [Call.writeAll.injEq] at h
            rw [← h.2]; simpa using hw
        · simp only [List.cons_append, List.cons.injEq] at h
          exact h2 t z suf h.2.2 hs

/-- C69 of a copy of a given length, in part: if it is answered "success", the whole length was asked for, and every
call but the last did its work: nothing short of the end was left out.  What is missing is that of the last call, see
`C69_copy_false`. -/
theorem C69_copy_length_partial (cfg : Cfg) (s s' : Srv) (id : Nat) (x y : Bytes) (roff rlen woff : Nat) (tr : List (Call × Resp))
    (hl : rlen ≠ 0)
    (r : Runs (act cfg s (.req id (.copyData x roff rlen y woff))) tr (s', [.status id FX_OK none])) (hr : Real tr) (ha : Atomic tr) :
    askedBytes tr = rlen ∧ (∀ pre z suf, tr = pre ++ z :: suf → suf ≠ [] → Worked z) := by
  have seek : ∀ {f o : Nat} {a : Resp} {t : List (Call × Resp)},
      (askedBytes t = rlen ∧ (∀ pre z suf, t = pre ++ z :: suf → suf ≠ [] → Worked z)) →
      askedBytes ((.lseek f o, a) :: t) = rlen ∧ (∀ pre z suf, (.lseek f o, a) :: t = pre ++ z :: suf → suf ≠ [] → Worked z) := by
    intro f o a t h
    refine ⟨h.1, ?_⟩
    intro pre z suf he hs
    cases pre with
    | nil =>
      simp only [List.nil_append, List.cons.injEq] at he
      rw [← he.1]
      exact ⟨fun f n h => by (cases h), fun f d h => by (cases h)⟩
    | cons p q =>
      simp only [List.cons_append, List.cons.injEq] at he
      exact h.2 q z suf he.2 hs
  simp only [act, exec, doCopy] at r
  split at r
  · rename_i rfd wfd h1 h2
    split at r
    · simp [status] at r
    · simp only [runs_call] at r
      obtain ⟨b, tr1, rfl, r⟩ := r
      have hr1 : Real tr1 := fun x hx => hr x (by simp [hx])
      have ha1 : Atomic tr1 := fun x hx => ha x (by simp [hx])
      cases hb : b.err with
      | some e =>
        exfalso
        simp only [hb, runs_ret, status, Prod.mk.injEq, List.cons.injEq, Reply.status.injEq] at r
        exact hr _ (List.mem_cons_self ..) (by rw [hb, portable_ok r.2.2.1.2.1.symm])
      | none =>
        simp only [hb, if_neg hl, copySeek, decide_eq_false hl] at r
        split at r
        · exact seek (copyLoop_len _ _ tr1 (by omega) r hr1 ha1)
        · simp only [runs_call] at r
          obtain ⟨c, tr2, rfl, r⟩ := r
          cases hc : c.err with
          | some e =>
            exfalso
            simp only [hc, runs_ret, status, Prod.mk.injEq, List.cons.injEq, Reply.status.injEq] at r
            exact hr1 _ (List.mem_cons_self ..) (by rw [hc, portable_ok r.2.2.1.2.1.symm])
          | none =>
            simp only [hc] at r
            exact seek (seek (copyLoop_len _ _ tr2 (by omega) r (fun x hx => hr1 x (by simp [hx])) (fun x hx => ha1 x (by simp [hx]))))
  · simp [status] at r

/-- Two files are opened. -/
def twoOpen : Srv := { initDone := true, version := 3, tab :=
  ⟨[⟨.file, 5, {}, b!"a", none⟩, ⟨.file, 6, { acc := .wr }, b!"b", none⟩], none⟩ }

theorem hist_twoOpen : ∃ l, Hist {} l twoOpen ∧ current l (toStr 0) = some (.file 5 false b!"a") ∧
    current l (toStr 1) = some (.file 6 false b!"b") := by
  have h0 : Hist {} [] ({ initDone := true, version := 3 } : Srv) :=
    .step (a := .init 3) (tr := []) (rs := [.version (announced.filter (announces {}))]) .start (.ret _)
  have h1 := Hist.step (a := .req 1 (.open_ b!"a" 1 {})) (tr := [(.open_ b!"a" {} 0o666, { num := 5 })])
    (s' := { initDone := true, version := 3, tab := ⟨[⟨.file, 5, {}, b!"a", none⟩], none⟩ }) (rs := [.handle 1 (toStr 0)]) h0
    (.call (.ret _))
  have h2 := Hist.step (a := .req 2 (.open_ b!"b" 2 {})) (tr := [(.open_ b!"b" { acc := .wr } 0o666, { num := 6 })])
    (s' := twoOpen) (rs := [.handle 2 (toStr 1)]) h1 (.call (.ret _))
  exact ⟨_, h2, by decide, by decide⟩

theorem two_fd : toFd twoOpen.tab (getHandle twoOpen.tab (toStr 0)) = some 5 ∧ toFd twoOpen.tab (getHandle twoOpen.tab (toStr 1)) = some 6 := by
  decide

/-- A copy between them, up to the loop. -/
theorem runs_two {rlen n : Nat} {tr : List (Call × Resp)} {x : Srv × List Reply} (hn : (if rlen = 0 then 2 ^ 64 - 1 - 0 else rlen) = n)
    (r : Runs (copyLoop 5 6 (decide (rlen = 0)) (copyDone twoOpen 9) (n + 1) n) tr x) :
    Runs (act {} twoOpen (.req 9 (.copyData (toStr 0) 0 rlen (toStr 1) 0))) ((.lseek 5 0, {}) :: (.lseek 6 0, {}) :: tr) x := by
  simp only [act, exec, doCopy, two_fd.1, two_fd.2]
  rw [if_neg (by decide), hn]
  refine .call ?_
  simp only [copySeek]
  rw [if_neg (by decide)]
  refine .call ?_
  exact r

/-- C69 does not hold of a copy of a given length: if its last part cannot be written, it is answered "success" all
the same (sftp-server.c:1664 and 1690: the length counts as read before anything is). -/
theorem C69_copy_false : ∃ (l : List HEv) (s s' : Srv) (tr : List (Call × Resp)),
    Hist {} l s ∧ Real tr ∧ Atomic tr ∧
    Runs (act {} s (.req 9 (.copyData (toStr 0) 0 5 (toStr 1) 0))) tr (s', [.status 9 FX_OK none]) ∧
    (∀ x ∈ tr, ∀ d, x.1 = .writeAll 6 d → x.2.num = 0 ∧ x.2.err = some 28) := by
  obtain ⟨l, h, -⟩ := hist_twoOpen
  refine ⟨l, twoOpen, twoOpen, [(.lseek 5 0, {}), (.lseek 6 0, {}), (.readAll 5 5, { data := b!"hello" }),
    (.writeAll 6 b!"hello", { err := some 28 })], h, ?_, ?_, runs_two rfl (.call (.call (.ret _))), ?_⟩
  · intro x hx
    simp only [List.mem_cons, List.not_mem_nil, or_false] at hx
    rcases hx with rfl | rfl | rfl | rfl <;> simp
  · intro x hx
    simp only [List.mem_cons, List.not_mem_nil, or_false] at hx
    rcases hx with rfl | rfl | rfl | rfl <;> simp
  · intro x hx d hd
    simp only [List.mem_cons, List.not_mem_nil, or_false] at hx
    rcases hx with rfl | rfl | rfl | rfl <;> simp at hd ⊢

/-! ### C70 -/

/-- The attributes without what their flags leave out. -/
def Attrib.given (a : Attrib) : Attrib where
  flags := a.flags
  size := if a.flags.testBit 0 then a.size else 0
  uid := if a.flags.testBit 1 then a.uid else 0
  gid := if a.flags.testBit 1 then a.gid else 0
  perm := if a.flags.testBit 2 then a.perm else 0
  atime := if a.flags.testBit 3 then a.atime else 0
  mtime := if a.flags.testBit 3 then a.mtime else 0

/-- Attributes that fit their fields; no extended ones. -/
def Attrib.Fits (a : Attrib) : Prop :=
  a.flags < 2 ^ 32 ∧ a.flags.testBit 31 = false ∧ a.size < 2 ^ 64 ∧ a.uid < 2 ^ 32 ∧ a.gid < 2 ^ 32 ∧ a.perm < 2 ^ 32 ∧
    a.atime < 2 ^ 32 ∧ a.mtime < 2 ^ 32

/-- C70: attributes that are written are read back as they were. -/
theorem C70_attributes (a : Attrib) (h : a.Fits) (x : Bytes) : decAttrib (encAttrib a ++ x) = some (a.given, x) := by
  obtain ⟨h0, h31, h1, h2, h3, h4, h5, h6⟩ := h
  unfold decAttrib encAttrib
  simp only [List.append_assoc]
  unfold pbind
  rw [getInt_append 4 _ _ (by omega)]
  simp only [h31]
  cases b0 : a.flags.testBit 0 <;> cases b1 : a.flags.testBit 1 <;> cases b2 : a.flags.testBit 2 <;> cases b3 : a.flags.testBit 3 <;>
    simp only [Attrib.given, b0, b1, b2, b3, if_true, Bool.false_eq_true, if_false, List.nil_append, List.append_assoc, pret,
      getInt_append 8 a.size _ (by omega), getInt_append 4 a.uid _ (by omega), getInt_append 4 a.gid _ (by omega),
      getInt_append 4 a.perm _ (by omega), getInt_append 4 a.atime _ (by omega), getInt_append 4 a.mtime _ (by omega)]

/-- C70: and what is read is determined by the bytes: reading uses up what writing these attributes would have made, up
to extended ones. -/
theorem C70_exact (b : Bytes) (a : Attrib) (r : Bytes) (h : decAttrib b = some (a, r)) :
    a.given = a ∧ a.flags < 2 ^ 32 ∧ ∃ e, b = encAttrib a ++ e ++ r ∧ (a.flags.testBit 31 = false → e = []) := by
  unfold decAttrib at h
  replace h := pbind_some h
  obtain ⟨flags, r0, g0, h⟩ := h
  obtain ⟨rfl, f0⟩ := getInt_some g0
  have opt : ∀ {n : Nat} {c : Bool} {b : Bytes} {v : Nat} {r : Bytes}, (if c = true then getInt n else pret 0) b = some (v, r) →
      b = (if c = true then be n v else []) ++ r ∧ (c = false → v = 0) := by
    intro n c b v r hx
    cases c with
    | true => simp only [if_true] at hx ⊢; exact ⟨(getInt_some hx).1, by simp⟩
    | false =>
      have := pret_some (by simpa using hx)
      simp only [Prod.mk.injEq] at this
      simp [this.1, this.2]
  replace h := pbind_some h
  obtain ⟨size, r1, g1, h⟩ := h
  obtain ⟨rfl, f1⟩ := opt g1
  replace h := pbind_some h
  obtain ⟨uid, r2, g2, h⟩ := h
  obtain ⟨rfl, f2⟩ := opt g2
  replace h := pbind_some h
  obtain ⟨gid, r3, g3, h⟩ := h
  obtain ⟨rfl, f3⟩ := opt g3
  replace h := pbind_some h
  obtain ⟨perm, r4, g4, h⟩ := h
  obtain ⟨rfl, f4⟩ := opt g4
  replace h := pbind_some h
  obtain ⟨atime, r5, g5, h⟩ := h
  obtain ⟨rfl, f5⟩ := opt g5
  replace h := pbind_some h
  obtain ⟨mtime, r6, g6, h⟩ := h
  obtain ⟨rfl, f6⟩ := opt g6
  replace h := pbind_some h
  obtain ⟨u, r7, g7, h⟩ := h
  have := pret_some h
  simp only [Prod.mk.injEq] at this
  obtain ⟨rfl, rfl⟩ := this
  have hg : ∃ e, r6 = e ++ r ∧ (flags.testBit 31 = false → e = []) := by
    cases c : flags.testBit 31 with
    | false =>
      rw [c] at g7
      have := pret_some (by simpa using g7)
      simp only [Prod.mk.injEq] at this
      exact ⟨[], by simp [this.2], fun _ => rfl⟩
    | true =>
      rw [c] at g7
      simp only [if_true] at g7
      have good : Good (pbind (getInt 4) fun n => if n > 0x100000 then pfail else extAttribs n) :=
        good_bind (good_int 4) fun n => good_ite good_fail (good_extAttribs n)
      obtain ⟨e, he, -⟩ := good _ _ _ g7
      exact ⟨e, he, by simp⟩
  obtain ⟨e, rfl, he⟩ := hg
  refine ⟨?_, by simpa using f0, e, ?_, he⟩
  · simp only [Attrib.given, Attrib.mk.injEq, true_and]
    refine ⟨?_, ?_, ?_, ?_, ?_, ?_⟩
    · split
      · rfl
      · rename_i hb; exact (f1 (by simpa using hb)).symm
    · split
      · rfl
      · rename_i hb; exact (f2 (by simpa using hb)).symm
    · split
      · rfl
      · rename_i hb; exact (f3 (by simpa using hb)).symm
    · split
      · rfl
      · rename_i hb; exact (f4 (by simpa using hb)).symm
    · split
      · rfl
      · rename_i hb; exact (f5 (by simpa using hb)).symm
    · split
      · rfl
      · rename_i hb; exact (f6 (by simpa using hb)).symm
  · unfold encAttrib
    simp only [List.append_assoc]
    cases flags.testBit 0 <;> cases flags.testBit 1 <;> cases flags.testBit 2 <;> cases flags.testBit 3 <;> simp

/-! ### Concrete cases -/

example : ∃ tr s', Runs (act {} twoOpen (.req 4 (.read (toStr 0) 7 3))) tr (s', [.data 4 b!"xyz"]) := by
  refine ⟨[(.lseek 5 7, {}), (.read 5 3, { data := b!"xyz" })], twoOpen, ?_⟩
  simp only [act, exec, doRead, two_fd.1]
  exact .call (.call (.ret _))

example : ∃ tr s', Runs (act {} twoOpen (.req 4 (.write (toStr 1) 7 b!"xy"))) tr (s', [.status 4 FX_OK none]) := by
  refine ⟨[(.lseek 6 7, {}), (.write 6 b!"xy", { num := 2 })], twoOpen, ?_⟩
  simp only [act, exec, doWrite, two_fd.2]
  rw [if_neg (by decide)]
  exact .call (.call (.ret _))

example : ∃ tr s', Runs (act {} twoOpen (.req 9 (.copyData (toStr 0) 0 0 (toStr 1) 0))) tr (s', [.status 9 FX_OK none]) ∧
    nReads tr = 2 ∧ writtenBytes tr = b!"xy" := by
  refine ⟨(.lseek 5 0, {}) :: (.lseek 6 0, {}) :: [(.readAll 5 65536, { data := b!"xy" }), (.writeAll 6 b!"xy", { num := 2 }),
    (.readAll 5 65536, { err := some 32 })], twoOpen, runs_two (n := 18446744073709551613 + 1 + 1) rfl ?_, rfl, rfl⟩
  rw [copyLoop, if_neg (by simp), if_neg (by decide)]
  refine .call ?_
  simp only
  rw [if_neg (by decide)]
  refine .call ?_
  rw [if_neg (by decide), copyLoop, if_neg (by simp), if_neg (by decide)]
  refine .call ?_
  rw [if_pos (by decide)]
  simp only [decide_true, if_true]
  unfold copyDone
  rw [ite_self]
  exact .ret _

example : ∃ tr s', Runs (act {} twoOpen (.req 4 (.rename b!"a" b!"c"))) tr (s', [.status 4 FX_OK none]) :=
  ⟨[(.lstat b!"a", { st := { mode := 0o100644 } }), (.link b!"a" b!"c", {}), (.unlink b!"a", {})], twoOpen, .call (.call (.call (.ret _)))⟩

example : ∃ tr s', Runs (act {} twoOpen (.req 4 (.setstat b!"a" { flags := 5, size := 3, perm := 0o100644 }))) tr (s', [.status 4 FX_DENIED none]) ∧
    tr.map Prod.fst = [.truncate b!"a" 3, .chmod b!"a" 0o644] :=
  ⟨[(.truncate b!"a" 3, { err := some 13 }), (.chmod b!"a" 0o644, {})], twoOpen, .call (.call (.ret _)), rfl⟩

/-! ### Answers on the wire -/

/-- `n` entries of a directory: a name, a line for people, attributes. -/
def entries : Nat → Parser (List (Bytes × Bytes × Attrib))
  | 0 => pret []
  | n + 1 => pbind getStr fun a => pbind getStr fun b => pbind decAttrib fun c => pbind (entries n) fun r => pret ((a, b, c) :: r)

/-- How draft-ietf-secsh-filexfer-02 has an answer read, after its type. -/
def readAnswer (t : UInt8) : Parser Reply :=
  if t = 101 then pbind (getInt 4) fun id => pbind (getInt 4) fun code => pbind getStr fun m => pbind getStr fun _ => pret (.status id code (some m))
  else if t = 102 then pbind (getInt 4) fun id => pbind getStr fun h => pret (.handle id h)
  else if t = 103 then pbind (getInt 4) fun id => pbind getStr fun d => pret (.data id d)
  else if t = 104 then pbind (getInt 4) fun id => pbind (getInt 4) fun n => pbind (entries n) fun l => pret (.names id l)
  else if t = 105 then pbind (getInt 4) fun id => pbind decAttrib fun a => pret (.attrs id a)
  else pfail

/-- What an answer says. -/
def Reply.said : Reply → Reply
  | .status id code m => .status id code (some (m.getD (statusMessage code)))
  | .names id l => .names id (l.map fun x => (x.1, x.2.1, x.2.2.given))
  | .attrs id a => .attrs id a.given
  | r => r

/-- An answer whose parts are not too large to be sent. -/
def Reply.Fits : Reply → Prop
  | .status id code m => id < 2 ^ 32 ∧ code < 2 ^ 32 ∧ (m.getD (statusMessage code)).length ≤ 134217724
  | .handle id s => id < 2 ^ 32 ∧ s.length ≤ 134217724
  | .data id s => id < 2 ^ 32 ∧ s.length ≤ 134217724
  | .names id l => id < 2 ^ 32 ∧ l.length < 2 ^ 32 ∧ ∀ x ∈ l, x.1.length ≤ 134217724 ∧ x.2.1.length ≤ 134217724 ∧ x.2.2.Fits
  | .attrs id a => id < 2 ^ 32 ∧ a.Fits
  | _ => False

theorem entries_read (l : List (Bytes × Bytes × Attrib))
    (h : ∀ x ∈ l, x.1.length ≤ 134217724 ∧ x.2.1.length ≤ 134217724 ∧ x.2.2.Fits) (y : Bytes) :
    entries l.length ((l.map fun x => str x.1 ++ str x.2.1 ++ encAttrib x.2.2).flatten ++ y) =
      some (l.map fun x => (x.1, x.2.1, x.2.2.given), y) := by
  induction l with
  | nil => rfl
  | cons x r ih =>
    obtain ⟨h1, h2, h3⟩ := h x (by simp)
    have ih' := ih fun z hz => h z (List.mem_cons_of_mem _ hz)
    simp only [List.append_assoc] at ih'
    simp only [List.length_cons, entries, List.map_cons, List.flatten_cons, List.append_assoc, pbind, getStr_append _ _ h1,
      getStr_append _ _ h2, C70_attributes _ h3, ih', pret]

/-- C68: an answer that is written is read as what it says. -/
theorem C68_answer (v : Nat) (hv : 3 ≤ v) (rep : Reply) (h : rep.Fits) (y : Bytes) :
    ∃ t body, encReply v rep = t :: body ∧ readAnswer t (body ++ y) = some (rep.said, y) := by
  cases rep with
  | status id code m =>
    obtain ⟨h1, h2, h3⟩ := h
    refine ⟨_, _, rfl, ?_⟩
    simp only [readAnswer, if_true, if_pos hv, List.append_eq, List.nil_append, List.append_assoc, pbind, getInt_append 4 id _ (show id < 256 ^ 4 by omega),
      getInt_append 4 code _ (show code < 256 ^ 4 by omega), getStr_append _ _ h3, getStr_append [] _ (by decide), pret, Reply.said]
  | handle id s =>
    obtain ⟨h1, h2⟩ := h
    refine ⟨_, _, rfl, ?_⟩
    rw [readAnswer, if_neg (by decide), if_pos rfl]
    simp only [List.append_eq, List.nil_append, List.append_assoc, pbind, getInt_append 4 id _ (show id < 256 ^ 4 by omega), getStr_append _ _ h2, pret,
      Reply.said]
  | data id s =>
    obtain ⟨h1, h2⟩ := h
    refine ⟨_, _, rfl, ?_⟩
    rw [readAnswer, if_neg (by decide), if_neg (by decide), if_pos rfl]
    simp only [List.append_eq, List.nil_append, List.append_assoc, pbind, getInt_append 4 id _ (show id < 256 ^ 4 by omega), getStr_append _ _ h2, pret,
      Reply.said]
  | names id l =>
    obtain ⟨h1, h2, h3⟩ := h
    refine ⟨_, _, rfl, ?_⟩
    rw [readAnswer, if_neg (by decide), if_neg (by decide), if_neg (by decide), if_pos rfl]
    simp only [List.append_eq, List.nil_append, List.append_assoc, pbind, getInt_append 4 id _ (show id < 256 ^ 4 by omega),
      getInt_append 4 l.length _ (show l.length < 256 ^ 4 by omega), pret, Reply.said]
    have := entries_read l h3 y
    simp only [List.append_assoc] at this
    rw [this]
  | attrs id a =>
    obtain ⟨h1, h2⟩ := h
    refine ⟨_, _, rfl, ?_⟩
    rw [readAnswer, if_neg (by decide), if_neg (by decide), if_neg (by decide), if_neg (by decide), if_pos rfl]
    simp only [List.append_eq, List.nil_append, List.append_assoc, pbind, getInt_append 4 id _ (show id < 256 ^ 4 by omega), C70_attributes _ h2, pret,
      Reply.said]
  | ext id b => exact h.elim
  | version l => exact h.elim

example : (Reply.names 4 [(b!"a", b!"-rw a", { flags := 1, size := 5 })]).Fits := by
  refine ⟨by decide, by decide, ?_⟩
  simp [Attrib.Fits]
  decide

example : decAttrib (encAttrib { flags := 5, size := 300, perm := 0o644 } ++ [9]) = some ({ flags := 5, size := 300, perm := 0o644 }, [9]) := by
  decide

end Verif.Sftp
