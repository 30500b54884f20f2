/- Why a channel goes away. -/
import Verif.Chan.Flow

namespace Verif.Chan
open Verif Wire

def CR (c : Chan) : R → Prop
  | .ok c' _ => c'.closeRcvd = c.closeRcvd ∧ (c'.typ = .zombie → c.typ = .zombie) ∧ c'.local_ = c.local_
  | _ => True

theorem CR.bind {c : Chan} {r : R} {f : Chan → R} (h : CR c r) (hf : ∀ c', CR c' (f c')) : CR c (r.bind f) := by
  cases r with
  | fatal => trivial
  | freed o => trivial
  | ok c1 o1 =>
    have := hf c1
    simp only [R.bind]
    cases hc : f c1 with
    | fatal => trivial
    | freed o => trivial
    | ok c2 o2 =>
      rw [hc] at this
      exact ⟨this.1.trans h.1, fun e => h.2.1 (this.2.1 e), this.2.2.trans h.2.2⟩

section
variable {c : Chan}

macro "cr_tac" : tactic => `(tactic| (
  repeat' split
  all_goals first | trivial | exact ⟨rfl, id, rfl⟩ | exact ⟨rfl, by simp, rfl⟩))

theorem readFailed_cr : CR c (readFailed c) := by unfold readFailed; cr_tac
theorem sendEof_cr : CR c (sendEof c) := by unfold sendEof; cr_tac
theorem ibufEmpty_cr : CR c (ibufEmpty c) := by
  unfold ibufEmpty
  split
  · exact ⟨rfl, id, rfl⟩
  split
  · refine CR.bind ?_ fun _ => ⟨rfl, id, rfl⟩
    split
    · exact sendEof_cr
    · exact ⟨rfl, id, rfl⟩
  · exact ⟨rfl, id, rfl⟩
theorem obufEmpty_cr : CR c (obufEmpty c) := by unfold obufEmpty; cr_tac
theorem rcvdEow_cr : CR c (rcvdEow c) := by unfold rcvdEow; cr_tac
theorem sendClose_cr : CR c (sendClose c) := by unfold sendClose; cr_tac
theorem sendEow_cr : CR c (sendEow c) := by unfold sendEow; cr_tac
theorem writeFailed_cr : CR c (writeFailed c) := by
  unfold writeFailed
  split
  · exact ⟨rfl, id, rfl⟩
  · refine CR.bind (CR.bind ⟨rfl, id, rfl⟩ fun c' => ?_) fun _ => ⟨rfl, id, rfl⟩
    split
    · exact sendEow_cr
    · exact ⟨rfl, id, rfl⟩
theorem rcvdEof_cr : CR c (rcvdEof c) := by
  have h1 : (drainOut { c with eofRcvd := true }).closeRcvd = c.closeRcvd ∧
      (drainOut { c with eofRcvd := true }).typ = c.typ ∧ (drainOut { c with eofRcvd := true }).local_ = c.local_ := by
    unfold drainOut; split <;> simp
  unfold rcvdEof
  dsimp only
  generalize drainOut { c with eofRcvd := true } = d at h1
  split
  · have := obufEmpty_cr (c := d)
    cases hr : obufEmpty d with
    | ok c' o => rw [hr] at this; exact ⟨this.1.trans h1.1, fun e => h1.2.1 ▸ this.2.1 e, this.2.2.trans h1.2.2⟩
    | fatal => trivial
    | freed o => trivial
  · exact ⟨h1.1, fun e => h1.2.1 ▸ e, h1.2.2⟩
theorem forceDrainIn_cr : CR c (forceDrainIn c) := by
  unfold forceDrainIn
  split
  · split
    · exact ibufEmpty_cr (c := { c with istate := .drain })
    · exact ⟨rfl, id, rfl⟩
  · exact ⟨rfl, id, rfl⟩
theorem forceClose_cr (a : Bool) : CR c (forceClose a c) := by
  unfold forceClose
  refine CR.bind (CR.bind (CR.bind ?_ ?_) ?_) ?_
  · split
    · exact readFailed_cr
    · exact ⟨rfl, id, rfl⟩
  · intro c'
    unfold forceIn
    split
    · exact ibufEmpty_cr (c := { c' with input := [] })
    · exact ⟨rfl, id, rfl⟩
  · intro c'
    unfold forceOut
    split
    · exact writeFailed_cr (c := { c' with output := [] })
    · exact ⟨rfl, id, rfl⟩
  · intro c'
    cases a
    · exact ⟨rfl, id, rfl⟩
    · exact ⟨rfl, by simp, rfl⟩

/-- What `isDead` established. -/
theorem isDead_reason {d : Bool} :
    (∀ c' o, isDead c d = .no c' o → CR c (.ok c' o) ∧ c'.typ = c.typ) ∧
    (∀ c' o, isDead c d = .yes c' o → CR c (.ok c' o) ∧ c'.typ = c.typ ∧
      (c.typ = .zombie ∨ c.local_ = true ∨ (c.closeRcvd = true ∧ (d = true → c'.closeSent = true)))) := by
  have hs := sendClose_cr (c := c)
  have hst : ∀ c' o, sendClose c = .ok c' o → c'.typ = c.typ := by
    intro c' o h
    unfold sendClose at h
    revert h
    repeat' split
    all_goals (intro h; first | (simp at h; done) | (simp only [R.ok.injEq] at h; obtain ⟨rfl, _⟩ := h; rfl))
  have hend : ∀ (o : List Msg) (c1 : Chan), CR c (.ok c1 o) → c1.typ = c.typ →
      (∀ c' o', deadEnd c1 o = .no c' o' → CR c (.ok c' o') ∧ c'.typ = c.typ) ∧
      (∀ c' o', deadEnd c1 o = .yes c' o' → CR c (.ok c' o') ∧ c'.typ = c.typ ∧
        (c.typ = .zombie ∨ c.local_ = true ∨ (c.closeRcvd = true ∧ (d = true → c'.closeSent = true)))) := by
    intro o c1 hj ht
    unfold deadEnd
    split
    · next hb =>
      refine ⟨fun _ _ e => by simp at e, fun _ _ e => ?_⟩
      simp at e; obtain ⟨rfl, rfl⟩ := e
      simp only [Bool.and_eq_true] at hb
      exact ⟨hj, ht, .inr (.inr ⟨hj.1 ▸ hb.2, fun _ => hb.1⟩)⟩
    · exact ⟨fun _ _ e => by simp at e; obtain ⟨rfl, rfl⟩ := e; exact ⟨hj, ht⟩, fun _ _ e => by simp at e⟩
  have self : ∀ o, CR c (.ok c o) := fun _ => ⟨rfl, id, rfl⟩
  unfold isDead
  split
  · next hz => exact ⟨fun _ _ e => by simp at e, fun _ _ e => by simp at e; obtain ⟨rfl, rfl⟩ := e; exact ⟨self _, rfl, .inl hz⟩⟩
  split
  · exact ⟨fun _ _ e => by simp at e; obtain ⟨rfl, rfl⟩ := e; exact ⟨self _, rfl⟩, fun _ _ e => by simp at e⟩
  split
  · exact ⟨fun _ _ e => by simp at e; obtain ⟨rfl, rfl⟩ := e; exact ⟨self _, rfl⟩, fun _ _ e => by simp at e⟩
  split
  · next hz => exact ⟨fun _ _ e => by simp at e, fun _ _ e => by simp at e; obtain ⟨rfl, rfl⟩ := e; exact ⟨self _, rfl, .inr (.inl hz)⟩⟩
  split
  · split
    · split
      · next e => rw [e] at hs; exact hend _ _ hs (hst _ _ e)
      · exact ⟨fun _ _ e => by simp at e, fun _ _ e => by simp at e⟩
      · exact ⟨fun _ _ e => by simp at e, fun _ _ e => by simp at e⟩
    · next hd =>
      split
      · next hr =>
        exact ⟨fun _ _ e => by simp at e, fun _ _ e => by
          simp at e; obtain ⟨rfl, rfl⟩ := e; exact ⟨self _, rfl, .inr (.inr ⟨hr, fun h => absurd h hd⟩)⟩⟩
      · exact hend _ _ (self _) rfl
  · exact hend _ _ (self _) rfl

end

theorem collect_cr {c : Chan} : CR c (collect c) := by
  unfold collect
  cases hd : isDead c true with
  | no c' o => exact (isDead_reason.1 _ _ hd).1
  | fatal => trivial
  | yes c' o => trivial

theorem gc_cr {c : Chan} (k : Bool) : CR c (gc c k) := by
  unfold gc
  split
  · cases hd : isDead c c.detachClose with
    | no c' o => exact (isDead_reason.1 _ _ hd).1
    | fatal => trivial
    | yes c' o =>
      have h1 := (isDead_reason.2 _ _ hd).1
      dsimp only
      split
      · exact h1
      · exact CR.bind (r := .ok c' o) (f := fun c => collect { c with detachUser := false }) h1
          fun c1 => collect_cr (c := { c1 with detachUser := false })
  · exact collect_cr

/-- A collected channel was marked dead, is local, or both CLOSE messages went by. -/
theorem gc_freed {c : Chan} {k : Bool} {o : List Msg} (hj : J c) (h : gc c k = .freed o) :
    c.typ = .zombie ∨ c.local_ = true ∨ (c.closeRcvd = true ∧ ∃ e, acc false (fl c) o = some (e, true)) := by
  have coll : ∀ (c1 : Chan) (o1 : List Msg), J c1 → collect c1 = .freed o1 →
      c1.typ = .zombie ∨ c1.local_ = true ∨ (c1.closeRcvd = true ∧ ∃ e, acc false (fl c1) o1 = some (e, true)) := by
    intro c1 o1 hj1 hc
    unfold collect at hc
    cases hd : isDead c1 true with
    | no c' o => rw [hd] at hc; simp at hc
    | fatal => rw [hd] at hc; simp at hc
    | yes c' o' =>
      rw [hd] at hc
      simp only [R.freed.injEq] at hc
      subst hc
      obtain ⟨_, _, h3⟩ := isDead_reason.2 _ _ hd
      obtain ⟨_, ha⟩ := (isDead_ok (p := false) hj1 true).2 _ _ hd
      rcases h3 with e | e | ⟨e1, e2⟩
      · exact .inl e
      · exact .inr (.inl e)
      · refine .inr (.inr ⟨e1, c'.eofSent, ?_⟩)
        rw [ha, fl, e2 rfl]
  unfold gc at h
  split at h
  · cases hd : isDead c c.detachClose with
    | no c' o => rw [hd] at h; simp at h
    | fatal => rw [hd] at h; simp at h
    | yes c' o' =>
      rw [hd] at h
      dsimp only at h
      split at h
      · simp at h
      · obtain ⟨⟨h1, _, h1'⟩, h2, _⟩ := isDead_reason.2 _ _ hd
        obtain ⟨hj', ha⟩ := (isDead_ok (p := false) hj c.detachClose).2 _ _ hd
        cases hc : collect { c' with detachUser := false } with
        | ok c2 o2 => rw [hc] at h; simp [R.pre] at h
        | fatal => rw [hc] at h; simp [R.pre] at h
        | freed o2 =>
          rw [hc] at h
          simp only [R.pre, R.freed.injEq] at h
          subst h
          rcases coll { c' with detachUser := false } _ (J_frame hj' rfl rfl rfl rfl) hc with e | e | ⟨e1, x, e2⟩
          · exact .inl (h2 ▸ e)
          · exact .inr (.inl (h1' ▸ e))
          · refine .inr (.inr ⟨h1 ▸ e1, x, ?_⟩)
            rw [acc_append, ha]
            exact e2
  · exact coll _ _ hj h

theorem rcvdClose_typ {c : Chan} : ∀ c' o, rcvdClose c = .ok c' o → (c'.typ = .zombie → c.typ = .zombie) ∧ c'.local_ = c.local_ := by
  intro c' o h
  have := rcvdClose_quiet (l := false) (c := c)
  rw [h] at this
  refine ⟨fun e => ?_, this.1.local_⟩
  rcases this.1.typ with e' | e'
  · exact e' ▸ e
  · rw [e'] at e; exact absurd e (by simp)

/-- Only the peer's CLOSE sets `closeRcvd`, only `chan_mark_dead` makes a zombie. -/
theorem step_reason {c c' : Chan} {e : Ev} {o : List Msg} (h : step c e = .ok c' o) :
    (c'.closeRcvd = true → c.closeRcvd = true ∨ e = .rcvClose) ∧ (c'.typ = .zombie → c.typ = .zombie ∨ e = .markDead) ∧
    c'.local_ = c.local_ := by
  have cr : ∀ r : R, CR c r → r = .ok c' o → (c'.closeRcvd = true → c.closeRcvd = true ∨ e = .rcvClose) ∧
      (c'.typ = .zombie → c.typ = .zombie ∨ e = .markDead) ∧ c'.local_ = c.local_ := by
    intro r hr he
    rw [he] at hr
    exact ⟨fun hh => .inl (hr.1 ▸ hh), fun hh => .inl (hr.2.1 hh), hr.2.2⟩
  have crl : ∀ f : Chan → R, CR c (f c) → CR c (lookup c f) := by
    intro f hf; unfold lookup; split
    · trivial
    · exact hf
  cases e with
  | preOpen =>
    refine cr _ ?_ h
    simp only [step, preOpen]
    split
    · split
      · exact obufEmpty_cr
      · exact ⟨rfl, id, rfl⟩
    · exact ⟨rfl, id, rfl⟩
  | read r =>
    refine cr _ ?_ h
    simp only [step, handleRead]
    repeat' split
    all_goals first | exact ⟨rfl, id, rfl⟩ | exact readFailed_cr
  | write n =>
    refine cr _ ?_ h
    simp only [step, handleWrite]
    repeat' split
    all_goals first | exact ⟨rfl, id, rfl⟩ | exact writeFailed_cr | trivial
  | extRead r => refine cr _ ?_ h; simp only [step, handleExtRead]; cr_tac
  | extWrite r => refine cr _ ?_ h; simp only [step, handleExtWrite]; cr_tac
  | checkWindow => refine cr _ ?_ h; simp only [step, checkWindow]; cr_tac
  | poll =>
    refine cr _ ?_ h
    simp only [step, outputPoll]
    split
    · exact ⟨rfl, id, rfl⟩
    split
    · exact ⟨rfl, id, rfl⟩
    refine CR.bind ?_ ?_
    · split
      · unfold pollInput
        dsimp only
        repeat' split
        all_goals first | exact ⟨rfl, id, rfl⟩ | exact ibufEmpty_cr | trivial
      · exact ⟨rfl, id, rfl⟩
    · intro c1
      unfold pollErr pollExt
      dsimp only
      cr_tac
  | gc k => exact cr _ (gc_cr k) h
  | rcvData v =>
    refine cr _ (crl (fun c => inputData c v) ?_) h
    unfold inputData putOutput
    dsimp only
    generalize (if c.datagram = true then v.length + 4 else v.length) = wl
    cr_tac
  | rcvExt s v => refine cr _ (crl (fun c => inputExt c s v) ?_) h; unfold inputExt; cr_tac
  | rcvEof => exact cr _ (crl _ (CR.bind rcvdEof_cr fun _ => forceDrainIn_cr)) h
  | rcvClose =>
    simp only [step, lookup] at h
    split at h
    · simp at h
    · obtain ⟨h1, h2⟩ := rcvdClose_typ _ _ h
      exact ⟨fun _ => .inr rfl, fun e => .inl (h1 e), h2⟩
  | rcvEow => exact cr _ (crl _ rcvdEow_cr) h
  | rcvConfirm w m =>
    refine cr _ (crl (fun c => inputConfirm c w.toNat m.toNat) ?_) h; unfold inputConfirm; cr_tac
  | rcvAdjust n => refine cr _ ?_ h; simp only [step, inputAdjust]; cr_tac
  | activate a b w => refine cr _ ?_ h; simp only [step, Chan.activate]; cr_tac
  | connected => refine cr _ ?_ h; simp only [step]; cr_tac
  | forceClose a => exact cr _ (forceClose_cr a) h
  | readFailed => exact cr _ readFailed_cr h
  | writeFailed => exact cr _ writeFailed_cr h
  | markDead =>
    simp only [step, Chan.markDead, R.ok.injEq] at h
    obtain ⟨rfl, _⟩ := h
    exact ⟨fun hh => .inl hh, fun _ => .inr rfl, rfl⟩
  | register d => refine cr _ ?_ h; simp only [step]; exact ⟨rfl, id, rfl⟩

/-- Only the garbage collector frees. -/
theorem step_freed {c : Chan} {e : Ev} {o : List Msg} (h : step c e = .freed o) : ∃ k, e = .gc k := by
  have nf : ∀ {r : R} {f : Chan → R}, (∀ o, r ≠ .freed o) → (∀ c' o, f c' ≠ .freed o) → ∀ o, r.bind f ≠ .freed o := by
    intro r f h1 h2 o
    cases r with
    | fatal => simp [R.bind]
    | freed o' => exact absurd rfl (h1 o')
    | ok c1 o1 =>
      simp only [R.bind]
      cases hc : f c1 with
      | fatal => simp [R.pre]
      | freed o => exact absurd hc (h2 _ _)
      | ok c2 o2 => simp [R.pre]
  have ib : ∀ (c : Chan) o, ibufEmpty c ≠ .freed o := by
    intro c o; unfold ibufEmpty
    split
    · simp
    split
    · refine nf ?_ (by intro _ _; simp [setI]) o
      intro o; unfold sendEof; repeat' split
      all_goals simp
    · simp
  have ob : ∀ (c : Chan) o, obufEmpty c ≠ .freed o := by
    intro c o; unfold obufEmpty shutdownWrite setO; repeat' split
    all_goals simp [R.bind, R.pre]
  have wf : ∀ (c : Chan) o, writeFailed c ≠ .freed o := by
    intro c o; unfold writeFailed
    split
    · simp
    · refine nf (nf (by simp [shutdownWrite]) ?_) (by intro _ _; simp [setO]) o
      intro c' o; unfold sendEow; repeat' split
      all_goals simp
  have rf : ∀ (c : Chan) o, readFailed c ≠ .freed o := by
    intro c o; unfold readFailed; split <;> simp
  cases e with
  | gc k => exact ⟨k, rfl⟩
  | preOpen =>
    exfalso; revert h; simp only [step, preOpen]; repeat' split
    all_goals first | exact ob _ _ | simp
  | read r =>
    exfalso; revert h; simp only [step, handleRead]; repeat' split
    all_goals first | exact rf _ _ | simp
  | write n =>
    exfalso; revert h; simp only [step, handleWrite]; repeat' split
    all_goals first | exact wf _ _ | simp
  | extRead r => exfalso; revert h; simp only [step, handleExtRead]; repeat' split
                 all_goals simp
  | extWrite r => exfalso; revert h; simp only [step, handleExtWrite]; repeat' split
                  all_goals simp
  | checkWindow => exfalso; revert h; simp only [step, checkWindow]; repeat' split
                   all_goals simp
  | poll =>
    exfalso; revert h; simp only [step, outputPoll]
    split
    · simp
    split
    · simp
    refine nf ?_ ?_ o
    · intro o
      split
      · unfold pollInput; dsimp only; repeat' split
        all_goals first | exact ib _ _ | simp
      · simp
    · intro c' o; unfold pollErr pollExt; dsimp only; repeat' split
      all_goals simp
  | rcvData v =>
    exfalso; revert h; simp only [step, lookup, inputData, putOutput]
    generalize (if c.datagram = true then v.length + 4 else v.length) = wl
    repeat' split
    all_goals simp
  | rcvExt s v => exfalso; revert h; simp only [step, lookup, inputExt]; repeat' split
                  all_goals simp
  | rcvEof =>
    exfalso; revert h; simp only [step, lookup, inputEof]
    split
    · simp
    refine nf ?_ ?_ o
    · intro o; unfold rcvdEof; dsimp only; split
      · exact ob _ _
      · simp
    · intro c' o; unfold forceDrainIn; repeat' split
      all_goals first | exact ib _ _ | simp
  | rcvClose =>
    exfalso; revert h; simp only [step, lookup, rcvdClose]
    repeat' split
    all_goals first | (simp; done) | skip
    unfold closeInput
    have se : ∀ (c : Chan) o, shutdownExtRead c ≠ .freed o := by
      intro c o; unfold shutdownExtRead; repeat' split
      all_goals simp
    split
    · exact nf (se _) (by intro _ _; simp [setI]) o
    · refine nf (nf ?_ (fun c o => se c o)) (by intro _ _; simp [setI]) o
      intro o; unfold sendEof; repeat' split
      all_goals simp
    · simp
  | rcvEow => exfalso; revert h; simp only [step, lookup, rcvdEow, setI]; repeat' split
              all_goals simp
  | rcvConfirm w m => exfalso; revert h; simp only [step, lookup, inputConfirm]; repeat' split
                      all_goals simp
  | rcvAdjust n => exfalso; revert h; simp only [step, inputAdjust]; repeat' split
                   all_goals simp
  | activate a b w => exfalso; revert h; simp only [step, Chan.activate]; repeat' split
                      all_goals simp
  | connected => exfalso; revert h; simp only [step]; split <;> simp
  | forceClose a =>
    exfalso; revert h; simp only [step, forceClose]
    refine nf (nf (nf ?_ ?_) ?_) (by simp) o
    · intro o; split
      · exact rf _ _
      · simp
    · intro c' o; unfold forceIn; split
      · exact ib _ _
      · simp
    · intro c' o; unfold forceOut; split
      · exact wf _ _
      · simp
  | readFailed => exact absurd h (rf _ _)
  | writeFailed => exact absurd h (wf _ _)
  | markDead => simp [step, Chan.markDead] at h
  | register d => simp [step] at h

end Verif.Chan
