/- Invariants of the half-close state machine. -/
import Verif.Chan.Spec

namespace Verif.Chan
open Verif Wire

/-- Acceptor of well-ordered message sequences; the state is (EOF sent, CLOSE sent). -/
def acc1 (p : Bool) (s : Bool × Bool) : Msg → Option (Bool × Bool)
  | .data _ => if s.1 || s.2 then none else some s
  | .extData _ => if s.1 || s.2 then none else some s
  | .eof => if s.1 || s.2 then none else some (true, s.2)
  | .close => if s.2 then none else some (s.1, true)
  | .eow => if s.2 then none else some s
  | .adjust _ => if p && s.2 then none else some s

def acc (p : Bool) (s : Bool × Bool) : List Msg → Option (Bool × Bool)
  | [] => some s
  | m :: o => (acc1 p s m).bind fun s => acc p s o

theorem acc_append (p : Bool) (s : Bool × Bool) (a b : List Msg) :
    acc p s (a ++ b) = (acc p s a).bind fun s => acc p s b := by
  induction a generalizing s with
  | nil => rfl
  | cons m a ih =>
    simp only [List.cons_append, acc]
    cases acc1 p s m with
    | none => rfl
    | some s => simp only [Option.bind_some]; exact ih s

def fl (c : Chan) : Bool × Bool := (c.eofSent, c.closeSent)

def J (c : Chan) : Prop :=
  (c.closeSent = true → c.istate = .closed ∧ c.ostate = .closed) ∧ (c.eofSent = true → c.istate = .closed)

/-- What a call does to the flags. -/
def Ok (p : Bool) (c : Chan) : R → Prop
  | .ok c' o => J c' ∧ acc p (fl c) o = some (fl c')
  | .freed o => ∃ s, acc p (fl c) o = some s
  | .fatal => True

theorem Ok.bind {p : Bool} {c : Chan} {r : R} {f : Chan → R} (h : Ok p c r) (hf : ∀ c', J c' → Ok p c' (f c')) :
    Ok p c (r.bind f) := by
  cases r with
  | fatal => trivial
  | freed o => exact h
  | ok c1 o1 =>
    obtain ⟨hj, ha⟩ := h
    have := hf c1 hj
    simp only [R.bind]
    cases hfc : f c1 with
    | fatal => trivial
    | freed o =>
      rw [hfc] at this
      obtain ⟨s, hs⟩ := this
      exact ⟨s, by rw [acc_append, ha]; exact hs⟩
    | ok c2 o2 =>
      rw [hfc] at this
      refine ⟨this.1, ?_⟩
      rw [acc_append, ha]
      exact this.2

theorem Ok.of_fl {p : Bool} {c c' : Chan} {r : R} (h : Ok p c' r) (e : fl c' = fl c) : Ok p c r := by
  cases r with
  | fatal => trivial
  | freed o => simpa only [Ok, e] using h
  | ok c1 o1 => simpa only [Ok, e] using h

section
variable {p : Bool} {c : Chan}

macro "chan_auto" : tactic => `(tactic| (
  repeat' split
  all_goals (simp_all (config := { decide := true }) [Ok, J, fl, acc, acc1, R.bind, R.pre])))

theorem ok_self (h : J c) : Ok p c (.ok c []) := ⟨h, rfl⟩

/-- A step that sends nothing and leaves the four fields alone. -/
theorem ok_frame {c' : Chan} (h : J c) (h1 : c'.istate = c.istate) (h2 : c'.ostate = c.ostate)
    (h3 : c'.eofSent = c.eofSent) (h4 : c'.closeSent = c.closeSent) : Ok p c (.ok c' []) := by
  refine ⟨?_, ?_⟩
  · unfold J at *; rw [h1, h2, h3, h4]; exact h
  · simp only [acc, fl, h3, h4]

theorem J_frame {c' : Chan} (h : J c) (h1 : c'.istate = c.istate) (h2 : c'.ostate = c.ostate)
    (h3 : c'.eofSent = c.eofSent) (h4 : c'.closeSent = c.closeSent) : J c' := (ok_frame (p := true) h h1 h2 h3 h4).1

theorem readFailed_ok (h : J c) : Ok p c (readFailed c) := by
  unfold readFailed; chan_auto

theorem ibufEmpty_ok (h : J c) : Ok p c (ibufEmpty c) := by
  unfold ibufEmpty sendEof setI; chan_auto

theorem obufEmpty_ok (h : J c) : Ok p c (obufEmpty c) := by
  unfold obufEmpty shutdownWrite setO; chan_auto

theorem rcvdEow_ok (h : J c) : Ok p c (rcvdEow c) := by
  unfold rcvdEow setI; chan_auto

theorem sendClose_ok (h : J c) : Ok p c (sendClose c) := by
  unfold sendClose; chan_auto

theorem writeFailed_ok (h : J c) : Ok p c (writeFailed c) := by
  unfold writeFailed shutdownWrite sendEow setO
  cases ho : c.ostate <;> cases hs : c.session <;> cases hn : c.newOpenSSH <;> cases hr : c.haveRemote <;> chan_auto

theorem drainOut_ok (h : J c) : J (drainOut c) ∧ fl (drainOut c) = fl c := by
  unfold drainOut; chan_auto

theorem noteClose_ok (h : J c) : J (noteClose c) ∧ fl (noteClose c) = fl c := by
  unfold noteClose; chan_auto

theorem closeInput_ok (h : J c) : Ok p c (closeInput c) := by
  unfold closeInput sendEof shutdownExtRead setI
  cases hi : c.istate <;> cases hl : c.local_ <;> cases hr : c.haveRemote <;>
    by_cases ht : c.typ = .larval <;> by_cases he : c.ext = .write <;> simp_all (config := { decide := true }) [Ok, J, fl, acc, acc1, R.bind, R.pre]

theorem rcvdClose_ok (h : J c) : Ok p c (rcvdClose c) := by
  unfold rcvdClose
  obtain ⟨h1, h2⟩ := noteClose_ok h
  split
  · refine Ok.of_fl (c' := noteClose c) ⟨?_, ?_⟩ h2
    · exact ⟨fun _ => ⟨rfl, rfl⟩, fun _ => rfl⟩
    · rfl
  · obtain ⟨h3, h4⟩ := drainOut_ok h1
    exact (closeInput_ok h3).of_fl (h4.trans h2)

theorem rcvdEof_ok (h : J c) : Ok p c (rcvdEof c) := by
  have h0 : J { c with eofRcvd := true } := J_frame h rfl rfl rfl rfl
  obtain ⟨h1, h2⟩ := drainOut_ok h0
  unfold rcvdEof
  dsimp only
  split
  · exact (obufEmpty_ok h1).of_fl h2
  · exact Ok.of_fl (ok_self h1) h2

theorem isDead_ok (h : J c) (d : Bool) :
    (∀ c' o, isDead c d = .no c' o → J c' ∧ acc p (fl c) o = some (fl c')) ∧
    (∀ c' o, isDead c d = .yes c' o → J c' ∧ acc p (fl c) o = some (fl c')) := by
  have hs := sendClose_ok (p := p) h
  have hend : ∀ (o : List Msg) (c1 : Chan), J c1 → acc p (fl c) o = some (fl c1) →
      (∀ c' o', deadEnd c1 o = .no c' o' → J c' ∧ acc p (fl c) o' = some (fl c')) ∧
      (∀ c' o', deadEnd c1 o = .yes c' o' → J c' ∧ acc p (fl c) o' = some (fl c')) := by
    intro o c1 hj ha
    unfold deadEnd
    split
    · exact ⟨fun _ _ e => by simp at e, fun _ _ e => by simp at e; obtain ⟨rfl, rfl⟩ := e; exact ⟨hj, ha⟩⟩
    · exact ⟨fun _ _ e => by simp at e; obtain ⟨rfl, rfl⟩ := e; exact ⟨hj, ha⟩, fun _ _ e => by simp at e⟩
  have hy : (∀ c' o, Dead.yes c [] = .no c' o → J c' ∧ acc p (fl c) o = some (fl c')) ∧
    (∀ c' o, Dead.yes c [] = .yes c' o → J c' ∧ acc p (fl c) o = some (fl c')) :=
    ⟨fun _ _ e => by simp at e, fun _ _ e => by simp at e; obtain ⟨rfl, rfl⟩ := e; exact ⟨h, rfl⟩⟩
  have hn : (∀ c' o, Dead.no c [] = .no c' o → J c' ∧ acc p (fl c) o = some (fl c')) ∧
    (∀ c' o, Dead.no c [] = .yes c' o → J c' ∧ acc p (fl c) o = some (fl c')) :=
    ⟨fun _ _ e => by simp at e; obtain ⟨rfl, rfl⟩ := e; exact ⟨h, rfl⟩, fun _ _ e => by simp at e⟩
  unfold isDead
  split
  · exact hy
  split
  · exact hn
  split
  · exact hn
  split
  · exact hy
  split
  · split
    · split
      · next e => rw [e] at hs; exact hend _ _ hs.1 hs.2
      · exact ⟨fun _ _ e => by simp at e, fun _ _ e => by simp at e⟩
      · exact ⟨fun _ _ e => by simp at e, fun _ _ e => by simp at e⟩
    · split
      · exact hy
      · exact hend _ _ h rfl
  · exact hend _ _ h rfl

theorem collect_ok (h : J c) : Ok p c (collect c) := by
  have := isDead_ok (p := p) h true
  unfold collect
  cases hd : isDead c true with
  | no c' o => exact this.1 _ _ hd
  | fatal => trivial
  | yes c' o => exact ⟨_, (this.2 _ _ hd).2⟩

theorem gc_ok (h : J c) (k : Bool) : Ok p c (gc c k) := by
  have := isDead_ok (p := p) h c.detachClose
  unfold gc
  split
  · cases hd : isDead c c.detachClose with
    | no c' o => exact this.1 _ _ hd
    | fatal => trivial
    | yes c' o =>
      obtain ⟨hj, ha⟩ := this.2 _ _ hd
      dsimp only
      split
      · exact ⟨hj, ha⟩
      · have : Ok p c ((R.ok c' o).bind fun c => collect { c with detachUser := false }) :=
          Ok.bind (show Ok p c (R.ok c' o) from ⟨hj, ha⟩) fun c1 h1 =>
            (collect_ok (c := { c1 with detachUser := false }) (J_frame h1 rfl rfl rfl rfl)).of_fl rfl
        exact this
  · exact collect_ok h

theorem forceIn_ok (h : J c) : Ok p c (forceIn c) := by
  unfold forceIn
  split
  · exact (ibufEmpty_ok (c := { c with input := [] }) (J_frame h rfl rfl rfl rfl)).of_fl rfl
  · exact ok_self h

theorem forceOut_ok (h : J c) : Ok p c (forceOut c) := by
  unfold forceOut
  split
  · exact (writeFailed_ok (c := { c with output := [] }) (J_frame h rfl rfl rfl rfl)).of_fl rfl
  · exact ok_self h

theorem forceClose_ok (h : J c) (a : Bool) : Ok p c (forceClose a c) := by
  unfold forceClose
  refine Ok.bind (Ok.bind (Ok.bind ?_ fun _ => forceIn_ok) fun _ => forceOut_ok) ?_
  · split
    · exact readFailed_ok h
    · exact ok_self h
  · intro c' h'
    exact ok_frame h' rfl rfl rfl rfl

theorem forceDrainIn_ok (h : J c) : Ok p c (forceDrainIn c) := by
  unfold forceDrainIn
  split
  · next hc =>
    have hj : J { c with istate := .drain } := by
      obtain ⟨-, h0⟩ := hc
      unfold J at *
      rw [h0] at h
      simp only [reduceCtorEq, false_and, imp_false, Bool.not_eq_true] at *
      exact h
    split
    · exact (ibufEmpty_ok hj).of_fl rfl
    · exact Ok.of_fl (ok_self hj) rfl
  · exact ok_self h

theorem pollInput_ok (h : J c) (hi : c.istate ≠ .closed) : Ok p c (pollInput c) := by
  have he : c.eofSent = false := by cases e : c.eofSent with | false => rfl | true => exact absurd (h.2 e) hi
  have hc : c.closeSent = false := by cases e : c.closeSent with | false => rfl | true => exact absurd (h.1 e).1 hi
  unfold pollInput
  split
  · split
    · split
      · exact ok_self h
      · exact ibufEmpty_ok h
    · exact ok_self h
  split
  · trivial
  split
  · split
    · trivial
    · split
      · exact ok_frame h rfl rfl rfl rfl
      · exact ⟨J_frame h rfl rfl rfl rfl, by simp [acc, acc1, fl, he, hc]⟩
  · dsimp only
    split
    · exact ok_self h
    · exact ⟨J_frame h rfl rfl rfl rfl, by simp [acc, acc1, fl, he, hc]⟩

theorem pollErr_ok (h : J c) (hc : c.closeSent = false) : Ok p c (pollErr c) := by
  unfold pollErr pollExt
  split
  · next he =>
    have he : c.eofSent = false := by
      cases e : c.eofSent with | false => rfl | true => simp [e] at he
    dsimp only
    split
    · exact ok_self h
    split
    · trivial
    · exact ⟨J_frame h rfl rfl rfl rfl, by simp [acc, acc1, fl, he, hc]⟩
  · exact ok_self h

theorem ibufEmpty_close {c' : Chan} {o : List Msg} (h : ibufEmpty c = .ok c' o) : c'.closeSent = c.closeSent := by
  unfold ibufEmpty sendEof setI at h
  revert h
  repeat' split
  all_goals (simp_all [R.bind, R.pre])
  all_goals (rintro rfl _; rfl)

theorem pollInput_close {c' : Chan} {o : List Msg} (h : pollInput c = .ok c' o) : c'.closeSent = c.closeSent := by
  unfold pollInput at h
  dsimp only at h
  revert h
  repeat' split
  all_goals (first | exact ibufEmpty_close | (simp_all; try (rintro rfl _; rfl)))

theorem outputPoll_ok (h : J c) : Ok p c (outputPoll c) := by
  unfold outputPoll
  split
  · exact ok_self h
  split
  · exact ok_self h
  next hc =>
  have hc : c.closeSent = false := by
    cases e : c.closeSent with | false => rfl | true => simp [e] at hc
  have key : ∀ r : R, Ok p c r → (∀ c' o, r = .ok c' o → c'.closeSent = false) → Ok p c (r.bind pollErr) := by
    intro r hr h0
    cases r with
    | fatal => trivial
    | freed o => exact hr
    | ok c1 o1 =>
      have h1 : Ok p c1 (pollErr c1) := pollErr_ok hr.1 (h0 _ _ rfl)
      simp only [R.bind]
      cases hfc : pollErr c1 with
      | fatal => trivial
      | freed o =>
        rw [hfc] at h1
        obtain ⟨s, hs⟩ := h1
        exact ⟨s, by rw [acc_append, hr.2]; exact hs⟩
      | ok c2 o2 =>
        rw [hfc] at h1
        exact ⟨h1.1, by rw [acc_append, hr.2]; exact h1.2⟩
  refine key _ ?_ ?_
  · split
    · next hi => exact pollInput_ok h hi
    · exact ok_self h
  · intro c' o he
    split at he
    · rw [pollInput_close he, hc]
    · simp only [R.ok.injEq] at he
      rw [← he.1, hc]

/-- Every event keeps the messages in order; the only one that may grant window after CLOSE is the activation of a
session. -/
theorem step_ok (h : J c) (e : Ev) (hp : p = true → ∀ a b w, e ≠ .activate a b w) : Ok p c (step c e) := by
  have hl : ∀ f : Chan → R, Ok p c (f c) → Ok p c (lookup c f) := by
    intro f hf; unfold lookup; split
    · trivial
    · exact hf
  cases e with
  | preOpen =>
    simp only [step, preOpen]
    split
    · split
      · exact obufEmpty_ok h
      · exact ok_self h
    · exact ok_self h
  | read r =>
    simp only [step, handleRead]
    repeat' split
    all_goals first | exact ok_self h | exact readFailed_ok h | exact ok_frame h rfl rfl rfl rfl
  | write n =>
    simp only [step, handleWrite]
    repeat' split
    all_goals first | exact ok_self h | exact writeFailed_ok h | exact ok_frame h rfl rfl rfl rfl | trivial
  | extRead r =>
    simp only [step, handleExtRead]
    repeat' split
    all_goals first | exact ok_self h | exact ok_frame h rfl rfl rfl rfl
  | extWrite n =>
    simp only [step, handleExtWrite]
    repeat' split
    all_goals first | exact ok_self h | exact ok_frame h rfl rfl rfl rfl
  | checkWindow =>
    simp only [step, checkWindow]
    split
    · next hc =>
      split
      · trivial
      · exact ⟨J_frame h rfl rfl rfl rfl, by simp [acc, acc1, fl, hc.2.1]⟩
    · exact ok_self h
  | poll => exact outputPoll_ok h
  | gc k => exact gc_ok h k
  | rcvData v =>
    refine hl (fun c => inputData c v) ?_
    unfold inputData putOutput
    dsimp only
    repeat' split
    all_goals first | exact ok_self h | exact ok_frame h rfl rfl rfl rfl | trivial
  | rcvExt s v =>
    refine hl (fun c => inputExt c s v) ?_
    unfold inputExt
    repeat' split
    all_goals first | exact ok_self h | exact ok_frame h rfl rfl rfl rfl | trivial
  | rcvEof => exact hl _ (Ok.bind (rcvdEof_ok h) fun _ => forceDrainIn_ok)
  | rcvClose => exact hl _ (rcvdClose_ok h)
  | rcvEow => exact hl _ (rcvdEow_ok h)
  | rcvConfirm w m =>
    refine hl (fun c => inputConfirm c w.toNat m.toNat) ?_
    unfold inputConfirm
    split
    · trivial
    · exact ok_frame h rfl rfl rfl rfl
  | rcvAdjust n =>
    simp only [step, inputAdjust]
    repeat' split
    all_goals first | exact ok_self h | exact ok_frame h rfl rfl rfl rfl | trivial
  | activate a b w =>
    simp only [step, Chan.activate]
    have : p = false := by cases p with | false => rfl | true => exact absurd rfl (hp rfl a b w)
    subst this
    repeat' split
    all_goals first | trivial | exact ⟨J_frame h rfl rfl rfl rfl, by simp [acc, acc1, fl]⟩
  | connected =>
    simp only [step]
    split
    · exact ok_frame h rfl rfl rfl rfl
    · exact ok_self h
  | forceClose a => exact forceClose_ok h a
  | readFailed => exact readFailed_ok h
  | writeFailed => exact writeFailed_ok h
  | markDead => exact ok_frame h rfl rfl rfl rfl
  | register d => exact ok_frame h rfl rfl rfl rfl

theorem run_ok (es : List Ev) (hp : p = true → ∀ a b w, Ev.activate a b w ∉ es) (h : J c) : Ok p c (run c es) := by
  induction es generalizing c with
  | nil => exact ok_self h
  | cons e es ih =>
    refine Ok.bind (step_ok h e fun hp' a b w he => hp hp' a b w (by simp [he])) fun c' h' => ?_
    exact ih (fun hp' a b w hm => hp hp' a b w (List.mem_cons_of_mem _ hm)) h'

end

end Verif.Chan
