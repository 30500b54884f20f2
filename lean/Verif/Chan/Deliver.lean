/- C56: everything accepted is delivered before the output closes; and worked histories for the channel theorems. -/
import Verif.Chan.Props

namespace Verif.Chan
open Verif Wire

/-- Nothing accepted is lost: it was written, or is still buffered; and the output closes only when all is written. -/
def Kept (c : Chan) : Prop :=
  c.datagram = false ∧ c.gAcc = c.gOut ++ c.output ∧ (c.ostate = .closed → c.output = []) ∧ (c.typ = .larval → c.output = [])

def KeptR : R → Prop
  | .ok c _ => Kept c
  | _ => True

theorem kept_quiet {c : Chan} {r : R} (h : Kept c) (hq : Quiet false c r) : KeptR r := by
  cases r with
  | freed o => trivial
  | fatal => trivial
  | ok c' o =>
    obtain ⟨hf, _⟩ := hq
    obtain ⟨h1, h2, h3, h4⟩ := h
    have ho : c'.output = c.output := by
      rcases hf.output with e | ⟨e, _⟩
      · exact e
      · exact absurd e (by simp)
    refine ⟨by rw [hf.datagram]; exact h1, by rw [hf.gAcc, hf.gOut, ho]; exact h2, fun hc => ?_, fun ht => ?_⟩
    · rcases hf.closing hc with e | e | e
      · rw [ho]; exact h3 e
      · exact e
      · rw [ho]; exact h4 e
    · rw [ho]
      rcases hf.typ with e | e
      · exact h4 (e ▸ ht)
      · rw [e] at ht; exact absurd ht (by simp)

theorem kept_same {c c' : Chan} {o : List Msg} (h : Kept c) (h1 : c'.datagram = c.datagram) (h2 : c'.gAcc = c.gAcc)
    (h3 : c'.gOut = c.gOut) (h4 : c'.output = c.output) (h5 : c'.ostate = c.ostate)
    (h6 : c'.typ = .larval → c.typ = .larval) : KeptR (.ok c' o) :=
  ⟨h1 ▸ h.1, by rw [h2, h3, h4]; exact h.2.1, by rw [h4, h5]; exact h.2.2.1, fun e => h4 ▸ h.2.2.2 (h6 e)⟩

theorem step_kept {c : Chan} {e : Ev} (h : Kept c) (hl : e.lossy = false) : KeptR (step c e) := by
  by_cases hq : e.isQuiet = true
  · exact kept_quiet h (hl ▸ step_quiet (c := c) e hq)
  have same : ∀ c' o, c'.datagram = c.datagram → c'.gAcc = c.gAcc → c'.gOut = c.gOut → c'.output = c.output →
      c'.ostate = c.ostate → (c'.typ = .larval → c.typ = .larval) → KeptR (.ok c' o) :=
    fun c' o a1 a2 a3 a4 a5 a6 => kept_same h a1 a2 a3 a4 a5 a6
  cases e with
  | read r =>
    simp only [step, handleRead]
    repeat' split
    all_goals first
      | exact kept_quiet h readFailed_quiet
      | (apply same <;> first | rfl | exact id)
  | write n =>
    simp only [step, handleWrite]
    split
    · apply same <;> first | rfl | exact id
    next hg =>
    split
    · simp [Ev.lossy] at hl
    · rw [h.1]
      simp only [Bool.false_eq_true, if_false]
      refine ⟨rfl, ?_, fun e => absurd (.inr (.inl e)) hg, fun e => ?_⟩
      · simp only [h.2.1, List.append_assoc, List.take_append_drop]
      · simp only [h.2.2.2 e, List.drop_nil]
  | extRead r =>
    simp only [step, handleExtRead]
    repeat' split
    all_goals (apply same <;> first | rfl | exact id)
  | extWrite r =>
    simp only [step, handleExtWrite]
    repeat' split
    all_goals (apply same <;> first | rfl | exact id)
  | checkWindow =>
    simp only [step, checkWindow]
    repeat' split
    all_goals first | trivial | (apply same <;> first | rfl | exact id)
  | poll =>
    simp only [step, outputPoll]
    split
    · apply same <;> first | rfl | exact id
    split
    · apply same <;> first | rfl | exact id
    generalize hr : (if c.istate ≠ .closed then pollInput c else .ok c []) = r
    have i1 : KeptR r := by
      rw [← hr]
      split
      · unfold pollInput
        dsimp only
        repeat' split
        all_goals first
          | trivial
          | exact kept_quiet h ibufEmpty_quiet
          | (apply same <;> first | rfl | exact id)
      · exact h
    cases r with
    | fatal => trivial
    | freed o => trivial
    | ok c1 o1 =>
      simp only [R.bind, pollErr, pollExt]
      repeat' split
      all_goals first
        | trivial
        | exact i1
  | rcvData v =>
    simp only [step, lookup, inputData, putOutput]
    split
    · trivial
    split
    · apply same <;> first | rfl | exact id
    next ht =>
    have hnl : c.typ ≠ .larval := by intro e; rw [e] at ht; simp at ht
    split
    · exact ⟨h.1, h.2.1, h.2.2.1, h.2.2.2⟩
    next ho =>
    have ho : c.ostate = .open_ := Classical.byContradiction ho
    have put : ∀ c1 : Chan, c1.datagram = c.datagram → c1.gAcc = c.gAcc ++ v → c1.gOut = c.gOut →
        c1.output = c.output ++ v → c1.ostate = c.ostate → c1.typ = c.typ → Kept c1 := by
      intro c1 a1 a2 a3 a4 a5 a6
      refine ⟨a1 ▸ h.1, by rw [a2, a3, a4, h.2.1, List.append_assoc], fun e => ?_, fun e => absurd (a6 ▸ e) hnl⟩
      rw [a5, ho] at e; exact absurd e (by simp)
    rw [h.1]
    simp only [Bool.false_eq_true, if_false]
    repeat' split
    all_goals first
      | trivial
      | (apply same <;> first | rfl | exact id)
      | (apply put <;> first | rfl | exact h.1.symm)
  | rcvExt s v =>
    simp only [step, lookup, inputExt]
    repeat' split
    all_goals first | trivial | (apply same <;> first | rfl | exact id)
  | rcvConfirm w m =>
    simp only [step, lookup, inputConfirm]
    repeat' split
    all_goals first | trivial | (apply same <;> first | rfl | simp)
  | rcvAdjust n =>
    simp only [step, inputAdjust]
    repeat' split
    all_goals first | trivial | (apply same <;> first | rfl | exact id)
  | activate a b w =>
    simp only [step, Chan.activate]
    repeat' split
    all_goals first | trivial | (apply same <;> first | rfl | simp)
  | connected =>
    simp only [step]
    split
    all_goals (apply same <;> first | rfl | simp)
  | markDead => simp only [step, Chan.markDead]; apply same <;> first | rfl | simp
  | register d => simp only [step]; apply same <;> first | rfl | exact id
  | forceClose a => simp [Ev.lossy] at hl
  | writeFailed => simp [Ev.lossy] at hl
  | _ => simp [Ev.isQuiet] at hq

/-- C56: unless writing to the local side fails or the channel is closed by force, every byte accepted from the peer is
written to the local side or still buffered for it, and once the output is closed all of it has been written. -/
theorem C56_delivered {c c' : Chan} {es : List Ev} {o : List Msg} (hf : Fresh c) (hd : c.datagram = false)
    (hl : ∀ a, Ev.forceClose a ∉ es) (hw : Ev.writeFailed ∉ es) (hw' : Ev.write none ∉ es) (h : run c es = .ok c' o) :
    c'.gAcc = c'.gOut ++ c'.output ∧ (c'.ostate = .closed → c'.gOut = c'.gAcc) := by
  have hk : Kept c := ⟨hd, by rw [hf.gAcc, hf.gOut, hf.output]; rfl, fun e => by rw [hf.ostate] at e; simp at e,
    fun _ => hf.output⟩
  have H : Kept c' := by
    clear hf hd
    induction es generalizing c o with
    | nil => simp only [run, R.ok.injEq] at h; rw [← h.1]; exact hk
    | cons e es ih =>
      obtain ⟨c1, o1, o2, h1, h2, rfl⟩ := run_cons h
      have hs := step_kept (e := e) hk (by
        cases e with
        | forceClose a => exact absurd (by simp) (hl a)
        | writeFailed => exact absurd (by simp) hw
        | write n => cases n with
          | none => exact absurd (by simp) hw'
          | some n => rfl
        | _ => rfl)
      rw [h1] at hs
      exact ih (fun a hm => hl a (List.mem_cons_of_mem _ hm)) (fun hm => hw (List.mem_cons_of_mem _ hm))
        (fun hm => hw' (List.mem_cons_of_mem _ hm)) h2 hs
  refine ⟨H.2.1, fun hc => ?_⟩
  rw [H.2.1, H.2.2.1 hc, List.append_nil]

/-! ### Worked histories -/

/-- An open channel: 32-byte window for us, 20 for the peer, packets up to 16. -/
def exChan : Chan :=
  { typ := .open_, haveRemote := true, remoteWindow := 20, remoteMax := 16, localWindow := 32, localMax := 16, windowMax := 32 }

theorem exChan_fresh : Fresh exChan := by constructor <;> first | rfl | (simp [exChan])
theorem exChan_window : FreshWindow exChan := ⟨exChan_fresh, rfl, by decide, by simp [exChan]⟩

/-- 25 bytes are read; 16 + 4 are sent within the window; an adjustment lets more through. -/
example : ∃ c o, run exChan [.read (.got (List.replicate 25 7)), .poll, .poll, .poll, .rcvAdjust 3, .read (.got [1, 2, 3, 4]),
    .poll] = .ok c o ∧
    o = [.data (List.replicate 16 7), .data (List.replicate 4 7), .data [1, 2, 3]] ∧ sent o = 23 ∧ c.gIn.length = 23 := by
  refine ⟨_, _, rfl, ?_, ?_, ?_⟩ <;> decide

/-- The peer sends 30 bytes, they are written, 30 bytes of credit are returned. -/
def exIn : List Ev := [.rcvData (List.replicate 16 1), .rcvData (List.replicate 14 2), .write (some 20), .write (some 20), .checkWindow]

example : ∃ c o, run exChan exIn = .ok c o ∧ o = [.adjust 30] ∧ c.gOut = List.replicate 16 1 ++ List.replicate 14 2 ∧
    c.localWindow = 32 := by
  refine ⟨_, _, rfl, ?_, ?_, ?_⟩ <;> decide

instance decHonest : ∀ (es : List Ev) (c : Chan) (cr : Nat), Decidable (Honest c cr es)
  | [], _, _ => isTrue trivial
  | e :: es, c, cr =>
    match h : step c e with
    | .ok c' o =>
      match decHonest es c' (cr - e.arrives + given o) with
      | isTrue h2 => if h1 : e.arrives ≤ cr then isTrue ⟨h1, fun c2 o2 hs => by
          rw [h] at hs; simp only [R.ok.injEq] at hs; obtain ⟨rfl, rfl⟩ := hs; exact h2⟩ else isFalse fun x => h1 x.1
      | isFalse h2 => isFalse fun x => h2 (x.2 c' o h)
    | .freed o => if h1 : e.arrives ≤ cr then isTrue ⟨h1, fun c2 o2 hs => by rw [h] at hs; simp at hs⟩
        else isFalse fun x => h1 x.1
    | .fatal => if h1 : e.arrives ≤ cr then isTrue ⟨h1, fun c2 o2 hs => by rw [h] at hs; simp at hs⟩
        else isFalse fun x => h1 x.1

instance (c : Chan) (e : Ev) : Decidable (Useful c e) := by
  cases e <;> first
    | (unfold Useful; infer_instance)
    | skip
  rename_i n; cases n <;> (unfold Useful; infer_instance)

instance decUseful : ∀ (es : List Ev) (c : Chan), Decidable (AllUseful c es)
  | [], _ => isTrue trivial
  | e :: es, c =>
    match h : step c e with
    | .ok c' o =>
      match decUseful es c' with
      | isTrue h2 => if h1 : Useful c e then isTrue ⟨h1, fun c2 o2 hs => by
          rw [h] at hs; simp only [R.ok.injEq] at hs; obtain ⟨rfl, rfl⟩ := hs; exact h2⟩ else isFalse fun x => h1 x.1
      | isFalse h2 => isFalse fun x => h2 (x.2 c' o h)
    | .freed o => if h1 : Useful c e then isTrue ⟨h1, fun c2 o2 hs => by rw [h] at hs; simp at hs⟩
        else isFalse fun x => h1 x.1
    | .fatal => if h1 : Useful c e then isTrue ⟨h1, fun c2 o2 hs => by rw [h] at hs; simp at hs⟩
        else isFalse fun x => h1 x.1

/-- This peer is honest and all it sends is of use. -/
example : Honest exChan exChan.localWindow (exIn ++ [.rcvData (List.replicate 15 3)]) ∧ AllUseful exChan exIn := by
  decide

/-- An orderly shutdown: data, EOF both ways, CLOSE both ways, released. -/
def exClose : List Ev :=
  [.read (.got [1, 2]), .rcvData [3], .poll, .read .fail, .poll, .rcvEof, .write (some 1), .preOpen, .gc true, .rcvClose, .gc true]

example : run exChan exClose = .freed [.data [1, 2], .eof, .close] := by decide
example : ∃ c o, run exChan (exClose.take 9) = .ok c o ∧ c.ostate = .closed ∧ c.gOut = [3] ∧ c.gAcc = [3] := by
  refine ⟨_, _, rfl, ?_, ?_, ?_⟩ <;> decide

/-- A peer that has used up its window and goes on (`C19_recv_false`). -/
example : ∃ c o, run { exChan with localWindow := 0 } [.rcvData [1, 2, 3], .rcvData [], .rcvData [4, 5, 6], .rcvData []] = .ok c o ∧
    c.output = [1, 2, 3, 4, 5, 6] := by
  refine ⟨_, _, rfl, ?_⟩; decide
/-- Without the empty packets it is cut off. -/
example : run { exChan with localWindow := 0 } [.rcvData [1, 2, 3], .rcvData [4, 5, 6]] = .fatal := by decide

end Verif.Chan
