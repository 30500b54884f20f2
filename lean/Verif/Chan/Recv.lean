/- Invariants of the window we give to the peer. -/
import Verif.Chan.Flow

namespace Verif.Chan
open Verif Wire

/-- `cr`: the credit the peer has left. -/
structure Rcv (c : Chan) (cr : Nat) : Prop where
  stream : c.datagram = false
  credit : cr ≤ c.localWindow
  total : c.localWindow + c.consumed + buffered c ≤ c.windowMax
  bound : c.windowMax < U32
  larval : c.typ = .larval → c.windowMax = 0 ∧ c.extended = []

def RcvR (cr n : Nat) : R → Prop
  | .ok c' o => Rcv c' (cr - n + given o)
  | _ => True

theorem rcv_frame {l : Bool} {c c' : Chan} {cr cr' : Nat} (h : Rcv c cr) (hf : Frame l c c') (hle : cr' ≤ cr) : Rcv c' cr' where
  stream := by rw [hf.datagram]; exact h.stream
  credit := by rw [hf.localWindow]; have := h.credit; omega
  total := by
    have := h.total
    unfold buffered at *
    rw [hf.localWindow, hf.consumed, hf.windowMax, hf.ext, hf.extended]
    rcases hf.output with e | ⟨_, e, _⟩
    · rw [e]; exact this
    · rw [e]; simp only [List.length_nil]; omega
  bound := by rw [hf.windowMax]; exact h.bound
  larval := by
    intro ht
    rw [hf.windowMax, hf.extended]
    rcases hf.typ with e | e
    · exact h.larval (e ▸ ht)
    · rw [e] at ht; exact absurd ht (by simp)

theorem rcv_quiet {l : Bool} {c : Chan} {cr : Nat} {r : R} (h : Rcv c cr) (hq : Quiet l c r) : RcvR cr 0 r := by
  cases r with
  | ok c' o => exact rcv_frame h hq.1 (by rw [given_zero hq.2]; omega)
  | freed o => trivial
  | fatal => trivial

/-- Steps that leave the receiving side alone. -/
theorem rcv_same {c c' : Chan} {cr cr' : Nat} (h : Rcv c cr) (hle : cr' ≤ cr) (h1 : c'.datagram = c.datagram)
    (h2 : c'.localWindow = c.localWindow) (h3 : c'.consumed = c.consumed) (h4 : c'.output = c.output)
    (h5 : c'.ext = c.ext) (h6 : c'.ext = .write ∨ c'.typ = .larval → c'.extended = c.extended)
    (h7 : c'.windowMax = c.windowMax) (h8 : c'.typ = .larval → c.typ = .larval) : Rcv c' cr' where
  stream := by rw [h1]; exact h.stream
  credit := by rw [h2]; have := h.credit; omega
  total := by
    have := h.total
    unfold buffered at *
    rw [h2, h3, h4, h7]
    by_cases he : c'.ext = .write
    · rw [if_pos he, h6 (.inl he)]; rw [if_pos (h5 ▸ he)] at this; exact this
    · rw [if_neg he]; rw [if_neg (h5 ▸ he)] at this; exact this
  bound := by rw [h7]; exact h.bound
  larval := by
    intro ht
    rw [h7, h6 (.inr ht)]
    exact h.larval (h8 ht)

theorem pollInput_recv {c c' : Chan} {o : List Msg} (h : pollInput c = .ok c' o) :
    given o = 0 ∧ c'.datagram = c.datagram ∧ c'.localWindow = c.localWindow ∧ c'.consumed = c.consumed ∧
    c'.output = c.output ∧ c'.ext = c.ext ∧ c'.extended = c.extended ∧ c'.windowMax = c.windowMax ∧ c'.typ = c.typ := by
  unfold pollInput ibufEmpty sendEof setI at h
  dsimp only at h
  revert h
  repeat' split
  all_goals (simp_all [R.bind, R.pre])
  all_goals (rintro rfl rfl; simp_all [given, Msg.give])

theorem pollErr_recv {c c' : Chan} {o : List Msg} (h : pollErr c = .ok c' o) :
    given o = 0 ∧ c'.datagram = c.datagram ∧ c'.localWindow = c.localWindow ∧ c'.consumed = c.consumed ∧
    c'.output = c.output ∧ c'.ext = c.ext ∧ (c'.ext = .write → c'.extended = c.extended) ∧ c'.windowMax = c.windowMax ∧
    c'.typ = c.typ := by
  unfold pollErr pollExt at h
  dsimp only at h
  split at h
  · next hx =>
    have hx : c.ext = .read := by simp at hx; exact hx.2
    split at h
    · simp only [R.ok.injEq] at h; obtain ⟨rfl, rfl⟩ := h; simp [given]
    split at h
    · simp at h
    · simp only [R.ok.injEq] at h; obtain ⟨rfl, rfl⟩ := h; simp [given, Msg.give, hx]
  · simp only [R.ok.injEq] at h; obtain ⟨rfl, rfl⟩ := h; simp [given]

theorem poll_recv {c c' : Chan} {o : List Msg} (h : outputPoll c = .ok c' o) :
    given o = 0 ∧ c'.datagram = c.datagram ∧ c'.localWindow = c.localWindow ∧ c'.consumed = c.consumed ∧
    c'.output = c.output ∧ c'.ext = c.ext ∧ (c'.ext = .write ∨ c'.typ = .larval → c'.extended = c.extended) ∧
    c'.windowMax = c.windowMax ∧ c'.typ = c.typ := by
  unfold outputPoll at h
  split at h
  · simp only [R.ok.injEq] at h; obtain ⟨rfl, rfl⟩ := h; simp [given]
  next ht =>
  have ht : c.typ = .open_ := by simpa using ht
  split at h
  · simp only [R.ok.injEq] at h; obtain ⟨rfl, rfl⟩ := h; simp [given]
  generalize hr : (if c.istate ≠ .closed then pollInput c else .ok c []) = r at h
  cases r with
  | fatal => simp [R.bind] at h
  | freed o => simp [R.bind] at h
  | ok c1 o1 =>
    have h1 : given o1 = 0 ∧ c1.datagram = c.datagram ∧ c1.localWindow = c.localWindow ∧ c1.consumed = c.consumed ∧
        c1.output = c.output ∧ c1.ext = c.ext ∧ c1.extended = c.extended ∧ c1.windowMax = c.windowMax ∧ c1.typ = c.typ := by
      split at hr
      · exact pollInput_recv hr
      · simp only [R.ok.injEq] at hr; obtain ⟨rfl, rfl⟩ := hr; simp [given]
    simp only [R.bind] at h
    cases hc : pollErr c1 with
    | fatal => rw [hc] at h; simp [R.pre] at h
    | freed o => rw [hc] at h; simp [R.pre] at h
    | ok c2 o2 =>
      rw [hc] at h
      simp only [R.pre, R.ok.injEq] at h
      obtain ⟨rfl, rfl⟩ := h
      have h2 := pollErr_recv hc
      obtain ⟨a1, a2, a3, a4, a5, a6, a7, a8, a9⟩ := h1
      obtain ⟨b1, b2, b3, b4, b5, b6, b7, b8, b9⟩ := h2
      refine ⟨by rw [given_append, a1, b1], b2.trans a2, b3.trans a3, b4.trans a4, b5.trans a5, b6.trans a6, ?_,
        b8.trans a8, b9.trans a9⟩
      rintro (hx | hx)
      · exact (b7 hx).trans a7
      · rw [b9, a9, ht] at hx; exact absurd hx (by simp)

theorem sub32_le {a b : Nat} (h : b ≤ a) (ha : a < U32) : sub32 a b = a - b := by
  unfold sub32
  rw [Nat.mod_eq_of_lt (show b < U32 by omega)]
  have : a + (U32 - b) = (a - b) + U32 := by omega
  rw [this, Nat.add_mod_right, Nat.mod_eq_of_lt (by omega)]

theorem add32_lt {a b : Nat} (h : a + b < U32) : add32 a b = a + b := by
  unfold add32; exact Nat.mod_eq_of_lt h

theorem step_rcv {c : Chan} {cr : Nat} (e : Ev) (h : Rcv c cr) (ha : e.arrives ≤ cr) :
    RcvR cr e.arrives (step c e) := by
  have hl : ∀ (n : Nat) (f : Chan → R), RcvR cr n (f c) → RcvR cr n (lookup c f) := by
    intro n f hf; unfold lookup; split
    · trivial
    · exact hf
  have hcr := h.credit
  have htot := h.total
  have hb := h.bound
  have self : ∀ n, RcvR cr n (.ok c []) := fun n => rcv_same h (by simp [given]) rfl rfl rfl rfl rfl (fun _ => rfl) rfl id
  by_cases hq : e.isQuiet = true
  · have h0 : e.arrives = 0 := by cases e <;> simp_all [Ev.isQuiet, Ev.arrives]
    rw [h0]
    exact rcv_quiet h (step_quiet e hq)
  cases e with
  | read r =>
    simp only [step, handleRead]
    repeat' split
    all_goals first
      | exact rcv_quiet h (readFailed_quiet (l := false))
      | exact rcv_same h (by simp [given]) rfl rfl rfl rfl rfl (fun _ => rfl) rfl id
  | write n =>
    simp only [step, handleWrite]
    split
    · exact self _
    next hg =>
    split
    · exact rcv_quiet h writeFailed_quiet
    split
    · next hd => rw [h.stream] at hd; exact absurd hd (by simp)
    · next n _ =>
      have hlen := List.length_drop (i := n) (l := c.output)
      refine ⟨h.stream, by simpa [given, Ev.arrives] using hcr, ?_, hb, h.larval⟩
      unfold buffered at *
      dsimp only
      rw [hlen, add32_lt (by omega)]
      omega
  | extRead r =>
    simp only [step, handleExtRead]
    split
    · exact self _
    next hg =>
    have hw : c.ext ≠ .write := fun e => hg (.inr (.inr e))
    have ht : c.typ = .open_ := by
      cases e : c.typ <;> simp_all
    repeat' split
    all_goals first
      | exact rcv_same h (by simp [given]) rfl rfl rfl rfl rfl (fun _ => rfl) rfl id
      | exact rcv_same h (by simp [given]) rfl rfl rfl rfl rfl
          (fun hh => by rcases hh with hh | hh <;> simp_all) rfl id
  | extWrite n =>
    simp only [step, handleExtWrite]
    split
    · exact self _
    next hg =>
    split
    · exact rcv_same h (by simp [given]) rfl rfl rfl rfl rfl (fun _ => rfl) rfl id
    · next n =>
      have hw : c.ext = .write := by
        cases e : c.ext <;> simp_all
      have ht : c.typ = .open_ := by
        cases e : c.typ <;> simp_all
      have hlen := List.length_drop (i := n) (l := c.extended)
      refine ⟨h.stream, by simpa [given, Ev.arrives] using hcr, ?_, hb, fun hh => by rw [ht] at hh; exact absurd hh (by simp)⟩
      unfold buffered at *
      rw [if_pos hw] at *
      dsimp only
      rw [hlen, add32_lt (by omega)]
      omega
  | checkWindow =>
    simp only [step, checkWindow]
    split
    · split
      · trivial
      · refine ⟨h.stream, ?_, ?_, hb, h.larval⟩
        · simp only [given, List.map_cons, List.map_nil, List.sum_cons, List.sum_nil, Msg.give, Ev.arrives]
          rw [add32_lt (by omega)]
          omega
        · unfold buffered at *
          dsimp only
          rw [add32_lt (by omega)]
          omega
    · exact self _
  | poll =>
    simp only [step]
    cases hr : outputPoll c with
    | fatal => trivial
    | freed o => trivial
    | ok c' o =>
      obtain ⟨a1, a2, a3, a4, a5, a6, a7, a8, a9⟩ := poll_recv hr
      exact rcv_same h (by rw [a1]; omega) a2 a3 a4 a5 a6 a7 a8 (fun e => a9 ▸ e)
  | rcvData v =>
    simp only [Ev.arrives] at ha
    refine hl _ (fun c => inputData c v) ?_
    unfold inputData putOutput
    dsimp only
    have hd := h.stream
    have hwl : (if c.datagram = true then v.length + 4 else v.length) = v.length := by rw [hd]; rfl
    rw [hwl]
    split
    · exact self _
    next hty =>
    have hlar : c.typ ≠ .larval := by
      intro e; simp [e] at hty
    split
    · refine ⟨hd, ?_, ?_, hb, fun e => absurd e hlar⟩
      · dsimp only
        rw [sub32_le (by omega) (by omega)]
        simp [given, Ev.arrives]; omega
      · unfold buffered at *
        dsimp only
        rw [sub32_le (by omega) (by omega), add32_lt (by omega)]
        omega
    split
    · exact self _
    split
    · omega
    · refine ⟨hd, ?_, ?_, hb, fun e => absurd e hlar⟩
      · simp [given, Ev.arrives]; omega
      · unfold buffered at *
        simp only [hd, Bool.false_eq_true, if_false, List.length_append]
        omega
  | rcvExt s v =>
    simp only [Ev.arrives] at ha
    refine hl _ (fun c => inputExt c s v) ?_
    unfold inputExt
    split
    · exact self _
    next hty =>
    split
    · trivial
    split
    · exact self _
    next hx =>
    have hw : c.ext = .write := by
      cases e : c.ext <;> simp_all
    have ht : c.typ = .open_ := by simpa using hty
    split
    · exact self _
    · refine ⟨h.stream, ?_, ?_, hb, fun hh => by rw [ht] at hh; exact absurd hh (by simp)⟩
      · simp [given, Ev.arrives]; omega
      · unfold buffered at *
        rw [if_pos hw] at *
        simp only [List.length_append]
        omega
  | rcvConfirm w m =>
    refine hl _ (fun c => inputConfirm c w.toNat m.toNat) ?_
    unfold inputConfirm
    split
    · trivial
    · exact rcv_same h (by simp [given]) rfl rfl rfl rfl rfl (fun _ => rfl) rfl (by simp)
  | rcvAdjust n =>
    simp only [step, inputAdjust]
    repeat' split
    all_goals first
      | trivial
      | exact rcv_same h (by simp [given]) rfl rfl rfl rfl rfl (fun _ => rfl) rfl id
  | activate a b w =>
    simp only [step, Chan.activate]
    split
    · trivial
    next ht =>
    have ht : c.typ = .larval := by simpa using ht
    obtain ⟨h0, hx⟩ := h.larval ht
    split
    · trivial
    have hout : c.output.length = 0 := by unfold buffered at htot; omega
    refine ⟨h.stream, ?_, ?_, w.toNat_lt_size, by simp⟩
    · simp [given, Msg.give]; omega
    · unfold buffered
      simp only [hx, List.length_nil, hout]
      split <;> omega
  | connected =>
    simp only [step]
    split
    · exact rcv_same h (by simp [given]) rfl rfl rfl rfl rfl (fun _ => rfl) rfl (by simp)
    · exact self _
  | markDead => exact rcv_same h (by simp [given]) rfl rfl rfl rfl rfl (fun _ => rfl) rfl (by simp)
  | register d => exact rcv_same h (by simp [given]) rfl rfl rfl rfl rfl (fun _ => rfl) rfl id
  | _ => simp [Ev.isQuiet] at hq

/-! ### Conservation -/

/-- No credit has been lost: the peer's credit is our window, and window, consumed and buffered data make up the
whole window. -/
structure Exact (c : Chan) (cr : Nat) : Prop where
  rcv : Rcv c cr
  credit : cr = c.localWindow
  total : c.localWindow + c.consumed + buffered c = c.windowMax

def ExactR (cr n : Nat) : R → Prop
  | .ok c' o => cr - n + given o = c'.localWindow ∧ c'.localWindow + c'.consumed + buffered c' = c'.windowMax
  | _ => True

theorem exact_quiet {c : Chan} {cr : Nat} {r : R} (h : Exact c cr) (hq : Quiet false c r) : ExactR cr 0 r := by
  cases r with
  | freed o => trivial
  | fatal => trivial
  | ok c' o =>
    obtain ⟨hf, hm⟩ := hq
    refine ⟨?_, ?_⟩
    · rw [given_zero hm, hf.localWindow, h.credit]; omega
    · have := h.total
      unfold buffered at *
      rw [hf.localWindow, hf.consumed, hf.windowMax, hf.ext, hf.extended]
      rcases hf.output with e | ⟨e, _, _⟩
      · rw [e]; exact this
      · exact absurd e (by simp)

theorem exact_same {c c' : Chan} {cr n : Nat} {o : List Msg} (h : Exact c cr) (hn : n = 0) (ho : given o = 0)
    (h2 : c'.localWindow = c.localWindow) (h3 : c'.consumed = c.consumed) (h4 : c'.output = c.output)
    (h5 : c'.ext = c.ext) (h6 : c'.ext = .write → c'.extended = c.extended)
    (h7 : c'.windowMax = c.windowMax) : ExactR cr n (.ok c' o) := by
  refine ⟨?_, ?_⟩
  · rw [hn, ho, h2, h.credit]; omega
  · have := h.total
    unfold buffered at *
    rw [h2, h3, h4, h7]
    by_cases he : c'.ext = .write
    · rw [if_pos he, h6 he]; rw [if_pos (h5 ▸ he)] at this; exact this
    · rw [if_neg he]; rw [if_neg (h5 ▸ he)] at this; exact this

theorem step_exact {c : Chan} {cr : Nat} (e : Ev) (h : Exact c cr) (ha : e.arrives ≤ cr) (hu : Useful c e) :
    ExactR cr e.arrives (step c e) := by
  have hl : ∀ (n : Nat) (f : Chan → R), ExactR cr n (f c) → ExactR cr n (lookup c f) := by
    intro n f hf; unfold lookup; split
    · trivial
    · exact hf
  have hcr := h.credit
  have htot := h.total
  have hb := h.rcv.bound
  have hd := h.rcv.stream
  by_cases hq : e.isQuiet = true
  · have h0 : e.arrives = 0 := by cases e <;> simp_all [Ev.isQuiet, Ev.arrives]
    have h1 : e.lossy = false := by cases e <;> simp_all [Ev.isQuiet, Ev.lossy, Useful]
    have := step_quiet (c := c) e hq
    rw [h1] at this
    rw [h0]
    exact exact_quiet h this
  cases e with
  | read r =>
    simp only [step, handleRead]
    repeat' split
    all_goals first
      | exact exact_quiet h readFailed_quiet
      | exact exact_same h rfl rfl rfl rfl rfl rfl (fun _ => rfl) rfl
  | write n =>
    cases n with
    | none => simp [Useful] at hu
    | some n =>
      simp only [step, handleWrite]
      split
      · exact exact_same h rfl rfl rfl rfl rfl rfl (fun _ => rfl) rfl
      split
      · next hd' => rw [hd] at hd'; exact absurd hd' (by simp)
      · have hlen := List.length_drop (i := n) (l := c.output)
        refine ⟨by simpa [given, Ev.arrives] using hcr, ?_⟩
        unfold buffered at *
        dsimp only
        rw [hlen, add32_lt (by omega)]
        omega
  | extRead r =>
    simp only [step, handleExtRead]
    split
    · exact exact_same h rfl rfl rfl rfl rfl rfl (fun _ => rfl) rfl
    next hg =>
    have hw : c.ext ≠ .write := fun e => hg (.inr (.inr e))
    repeat' split
    all_goals first
      | exact exact_same h rfl rfl rfl rfl rfl rfl (fun _ => rfl) rfl
      | exact exact_same h rfl rfl rfl rfl rfl rfl (fun hh => absurd hh hw) rfl
  | extWrite n =>
    simp only [step, handleExtWrite]
    split
    · exact exact_same h rfl rfl rfl rfl rfl rfl (fun _ => rfl) rfl
    next hg =>
    split
    · exact exact_same h rfl rfl rfl rfl rfl rfl (fun _ => rfl) rfl
    · next n =>
      have hw : c.ext = .write := by
        cases e : c.ext <;> simp_all
      have hlen := List.length_drop (i := n) (l := c.extended)
      refine ⟨by simpa [given, Ev.arrives] using hcr, ?_⟩
      unfold buffered at *
      rw [if_pos hw] at *
      dsimp only
      rw [hlen, add32_lt (by omega)]
      omega
  | checkWindow =>
    simp only [step, checkWindow]
    split
    · split
      · trivial
      · unfold buffered at htot
        refine ⟨?_, ?_⟩
        · simp only [given, List.map_cons, List.map_nil, List.sum_cons, List.sum_nil, Msg.give, Ev.arrives]
          rw [add32_lt (by omega)]
          omega
        · unfold buffered
          dsimp only
          rw [add32_lt (by omega)]
          omega
    · exact exact_same h rfl rfl rfl rfl rfl rfl (fun _ => rfl) rfl
  | poll =>
    simp only [step]
    cases hr : outputPoll c with
    | fatal => trivial
    | freed o => trivial
    | ok c' o =>
      obtain ⟨a1, a2, a3, a4, a5, a6, a7, a8, a9⟩ := poll_recv hr
      exact exact_same h rfl a1 a3 a4 a5 a6 (fun e => a7 (.inl e)) a8
  | rcvData v =>
    simp only [Ev.arrives] at ha
    simp only [Useful] at hu
    refine hl _ (fun c => inputData c v) ?_
    unfold inputData putOutput
    dsimp only
    have hwl : (if c.datagram = true then v.length + 4 else v.length) = v.length := by rw [hd]; rfl
    rw [hwl]
    split
    · next hty => rcases hu.1 with e | e <;> simp [e] at hty
    split
    · unfold buffered at htot
      refine ⟨?_, ?_⟩
      · dsimp only
        rw [sub32_le (by omega) (by omega)]
        simp [given, Ev.arrives]; omega
      · unfold buffered
        dsimp only
        rw [sub32_le (by omega) (by omega), add32_lt (by omega)]
        omega
    split
    · omega
    split
    · omega
    · refine ⟨?_, ?_⟩
      · simp [given, Ev.arrives]; omega
      · unfold buffered at *
        simp only [hd, Bool.false_eq_true, if_false, List.length_append]
        omega
  | rcvExt s v =>
    simp only [Ev.arrives] at ha
    simp only [Useful] at hu
    refine hl _ (fun c => inputExt c s v) ?_
    unfold inputExt
    obtain ⟨ht, he, hw, rfl⟩ := hu
    split
    · next hty => exact absurd ht hty
    split
    · trivial
    split
    · next hx => simp [he, hw] at hx
    split
    · omega
    · refine ⟨?_, ?_⟩
      · simp [given, Ev.arrives]; omega
      · unfold buffered at *
        rw [if_pos hw] at *
        simp only [List.length_append]
        omega
  | rcvConfirm w m =>
    refine hl _ (fun c => inputConfirm c w.toNat m.toNat) ?_
    unfold inputConfirm
    split
    · trivial
    · exact exact_same h rfl rfl rfl rfl rfl rfl (fun _ => rfl) rfl
  | rcvAdjust n =>
    simp only [step, inputAdjust]
    repeat' split
    all_goals first
      | trivial
      | exact exact_same h rfl rfl rfl rfl rfl rfl (fun _ => rfl) rfl
  | activate a b w =>
    simp only [step, Chan.activate]
    split
    · trivial
    next ht =>
    have ht : c.typ = .larval := by simpa using ht
    obtain ⟨h0, hx⟩ := h.rcv.larval ht
    split
    · trivial
    unfold buffered at htot
    refine ⟨?_, ?_⟩
    · simp [given, Msg.give, Ev.arrives]; omega
    · unfold buffered
      simp only [hx, List.length_nil]
      split <;> omega
  | connected =>
    simp only [step]
    split
    · exact exact_same h rfl rfl rfl rfl rfl rfl (fun _ => rfl) rfl
    · exact exact_same h rfl rfl rfl rfl rfl rfl (fun _ => rfl) rfl
  | markDead => exact exact_same h rfl rfl rfl rfl rfl rfl (fun _ => rfl) rfl
  | register d => exact exact_same h rfl rfl rfl rfl rfl rfl (fun _ => rfl) rfl
  | _ => simp [Ev.isQuiet] at hq

end Verif.Chan
