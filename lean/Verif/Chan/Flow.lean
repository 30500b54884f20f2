/- Invariants of the windows and of the two data streams. -/
import Verif.Chan.Quiet

namespace Verif.Chan
open Verif Wire

/-! ### Lists of messages -/

theorem sent_append (a b : List Msg) : sent (a ++ b) = sent a + sent b := by simp [sent]
theorem stream_append (a b : List Msg) : stream (a ++ b) = stream a ++ stream b := by simp [stream]
theorem given_append (a b : List Msg) : given (a ++ b) = given a + given b := by simp [given]

theorem sent_zero {o : List Msg} (h : ∀ m ∈ o, m.isData = false) : sent o = 0 := by
  induction o with
  | nil => rfl
  | cons m o ih =>
    have hm := h m (by simp)
    have := ih fun x hx => h x (by simp [hx])
    simp only [sent, List.map_cons, List.sum_cons] at *
    rw [this]
    cases m <;> simp_all [Msg.isData, Msg.payload]

theorem stream_nil {o : List Msg} (h : ∀ m ∈ o, m.isData = false) : stream o = [] := by
  induction o with
  | nil => rfl
  | cons m o ih =>
    have hm := h m (by simp)
    have := ih fun x hx => h x (by simp [hx])
    simp only [stream, List.map_cons, List.flatten_cons] at *
    rw [this]
    cases m <;> simp_all [Msg.isData]

theorem given_zero {o : List Msg} (h : ∀ m ∈ o, m = .eof ∨ m = .close ∨ m = .eow) : given o = 0 := by
  induction o with
  | nil => rfl
  | cons m o ih =>
    have hm := h m (by simp)
    have := ih fun x hx => h x (by simp [hx])
    simp only [given, List.map_cons, List.sum_cons] at *
    rw [this]
    rcases hm with rfl | rfl | rfl <;> rfl

theorem noData {o : List Msg} (h : ∀ m ∈ o, m = .eof ∨ m = .close ∨ m = .eow) : ∀ m ∈ o, m.isData = false := by
  intro m hm
  rcases h m hm with rfl | rfl | rfl <;> rfl

/-! ### Sending -/

/-- The effect of a call on the credit left, given `g` more. -/
def Paid (c : Chan) (g : Nat) : R → Prop
  | .ok c' o => sent o + c'.remoteWindow ≤ c.remoteWindow + g ∧
      ∀ m ∈ o, m.isData = true → m.payload.length ≤ c.remoteMax ∧ c.typ = .open_
  | .freed o => sent o = 0 ∧ ∀ m ∈ o, m.isData = false
  | .fatal => True

theorem paid_quiet {l : Bool} {c : Chan} {r : R} (h : Quiet l c r) (g : Nat) : Paid c g r := by
  cases r with
  | fatal => trivial
  | freed o => exact ⟨sent_zero (noData h), noData h⟩
  | ok c' o =>
    refine ⟨?_, ?_⟩
    · rw [sent_zero (noData h.2), h.1.remoteWindow]; omega
    · intro m hm hd
      rw [noData h.2 m hm] at hd
      exact absurd hd (by simp)

theorem paid_same {c c' : Chan} {g : Nat} (h : c'.remoteWindow = c.remoteWindow) : Paid c g (.ok c' []) :=
  ⟨by simp [sent, h], by simp⟩

theorem pollInput_paid {c : Chan} (ht : c.typ = .open_) : Paid c 0 (pollInput c) := by
  unfold pollInput
  dsimp only
  split
  · split
    · split
      · exact paid_same rfl
      · exact paid_quiet (l := false) ibufEmpty_quiet 0
    · exact paid_same rfl
  split
  · trivial
  split
  · split
    · trivial
    · split
      · exact paid_same rfl
      · next h =>
        refine ⟨?_, ?_⟩
        · simp [sent, Msg.payload]; omega
        · simp [Msg.payload, ht]; omega
  · split
    · exact paid_same rfl
    · refine ⟨?_, ?_⟩
      · simp [sent, Msg.payload]; omega
      · simp [Msg.payload, ht]; omega

theorem pollInput_max {c c' : Chan} {o : List Msg} (h : pollInput c = .ok c' o) :
    c'.remoteMax = c.remoteMax ∧ c'.typ = c.typ := by
  unfold pollInput ibufEmpty sendEof setI at h
  dsimp only at h
  revert h
  repeat' split
  all_goals (simp_all [R.bind, R.pre])
  all_goals (rintro rfl _; exact ⟨rfl, rfl⟩)

theorem pollErr_paid {c : Chan} (ht : c.typ = .open_) : Paid c 0 (pollErr c) := by
  unfold pollErr pollExt
  dsimp only
  split
  · split
    · exact paid_same rfl
    split
    · trivial
    · refine ⟨?_, ?_⟩
      · simp [sent, Msg.payload]; omega
      · simp [Msg.payload, ht]; omega
  · exact paid_same rfl

theorem pollErr_max {c c' : Chan} {o : List Msg} (h : pollErr c = .ok c' o) :
    c'.remoteMax = c.remoteMax ∧ c'.typ = c.typ := by
  unfold pollErr pollExt at h
  dsimp only at h
  revert h
  repeat' split
  all_goals (first | (intro h; simp at h; done) | (intro h; simp at h; obtain ⟨rfl, _⟩ := h; exact ⟨rfl, rfl⟩))

theorem poll_paid {c : Chan} : Paid c 0 (outputPoll c) := by
  unfold outputPoll
  split
  · exact paid_same rfl
  next ht =>
  have ht : c.typ = .open_ := by simpa using ht
  split
  · exact paid_same rfl
  have key : ∀ r : R, Paid c 0 r → (∀ c' o, r = .ok c' o → c'.remoteMax = c.remoteMax ∧ c'.typ = c.typ) →
      Paid c 0 (r.bind pollErr) := by
    intro r h hm
    cases r with
    | fatal => trivial
    | freed o => exact h
    | ok c1 o1 =>
      obtain ⟨h1, h2⟩ := hm _ _ rfl
      have h3 := pollErr_paid (h2.trans ht)
      simp only [R.bind]
      have hnf : ∀ o, pollErr c1 ≠ .freed o := by
        intro o; unfold pollErr pollExt; dsimp only; repeat' split
        all_goals simp
      cases hc : pollErr c1 with
      | fatal => trivial
      | freed o => exact absurd hc (hnf o)
      | ok c2 o2 =>
        rw [hc] at h3
        refine ⟨?_, ?_⟩
        · rw [sent_append]
          have a := h.1
          have b := h3.1
          omega
        · intro m hm hd
          rcases List.mem_append.mp hm with hm | hm
          · exact h.2 m hm hd
          · rw [← h1, ← h2]; exact h3.2 m hm hd
  refine key _ ?_ ?_
  · split
    · exact pollInput_paid ht
    · exact paid_same rfl
  · intro c' o e
    split at e
    · exact pollInput_max e
    · simp only [R.ok.injEq] at e; rw [← e.1]; exact ⟨rfl, rfl⟩

theorem step_paid (c : Chan) (e : Ev) : Paid c e.grant (step c e) := by
  have hl : ∀ (g : Nat) (f : Chan → R), Paid c g (f c) → Paid c g (lookup c f) := by
    intro g f hf; unfold lookup; split
    · trivial
    · exact hf
  by_cases hq : e.isQuiet = true
  · exact paid_quiet (step_quiet e hq) _
  cases e with
  | read r =>
    simp only [step, handleRead]
    repeat' split
    all_goals first | exact paid_same rfl | exact paid_quiet (l := false) readFailed_quiet _
  | write n =>
    simp only [step, handleWrite]
    repeat' split
    all_goals first | exact paid_same rfl | exact paid_quiet writeFailed_quiet _ | trivial
  | extRead r =>
    simp only [step, handleExtRead]
    repeat' split
    all_goals exact paid_same rfl
  | extWrite n =>
    simp only [step, handleExtWrite]
    repeat' split
    all_goals exact paid_same rfl
  | checkWindow =>
    simp only [step, checkWindow]
    repeat' split
    all_goals first | exact paid_same rfl | trivial | exact ⟨by simp [sent, Msg.payload], by simp [Msg.isData]⟩
  | poll => exact poll_paid
  | rcvData v =>
    refine hl _ (fun c => inputData c v) ?_
    unfold inputData putOutput
    dsimp only
    repeat' split
    all_goals first | exact paid_same rfl | trivial
  | rcvExt s v =>
    refine hl _ (fun c => inputExt c s v) ?_
    unfold inputExt
    repeat' split
    all_goals first | exact paid_same rfl | trivial
  | rcvConfirm w m =>
    refine hl _ (fun c => inputConfirm c w.toNat m.toNat) ?_
    unfold inputConfirm
    split
    · trivial
    · exact ⟨by simp [sent, Ev.grant], by simp⟩
  | rcvAdjust n =>
    simp only [step, inputAdjust]
    split
    · exact paid_same rfl
    split
    · trivial
    · refine ⟨?_, by simp⟩
      simp only [sent, List.map_nil, List.sum_nil, Ev.grant, add32]
      have := Nat.mod_le (c.remoteWindow + n.toNat) U32
      omega
  | activate a b w =>
    simp only [step, Chan.activate]
    repeat' split
    all_goals first | trivial | exact ⟨by simp [sent, Msg.payload], by simp [Msg.isData]⟩
  | connected =>
    simp only [step]
    split <;> exact paid_same rfl
  | markDead => exact paid_same rfl
  | register d => exact paid_same rfl
  | _ => simp [Ev.isQuiet] at hq

/-- How the type and the peer's packet size limit may change. -/
def TypStep (c c' : Chan) (e : Ev) : Prop :=
  (c'.remoteMax = c.remoteMax ∧ (c'.typ = c.typ ∨ c'.typ = .abandoned ∨ c'.typ = .zombie)) ∨
  (c.typ = .opening ∧ ∃ w m, e = .rcvConfirm w m ∧ c'.remoteMax = m.toNat ∧ c'.typ = .open_) ∨
  ((c.typ = .larval ∨ c.typ = .connecting ∨ c.typ = .x11Open) ∧ c'.typ = .open_ ∧ c'.remoteMax = c.remoteMax)

/-- The peer's packet size limit is set once, when the channel is opened. -/
theorem step_max {c c' : Chan} {e : Ev} {o : List Msg} (h : step c e = .ok c' o) : TypStep c c' e := by
  have quiet : ∀ (l : Bool) (r : R), Quiet l c r → r = .ok c' o → TypStep c c' e := by
    intro l r hr he
    rw [he] at hr
    have hf := hr.1
    exact .inl ⟨hf.remoteMax, hf.typ.imp id .inl⟩
  by_cases hq : e.isQuiet = true
  · exact quiet _ _ (step_quiet (c := c) e hq) h
  have same : ∀ c1 : Chan, c1.typ = c.typ → c1.remoteMax = c.remoteMax → TypStep c c1 e :=
    fun c1 h1 h2 => .inl ⟨h2, .inl h1⟩
  cases e with
  | read r =>
    simp only [step, handleRead] at h
    revert h
    repeat' split
    all_goals first
      | (intro h; simp only [R.ok.injEq] at h; obtain ⟨rfl, _⟩ := h; exact same _ rfl rfl)
      | exact quiet false _ readFailed_quiet
  | write n =>
    simp only [step, handleWrite] at h
    revert h
    repeat' split
    all_goals first
      | (intro h; simp only [R.ok.injEq] at h; obtain ⟨rfl, _⟩ := h; exact same _ rfl rfl)
      | exact quiet true _ writeFailed_quiet
      | (intro h; simp at h; done)
  | extRead r =>
    simp only [step, handleExtRead] at h
    revert h
    repeat' split
    all_goals (intro h; simp only [R.ok.injEq] at h; obtain ⟨rfl, _⟩ := h; exact same _ rfl rfl)
  | extWrite r =>
    simp only [step, handleExtWrite] at h
    revert h
    repeat' split
    all_goals (intro h; simp only [R.ok.injEq] at h; obtain ⟨rfl, _⟩ := h; exact same _ rfl rfl)
  | checkWindow =>
    simp only [step, checkWindow] at h
    revert h
    repeat' split
    all_goals first
      | (intro h; simp only [R.ok.injEq] at h; obtain ⟨rfl, _⟩ := h; exact same _ rfl rfl)
      | (intro h; simp at h; done)
  | poll =>
    simp only [step, outputPoll] at h
    split at h
    · simp only [R.ok.injEq] at h; obtain ⟨rfl, _⟩ := h; exact same _ rfl rfl
    split at h
    · simp only [R.ok.injEq] at h; obtain ⟨rfl, _⟩ := h; exact same _ rfl rfl
    have key : ∀ r : R, (∀ c' o, r = .ok c' o → c'.remoteMax = c.remoteMax ∧ c'.typ = c.typ) →
        r.bind pollErr = .ok c' o → c'.remoteMax = c.remoteMax ∧ c'.typ = c.typ := by
      intro r hr he
      cases r with
      | fatal => simp [R.bind] at he
      | freed o => simp [R.bind] at he
      | ok c1 o1 =>
        simp only [R.bind] at he
        obtain ⟨h1, h2⟩ := hr _ _ rfl
        cases hc : pollErr c1 with
        | fatal => rw [hc] at he; simp [R.pre] at he
        | freed o => rw [hc] at he; simp [R.pre] at he
        | ok c2 o2 =>
          rw [hc] at he
          simp only [R.pre, R.ok.injEq] at he
          obtain ⟨rfl, _⟩ := he
          obtain ⟨h3, h4⟩ := pollErr_max hc
          exact ⟨h3.trans h1, h4.trans h2⟩
    have := key _ (by
      intro c1 o1 e1
      split at e1
      · exact pollInput_max e1
      · simp only [R.ok.injEq] at e1; rw [← e1.1]; exact ⟨rfl, rfl⟩) h
    exact same _ this.2 this.1
  | rcvData v =>
    simp only [step, lookup, inputData, putOutput] at h
    revert h
    repeat' split
    all_goals first
      | (intro h; simp only [R.ok.injEq] at h; obtain ⟨rfl, _⟩ := h; exact same _ rfl rfl)
      | (intro h; simp at h; done)
  | rcvExt s v =>
    simp only [step, lookup, inputExt] at h
    revert h
    repeat' split
    all_goals first
      | (intro h; simp only [R.ok.injEq] at h; obtain ⟨rfl, _⟩ := h; exact same _ rfl rfl)
      | (intro h; simp at h; done)
  | rcvConfirm w m =>
    simp only [step, lookup, inputConfirm] at h
    split at h
    · simp at h
    split at h
    · simp at h
    next ht =>
    simp only [R.ok.injEq] at h
    obtain ⟨rfl, _⟩ := h
    exact .inr (.inl ⟨by simpa using ht, w, m, rfl, rfl, rfl⟩)
  | rcvAdjust n =>
    simp only [step, inputAdjust] at h
    revert h
    repeat' split
    all_goals first
      | (intro h; simp only [R.ok.injEq] at h; obtain ⟨rfl, _⟩ := h; exact same _ rfl rfl)
      | (intro h; simp at h; done)
  | activate a b w =>
    simp only [step, Chan.activate] at h
    split at h
    · simp at h
    split at h
    · simp at h
    next ht _ =>
    simp only [R.ok.injEq] at h
    obtain ⟨rfl, _⟩ := h
    have ht : c.typ = .larval := by simpa using ht
    exact .inr (.inr ⟨.inl ht, rfl, rfl⟩)
  | connected =>
    simp only [step] at h
    split at h
    · next ht =>
      simp only [R.ok.injEq] at h
      obtain ⟨rfl, _⟩ := h
      exact .inr (.inr ⟨.inr ht, rfl, rfl⟩)
    · simp only [R.ok.injEq] at h; obtain ⟨rfl, _⟩ := h; exact same _ rfl rfl
  | markDead =>
    simp only [step, Chan.markDead, R.ok.injEq] at h
    obtain ⟨rfl, _⟩ := h
    exact .inl ⟨rfl, .inr (.inr rfl)⟩
  | register d =>
    simp only [step, R.ok.injEq] at h; obtain ⟨rfl, _⟩ := h; exact same _ rfl rfl
  | _ => simp [Ev.isQuiet] at hq

/-! ### The two streams -/

/-- The outgoing stream: what was sent is a prefix of what was read, and nothing is lost before the input closes. -/
def In (c : Chan) (o : List Msg) : Prop :=
  c.datagram = false ∧ stream o <+: c.gIn ∧ (c.istate = .closed ∨ c.gIn = stream o ++ c.input)

/-- The incoming stream: what was written is a prefix of what was accepted. -/
def Out (c : Chan) : Prop :=
  c.datagram = false ∧ c.gOut <+: c.gAcc ∧ (c.ostate = .closed ∨ c.gAcc = c.gOut ++ c.output)

/-- Result of a step seen by both invariants; `o0`: messages sent before. -/
def Flow (o0 : List Msg) : R → Prop
  | .ok c o => In c (o0 ++ o) ∧ Out c
  | .freed _ => True
  | .fatal => True

theorem flow_quiet {l : Bool} {c : Chan} {r : R} {o0 : List Msg} (h : Quiet l c r) (hi : In c o0) (ho : Out c) :
    Flow o0 r := by
  cases r with
  | fatal => trivial
  | freed o => trivial
  | ok c' o =>
    obtain ⟨hf, hm⟩ := h
    have hs : stream (o0 ++ o) = stream o0 := by rw [stream_append, stream_nil (noData hm), List.append_nil]
    refine ⟨⟨by rw [hf.datagram]; exact hi.1, ?_, ?_⟩, by rw [hf.datagram]; exact ho.1, ?_, ?_⟩
    · rw [hs, hf.gIn]; exact hi.2.1
    · rw [hs, hf.gIn]
      rcases hi.2.2 with e | e
      · exact .inl (hf.istate e)
      · rcases hf.input with e' | ⟨_, _, e'⟩
        · rw [e']; exact .inr e
        · exact .inl e'
    · rw [hf.gOut, hf.gAcc]; exact ho.2.1
    · rw [hf.gOut, hf.gAcc]
      rcases ho.2.2 with e | e
      · exact .inl (hf.ostate' e)
      · rcases hf.output with e' | ⟨_, _, e'⟩
        · rw [e']; exact .inr e
        · exact .inl e'

theorem flow_same {c c' : Chan} {o0 o : List Msg} (hi : In c o0) (ho : Out c) (hm : ∀ m ∈ o, m.isData = false)
    (h1 : c'.datagram = c.datagram) (h2 : c'.gIn = c.gIn) (h3 : c'.input = c.input) (h4 : c'.istate = c.istate)
    (h5 : c'.gOut = c.gOut) (h6 : c'.gAcc = c.gAcc) (h7 : c'.output = c.output) (h8 : c'.ostate = c.ostate) :
    Flow o0 (.ok c' o) := by
  have hs : stream (o0 ++ o) = stream o0 := by rw [stream_append, stream_nil hm, List.append_nil]
  simp only [Flow, In, Out, hs, h1, h2, h3, h4, h5, h6, h7, h8]
  exact ⟨hi, ho⟩

theorem pollInput_flow {c : Chan} {o0 : List Msg} (hi : In c o0) (ho : Out c) (hc : c.istate ≠ .closed) :
    Flow o0 (pollInput c) := by
  have hg : c.gIn = stream o0 ++ c.input := hi.2.2.resolve_left hc
  unfold pollInput
  dsimp only
  split
  · split
    · split
      · exact flow_same hi ho (by simp) rfl rfl rfl rfl rfl rfl rfl rfl
      · exact flow_quiet (l := false) ibufEmpty_quiet hi ho
    · exact flow_same hi ho (by simp) rfl rfl rfl rfl rfl rfl rfl rfl
  split
  · trivial
  split
  · next hd => rw [hi.1] at hd; exact absurd hd (by simp)
  · split
    · exact flow_same hi ho (by simp) rfl rfl rfl rfl rfl rfl rfl rfl
    · refine ⟨⟨hi.1, ?_, .inr ?_⟩, ho⟩
      · rw [stream_append, hg]
        refine ⟨c.input.drop (min (min c.input.length c.remoteWindow) c.remoteMax), ?_⟩
        simp [stream]
      · rw [stream_append]
        simp [stream, hg]

theorem pollErr_flow {c : Chan} {o0 : List Msg} (hi : In c o0) (ho : Out c) : Flow o0 (pollErr c) := by
  have self : Flow o0 (.ok c []) := flow_same hi ho (by simp) rfl rfl rfl rfl rfl rfl rfl rfl
  unfold pollErr pollExt
  dsimp only
  split
  · split
    · exact self
    split
    · trivial
    · refine ⟨⟨hi.1, ?_, ?_⟩, ho⟩
      · rw [stream_append]
        simp only [stream, List.map_cons, List.map_nil, List.flatten_cons, List.flatten_nil, List.append_nil]
        exact hi.2.1
      · rw [stream_append]
        simp only [stream, List.map_cons, List.map_nil, List.flatten_cons, List.flatten_nil, List.append_nil]
        exact hi.2.2
  · exact self

theorem outputPoll_flow {c : Chan} {o0 : List Msg} (hi : In c o0) (ho : Out c) : Flow o0 (outputPoll c) := by
  unfold outputPoll
  split
  · exact flow_same hi ho (by simp) rfl rfl rfl rfl rfl rfl rfl rfl
  split
  · exact flow_same hi ho (by simp) rfl rfl rfl rfl rfl rfl rfl rfl
  have key : ∀ r : R, Flow o0 r → Flow o0 (r.bind pollErr) := by
    intro r h
    cases r with
    | fatal => trivial
    | freed o => trivial
    | ok c1 o1 =>
      have := pollErr_flow h.1 h.2
      simp only [R.bind]
      cases hc : pollErr c1 with
      | fatal => trivial
      | freed o => trivial
      | ok c2 o2 =>
        rw [hc] at this
        simp only [R.pre, Flow] at this ⊢
        rw [← List.append_assoc]
        exact this
  refine key _ ?_
  split
  · next hc => exact pollInput_flow hi ho hc
  · exact flow_same hi ho (by simp) rfl rfl rfl rfl rfl rfl rfl rfl

theorem step_flow {c : Chan} {o0 : List Msg} (e : Ev) (hi : In c o0) (ho : Out c) : Flow o0 (step c e) := by
  have hl : ∀ (f : Chan → R), Flow o0 (f c) → Flow o0 (lookup c f) := by
    intro f hf; unfold lookup; split
    · trivial
    · exact hf
  by_cases hq : e.isQuiet = true
  · exact flow_quiet (step_quiet e hq) hi ho
  have self : Flow o0 (.ok c []) := flow_same hi ho (by simp) rfl rfl rfl rfl rfl rfl rfl rfl
  cases e with
  | read r =>
    simp only [step, handleRead]
    split
    · exact self
    next hg =>
    have hc : c.istate ≠ .closed := fun e => hg (.inr e)
    have hg : c.gIn = stream o0 ++ c.input := hi.2.2.resolve_left hc
    split
    · next hd => rw [hi.1] at hd; exact absurd hd (by simp)
    split
    · exact self
    split
    · exact self
    · exact flow_quiet (l := false) readFailed_quiet hi ho
    · next v =>
      refine ⟨⟨hi.1, ?_, .inr ?_⟩, ho⟩
      · rw [List.append_nil]
        exact hi.2.1.trans (List.prefix_append _ _)
      · rw [List.append_nil, hg, List.append_assoc]
  | write n =>
    simp only [step, handleWrite]
    split
    · exact self
    next hg =>
    have hc : c.ostate ≠ .closed := fun e => hg (.inr (.inl e))
    have hg : c.gAcc = c.gOut ++ c.output := ho.2.2.resolve_left hc
    split
    · exact flow_quiet writeFailed_quiet hi ho
    split
    · next hd => rw [hi.1] at hd; exact absurd hd (by simp)
    · next n _ =>
      refine ⟨by simpa [In] using hi, ho.1, ?_, .inr ?_⟩
      · refine ⟨c.output.drop n, ?_⟩
        simp [hg]
      · simp [hg]
  | extRead r =>
    simp only [step, handleExtRead]
    repeat' split
    all_goals exact flow_same hi ho (by simp) rfl rfl rfl rfl rfl rfl rfl rfl
  | extWrite n =>
    simp only [step, handleExtWrite]
    repeat' split
    all_goals exact flow_same hi ho (by simp) rfl rfl rfl rfl rfl rfl rfl rfl
  | checkWindow =>
    simp only [step, checkWindow]
    repeat' split
    all_goals first | trivial | exact flow_same hi ho (by simp [Msg.isData]) rfl rfl rfl rfl rfl rfl rfl rfl
  | poll => exact outputPoll_flow hi ho
  | rcvData v =>
    refine hl (fun c => inputData c v) ?_
    unfold inputData putOutput
    dsimp only
    generalize (if c.datagram = true then v.length + 4 else v.length) = wl
    split
    · exact self
    split
    · exact flow_same hi ho (by simp) rfl rfl rfl rfl rfl rfl rfl rfl
    next hop =>
    have hop : c.ostate = .open_ := by simpa using hop
    have hc : c.ostate ≠ .closed := by rw [hop]; simp
    have hg : c.gAcc = c.gOut ++ c.output := ho.2.2.resolve_left hc
    have put : ∀ c1 : Chan, c1.datagram = c.datagram → c1.istate = c.istate → c1.ostate = c.ostate → c1.gIn = c.gIn →
        c1.input = c.input → c1.gOut = c.gOut → c1.gAcc = c.gAcc → c1.output = c.output →
        Flow o0 (.ok { c1 with output := c1.output ++ (if c1.datagram = true then str v else v), gAcc := c1.gAcc ++ v } []) := by
      intro c1 h1 h2 h3 h4 h5 h6 h7 h8
      have hd : c1.datagram = false := h1.trans hi.1
      refine ⟨⟨hd, ?_, ?_⟩, hd, ?_, .inr ?_⟩
      · show stream (o0 ++ []) <+: c1.gIn
        rw [h4, List.append_nil]; exact hi.2.1
      · show c1.istate = .closed ∨ c1.gIn = stream (o0 ++ []) ++ c1.input
        rw [h4, List.append_nil, h2, h5]; exact hi.2.2
      · show c1.gOut <+: c1.gAcc ++ v
        rw [h6, h7]; exact ho.2.1.trans (List.prefix_append _ _)
      · show c1.gAcc ++ v = c1.gOut ++ (c1.output ++ if c1.datagram = true then str v else v)
        rw [hd, h6, h7, h8, hg]; simp
    split
    · exact self
    split
    · split
      · trivial
      · exact put { c with exceeded := _, localWindow := 0 } rfl rfl rfl rfl rfl rfl rfl rfl
    · exact put { c with exceeded := 0, localWindow := _ } rfl rfl rfl rfl rfl rfl rfl rfl
  | rcvExt s v =>
    refine hl (fun c => inputExt c s v) ?_
    unfold inputExt
    repeat' split
    all_goals first | trivial | exact flow_same hi ho (by simp) rfl rfl rfl rfl rfl rfl rfl rfl
  | rcvConfirm w m =>
    refine hl (fun c => inputConfirm c w.toNat m.toNat) ?_
    unfold inputConfirm
    split
    · trivial
    · exact flow_same hi ho (by simp) rfl rfl rfl rfl rfl rfl rfl rfl
  | rcvAdjust n =>
    simp only [step, inputAdjust]
    repeat' split
    all_goals first | trivial | exact flow_same hi ho (by simp) rfl rfl rfl rfl rfl rfl rfl rfl
  | activate a b w =>
    simp only [step, Chan.activate]
    repeat' split
    all_goals first | trivial | exact flow_same hi ho (by simp [Msg.isData]) rfl rfl rfl rfl rfl rfl rfl rfl
  | connected =>
    simp only [step]
    split <;> exact flow_same hi ho (by simp) rfl rfl rfl rfl rfl rfl rfl rfl
  | markDead => exact flow_same hi ho (by simp) rfl rfl rfl rfl rfl rfl rfl rfl
  | register d => exact flow_same hi ho (by simp) rfl rfl rfl rfl rfl rfl rfl rfl
  | _ => simp [Ev.isQuiet] at hq

end Verif.Chan
