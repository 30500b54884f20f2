/- C19, C20, C56, C57: windows, shutdown and data streams of a channel. -/
import Verif.Chan.Recv
import Verif.Chan.Reason

namespace Verif.Chan
open Verif Wire

theorem run_cons {c : Chan} {e : Ev} {es : List Ev} {c' : Chan} {o : List Msg} (h : run c (e :: es) = .ok c' o) :
    ∃ c1 o1 o2, step c e = .ok c1 o1 ∧ run c1 es = .ok c' o2 ∧ o = o1 ++ o2 := by
  simp only [run] at h
  cases hs : step c e with
  | fatal => rw [hs] at h; simp [R.bind] at h
  | freed o => rw [hs] at h; simp [R.bind] at h
  | ok c1 o1 =>
    rw [hs] at h
    simp only [R.bind] at h
    cases hr : run c1 es with
    | fatal => rw [hr] at h; simp [R.pre] at h
    | freed o => rw [hr] at h; simp [R.pre] at h
    | ok c2 o2 =>
      rw [hr] at h
      simp only [R.pre, R.ok.injEq] at h
      obtain ⟨rfl, rfl⟩ := h
      exact ⟨c1, o1, o2, rfl, hr, rfl⟩

theorem run_cons_freed {c : Chan} {e : Ev} {es : List Ev} {o : List Msg} (h : run c (e :: es) = .freed o) :
    step c e = .freed o ∨ ∃ c1 o1 o2, step c e = .ok c1 o1 ∧ run c1 es = .freed o2 ∧ o = o1 ++ o2 := by
  simp only [run] at h
  cases hs : step c e with
  | fatal => rw [hs] at h; simp [R.bind] at h
  | freed o' => rw [hs] at h; simp only [R.bind, R.freed.injEq] at h; exact .inl (by rw [h])
  | ok c1 o1 =>
    rw [hs] at h
    simp only [R.bind] at h
    cases hr : run c1 es with
    | fatal => rw [hr] at h; simp [R.pre] at h
    | ok c2 o => rw [hr] at h; simp [R.pre] at h
    | freed o2 =>
      rw [hr] at h
      simp only [R.pre, R.freed.injEq] at h
      subst h
      exact .inr ⟨c1, o1, o2, rfl, hr, rfl⟩

theorem run_append {c c1 : Chan} {es es' : List Ev} {o1 : List Msg} (h : run c es = .ok c1 o1) :
    run c (es ++ es') = (run c1 es').pre o1 := by
  induction es generalizing c o1 with
  | nil =>
    simp only [run, R.ok.injEq] at h
    obtain ⟨rfl, rfl⟩ := h
    simp only [List.nil_append]
    cases run c es' <;> simp [R.pre]
  | cons e es ih =>
    obtain ⟨c2, o2, o3, h1, h2, rfl⟩ := run_cons h
    simp only [List.cons_append, run, h1, R.bind]
    rw [ih h2]
    cases run c1 es' <;> simp [R.pre]

/-! ### C19: sending -/

/-- What was sent, and at most what was granted. -/
theorem run_paid {c c' : Chan} {es : List Ev} {o : List Msg} (h : run c es = .ok c' o) :
    sent o + c'.remoteWindow ≤ c.remoteWindow + granted es := by
  induction es generalizing c o with
  | nil => simp only [run, R.ok.injEq] at h; obtain ⟨rfl, rfl⟩ := h; simp [sent, granted]
  | cons e es ih =>
    obtain ⟨c1, o1, o2, h1, h2, rfl⟩ := run_cons h
    have hp := step_paid c e
    rw [h1] at hp
    have hp := hp.1
    have := ih h2
    rw [sent_append]
    simp only [granted, List.map_cons, List.sum_cons] at *
    omega

/-- C19: whatever happens, the data bytes sent on a channel never exceed the window the peer has granted: its initial
window, plus the window it gives when it confirms the channel, plus all its adjustments. -/
theorem C19_send {c : Chan} {es : List Ev} {o : List Msg} (h : (∃ c', run c es = .ok c' o) ∨ run c es = .freed o) :
    sent o ≤ c.remoteWindow + granted es := by
  rcases h with ⟨c', h⟩ | h
  · have := run_paid h; omega
  · induction es generalizing c o with
    | nil => simp [run] at h
    | cons e es ih =>
      rcases run_cons_freed h with h1 | ⟨c1, o1, o2, h1, h2, rfl⟩
      · have hp := step_paid c e
        rw [h1] at hp
        have := hp.1
        omega
      · have hp := step_paid c e
        rw [h1] at hp
        have hp := hp.1
        have := ih h2
        rw [sent_append]
        simp only [granted, List.map_cons, List.sum_cons] at *
        omega

/-- A channel marked dead or abandoned sends no more data. -/
theorem run_dead {c c' : Chan} {es : List Ev} {o : List Msg} (hd : c.typ = .abandoned ∨ c.typ = .zombie)
    (h : run c es = .ok c' o) : ∀ m ∈ o, m.isData = false := by
  induction es generalizing c o with
  | nil => simp only [run, R.ok.injEq] at h; obtain ⟨_, rfl⟩ := h; simp
  | cons e es ih =>
    obtain ⟨c1, o1, o2, h1, h2, rfl⟩ := run_cons h
    intro m hm
    rcases List.mem_append.mp hm with hm | hm
    · have hp := step_paid c e
      rw [h1] at hp
      cases hx : m.isData with
      | false => rfl
      | true =>
        have := (hp.2 m hm hx).2
        rcases hd with e | e <;> rw [e] at this <;> simp at this
    · refine ih ?_ h2 m hm
      rcases step_max h1 with ⟨_, e | e⟩ | ⟨e, _⟩ | ⟨e, _⟩
      · rwa [e]
      · exact e
      · rcases hd with x | x <;> rw [x] at e <;> simp at e
      · rcases hd with x | x <;> rw [x] at e <;> simp at e

/-- C19: no data message is larger than the packet size the peer announced. -/
theorem C19_maxpacket {c c' : Chan} {es : List Ev} {o : List Msg} (h : run c es = .ok c' o) :
    ∀ m ∈ o, m.isData = true → ∃ n, MaxPacket c es n ∧ m.payload.length ≤ n := by
  induction es generalizing c o with
  | nil => simp only [run, R.ok.injEq] at h; obtain ⟨_, rfl⟩ := h; simp
  | cons e es ih =>
    obtain ⟨c1, o1, o2, h1, h2, rfl⟩ := run_cons h
    intro m hm hd
    rcases List.mem_append.mp hm with hm | hm
    · have hp := step_paid c e
      rw [h1] at hp
      obtain ⟨hp1, hp2⟩ := hp.2 m hm hd
      exact ⟨c.remoteMax, .inl ⟨by rw [hp2]; simp, rfl⟩, hp1⟩
    · obtain ⟨n, hn, hl⟩ := ih h2 m hm hd
      refine ⟨n, ?_, hl⟩
      rcases step_max h1 with ⟨h3, h4 | h4⟩ | ⟨h3, w, x, h4, h5, h6⟩ | ⟨h3, h4, h5⟩
      · rcases hn with ⟨hno, hn⟩ | ⟨ho, w, x, hw, hx⟩
        · exact .inl ⟨h4 ▸ hno, h3 ▸ hn⟩
        · exact .inr ⟨h4 ▸ ho, w, x, List.mem_cons_of_mem _ hw, hx⟩
      · rw [run_dead h4 h2 m hm] at hd; exact absurd hd (by simp)
      · rcases hn with ⟨_, hn⟩ | ⟨ho, _⟩
        · exact .inr ⟨h3, w, x, by simp [h4], h5 ▸ hn⟩
        · rw [h6] at ho; exact absurd ho (by simp)
      · rcases hn with ⟨_, hn⟩ | ⟨ho, _⟩
        · refine .inl ⟨?_, h5 ▸ hn⟩
          rcases h3 with e | e | e <;> rw [e] <;> simp
        · rw [h4] at ho; exact absurd ho (by simp)

/-! ### C19: receiving -/

theorem run_rcv {c c' : Chan} {cr : Nat} {es : List Ev} {o : List Msg} (h : Rcv c cr) (hh : Honest c cr es)
    (hr : run c es = .ok c' o) : arrived es ≤ cr + given o ∧ Rcv c' (cr + given o - arrived es) := by
  induction es generalizing c cr o with
  | nil =>
    simp only [run, R.ok.injEq] at hr
    obtain ⟨rfl, rfl⟩ := hr
    simpa [arrived, given] using h
  | cons e es ih =>
    obtain ⟨c1, o1, o2, h1, h2, rfl⟩ := run_cons hr
    obtain ⟨ha, hn⟩ := hh
    have hs := step_rcv e h ha
    rw [h1] at hs
    obtain ⟨i1, i2⟩ := ih hs (hn _ _ h1) h2
    rw [given_append]
    simp only [arrived, List.map_cons, List.sum_cons] at *
    refine ⟨by omega, ?_⟩
    have : cr - e.arrives + given o1 + given o2 - (es.map Ev.arrives).sum =
        cr + (given o1 + given o2) - (e.arrives + (es.map Ev.arrives).sum) := by omega
    rw [← this]
    exact i2

theorem honest_append {c c' : Chan} {cr : Nat} {es es' : List Ev} {o : List Msg} (hh : Honest c cr (es ++ es'))
    (hr : run c es = .ok c' o) : Honest c cr es ∧ Honest c' (cr + given o - arrived es) es' := by
  induction es generalizing c cr o with
  | nil =>
    simp only [run, R.ok.injEq] at hr
    obtain ⟨rfl, rfl⟩ := hr
    exact ⟨trivial, by simpa [arrived, given] using hh⟩
  | cons e es ih =>
    obtain ⟨c1, o1, o2, h1, h2, rfl⟩ := run_cons hr
    obtain ⟨ha, hn⟩ := hh
    obtain ⟨i1, i2⟩ := ih (hn _ _ h1) h2
    refine ⟨⟨ha, ?_⟩, ?_⟩
    · intro c2 o3 h3
      rw [h1] at h3
      simp only [R.ok.injEq] at h3
      obtain ⟨rfl, rfl⟩ := h3
      exact i1
    · rw [given_append]
      simp only [arrived, List.map_cons, List.sum_cons] at *
      have : cr - e.arrives + given o1 + given o2 - (es.map Ev.arrives).sum =
          cr + (given o1 + given o2) - (e.arrives + (es.map Ev.arrives).sum) := by omega
      rw [← this]
      exact i2

/-- A channel as `channel_new` makes it: sessions start with no window, everything else with its full window. -/
structure FreshWindow (c : Chan) : Prop where
  fresh : Fresh c
  stream : c.datagram = false
  bound : c.windowMax < U32
  larval : c.typ = .larval → c.windowMax = 0

theorem FreshWindow.rcv {c : Chan} (h : FreshWindow c) : Rcv c c.localWindow where
  stream := h.stream
  credit := Nat.le_refl _
  total := by simp [buffered, h.fresh.output, h.fresh.extended, h.fresh.consumed, h.fresh.window]
  bound := h.bound
  larval := fun e => ⟨h.larval e, h.fresh.extended⟩

/-- C19 (`_partial`: for a peer that keeps to the credit given; see `C19_recv_false` for one that does not): data within
the credit given is always accepted in full, and never leads to the connection being dropped. -/
theorem C19_recv_partial {c c' : Chan} {es : List Ev} {v : Bytes} {o : List Msg} (hf : FreshWindow c)
    (hh : Honest c c.localWindow (es ++ [.rcvData v])) (hr : run c es = .ok c' o) (ht : c'.typ = .open_)
    (ho : c'.ostate = .open_) (hm : v.length ≤ c'.localMax) :
    ∃ c'', run c (es ++ [.rcvData v]) = .ok c'' o ∧ c''.gAcc = c'.gAcc ++ v ∧ c''.output = c'.output ++ v ∧
      c''.localWindow = c'.localWindow - v.length := by
  obtain ⟨h1, h2⟩ := honest_append hh hr
  obtain ⟨_, hrcv⟩ := run_rcv hf.rcv h1 hr
  have ha : v.length ≤ c.localWindow + given o - arrived es := h2.1
  have hw := hrcv.credit
  have hd := hrcv.stream
  rw [run_append hr]
  simp only [run, step, lookup, inputData, putOutput, ht, ho, hd, R.bind, R.pre]
  simp only [reduceCtorEq, if_false, ne_eq, not_true_eq_false, false_and, Bool.false_eq_true]
  rw [if_neg (by omega), if_neg (by omega)]
  simp [R.bind, R.pre, run]

/-- C19: for such a peer our window always covers its remaining credit, and window, data consumed since the last
adjustment and data buffered never exceed the configured window: the peer cannot make us buffer more. -/
theorem C19_recv_bound_partial {c c' : Chan} {es : List Ev} {o : List Msg} (hf : FreshWindow c)
    (hh : Honest c c.localWindow es) (hr : run c es = .ok c' o) :
    c.localWindow + given o - arrived es ≤ c'.localWindow ∧ c'.localWindow + c'.consumed + buffered c' ≤ c'.windowMax := by
  have := (run_rcv hf.rcv hh hr).2
  exact ⟨this.credit, this.total⟩

/-- One round of the attack below: a tenth of the window in excess, then an empty packet. -/
theorem excess_round {c : Chan} {v : Bytes} (ht : c.typ = .open_) (ho : c.ostate = .open_) (hd : c.datagram = false)
    (hx : c.exceeded = 0) (hw : c.localWindow = 0) (hv : 0 < v.length) (hm : v.length ≤ c.localMax)
    (hl : v.length ≤ c.windowMax / 10) (hb : c.windowMax < U32) :
    run c [.rcvData v, .rcvData []] = .ok { c with output := c.output ++ v, gAcc := c.gAcc ++ v } [] := by
  have h1 : add32 0 v.length = v.length := by rw [add32_lt] <;> omega
  obtain ⟨typ, istate, ostate, eofSent, eofRcvd, closeSent, closeRcvd, local_, haveRemote, session, input, output, extended, efd, ext,
    remoteWindow, remoteMax, localWindow, localMax, windowMax, consumed, exceeded, datagram⟩ := c
  dsimp only at *
  subst ht ho hd hx hw
  simp only [run, step, lookup, inputData, putOutput, R.bind, R.pre]
  simp [h1, hm, hl, Nat.not_lt.mpr hm, Nat.not_lt.mpr hl, hv, R.bind, R.pre]

/-- C19 is false for a peer that does not keep to its credit: an empty packet resets the count of excess data
(channels.c:3457-3460), so a peer that has used up its window can go on for ever, a tenth of the window at a time, without
being granted anything. -/
theorem C19_recv_false (c : Chan) (n : Nat) (ht : c.typ = .open_) (ho : c.ostate = .open_) (hd : c.datagram = false)
    (hx : c.exceeded = 0) (hw : c.localWindow = 0) (hm : 0 < c.localMax) (hl : 10 ≤ c.windowMax) (hb : c.windowMax < U32) :
    ∃ es c', run c es = .ok c' [] ∧ c'.output.length = c.output.length + n ∧ arrived es = n := by
  suffices H : ∀ n (c : Chan), c.typ = .open_ → c.ostate = .open_ → c.datagram = false → c.exceeded = 0 →
      c.localWindow = 0 → 0 < c.localMax → 10 ≤ c.windowMax → c.windowMax < U32 →
      ∃ es c', run c es = .ok c' [] ∧ c'.output.length = c.output.length + n ∧ arrived es = n from
    H n c ht ho hd hx hw hm hl hb
  intro n
  induction n with
  | zero => intro c _ _ _ _ _ _ _ _; exact ⟨[], c, rfl, rfl, rfl⟩
  | succ n ih =>
    intro c ht ho hd hx hw hm hl hb
    have h1 := excess_round (c := c) (v := [0]) ht ho hd hx hw (by simp) (by simp; omega) (by simp; omega) hb
    obtain ⟨es, c', h2, h3, h4⟩ := ih { c with output := c.output ++ [0], gAcc := c.gAcc ++ [0] } ht ho hd hx hw hm hl hb
    refine ⟨[.rcvData [0], .rcvData []] ++ es, c', ?_, ?_, ?_⟩
    · rw [run_append h1, h2]; rfl
    · rw [h3]; simp; omega
    · simp only [arrived, List.map_append, List.sum_append] at *
      rw [h4]
      simp [Ev.arrives]; omega

/-! ### C20: shutdown -/

theorem Fresh.J {c : Chan} (h : Fresh c) : Chan.J c :=
  ⟨fun e => by rw [h.closeSent] at e; exact absurd e (by simp), fun e => by rw [h.eofSent] at e; exact absurd e (by simp)⟩

theorem acc_cons {p : Bool} {s s' : Bool × Bool} {m : Msg} {o : List Msg} (h : acc p s (m :: o) = some s') :
    ∃ s1, acc1 p s m = some s1 ∧ acc p s1 o = some s' := by
  simp only [acc] at h
  cases h1 : acc1 p s m with
  | none => rw [h1] at h; simp at h
  | some s1 => rw [h1] at h; exact ⟨s1, rfl, h⟩

theorem acc_closed {p : Bool} {e : Bool} {o : List Msg} {s : Bool × Bool} (h : acc p (e, true) o = some s) :
    ∀ m ∈ o, p = false ∧ ∃ n, m = .adjust n := by
  induction o generalizing e with
  | nil => simp
  | cons m o ih =>
    obtain ⟨s1, h1, h2⟩ := acc_cons h
    cases m with
    | adjust n =>
      cases p with
      | true => simp [acc1] at h1
      | false =>
        simp only [acc1, Bool.false_and, Bool.false_eq_true, if_false, Option.some.injEq] at h1
        subst h1
        intro m hm
        rcases List.mem_cons.mp hm with rfl | hm
        · exact ⟨rfl, n, rfl⟩
        · exact ih h2 m hm
    | _ => simp [acc1] at h1

theorem acc_eof {p : Bool} {k : Bool} {o : List Msg} {s : Bool × Bool} (h : acc p (true, k) o = some s) :
    ∀ m ∈ o, m.isData = false ∧ m ≠ .eof := by
  induction o generalizing k with
  | nil => simp
  | cons m o ih =>
    obtain ⟨s1, h1, h2⟩ := acc_cons h
    intro x hx
    have rest : ∀ k', s1 = (true, k') → x ∈ o → x.isData = false ∧ x ≠ .eof := by
      rintro k' rfl hx; exact ih h2 x hx
    cases m with
    | data v => simp [acc1] at h1
    | extData v => simp [acc1] at h1
    | eof => simp [acc1] at h1
    | close =>
      rcases List.mem_cons.mp hx with rfl | hx
      · exact ⟨rfl, by simp⟩
      · simp only [acc1] at h1; split at h1
        · simp at h1
        · exact rest _ (by simpa using h1.symm) hx
    | eow =>
      rcases List.mem_cons.mp hx with rfl | hx
      · exact ⟨rfl, by simp⟩
      · simp only [acc1] at h1; split at h1
        · simp at h1
        · exact rest _ (by simpa using h1.symm) hx
    | adjust n =>
      rcases List.mem_cons.mp hx with rfl | hx
      · exact ⟨rfl, by simp⟩
      · simp only [acc1] at h1; split at h1
        · simp at h1
        · exact rest _ (by simpa using h1.symm) hx

theorem run_acc {p : Bool} {c : Chan} {es : List Ev} {o : List Msg} (hf : Fresh c)
    (hp : p = true → ∀ a b w, Ev.activate a b w ∉ es)
    (h : (∃ c', run c es = .ok c' o) ∨ run c es = .freed o) : ∃ s, acc p (false, false) o = some s := by
  have := run_ok (p := p) es hp hf.J
  have hfl : fl c = (false, false) := by simp [fl, hf.eofSent, hf.closeSent]
  rcases h with ⟨c', h⟩ | h
  · rw [h] at this; rw [← hfl]; exact ⟨_, this.2⟩
  · rw [h] at this; rw [← hfl]; exact this

theorem acc_split {p : Bool} {s s' : Bool × Bool} {a b : List Msg} {m : Msg} (h : acc p s (a ++ m :: b) = some s') :
    ∃ s1 s2, acc p s a = some s1 ∧ acc1 p s1 m = some s2 ∧ acc p s2 b = some s' := by
  rw [acc_append] at h
  cases h1 : acc p s a with
  | none => rw [h1] at h; simp at h
  | some s1 =>
    rw [h1] at h
    simp only [Option.bind_some, acc] at h
    cases h2 : acc1 p s1 m with
    | none => rw [h2] at h; simp at h
    | some s2 => rw [h2] at h; exact ⟨s1, s2, rfl, h2, h⟩

/-- C20: after CLOSE nothing is sent on the channel: no data, no EOF, no second CLOSE (and no other message, except that
starting a session may still announce its window). -/
theorem C20_close_last {c : Chan} {es : List Ev} {o a b : List Msg} (hf : Fresh c)
    (h : (∃ c', run c es = .ok c' o) ∨ run c es = .freed o) (hs : o = a ++ Msg.close :: b) :
    ∀ m ∈ b, ∃ n, m = .adjust n := by
  obtain ⟨s, hs'⟩ := run_acc (p := false) hf (by simp) h
  subst hs
  obtain ⟨s1, s2, _, h2, h3⟩ := acc_split hs'
  obtain ⟨e, k⟩ := s1
  simp only [acc1] at h2
  split at h2
  · simp at h2
  · simp only [Option.some.injEq] at h2
    subst h2
    exact fun m hm => (acc_closed h3 m hm).2

/-- C20: without the start of a session, not even that. -/
theorem C20_close_last_strict {c : Chan} {es : List Ev} {o a b : List Msg} (hf : Fresh c)
    (hn : ∀ x y w, Ev.activate x y w ∉ es)
    (h : (∃ c', run c es = .ok c' o) ∨ run c es = .freed o) (hs : o = a ++ Msg.close :: b) : b = [] := by
  obtain ⟨s, hs'⟩ := run_acc (p := true) hf (fun _ => hn) h
  subst hs
  obtain ⟨s1, s2, _, h2, h3⟩ := acc_split hs'
  obtain ⟨e, k⟩ := s1
  simp only [acc1] at h2
  split at h2
  · simp at h2
  · simp only [Option.some.injEq] at h2
    subst h2
    cases b with
    | nil => rfl
    | cons m b => exact absurd (acc_closed h3 m (by simp)).1 (by simp)

/-- C20: after EOF no data and no second EOF is sent. -/
theorem C20_eof_last {c : Chan} {es : List Ev} {o a b : List Msg} (hf : Fresh c)
    (h : (∃ c', run c es = .ok c' o) ∨ run c es = .freed o) (hs : o = a ++ Msg.eof :: b) :
    ∀ m ∈ b, m.isData = false ∧ m ≠ .eof := by
  obtain ⟨s, hs'⟩ := run_acc (p := false) hf (by simp) h
  subst hs
  obtain ⟨s1, s2, _, h2, h3⟩ := acc_split hs'
  obtain ⟨e, k⟩ := s1
  simp only [acc1] at h2
  split at h2
  · simp at h2
  · simp only [Option.some.injEq] at h2
    subst h2
    exact acc_eof h3

theorem acc_close_mem {p : Bool} {s : Bool × Bool} {o : List Msg} {e : Bool} (h : acc p s o = some (e, true))
    (hs : s.2 = false) : Msg.close ∈ o := by
  induction o generalizing s with
  | nil => simp only [acc, Option.some.injEq] at h; rw [h] at hs; exact absurd hs (by simp)
  | cons m o ih =>
    simp only [acc] at h
    obtain ⟨x, k⟩ := s
    subst hs
    cases m with
    | close => simp
    | data v =>
      simp only [acc1] at h; split at h
      · simp at h
      · exact List.mem_cons_of_mem _ (ih h rfl)
    | extData v =>
      simp only [acc1] at h; split at h
      · simp at h
      · exact List.mem_cons_of_mem _ (ih h rfl)
    | eof =>
      simp only [acc1] at h; split at h
      · simp at h
      · exact List.mem_cons_of_mem _ (ih h rfl)
    | eow =>
      simp only [acc1] at h; split at h
      · simp at h
      · exact List.mem_cons_of_mem _ (ih h rfl)
    | adjust n =>
      simp only [acc1] at h; split at h
      · simp at h
      · exact List.mem_cons_of_mem _ (ih h rfl)

/-- C20: a channel's number is released only after CLOSE has been both sent and received, unless the channel never
belonged to the peer (`CHAN_LOCAL`) or was marked dead (opening it failed, or the connection is being torn down). -/
theorem C20_freed {c : Chan} {es : List Ev} {o : List Msg} (hf : Fresh c) (h : run c es = .freed o) :
    (Msg.close ∈ o ∧ Ev.rcvClose ∈ es) ∨ c.local_ = true ∨ Ev.markDead ∈ es := by
  suffices H : ∀ (es : List Ev) (c : Chan) (o : List Msg), J c → run c es = .freed o →
      ((∃ e, acc false (fl c) o = some (e, true)) ∧ (c.closeRcvd = true ∨ Ev.rcvClose ∈ es)) ∨ c.local_ = true ∨
        (c.typ = .zombie ∨ Ev.markDead ∈ es) by
    rcases H es c o hf.J h with ⟨⟨e, h1⟩, h2⟩ | h1 | h1 | h1
    · left
      refine ⟨acc_close_mem h1 hf.closeSent, ?_⟩
      rcases h2 with h2 | h2
      · rw [hf.closeRcvd] at h2; exact absurd h2 (by simp)
      · exact h2
    · exact .inr (.inl h1)
    · exact absurd h1 hf.notZombie
    · exact .inr (.inr h1)
  intro es
  induction es with
  | nil => intro c o _ h; simp [run] at h
  | cons e es ih =>
    intro c o hj h
    rcases run_cons_freed h with h1 | ⟨c1, o1, o2, h1, h2, rfl⟩
    · obtain ⟨k, rfl⟩ := step_freed h1
      rcases gc_freed hj h1 with e | e | ⟨e1, e2⟩
      · exact .inr (.inr (.inl e))
      · exact .inr (.inl e)
      · exact .inl ⟨e2, .inl e1⟩
    · have hs := step_ok (p := false) hj e (by simp)
      rw [h1] at hs
      obtain ⟨r1, r2, r3⟩ := step_reason h1
      rcases ih c1 o2 hs.1 h2 with ⟨⟨x, h3⟩, h4⟩ | h3 | h3 | h3
      · left
        refine ⟨⟨x, by rw [acc_append, hs.2]; exact h3⟩, ?_⟩
        rcases h4 with h4 | h4
        · rcases r1 h4 with h5 | h5
          · exact .inl h5
          · exact .inr (by simp [h5])
        · exact .inr (List.mem_cons_of_mem _ h4)
      · exact .inr (.inl (r3 ▸ h3))
      · rcases r2 h3 with h5 | h5
        · exact .inr (.inr (.inl h5))
        · exact .inr (.inr (.inr (by simp [h5])))
      · exact .inr (.inr (.inr (List.mem_cons_of_mem _ h3)))

/-- C20: once both directions are closed, the next collection sends CLOSE, and releases the channel if the peer's CLOSE
has come in. -/
theorem C20_progress {c : Chan} {k : Bool} (hi : c.istate = .closed) (ho : c.ostate = .closed) (ht : c.typ ≠ .zombie)
    (hl : c.local_ = false) (hr : c.haveRemote = true) (hs : c.closeSent = false) (hd : c.detachUser = false)
    (hx : c.extEof = false) :
    step c (.gc k) = if c.closeRcvd then .freed [.close] else .ok { c with closeSent := true } [.close] := by
  simp only [step, gc, hd, Bool.false_eq_true, if_false, collect, isDead, ht, hi, ho, ne_eq, not_true_eq_false, or_self, hx,
    Bool.false_and, hl, hs, Bool.not_false, if_true, sendClose, hr, Bool.not_true, deadEnd, Bool.true_and]
  cases c.closeRcvd <;> rfl

/-- C20: and after that it is released as soon as the peer's CLOSE is there. -/
theorem C20_release {c : Chan} {k : Bool} (hi : c.istate = .closed) (ho : c.ostate = .closed)
    (hs : c.closeSent = true) (hc : c.closeRcvd = true) (hd : c.detachUser = false) (hx : c.extEof = false) :
    step c (.gc k) = .freed [] := by
  simp only [step, gc, hd, Bool.false_eq_true, if_false, collect, isDead, hi, ho, ne_eq, not_true_eq_false, or_self, hx,
    Bool.false_and, hs, Bool.not_true, deadEnd, hc, Bool.and_self, if_true]
  by_cases h1 : c.typ = .zombie <;> by_cases h2 : c.local_ = true <;> simp [h1, h2]

/-- C20: a channel one of whose directions is still open is neither closed nor released by a collection, so data still to
be sent or delivered is not lost. -/
theorem C20_half_open_kept {c : Chan} {k : Bool} (ht : c.typ ≠ .zombie) (h : c.istate ≠ .closed ∨ c.ostate ≠ .closed) :
    step c (.gc k) = .ok c [] := by
  simp only [step, gc, collect, isDead]
  rw [if_neg ht, if_pos h, if_neg ht, if_pos h]
  by_cases hd : c.detachUser = true
  · rw [if_pos hd]
  · rw [if_neg hd]

/-- C20: nor one with error output the peer has sent and the application has not yet been given. -/
theorem C20_undelivered_kept {c : Chan} {k : Bool} (ht : c.typ ≠ .zombie) (he : c.extEof = true) (hw : c.ext = .write)
    (hf : c.efd = true) (hx : c.extended ≠ []) : step c (.gc k) = .ok c [] := by
  have hl : c.extended.length > 0 := List.length_pos_iff.2 hx
  by_cases h : c.istate ≠ .closed ∨ c.ostate ≠ .closed
  · exact C20_half_open_kept ht h
  · simp only [step, gc, collect, isDead]
    rw [if_neg ht, if_neg h, if_neg ht, if_neg h]
    by_cases hd : c.detachUser = true
    · rw [if_pos hd]; simp [he, hw, hf, hl]
    · rw [if_neg hd]; simp [he, hw, hf, hl]

/-- Finding: cleaning up a multiplexed session that the server has not confirmed yet (mux.c:227-237 calls
`chan_read_failed` and `chan_write_failed` for it) ends the whole multiplexing master, because "end of write" is sent to a
channel without remote number. -/
theorem C20_opening_cleanup_fatal {c : Chan} (_ht : c.typ = .opening) (hs : c.session = true) (hn : c.newOpenSSH = true)
    (hr : c.haveRemote = false) (hi : c.istate = .open_) (ho : c.ostate = .open_) :
    run c [.readFailed, .writeFailed] = .fatal := by
  simp [run, step, Chan.readFailed, Chan.writeFailed, hi, ho, hs, hn, hr, shutdownWrite, sendEow, R.bind, R.pre]

/-! ### C56: the data streams -/

theorem run_flow {c c' : Chan} {es : List Ev} {o o0 : List Msg} (hi : In c o0) (ho : Out c) (h : run c es = .ok c' o) :
    In c' (o0 ++ o) ∧ Out c' := by
  induction es generalizing c o o0 with
  | nil => simp only [run, R.ok.injEq] at h; obtain ⟨rfl, rfl⟩ := h; rw [List.append_nil]; exact ⟨hi, ho⟩
  | cons e es ih =>
    obtain ⟨c1, o1, o2, h1, h2, rfl⟩ := run_cons h
    have hs := step_flow e hi ho
    rw [h1] at hs
    rw [← List.append_assoc]
    exact ih hs.1 hs.2 h2

theorem Fresh.in_ {c : Chan} (h : Fresh c) (hd : c.datagram = false) : In c [] :=
  ⟨hd, by rw [h.gIn]; exact List.prefix_refl _, .inr (by rw [h.gIn, h.input]; rfl)⟩

theorem Fresh.out {c : Chan} (h : Fresh c) (hd : c.datagram = false) : Out c :=
  ⟨hd, by rw [h.gOut]; exact List.nil_prefix, .inr (by rw [h.gAcc, h.gOut, h.output]; rfl)⟩

/-- C56: the data sent to the peer is a prefix of what was read from the local side, and until the input is closed the
rest is still buffered. -/
theorem C56_outgoing {c c' : Chan} {es : List Ev} {o : List Msg} (hf : Fresh c) (hd : c.datagram = false)
    (h : run c es = .ok c' o) : stream o <+: c'.gIn ∧ (c'.istate ≠ .closed → c'.gIn = stream o ++ c'.input) := by
  have := (run_flow (hf.in_ hd) (hf.out hd) h).1
  simp only [List.nil_append] at this
  exact ⟨this.2.1, fun hc => this.2.2.resolve_left hc⟩

/-- C56: the data written to the local side is a prefix of the data accepted, and until the output is closed the rest is
still buffered. -/
theorem C56_incoming {c c' : Chan} {es : List Ev} {o : List Msg} (hf : Fresh c) (hd : c.datagram = false)
    (h : run c es = .ok c' o) : c'.gOut <+: c'.gAcc ∧ (c'.ostate ≠ .closed → c'.gAcc = c'.gOut ++ c'.output) := by
  have := (run_flow (hf.in_ hd) (hf.out hd) h).2
  exact ⟨this.2.1, fun hc => this.2.2.resolve_left hc⟩

theorem writeFailed_input {c c' : Chan} {o : List Msg} (h : writeFailed c = .ok c' o) : c'.input = c.input := by
  unfold writeFailed shutdownWrite sendEow setO at h
  revert h
  cases c.ostate <;> cases c.session <;> cases c.newOpenSSH <;> cases c.haveRemote <;>
    simp [R.bind, R.pre] <;> (try split) <;> (try simp [R.pre]) <;> (intro h1 _; subst h1; rfl)

/-- Nothing is thrown away on the way out, except by force; EOF is sent on an empty buffer or after the peer closed. -/
def Lossless (c : Chan) (o : List Msg) : Prop :=
  c.gIn = stream o ++ c.input ∧ (c.eofSent = true → c.closeRcvd = true ∨ c.input = [])

theorem step_lossless {c c' : Chan} {e : Ev} {o o0 : List Msg} (hd : c.datagram = false) (hj : J c) (h : Lossless c o0)
    (hn : ∀ a, e ≠ .forceClose a) (hs : step c e = .ok c' o) : Lossless c' (o0 ++ o) := by
  obtain ⟨h1, h2⟩ := h
  have frame : ∀ (l : Bool) (c1 : Chan) (o1 : List Msg), Frame l c c1 → c1.input = c.input → stream o1 = [] →
      Lossless c1 (o0 ++ o1) := by
    intro l c1 o1 hf hi ho
    refine ⟨by rw [hf.gIn, stream_append, ho, List.append_nil, hi]; exact h1, fun he => ?_⟩
    rcases hf.eofSent he with e | e | e
    · rcases h2 e with e | e
      · exact .inl (hf.closeRcvd e)
      · exact .inr (hi.trans e)
    · exact .inl e
    · exact .inr e
  have quiet : ∀ r : R, Quiet false c r → r = .ok c' o → Lossless c' (o0 ++ o) := by
    intro r hq hr
    rw [hr] at hq
    refine frame false c' o hq.1 ?_ (stream_nil (noData hq.2))
    rcases hq.1.input with e | ⟨e, _⟩
    · exact e
    · exact absurd e (by simp)
  have wf : ∀ r : R, writeFailed c = r → r = .ok c' o → Lossless c' (o0 ++ o) := by
    intro r hr he
    have hq := writeFailed_quiet (c := c)
    rw [hr, he] at hq
    exact frame true c' o hq.1 (writeFailed_input (hr.trans he)) (stream_nil (noData hq.2))
  have same : ∀ (c1 : Chan) (o1 : List Msg), c1.gIn = c.gIn → c1.input = c.input → c1.eofSent = c.eofSent →
      c1.closeRcvd = c.closeRcvd → stream o1 = [] → Lossless c1 (o0 ++ o1) := by
    intro c1 o1 a1 a2 a3 a4 a5
    refine ⟨by rw [a1, stream_append, a5, List.append_nil, a2]; exact h1, fun he => ?_⟩
    rw [a2, a4]; exact h2 (a3 ▸ he)
  by_cases hq : e.isQuiet = true ∧ e.lossy = false
  · have := step_quiet (c := c) e hq.1
    rw [hq.2] at this
    exact quiet _ this hs
  cases e with
  | read r =>
    simp only [step, handleRead] at hs
    split at hs
    · simp only [R.ok.injEq] at hs; obtain ⟨rfl, rfl⟩ := hs; exact same _ _ rfl rfl rfl rfl rfl
    next hg =>
    have hc : c.istate ≠ .closed := fun e => hg (.inr e)
    rw [hd] at hs
    simp only [Bool.false_eq_true, if_false] at hs
    split at hs
    · simp only [R.ok.injEq] at hs; obtain ⟨rfl, rfl⟩ := hs; exact same _ _ rfl rfl rfl rfl rfl
    split at hs
    · simp only [R.ok.injEq] at hs; obtain ⟨rfl, rfl⟩ := hs; exact same _ _ rfl rfl rfl rfl rfl
    · exact quiet _ readFailed_quiet hs
    · simp only [R.ok.injEq] at hs
      obtain ⟨rfl, rfl⟩ := hs
      refine ⟨by rw [List.append_nil]; simp only [h1, List.append_assoc], fun he => ?_⟩
      exact absurd (hj.2 he) hc
  | write n =>
    simp only [step, handleWrite] at hs
    revert hs
    repeat' split
    all_goals first
      | (intro hs; simp only [R.ok.injEq] at hs; obtain ⟨rfl, rfl⟩ := hs; exact same _ _ rfl rfl rfl rfl rfl)
      | exact wf _ rfl
      | (intro hs; simp at hs; done)
  | extRead r =>
    simp only [step, handleExtRead] at hs
    revert hs
    repeat' split
    all_goals (intro hs; simp only [R.ok.injEq] at hs; obtain ⟨rfl, rfl⟩ := hs; exact same _ _ rfl rfl rfl rfl rfl)
  | extWrite r =>
    simp only [step, handleExtWrite] at hs
    revert hs
    repeat' split
    all_goals (intro hs; simp only [R.ok.injEq] at hs; obtain ⟨rfl, rfl⟩ := hs; exact same _ _ rfl rfl rfl rfl rfl)
  | checkWindow =>
    simp only [step, checkWindow] at hs
    revert hs
    repeat' split
    all_goals first
      | (intro hs; simp only [R.ok.injEq] at hs; obtain ⟨rfl, rfl⟩ := hs; exact same _ _ rfl rfl rfl rfl rfl)
      | (intro hs; simp at hs; done)
  | poll =>
    simp only [step, outputPoll] at hs
    split at hs
    · simp only [R.ok.injEq] at hs; obtain ⟨rfl, rfl⟩ := hs; exact same _ _ rfl rfl rfl rfl rfl
    split at hs
    · simp only [R.ok.injEq] at hs; obtain ⟨rfl, rfl⟩ := hs; exact same _ _ rfl rfl rfl rfl rfl
    generalize hr : (if c.istate ≠ .closed then pollInput c else .ok c []) = r at hs
    cases r with
    | fatal => simp [R.bind] at hs
    | freed o => simp [R.bind] at hs
    | ok c1 o1 =>
      have i1 : Lossless c1 (o0 ++ o1) := by
        split at hr
        · next hc =>
          unfold pollInput at hr
          dsimp only at hr
          have q : ∀ r : R, Quiet false c r → r = .ok c1 o1 → Lossless c1 (o0 ++ o1) := by
            intro r hq hr
            rw [hr] at hq
            refine frame false c1 o1 hq.1 ?_ (stream_nil (noData hq.2))
            rcases hq.1.input with e | ⟨e, _⟩
            · exact e
            · exact absurd e (by simp)
          split at hr
          · split at hr
            · split at hr
              · simp only [R.ok.injEq] at hr; obtain ⟨rfl, rfl⟩ := hr; exact same _ _ rfl rfl rfl rfl rfl
              · exact q _ ibufEmpty_quiet hr
            · simp only [R.ok.injEq] at hr; obtain ⟨rfl, rfl⟩ := hr; exact same _ _ rfl rfl rfl rfl rfl
          split at hr
          · simp at hr
          rw [hd] at hr
          simp only [Bool.false_eq_true, if_false] at hr
          split at hr
          · simp only [R.ok.injEq] at hr; obtain ⟨rfl, rfl⟩ := hr; exact same _ _ rfl rfl rfl rfl rfl
          · simp only [R.ok.injEq] at hr
            obtain ⟨rfl, rfl⟩ := hr
            refine ⟨by rw [stream_append]; simp [stream, h1], fun he => absurd (hj.2 he) hc⟩
        · simp only [R.ok.injEq] at hr; obtain ⟨rfl, rfl⟩ := hr; exact same _ _ rfl rfl rfl rfl rfl
      simp only [R.bind] at hs
      cases hc : pollErr c1 with
      | fatal => rw [hc] at hs; simp [R.pre] at hs
      | freed o => rw [hc] at hs; simp [R.pre] at hs
      | ok c2 o2 =>
        rw [hc] at hs
        simp only [R.pre, R.ok.injEq] at hs
        obtain ⟨rfl, rfl⟩ := hs
        have hk : c2.gIn = c1.gIn ∧ c2.input = c1.input ∧ c2.eofSent = c1.eofSent ∧ c2.closeRcvd = c1.closeRcvd ∧
            stream o2 = [] := by
          unfold pollErr pollExt at hc
          dsimp only at hc
          revert hc
          repeat' split
          all_goals first
            | (intro hc; simp only [R.ok.injEq] at hc; obtain ⟨rfl, rfl⟩ := hc; exact ⟨rfl, rfl, rfl, rfl, rfl⟩)
            | (intro hc; simp at hc; done)
        obtain ⟨k1, k2, k3, k4, k5⟩ := hk
        refine ⟨?_, ?_⟩
        · rw [k1, k2, i1.1, ← List.append_assoc, stream_append (o0 ++ o1), k5, List.append_nil]
        · rw [k2, k3, k4]; exact i1.2
  | rcvData v =>
    simp only [step, lookup, inputData, putOutput] at hs
    revert hs
    repeat' split
    all_goals first
      | (intro hs; simp only [R.ok.injEq] at hs; obtain ⟨rfl, rfl⟩ := hs; exact same _ _ rfl rfl rfl rfl rfl)
      | (intro hs; simp at hs; done)
  | rcvExt s v =>
    simp only [step, lookup, inputExt] at hs
    revert hs
    repeat' split
    all_goals first
      | (intro hs; simp only [R.ok.injEq] at hs; obtain ⟨rfl, rfl⟩ := hs; exact same _ _ rfl rfl rfl rfl rfl)
      | (intro hs; simp at hs; done)
  | rcvConfirm w m =>
    simp only [step, lookup, inputConfirm] at hs
    revert hs
    repeat' split
    all_goals first
      | (intro hs; simp only [R.ok.injEq] at hs; obtain ⟨rfl, rfl⟩ := hs; exact same _ _ rfl rfl rfl rfl rfl)
      | (intro hs; simp at hs; done)
  | rcvAdjust n =>
    simp only [step, inputAdjust] at hs
    revert hs
    repeat' split
    all_goals first
      | (intro hs; simp only [R.ok.injEq] at hs; obtain ⟨rfl, rfl⟩ := hs; exact same _ _ rfl rfl rfl rfl rfl)
      | (intro hs; simp at hs; done)
  | activate a b w =>
    simp only [step, Chan.activate] at hs
    revert hs
    repeat' split
    all_goals first
      | (intro hs; simp only [R.ok.injEq] at hs; obtain ⟨rfl, rfl⟩ := hs; exact same _ _ rfl rfl rfl rfl rfl)
      | (intro hs; simp at hs; done)
  | connected =>
    simp only [step] at hs
    split at hs
    all_goals (simp only [R.ok.injEq] at hs; obtain ⟨rfl, rfl⟩ := hs; exact same _ _ rfl rfl rfl rfl rfl)
  | markDead =>
    simp only [step, Chan.markDead, R.ok.injEq] at hs; obtain ⟨rfl, rfl⟩ := hs; exact same _ _ rfl rfl rfl rfl rfl
  | register d =>
    simp only [step, R.ok.injEq] at hs; obtain ⟨rfl, rfl⟩ := hs; exact same _ _ rfl rfl rfl rfl rfl
  | forceClose a => exact absurd rfl (hn a)
  | writeFailed => exact wf _ rfl hs
  | _ => simp [Ev.isQuiet, Ev.lossy] at hq

theorem run_lossless {c c' : Chan} {es : List Ev} {o o0 : List Msg} (hi : In c o0) (ho : Out c) (hj : J c)
    (hl : Lossless c o0) (hn : ∀ a, Ev.forceClose a ∉ es) (h : run c es = .ok c' o) : Lossless c' (o0 ++ o) := by
  induction es generalizing c o o0 with
  | nil => simp only [run, R.ok.injEq] at h; obtain ⟨rfl, rfl⟩ := h; rw [List.append_nil]; exact hl
  | cons e es ih =>
    obtain ⟨c1, o1, o2, h1, h2, rfl⟩ := run_cons h
    have hs := step_flow e hi ho
    have hk := step_ok (p := false) hj e (by simp)
    rw [h1] at hs hk
    rw [← List.append_assoc]
    exact ih hs.1 hs.2 hk.1 (step_lossless hi.1 hj hl (fun a e => hn a (by simp [e])) h1)
      (fun a hm => hn a (List.mem_cons_of_mem _ hm)) h2

theorem acc_eof_mem {p : Bool} {s s' : Bool × Bool} {o : List Msg} (h : acc p s o = some s') (hm : Msg.eof ∈ o) :
    s'.1 = true := by
  have mono : ∀ {o : List Msg} {s s' : Bool × Bool}, acc p s o = some s' → s.1 = true → s'.1 = true := by
    intro o
    induction o with
    | nil => intro s s' h hs; simp only [acc, Option.some.injEq] at h; rw [← h]; exact hs
    | cons m o ih =>
      intro s s' h hs
      obtain ⟨s1, h1, h2⟩ := acc_cons h
      refine ih h2 ?_
      revert h1
      cases m <;> simp only [acc1] <;> split <;> simp <;> (intro h1; subst h1; first | exact hs | rfl)
  obtain ⟨a, b, rfl⟩ := List.append_of_mem hm
  obtain ⟨s1, s2, _, h2, h3⟩ := acc_split h
  refine mono h3 ?_
  simp only [acc1] at h2
  split at h2
  · simp at h2
  · simp only [Option.some.injEq] at h2; rw [← h2]

/-- C56: when the peer sees our EOF it has received every byte read from the local side, unless it had closed the channel
itself or the channel was closed by force. -/
theorem C56_eof_complete {c c' : Chan} {es : List Ev} {o : List Msg} (hf : Fresh c) (hd : c.datagram = false)
    (hn : ∀ a, Ev.forceClose a ∉ es) (hc : Ev.rcvClose ∉ es) (h : run c es = .ok c' o) (he : Msg.eof ∈ o) :
    stream o = c'.gIn := by
  have hl : Lossless c [] := ⟨by rw [hf.gIn, hf.input]; rfl, fun e => by rw [hf.eofSent] at e; exact absurd e (by simp)⟩
  have := run_lossless (hf.in_ hd) (hf.out hd) hf.J hl hn h
  simp only [List.nil_append] at this
  have ha := run_ok (p := false) es (by simp) hf.J
  rw [h] at ha
  have heof : c'.eofSent = true := acc_eof_mem ha.2 he
  have hrc : ∀ (es : List Ev) (c c' : Chan) (o : List Msg), run c es = .ok c' o → Ev.rcvClose ∉ es →
      c'.closeRcvd = true → c.closeRcvd = true := by
    intro es
    induction es with
    | nil => intro c c' o h _ hh; simp only [run, R.ok.injEq] at h; rw [h.1]; exact hh
    | cons e es ih =>
      intro c c' o h hm hh
      obtain ⟨c1, o1, o2, h1, h2, rfl⟩ := run_cons h
      have := ih _ _ _ h2 (fun x => hm (List.mem_cons_of_mem _ x)) hh
      rcases (step_reason h1).1 this with x | x
      · exact x
      · exact absurd (by simp [x]) hm
  rcases this.2 heof with e | e
  · have := hrc es c c' o h hc e
    rw [hf.closeRcvd] at this
    exact absurd this (by simp)
  · rw [this.1, e, List.append_nil]

/-- C56: the data accepted are received packets, whole and in the order received. -/
theorem C56_accept_order {c c' : Chan} {es : List Ev} {o : List Msg} (hf : Fresh c) (hd : c.datagram = false)
    (h : run c es = .ok c' o) : ∃ l : List Bytes, l.Sublist (packets es) ∧ c'.gAcc = l.flatten := by
  suffices H : ∀ (es : List Ev) (c : Chan) (o o0 : List Msg), In c o0 → Out c → run c es = .ok c' o →
      ∃ l : List Bytes, l.Sublist (packets es) ∧ c'.gAcc = c.gAcc ++ l.flatten by
    obtain ⟨l, h1, h2⟩ := H es c o [] (hf.in_ hd) (hf.out hd) h
    exact ⟨l, h1, by rw [h2, hf.gAcc]; rfl⟩
  intro es
  induction es with
  | nil =>
    intro c o o0 _ _ h
    simp only [run, R.ok.injEq] at h
    exact ⟨[], List.Sublist.slnil, by rw [h.1]; simp⟩
  | cons e es ih =>
    intro c o o0 hi ho h
    obtain ⟨c1, o1, o2, h1, h2, rfl⟩ := run_cons h
    have hs := step_flow e hi ho
    rw [h1] at hs
    obtain ⟨l, hl, hg⟩ := ih c1 o2 _ hs.1 hs.2 h2
    have key : c1.gAcc = c.gAcc ∨ ∃ v, e = .rcvData v ∧ c1.gAcc = c.gAcc ++ v := by
      by_cases hq : e.isQuiet = true
      · have := step_quiet (c := c) e hq
        rw [h1] at this
        exact .inl this.1.gAcc
      have q : ∀ (l : Bool) (r : R), Quiet l c r → r = .ok c1 o1 → c1.gAcc = c.gAcc := by
        intro l r hr he; rw [he] at hr; exact hr.1.gAcc
      cases e with
      | read r =>
        left
        simp only [step, handleRead] at h1
        revert h1
        repeat' split
        all_goals first
          | (intro h1; simp only [R.ok.injEq] at h1; obtain ⟨rfl, _⟩ := h1; rfl)
          | exact q false _ readFailed_quiet
      | write n =>
        left
        simp only [step, handleWrite] at h1
        revert h1
        repeat' split
        all_goals first
          | (intro h1; simp only [R.ok.injEq] at h1; obtain ⟨rfl, _⟩ := h1; rfl)
          | exact q true _ writeFailed_quiet
          | (intro h1; simp at h1; done)
      | poll =>
        left
        simp only [step, outputPoll] at h1
        split at h1
        · simp only [R.ok.injEq] at h1; obtain ⟨rfl, _⟩ := h1; rfl
        split at h1
        · simp only [R.ok.injEq] at h1; obtain ⟨rfl, _⟩ := h1; rfl
        generalize hr : (if c.istate ≠ .closed then pollInput c else .ok c []) = r at h1
        cases r with
        | fatal => simp [R.bind] at h1
        | freed o => simp [R.bind] at h1
        | ok c2 o2 =>
          have k1 : c2.gAcc = c.gAcc := by
            split at hr
            · unfold pollInput at hr
              dsimp only at hr
              have q' : ∀ r : R, Quiet false c r → r = .ok c2 o2 → c2.gAcc = c.gAcc := by
                intro r hr he; rw [he] at hr; exact hr.1.gAcc
              revert hr
              repeat' split
              all_goals first
                | (intro h1; simp only [R.ok.injEq] at h1; obtain ⟨rfl, _⟩ := h1; rfl)
                | exact q' _ ibufEmpty_quiet
                | (intro h1; simp at h1; done)
            · simp only [R.ok.injEq] at hr; obtain ⟨rfl, _⟩ := hr; rfl
          simp only [R.bind] at h1
          cases hc : pollErr c2 with
          | fatal => rw [hc] at h1; simp [R.pre] at h1
          | freed o => rw [hc] at h1; simp [R.pre] at h1
          | ok c3 o3 =>
            rw [hc] at h1
            simp only [R.pre, R.ok.injEq] at h1
            obtain ⟨rfl, rfl⟩ := h1
            unfold pollErr pollExt at hc
            dsimp only at hc
            revert hc
            repeat' split
            all_goals first
              | (intro hc; simp only [R.ok.injEq] at hc; obtain ⟨rfl, rfl⟩ := hc; exact k1)
              | (intro hc; simp at hc; done)
      | rcvData v =>
        simp only [step, lookup, inputData, putOutput] at h1
        revert h1
        repeat' split
        all_goals first
          | (intro h1; simp only [R.ok.injEq] at h1; obtain ⟨rfl, _⟩ := h1; exact .inl rfl)
          | (intro h1; simp only [R.ok.injEq] at h1; obtain ⟨rfl, _⟩ := h1; exact .inr ⟨v, rfl, rfl⟩)
          | (intro h1; simp at h1; done)
      | _ =>
        left
        simp only [step, lookup, handleExtRead, handleExtWrite, Chan.checkWindow, inputExt, inputConfirm, inputAdjust,
          Chan.activate, Chan.markDead, Chan.preOpen] at h1
        first
          | (simp [Ev.isQuiet] at hq; done)
          | (revert h1
             repeat' split
             all_goals first
               | (intro h1; simp only [R.ok.injEq] at h1; obtain ⟨rfl, _⟩ := h1; rfl)
               | (intro h1; simp at h1; done))
          | (simp only [R.ok.injEq] at h1; obtain ⟨rfl, _⟩ := h1; rfl)
    rcases key with k | ⟨v, rfl, k⟩
    · refine ⟨l, ?_, by rw [hg, k]⟩
      have : (packets es).Sublist (packets (e :: es)) := by
        unfold packets
        rw [List.filterMap_cons]
        split
        · exact List.Sublist.refl _
        · exact List.sublist_cons_self _ _
      exact hl.trans this
    · refine ⟨v :: l, ?_, by rw [hg, k, List.flatten_cons, List.append_assoc]⟩
      exact hl.cons_cons v

/-! ### C57: credit is not lost -/

theorem run_exact {c c' : Chan} {cr : Nat} {es : List Ev} {o : List Msg} (h : Exact c cr) (hh : Honest c cr es)
    (hu : AllUseful c es) (hr : run c es = .ok c' o) : Exact c' (cr + given o - arrived es) := by
  induction es generalizing c cr o with
  | nil =>
    simp only [run, R.ok.injEq] at hr
    obtain ⟨rfl, rfl⟩ := hr
    simpa [arrived, given] using h
  | cons e es ih =>
    obtain ⟨c1, o1, o2, h1, h2, rfl⟩ := run_cons hr
    obtain ⟨ha, hn⟩ := hh
    obtain ⟨hu1, hu2⟩ := hu
    have hs := step_rcv e h.rcv ha
    have hx := step_exact e h ha hu1
    rw [h1] at hs hx
    have := ih ⟨hs, hx.1, hx.2⟩ (hn _ _ h1) (hu2 _ _ h1) h2
    rw [given_append]
    have ha2 := (run_rcv hs (hn _ _ h1) h2).1
    have e1 : cr - e.arrives + given o1 + given o2 - arrived es =
        cr + (given o1 + given o2) - arrived (e :: es) := by
      simp only [arrived, List.map_cons, List.sum_cons] at *; omega
    rw [← e1]
    exact this

theorem FreshWindow.exact {c : Chan} (h : FreshWindow c) : Exact c c.localWindow :=
  ⟨h.rcv, rfl, by simp [buffered, h.fresh.output, h.fresh.extended, h.fresh.consumed, h.fresh.window]⟩

/-- C57 (`_partial`: as long as nothing buffered is thrown away and nothing unusable arrives; see `C57_leak`): the peer's
remaining credit, the data consumed since the last adjustment and the data buffered add up to the whole window. -/
theorem C57_conserved_partial {c c' : Chan} {es : List Ev} {o : List Msg} (hf : FreshWindow c)
    (hh : Honest c c.localWindow es) (hu : AllUseful c es) (hr : run c es = .ok c' o) :
    (c.localWindow + given o - arrived es) + c'.consumed + buffered c' = c'.windowMax := by
  have := run_exact hf.exact hh hu hr
  rw [this.credit]
  exact this.total

/-- C57: so the peer is never starved: when everything buffered has been handed on, after the next check of the window the
peer has at least half of it again. -/
theorem C57_no_starvation_partial {c c' c'' : Chan} {es : List Ev} {o o' : List Msg} (hf : FreshWindow c)
    (hh : Honest c c.localWindow es) (hu : AllUseful c es) (hr : run c es = .ok c' o) (ht : c'.typ = .open_)
    (hs : c'.closeSent = false) (hc : c'.closeRcvd = false) (hb : buffered c' = 0)
    (hk : step c' .checkWindow = .ok c'' o') :
    c'.windowMax / 2 ≤ c.localWindow + given (o ++ o') - arrived es := by
  have hx := run_exact hf.exact hh hu hr
  have h1 := hx.credit
  have h2 := hx.total
  have h3 := hx.rcv.bound
  have h4 := (run_rcv hf.rcv hh hr).1
  rw [given_append]
  simp only [step, checkWindow, ht, hs, hc] at hk
  split at hk
  · next hcond =>
    split at hk
    · simp at hk
    · simp only [R.ok.injEq] at hk
      obtain ⟨_, rfl⟩ := hk
      simp only [given, List.map_cons, List.map_nil, List.sum_cons, List.sum_nil, Msg.give] at *
      omega
  · next hcond =>
    simp only [R.ok.injEq] at hk
    obtain ⟨_, rfl⟩ := hk
    simp only [given, List.map_nil, List.sum_nil] at *
    by_cases hz : c'.consumed > 0
    · have : ¬ c'.localWindow < c'.windowMax / 2 := fun hlt => hcond ⟨trivial, trivial, trivial, .inr hlt, hz⟩
      omega
    · omega

/-- C57 does not hold in general: once the descriptor for standard error is gone (its writer failed,
channels.c:2299-2301), standard error data from the peer is dropped without touching the window
(channels.c:3497-3502), so its credit is never given back: after a whole window of it the peer may not send anything any
more, although nothing is buffered and our side believes the window to be open. -/
theorem C57_leak {c : Chan} (vs : List Bytes) (ht : c.typ = .open_) (he : c.efd = false) (hr : c.eofRcvd = false)
    (hc : c.consumed = 0) :
    run c (vs.map (Ev.rcvExt true) ++ [.checkWindow]) = .ok c [] ∧
      arrived (vs.map (Ev.rcvExt true) ++ [.checkWindow]) = (vs.map List.length).sum := by
  have h1 : ∀ v, step c (.rcvExt true v) = .ok c [] := by
    intro v
    simp [step, lookup, inputExt, ht, he, hr]
  have h2 : step c .checkWindow = .ok c [] := by
    simp [step, checkWindow, hc]
  refine ⟨?_, ?_⟩
  · induction vs with
    | nil => simp [run, h2, R.bind, R.pre]
    | cons v vs ih => simp only [List.map_cons, List.cons_append, run, h1, R.bind, ih, R.pre, List.append_nil]
  · simp [arrived, Function.comp_def, Ev.arrives]

end Verif.Chan
