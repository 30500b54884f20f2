/-
C123: requests on the control connection and their answers.
-/
import Verif.Mux.Spec

namespace Verif.Mux
open Verif Wire

theorem be4_length (n : Nat) : (be 4 n).length = 4 := by simp [be]

theorem answer_of {t rid : Nat} (rest : Bytes) (ht : t ∈ answerKinds) (hr : rid < 2 ^ 32) :
    answer? (.reply (be 4 t ++ be 4 rid ++ rest)) = some rid := by
  have ht' : t < 256 ^ 4 := by
    simp only [answerKinds, List.mem_cons, List.not_mem_nil, or_false] at ht
    omega
  have h1 : (be 4 t ++ be 4 rid ++ rest).take 4 = be 4 t := by
    rw [List.append_assoc, List.take_append_of_le_length (by simp [be4_length]), List.take_of_length_le (by simp [be4_length])]
  have h2 : ((be 4 t ++ be 4 rid ++ rest).drop 4).take 4 = be 4 rid := by
    rw [List.append_assoc, List.drop_append_of_le_length (by simp [be4_length]), List.drop_of_length_le (by simp [be4_length]),
      List.nil_append, List.take_append_of_le_length (by simp [be4_length]), List.take_of_length_le (by simp [be4_length])]
  rw [answer?, h1, h2, ofBE_be_of_lt ht', ofBE_be_of_lt (by omega), if_pos ⟨by simp [be4_length]; omega, ht⟩]

theorem answer_none {t : Nat} (rest : Bytes) (ht : t ∉ answerKinds) (hl : t < 2 ^ 32) : answer? (.reply (be 4 t ++ rest)) = none := by
  have h1 : (be 4 t ++ rest).take 4 = be 4 t := by
    rw [List.take_append_of_le_length (by simp [be4_length]), List.take_of_length_le (by simp [be4_length])]
  rw [answer?, h1, ofBE_be_of_lt (by omega), if_neg (fun h => ht h.2)]

theorem answer_ok {rid : Nat} (hr : rid < 2 ^ 32) : answer? (.reply (okReply rid)) = some rid := by
  have := answer_of (t := sOk) [] (by decide) hr
  rwa [List.append_nil] at this

theorem answer_err {t rid : Nat} (msg : Bytes) (ht : t ∈ answerKinds) (hr : rid < 2 ^ 32) : answer? (.reply (errReply t rid msg)) = some rid :=
  answer_of _ ht hr

theorem answered_one {a : Act} {rid : Nat} (h : answer? a = some rid) : answered [a] = [rid] := by
  rw [answered, List.filterMap_cons_some h]; rfl

theorem answered_after {a : Act} {l : List Act} (h : answer? a = none) : answered (a :: l) = answered l := by
  rw [answered, List.filterMap_cons_none h]; rfl

theorem answered_two {a b : Act} {rid : Nat} (h : answer? a = none) (hb : answer? b = some rid) : answered [a, b] = [rid] := by
  rw [answered_after h, answered_one hb]

theorem answered_before {a b : Act} {rid : Nat} (h : answer? b = none) (ha : answer? a = some rid) : answered [a, b] = [rid] := by
  rw [answered, List.filterMap_cons_some ha, List.filterMap_cons_none h]; rfl

/-- Exactly one answer, now or later, or the end -/
def One (s t : St) (rid : Nat) : Prop :=
  ∃ l, t.out = s.out ++ l ∧ ((answered l = [rid] ∧ t.wait = none) ∨
    (answered l = [] ∧ t.status = .running ∧ t.wait.map Wait.rid = some rid) ∨
    (answered l = [] ∧ t.status ≠ .running ∧ t.wait = none))

theorem one_die {s : St} {rid : Nat} (hw : s.wait = none) : One s s.die rid :=
  ⟨[], by simp [St.die], .inr (.inr ⟨rfl, by simp [St.die], hw⟩)⟩

theorem one_ok {s : St} {rid : Nat} (hr : rid < 2 ^ 32) (hw : s.wait = none) : One s (s.ok rid) rid :=
  ⟨[.reply (okReply rid)], rfl, .inl ⟨answered_one (answer_ok hr), hw⟩⟩

theorem one_err {s : St} {t rid : Nat} (msg : Bytes) (ht : t ∈ answerKinds) (hr : rid < 2 ^ 32) (hw : s.wait = none) :
    One s (s.err t rid msg) rid :=
  ⟨[.reply (errReply t rid msg)], rfl, .inl ⟨answered_one (answer_err msg ht hr), hw⟩⟩

/-- Something that is no answer goes before. -/
theorem One.after {s t : St} {rid : Nat} {a : Act} (ha : answer? a = none) (h : One (s.act a) t rid) : One s t rid := by
  obtain ⟨l, h1, h2⟩ := h
  refine ⟨a :: l, by rw [h1]; simp [St.act], ?_⟩
  have : answered (a :: l) = answered l := by simp [answered, ha]
  rw [this]
  exact h2

theorem permit_cases (C : Conf) (W : World) (s : St) (t : Bytes) :
    (asks C = false ∧ permit C W s t = (true, s)) ∨
    (asks C = true ∧ permit C W s t = (allowed (W.answer (prompt t)), s.act (.asked (prompt t)))) := by
  unfold permit
  cases asks C
  · exact .inl ⟨rfl, rfl⟩
  · exact .inr ⟨rfl, rfl⟩

/-- A question does not count as an answer. -/
theorem One.permit {C : Conf} {W : World} {s t : St} {q : Bytes} {rid : Nat} (h : One (permit C W s q).2 t rid) : One s t rid := by
  rcases permit_cases C W s q with ⟨_, e⟩ | ⟨_, e⟩ <;> rw [e] at h
  · exact h
  · exact h.after rfl

theorem permit_wait (C : Conf) (W : World) (s : St) (q : Bytes) : (permit C W s q).2.wait = s.wait := by
  rcases permit_cases C W s q with ⟨_, e⟩ | ⟨_, e⟩ <;> rw [e] <;> rfl

theorem permit_status (C : Conf) (W : World) (s : St) (q : Bytes) : (permit C W s q).2.status = s.status := by
  rcases permit_cases C W s q with ⟨_, e⟩ | ⟨_, e⟩ <;> rw [e] <;> rfl

theorem One.status {s t : St} {rid : Nat} (x : Status) (h : One s t rid) (hx : x ≠ .running)
    (hw : t.wait = none) : One s { t with status := x } rid := by
  obtain ⟨l, h1, h2⟩ := h
  refine ⟨l, h1, ?_⟩
  rcases h2 with ⟨h3, h4⟩ | ⟨_, _, h5⟩ | ⟨h3, _, h5⟩
  · exact .inl ⟨h3, h4⟩
  · rw [hw] at h5; simp at h5
  · exact .inr (.inr ⟨h3, hx, h5⟩)

theorem openIt_one {W : World} {s : St} {rid ftype : Nat} {f : Fwd} (hr : rid < 2 ^ 32) (hs : s.status = .running) (hw : s.wait = none) :
    One s (openIt W s rid ftype f) rid := by
  unfold openIt
  split
  · split
    · exact ⟨[.listen f, .reply (okReply rid)], by simp [St.ok, St.act], .inl ⟨answered_two rfl (answer_ok hr), hw⟩⟩
    · exact one_err _ (by decide) hr hw
  · split
    · exact ⟨[.askRemote f], rfl, .inr (.inl ⟨rfl, hs, rfl⟩)⟩
    · exact one_err _ (by decide) hr hw

theorem askOpen_one {C : Conf} {W : World} {s : St} {rid ftype : Nat} {f : Fwd} {desc : Bytes} (hr : rid < 2 ^ 32)
    (hs : s.status = .running) (hw : s.wait = none) : One s (askOpen C W s rid ftype f desc) rid := by
  unfold askOpen
  split
  · exact (openIt_one hr (by rw [permit_status]; exact hs) (by rw [permit_wait]; exact hw)).permit
  · exact (one_err _ (by decide) hr (by rw [permit_wait]; exact hw)).permit

theorem openNew_one {C : Conf} {W : World} {s : St} {rid ftype : Nat} {f : Fwd} {desc : Bytes} (hr : rid < 2 ^ 32)
    (hs : s.status = .running) (hw : s.wait = none) : One s (openNew C W s rid ftype f desc) rid := by
  unfold openNew
  split
  · split
    · split
      · exact one_ok hr hw
      · exact ⟨[.reply _], rfl, .inl ⟨answered_one (answer_of _ (by decide) hr), hw⟩⟩
    · exact askOpen_one hr hs hw
  · split
    · exact one_ok hr hw
    · exact askOpen_one hr hs hw

theorem openFwd_one {C : Conf} {W : World} {s : St} {rid : Nat} {b : Bytes} (hr : rid < 2 ^ 32)
    (hs : s.status = .running) (hw : s.wait = none) : One s (openFwd C W s rid b) rid := by
  unfold openFwd
  split
  · exact one_die hw
  · split
    · exact ⟨[], by simp, .inr (.inr ⟨rfl, by simp, hw⟩)⟩
    · exact ⟨[], by simp, .inr (.inr ⟨rfl, by simp, hw⟩)⟩
    · split
      · exact one_err _ (by decide) hr hw
      · exact openNew_one hr hs hw

theorem closeFwd_one {C : Conf} {W : World} {s : St} {rid : Nat} {b : Bytes} (hr : rid < 2 ^ 32)
    (hw : s.wait = none) : One s (closeFwd C W s rid b) rid := by
  unfold closeFwd
  split
  · exact one_die hw
  · rename_i f _
    split
    · exact ⟨[], by simp, .inr (.inr ⟨rfl, by simp, hw⟩)⟩
    · exact ⟨[], by simp, .inr (.inr ⟨rfl, by simp, hw⟩)⟩
    · unfold closeFound
      split
      · split
        · exact one_err _ (by decide) hr hw
        · rename_i g _
          split
          · exact ⟨[.cancelRemote g, .reply (okReply rid)], by simp [St.ok, St.act], .inl ⟨answered_two rfl (answer_ok hr), hw⟩⟩
          · exact one_err _ (by decide) hr hw
      · split
        · split
          · exact ⟨[.unlisten f, .reply (okReply rid)], by simp [St.ok, St.act], .inl ⟨answered_two rfl (answer_ok hr), hw⟩⟩
          · exact ⟨[.reply (okReply rid)], rfl, .inl ⟨answered_one (answer_ok hr), hw⟩⟩
        · exact one_err _ (by decide) hr hw

theorem newSession_one {C : Conf} {W : World} {s : St} {rid : Nat} {b : Bytes} (hr : rid < 2 ^ 32)
    (hs : s.status = .running) (hw : s.wait = none) : One s (newSession C W s rid b) rid := by
  unfold newSession
  split
  · exact one_die hw
  · split
    · exact (one_err _ (by decide) hr hw).status .dead (by simp) hw
    · split
      · exact one_err _ (by decide) hr hw
      · split
        · refine One.permit (C := C) (W := W) (q := askSession C) ⟨[.openSession _ _ _ _], rfl, .inr (.inl ⟨rfl, ?_, rfl⟩)⟩
          show (permit C W s (askSession C)).2.status = _
          rw [permit_status]; exact hs
        · exact (one_err _ (by decide) hr (by rw [permit_wait]; exact hw)).permit

theorem stdioFwd_one {C : Conf} {W : World} {s : St} {rid : Nat} {b : Bytes} (hr : rid < 2 ^ 32)
    (hs : s.status = .running) (hw : s.wait = none) : One s (stdioFwd C W s rid b) rid := by
  unfold stdioFwd
  split
  · exact one_die hw
  · rename_i host port _
    split
    · exact (one_err _ (by decide) hr hw).status .dead (by simp) hw
    · split
      · exact one_err _ (by decide) hr hw
      · split
        · refine One.permit (C := C) (W := W) (q := askStdio host port) ⟨[.openStdio _ _ _], rfl, .inr (.inl ⟨rfl, ?_, rfl⟩)⟩
          show (permit C W s (askStdio host port)).2.status = _
          rw [permit_status]; exact hs
        · exact (one_err _ (by decide) hr (by rw [permit_wait]; exact hw)).permit

theorem handle_one {C : Conf} {W : World} {s : St} {type rid : Nat} {b : Bytes} (hr : rid < 2 ^ 32)
    (hs : s.status = .running) (hw : s.wait = none) : One s (handle C W s type rid b) rid := by
  unfold handle
  split
  · exact newSession_one hr hs hw
  split
  · exact ⟨[.reply _], rfl, .inl ⟨answered_one (answer_of _ (by decide) hr), hw⟩⟩
  split
  · unfold terminate
    split
    · refine One.permit (C := C) (W := W) (q := askTerminate C) (One.after (a := .terminate) rfl (one_ok hr ?_))
      exact (permit_wait C W s _).trans hw
    · exact (one_err _ (by decide) hr (by rw [permit_wait]; exact hw)).permit
  split
  · exact openFwd_one hr hs hw
  split
  · exact closeFwd_one hr hw
  split
  · exact stdioFwd_one hr hs hw
  split
  · unfold stopListening
    split
    · split
      · refine One.permit (C := C) (W := W) (q := askStop C) (One.after (a := .stopListening) rfl (one_ok hr ?_))
        exact (permit_wait C W s _).trans hw
      · exact (one_ok hr ((permit_wait C W s _).trans hw)).permit
    · exact (one_err _ (by decide) hr (by rw [permit_wait]; exact hw)).permit
  split
  · have := answer_of [] (by decide : sProxy ∈ answerKinds) hr
    rw [List.append_nil] at this
    exact ⟨[.proxy, .reply _], by simp [proxy, St.act], .inl ⟨answered_two rfl this, hw⟩⟩
  · exact one_err _ (by decide) hr hw

theorem request_iff {p : Bytes} {t rid : Nat} {b : Bytes} :
    request? p = some (t, rid, b) ↔ p = be 4 t ++ be 4 rid ++ b ∧ t ≠ 1 ∧ t < 2 ^ 32 ∧ rid < 2 ^ 32 := by
  unfold request?
  constructor
  · intro h
    split at h
    · rename_i hc
      simp only [Option.some.injEq, Prod.mk.injEq] at h
      obtain ⟨rfl, rfl, rfl⟩ := h
      have l1 : (p.take 4).length = 4 := by rw [List.length_take]; omega
      have l2 : ((p.drop 4).take 4).length = 4 := by rw [List.length_take, List.length_drop]; omega
      have e1 := be_ofBE (p.take 4)
      have e2 := be_ofBE ((p.drop 4).take 4)
      have b1 := ofBE_lt (p.take 4)
      have b2 := ofBE_lt ((p.drop 4).take 4)
      rw [l1] at e1 b1
      rw [l2] at e2 b2
      refine ⟨?_, hc.2, by omega, by omega⟩
      rw [e1, e2]
      have : p.drop 8 = (p.drop 4).drop 4 := by rw [List.drop_drop]
      rw [this, List.append_assoc, List.take_append_drop, List.take_append_drop]
    · simp at h
  · rintro ⟨rfl, h1, h2, h3⟩
    have t1 : (be 4 t ++ be 4 rid ++ b).take 4 = be 4 t := by
      rw [List.append_assoc, List.take_append_of_le_length (by simp [be4_length]), List.take_of_length_le (by simp [be4_length])]
    have t2 : (be 4 t ++ be 4 rid ++ b).drop 4 = be 4 rid ++ b := by
      rw [List.append_assoc, List.drop_append_of_le_length (by simp [be4_length]), List.drop_of_length_le (by simp [be4_length]),
        List.nil_append]
    have t3 : (be 4 t ++ be 4 rid ++ b).drop 8 = b := by
      rw [List.drop_append_of_le_length (by simp [be4_length]), List.drop_of_length_le (by simp [be4_length]), List.nil_append]
    have t4 : (be 4 rid ++ b).take 4 = be 4 rid := by
      rw [List.take_append_of_le_length (by simp [be4_length]), List.take_of_length_le (by simp [be4_length])]
    rw [t1, t2, t3, t4, ofBE_be_of_lt (by omega), ofBE_be_of_lt (by omega), if_pos ⟨by simp [be4_length]; omega, h1⟩]

/-- What a packet is for: a request, or nothing that can be one. -/
theorem packet_request {C : Conf} {W : World} {s : St} {p : Bytes} {t rid : Nat} {b : Bytes} (h : request? p = some (t, rid, b))
    (hh : s.hello = true) : packet C W s p = handle C W s t rid b := by
  obtain ⟨rfl, h1, h2, h3⟩ := request_iff.1 h
  unfold packet
  rw [List.append_assoc, getInt_append 4 t _ (by omega)]
  show (if t = tHello then _ else _) = _
  rw [if_neg (show t ≠ tHello from h1), if_neg (by simp [hh]), getInt_append 4 rid _ (by omega)]

theorem packet_other {C : Conf} {W : World} {s : St} {p : Bytes} (h : request? p = none) :
    (packet C W s p).out = s.out ∧ (packet C W s p).wait = s.wait := by
  unfold packet
  split
  · exact ⟨rfl, rfl⟩
  · rename_i t b ht
    split
    · unfold hello
      split
      · exact ⟨rfl, rfl⟩
      · split <;> exact ⟨rfl, rfl⟩
    · rename_i hne
      split
      · exact ⟨rfl, rfl⟩
      · split
        · exact ⟨rfl, rfl⟩
        · rename_i rid b' hr
          obtain ⟨e1, b1⟩ := getInt_some ht
          obtain ⟨e2, b2⟩ := getInt_some hr
          have := (request_iff (p := p) (t := t) (rid := rid) (b := b')).2
            ⟨by rw [e1, e2]; simp, hne, by omega, by omega⟩
          rw [h] at this
          cases this

/-- Without the greeting there is nothing but the end, or the greeting. -/
theorem packet_before {C : Conf} {W : World} {s : St} {p : Bytes} (hh : s.hello = false) :
    (packet C W s p).out = s.out ∧ (packet C W s p).wait = s.wait := by
  unfold packet
  split
  · exact ⟨rfl, rfl⟩
  · split
    · unfold hello
      split
      · exact ⟨rfl, rfl⟩
      · split <;> exact ⟨rfl, rfl⟩
    · exact ⟨rfl, rfl⟩

/-- What holds in every state -/
structure Inv (s : St) : Prop where
  wait : ∀ w, s.wait = some w → w.rid < 2 ^ 32

/-- What a step does to the answers -/
structure Stepped (s t : St) (e : Event) : Prop where
  grows : ∃ l, t.out = s.out ++ l ∧
    ((takes s e = none ∧ answered l = [] ∧ (t.wait = s.wait)) ∨
     (takes s e = none ∧ (∃ rid, s.wait.map Wait.rid = some rid ∧ answered l = [rid]) ∧ t.wait = none) ∨
     (∃ rid, takes s e = some rid ∧ s.wait = none ∧ rid < 2 ^ 32 ∧ ((answered l = [rid] ∧ t.wait = none) ∨
       (answered l = [] ∧ t.status = .running ∧ t.wait.map Wait.rid = some rid) ∨
       (answered l = [] ∧ t.status ≠ .running ∧ t.wait = none))))

theorem setUp_answered (C : Conf) (W : World) (id : Nat) (q : Ses) : answered (setUp C W id q) = [] := by
  unfold setUp answered
  split <;> split <;> simp [answer?]

theorem step_stepped {C : Conf} {s : St} (hi : Inv s) (W : World) (e : Event) : Stepped s (step C W s e) e := by
  unfold step
  split
  · rename_i hs
    refine ⟨[], by simp, .inl ⟨?_, rfl, rfl⟩⟩
    cases e with
    | packet p => exact if_neg (fun h => hs h.1)
    | _ => rfl
  · rename_i hs
    have hs : s.status = .running := Classical.byContradiction hs
    cases e with
    | packet p =>
      simp only []
      split
      · rename_i hc
        refine ⟨[], by simp, .inl ⟨if_neg (fun h => ?_), rfl, rfl⟩⟩
        rw [h.2.2.1, h.2.2.2] at hc
        simp at hc
      · rename_i hc
        have hw : s.wait = none := by
          cases hw : s.wait with
          | none => rfl
          | some w => simp [hw] at hc
        have hp : s.proxied = false := by
          cases hp : s.proxied with
          | false => rfl
          | true => simp [hp] at hc
        cases hh : s.hello with
        | false =>
          obtain ⟨h1, h2⟩ := packet_before (C := C) (W := W) (p := p) hh
          refine ⟨[], by simp [h1], .inl ⟨if_neg (fun h => ?_), rfl, h2⟩⟩
          rw [h.2.1] at hh
          cases hh
        | true =>
          have hready : Ready s := ⟨hs, hh, hw, hp⟩
          cases hq : request? p with
          | none =>
            obtain ⟨h1, h2⟩ := packet_other (C := C) (W := W) (s := s) hq
            exact ⟨[], by simp [h1], .inl ⟨by simp [takes, hq], rfl, h2⟩⟩
          | some x =>
            obtain ⟨t, rid, b⟩ := x
            have hrid := (request_iff.1 hq).2.2.2
            rw [packet_request hq hh]
            obtain ⟨l, h1, h2⟩ := handle_one (C := C) (W := W) (type := t) (b := b) hrid hs hw
            exact ⟨l, h1, .inr (.inr ⟨rid, by simp [takes, hready, hq], hw, hrid, h2⟩)⟩
    | opened success =>
      simp only []
      split
      · rename_i rid q id hw hc
        have hrid : rid < 2 ^ 32 := hi.wait _ hw
        unfold sessionConfirm
        split
        · refine ⟨setUp C W id q ++ [.reply (openedReply rid id)], by simp [St.act], .inr (.inl ⟨rfl, ⟨rid, by rw [hw]; rfl, ?_⟩, rfl⟩)⟩
          have h1 := setUp_answered C W id q
          have h2 : answered [Act.reply (openedReply rid id)] = [rid] := answered_one (answer_of _ (by decide) hrid)
          unfold answered at h1 h2 ⊢
          rw [List.filterMap_append, h1, h2]
          rfl
        · exact ⟨[.reply _], rfl, .inr (.inl ⟨rfl, ⟨rid, by rw [hw]; rfl,
            answered_one (answer_err _ (by decide) hrid)⟩, rfl⟩)⟩
      · rename_i rid id hw hc
        have hrid : rid < 2 ^ 32 := hi.wait _ hw
        unfold stdioConfirm
        split
        · exact ⟨[.reply _], rfl, .inr (.inl ⟨rfl, ⟨rid, by rw [hw]; rfl,
            answered_one (answer_of _ (by decide) hrid)⟩, rfl⟩)⟩
        · exact ⟨[.reply _], rfl, .inr (.inl ⟨rfl, ⟨rid, by rw [hw]; rfl,
            answered_one (answer_err _ (by decide) hrid)⟩, rfl⟩)⟩
      · exact ⟨[], by simp, .inl ⟨rfl, rfl, rfl⟩⟩
    | forwarded success p =>
      simp only []
      split
      · rename_i rid fid hw
        have hrid : rid < 2 ^ 32 := hi.wait _ hw
        have he : ∀ msg, answered [Act.reply (errReply sFailure rid msg)] = [rid] := fun msg => by
          exact answered_one (answer_err msg (by decide) hrid)
        unfold forwardConfirm
        split
        · exact ⟨[.reply _], rfl, .inr (.inl ⟨rfl, ⟨rid, by rw [hw]; rfl, he _⟩, rfl⟩)⟩
        · rename_i f hf
          split
          · exact ⟨[.reply _], rfl, .inr (.inl ⟨rfl, ⟨rid, by rw [hw]; rfl, he _⟩, rfl⟩)⟩
          · split
            · split
              · split
                · exact ⟨[], by simp, .inl ⟨rfl, rfl, rfl⟩⟩
                · rename_i port _ _
                  split
                  · exact ⟨[], by simp, .inl ⟨rfl, rfl, rfl⟩⟩
                  · refine ⟨[.reply (portReply rid port), .allocate f (some port)], by simp [St.act], .inr (.inl ⟨rfl, ⟨rid, by rw [hw]; rfl, ?_⟩, rfl⟩)⟩
                    exact answered_before rfl (answer_of _ (by decide) hrid)
              · exact ⟨[.reply _], rfl, .inr (.inl ⟨rfl, ⟨rid, by rw [hw]; rfl, answered_one (answer_ok hrid)⟩, rfl⟩)⟩
            · split
              · refine ⟨[.allocate f none, .reply (errReply sFailure rid (remoteFailed f))], by simp [St.act, St.err],
                  .inr (.inl ⟨rfl, ⟨rid, by rw [hw]; rfl, ?_⟩, rfl⟩)⟩
                exact answered_two rfl (answer_err _ (by decide) hrid)
              · exact ⟨[.reply _], rfl, .inr (.inl ⟨rfl, ⟨rid, by rw [hw]; rfl, he _⟩, rfl⟩)⟩
      · exact ⟨[], by simp, .inl ⟨rfl, rfl, rfl⟩⟩
    | exit status =>
      simp only []
      split
      · refine ⟨[.reply _], rfl, .inl ⟨rfl, ?_, rfl⟩⟩
        unfold exitMessage
        rw [List.append_assoc]
        exact answered_after (answer_none _ (by decide) (by decide))
      · exact ⟨[], by simp, .inl ⟨rfl, rfl, rfl⟩⟩
    | ttyFailed =>
      simp only []
      split
      · refine ⟨[.reply _], rfl, .inl ⟨rfl, ?_, rfl⟩⟩
        unfold ttyMessage
        exact answered_after (answer_none _ (by decide) (by decide))
      · exact ⟨[], by simp, .inl ⟨rfl, rfl, rfl⟩⟩
    | childClosed =>
      simp only []
      split <;> exact ⟨[], by simp, .inl ⟨rfl, rfl, rfl⟩⟩
    | others a b => exact ⟨[], by simp, .inl ⟨rfl, rfl, rfl⟩⟩

theorem inv_step {C : Conf} {s : St} (hi : Inv s) (W : World) (e : Event) : Inv (step C W s e) := by
  obtain ⟨l, _, h⟩ := (step_stepped (C := C) hi W e).grows
  rcases h with ⟨_, _, h⟩ | ⟨_, _, h⟩ | ⟨rid, _, _, hr, ⟨_, h⟩ | ⟨_, _, h⟩ | ⟨_, _, h⟩⟩
  · exact ⟨fun w hw => hi.wait w (by rw [← h]; exact hw)⟩
  · exact ⟨fun w hw => by rw [h] at hw; cases hw⟩
  · exact ⟨fun w hw => by rw [h] at hw; cases hw⟩
  · refine ⟨fun w hw => ?_⟩
    rw [hw] at h
    simp only [Option.map_some, Option.some.injEq] at h
    omega
  · exact ⟨fun w hw => by rw [h] at hw; cases hw⟩

theorem reach_inv {C : Conf} {s : St} (h : Reach C s) : Inv s := by
  induction h with
  | init => exact ⟨fun w hw => by cases hw⟩
  | step W e _ ih => exact inv_step ih W e

/-- Whatever has stopped has stopped. -/
theorem step_stopped {C : Conf} {W : World} {s : St} {e : Event} (h : s.status ≠ .running) : step C W s e = s := by
  unfold step
  rw [if_pos h]

theorem taken_stopped {C : Conf} {s : St} (h : s.status ≠ .running) (l : List (World × Event)) : taken C s l = [] := by
  induction l with
  | nil => rfl
  | cons x l ih =>
    obtain ⟨W, e⟩ := x
    rw [taken, step_stopped h, ih]
    cases e with
    | packet p => simp [takes, Ready, h]
    | _ => rfl

theorem run_stopped {C : Conf} {s : St} (h : s.status ≠ .running) (l : List (World × Event)) : run C s l = s := by
  induction l with
  | nil => rfl
  | cons x l ih => obtain ⟨W, e⟩ := x; rw [run, step_stopped h, ih]

/-- The number that is waited for, as a list -/
def pending (s : St) : List Nat := (s.wait.map Wait.rid).toList

theorem run_answers {C : Conf} : ∀ (l : List (World × Event)) (s : St), Inv s →
    ∃ k, (run C s l).out = s.out ++ k ∧
      (pending s ++ taken C s l = answered k ++ pending (run C s l) ∨
       ((run C s l).status ≠ .running ∧ ∃ rid, pending s ++ taken C s l = answered k ++ [rid])) := by
  intro l
  induction l with
  | nil => intro s _; exact ⟨[], by simp [run], .inl (by simp [taken, run, answered])⟩
  | cons x l ih =>
    obtain ⟨W, e⟩ := x
    intro s hi
    obtain ⟨m, h1, h2⟩ := (step_stepped (C := C) hi W e).grows
    obtain ⟨k, h3, h4⟩ := ih _ (inv_step (C := C) hi W e)
    rw [run, taken]
    refine ⟨m ++ k, by rw [h3, h1]; simp, ?_⟩
    have ha : answered (m ++ k) = answered m ++ answered k := by simp [answered]
    rw [ha]
    rcases h2 with ⟨e1, e2, e3⟩ | ⟨e1, ⟨rid, e2, e3⟩, e4⟩ | ⟨rid, e1, e2, _, e3⟩
    · have hp : pending (step C W s e) = pending s := by simp [pending, e3]
      rw [e1, e2, ← hp]
      simpa using h4
    · have hp : pending (step C W s e) = [] := by simp [pending, e4]
      have hq : pending s = [rid] := by simp [pending, e2]
      rw [hp] at h4
      rw [e1, e3, hq]
      simpa using h4
    · have hq : pending s = [] := by simp [pending, e2]
      rcases e3 with ⟨e4, e5⟩ | ⟨e4, _, e5⟩ | ⟨e4, e5, e6⟩
      · have hp : pending (step C W s e) = [] := by simp [pending, e5]
        rw [hp] at h4
        rw [e1, e4, hq]
        simpa using h4
      · have hp : pending (step C W s e) = [rid] := by simp [pending, e5]
        rw [hp] at h4
        rw [e1, e4, hq]
        simpa using h4
      · rw [taken_stopped e5] at h4 ⊢
        rw [run_stopped e5] at h3 h4 ⊢
        have hk : k = [] := by simpa using h3
        subst hk
        exact .inr ⟨e5, rid, by rw [hq, e1, e4]; simp [answered]⟩

/-- C123: the requests are answered once each and in their order: the one that is last may have to wait for its answer, and is not
answered if it brings the connection to an end. -/
theorem C123_answers (C : Conf) (locals remotes : List Fwd) (l : List (World × Event)) :
    (answered (run C (init locals remotes) l).out = taken C (init locals remotes) l ∧ (run C (init locals remotes) l).wait = none) ∨
    (∃ rid, answered (run C (init locals remotes) l).out ++ [rid] = taken C (init locals remotes) l ∧
      ((∃ w, (run C (init locals remotes) l).wait = some w ∧ w.rid = rid) ∨ (run C (init locals remotes) l).status ≠ .running)) := by
  obtain ⟨k, h1, h2⟩ := run_answers (C := C) l (init locals remotes) ⟨fun w hw => by cases hw⟩
  have ha : answered (run C (init locals remotes) l).out = answered k := by
    rw [h1]
    have : answered (init locals remotes).out = [] := (answered_after (answer_none _ (by decide) (by decide))).trans rfl
    unfold answered at this ⊢
    rw [List.filterMap_append, this, List.nil_append]
  rw [ha]
  have hp : pending (init locals remotes) = [] := rfl
  rw [hp, List.nil_append] at h2
  rcases h2 with h2 | ⟨h2, rid, h3⟩
  · cases hw : (run C (init locals remotes) l).wait with
    | none =>
      left
      refine ⟨?_, rfl⟩
      rw [h2]
      simp [pending, hw]
    | some w =>
      right
      exact ⟨w.rid, by rw [h2]; simp [pending, hw], .inl ⟨w, rfl, rfl⟩⟩
  · right
    exact ⟨rid, h3.symm, .inr h2⟩

/-! ### The greeting -/

theorem extensions_iff : ∀ (f : Nat) (b : Bytes), b.length < f → (extensions f b = true ↔ Extensions b) := by
  intro f
  induction f with
  | zero => intro b h; omega
  | succ f ih =>
    intro b hb
    rw [extensions]
    by_cases h0 : b = []
    · rw [if_pos h0]; subst h0; exact ⟨fun _ => .nil, fun _ => rfl⟩
    · rw [if_neg h0]
      cases h1 : getCstr b with
      | none =>
        refine ⟨fun h => by simp at h, fun h => ?_⟩
        cases h with
        | nil => exact absurd rfl h0
        | more hn hl hv _ => rw [List.append_assoc, getCstr_of_named hn _ hl] at h1; cases h1
      | some x =>
        obtain ⟨name, b1⟩ := x
        obtain ⟨n, hn, rfl, hl⟩ := getCstr_named h1
        simp only []
        cases h2 : getStr b1 with
        | none =>
          refine ⟨fun h => by simp at h, fun h => ?_⟩
          generalize hx : str n ++ b1 = x at h
          cases h with
          | nil => rw [hx] at h0; exact absurd rfl h0
          | more hn' hl' hv _ =>
            rw [hx, List.append_assoc, getCstr_of_named hn' _ hl'] at h1
            simp only [Option.some.injEq, Prod.mk.injEq] at h1
            rw [← h1.2, getStr_append _ _ hv] at h2
            cases h2
        | some y =>
          obtain ⟨v, b2⟩ := y
          obtain ⟨rfl, hv⟩ := getStr_some h2
          simp only []
          have hlen : b2.length < f := by
            have : (str n ++ (str v ++ b2)).length = (str n).length + (str v).length + b2.length := by simp; omega
            have h4 : 4 ≤ (str n).length := by simp [str, be4_length]
            omega
          rw [ih _ hlen]
          constructor
          · intro h
            rw [← List.append_assoc]
            exact .more hn hl hv h
          · intro h
            generalize hx : str n ++ (str v ++ b2) = x at h
            cases h with
            | nil => rw [hx] at h0; exact absurd rfl h0
            | more hn' hl' hv' hr =>
              rw [hx, List.append_assoc, getCstr_of_named hn' _ hl'] at h1
              simp only [Option.some.injEq, Prod.mk.injEq] at h1
              rw [← h1.2, getStr_append _ _ hv'] at h2
              simp only [Option.some.injEq, Prod.mk.injEq] at h2
              rw [← h2.2]
              exact hr

theorem helloOk_iff (b : Bytes) : helloOk b = true ↔ Greeting (be 4 1 ++ b) := by
  unfold helloOk Greeting
  cases h : getInt 4 b with
  | none =>
    refine ⟨fun h => by simp at h, fun ⟨e, _, he⟩ => ?_⟩
    rw [List.append_assoc] at he
    rw [List.append_cancel_left he, getInt_append 4 4 _ (by omega)] at h
    cases h
  | some x =>
    obtain ⟨v, r⟩ := x
    obtain ⟨rfl, hv⟩ := getInt_some h
    rw [Bool.and_eq_true, decide_eq_true_eq, version, extensions_iff _ _ (by omega)]
    constructor
    · rintro ⟨rfl, hx⟩
      exact ⟨r, hx, by rw [List.append_assoc]⟩
    · rintro ⟨e, he, h2⟩
      rw [List.append_assoc] at h2
      have h2 := List.append_cancel_left h2
      have h3 := List.append_inj h2 (by simp [be4_length])
      exact ⟨be_inj hv (by omega) h3.1, h3.2 ▸ he⟩

/-- How the greeting comes to be. -/
theorem step_hello {C : Conf} {W : World} {s : St} {e : Event} (h : (step C W s e).hello = true) :
    s.hello = true ∨ ∃ p, e = .packet p ∧ Greeting p := by
  cases hh : s.hello with
  | true => exact .inl rfl
  | false =>
    right
    unfold step at h
    split at h
    · rw [hh] at h; cases h
    · cases e with
      | packet p =>
        refine ⟨p, rfl, ?_⟩
        simp only [] at h
        split at h
        · rw [hh] at h; cases h
        · unfold packet at h
          split at h
          · simp [St.die, hh] at h
          · rename_i t b ht
            obtain ⟨rfl, _⟩ := getInt_some ht
            split at h
            · rename_i ht1
              subst ht1
              unfold hello at h
              rw [if_neg (by simp [hh])] at h
              split at h
              · rename_i hok
                exact (helloOk_iff b).1 hok
              · simp [St.die, hh] at h
            · simp [St.die, hh] at h
      | opened success =>
        simp only [] at h
        split at h
        · unfold sessionConfirm at h
          split at h <;> simp [St.act, St.err, hh] at h
        · unfold stdioConfirm at h
          split at h <;> simp [St.act, St.err, hh] at h
        · rw [hh] at h; cases h
      | forwarded success p =>
        simp only [] at h
        split at h
        · unfold forwardConfirm at h
          split at h
          · simp [St.act, St.err, hh] at h
          · split at h
            · simp [St.act, St.err, hh] at h
            · split at h
              · split at h
                · split at h
                  · simp [hh] at h
                  · split at h <;> simp [St.act, hh] at h
                · simp [St.ok, St.act, hh] at h
              · split at h <;> simp [St.act, St.err, hh] at h
        · rw [hh] at h; cases h
      | exit status => simp only [] at h; split at h <;> simp [St.act, hh] at h
      | ttyFailed => simp only [] at h; split at h <;> simp [St.act, hh] at h
      | childClosed => simp only [] at h; split at h <;> simp [hh] at h
      | others a b => simp [hh] at h

/-- Without a greeting nothing is done. -/
theorem step_before {C : Conf} {W : World} {s : St} {e : Event} (h : s.hello = false) (hw : s.wait = none) (hc : s.child = none) :
    (step C W s e).out = s.out ∧ (step C W s e).wait = none ∧ (step C W s e).child = none := by
  unfold step
  split
  · exact ⟨rfl, hw, hc⟩
  · cases e with
    | packet p =>
      simp only []
      split
      · exact ⟨rfl, hw, hc⟩
      · unfold packet
        split
        · exact ⟨rfl, hw, hc⟩
        · split
          · unfold hello
            split
            · exact ⟨rfl, hw, hc⟩
            · split <;> exact ⟨rfl, hw, hc⟩
          · exact ⟨rfl, hw, hc⟩
    | opened success => simp [hw, hc]
    | forwarded success p => simp [hw, hc]
    | exit status => simp [hw, hc]
    | ttyFailed => simp [hw, hc]
    | childClosed => simp [hc, hw]
    | others a b => exact ⟨rfl, hw, hc⟩

theorem keeps_hello {C : Conf} {W : World} {s : St} {e : Event} (h : s.hello = true) : (step C W s e).hello = true := by
  have hp : ∀ t, (permit C W s t).2.hello = true := by
    intro t
    rcases permit_cases C W s t with ⟨_, e⟩ | ⟨_, e⟩ <;> rw [e] <;> exact h
  unfold step
  split
  · exact h
  · cases e with
    | packet p =>
      simp only []
      split
      · exact h
      · unfold packet
        split
        · exact h
        · split
          · unfold hello
            rw [if_pos h]
            exact h
          · rw [if_neg (by simp [h])]
            split
            · exact h
            · unfold handle
              split
              · unfold newSession startSession
                repeat' split
                all_goals first | exact h | exact hp _
              split
              · exact h
              split
              · unfold terminate
                split <;> exact hp _
              split
              · unfold openFwd openNew askOpen openIt
                repeat' split
                all_goals first | exact h | exact hp _
              split
              · unfold closeFwd closeFound
                repeat' split
                all_goals first | exact h | exact hp _
              split
              · unfold stdioFwd
                repeat' split
                all_goals first | exact h | exact hp _
              split
              · unfold stopListening
                repeat' split
                all_goals exact hp _
              split <;> exact h
    | opened success =>
      simp only []
      unfold sessionConfirm stdioConfirm
      repeat' split
      all_goals exact h
    | forwarded success p =>
      simp only []
      unfold forwardConfirm
      repeat' split
      all_goals exact h
    | exit status => simp only []; split <;> exact h
    | ttyFailed => simp only []; split <;> exact h
    | childClosed => simp only []; split <;> exact h
    | others a b => exact h

theorem run_greeting {C : Conf} : ∀ (l : List (World × Event)) (s : St), s.hello = false → s.wait = none → s.child = none →
    ((run C s l).hello = true → ∃ W p, (W, Event.packet p) ∈ l ∧ Greeting p) ∧ ((run C s l).hello = false → (run C s l).out = s.out) := by
  intro l
  induction l with
  | nil => intro s h _ _; exact ⟨fun h' => (by rw [run, h] at h'; cases h'), fun _ => rfl⟩
  | cons x l ih =>
    obtain ⟨W, e⟩ := x
    intro s h hw hc
    rw [run]
    obtain ⟨h1, h2, h3⟩ := step_before (C := C) (W := W) (e := e) h hw hc
    cases hh : (step C W s e).hello with
    | true =>
      rcases step_hello hh with h' | ⟨p, rfl, hp⟩
      · rw [h] at h'; cases h'
      · refine ⟨fun _ => ⟨W, p, by simp, hp⟩, fun hf => ?_⟩
        have keep : ∀ (l : List (World × Event)) (t : St), t.hello = true → (run C t l).hello = true := by
          intro l
          induction l with
          | nil => intro t ht; exact ht
          | cons y l ih' =>
            obtain ⟨W', e'⟩ := y
            intro t ht
            rw [run]
            exact ih' _ (keeps_hello ht)
        rw [keep l _ hh] at hf
        cases hf
    | false =>
      obtain ⟨i1, i2⟩ := ih _ hh h2 h3
      refine ⟨fun h' => ?_, fun h' => by rw [i2 h', h1]⟩
      obtain ⟨W', p, hm, hp⟩ := i1 h'
      exact ⟨W', p, by simp [hm], hp⟩

/-- C123: nothing is done for a client that has not greeted; its greeting is of version 4. -/
theorem C123_greeting (C : Conf) (locals remotes : List Fwd) (l : List (World × Event)) :
    ((run C (init locals remotes) l).hello = true → ∃ W p, (W, Event.packet p) ∈ l ∧ Greeting p) ∧
    ((run C (init locals remotes) l).hello = false → (run C (init locals remotes) l).out = [.reply (be 4 1 ++ be 4 4)]) :=
  run_greeting l _ rfl rfl rfl

theorem step_packet {C : Conf} {s : St} (h : Ready s) {W : World} {p : Bytes} : step C W s (.packet p) = packet C W s p := by
  obtain ⟨h1, _, h3, h4⟩ := h
  have hc : (s.wait.isSome || s.proxied) = false := by simp [h3, h4]
  unfold step
  rw [if_neg (by simp [h1])]
  simp only [hc, Bool.false_eq_true, if_false]

/-- C123: a packet that is not a request, or a second greeting, ends the control connection. -/
theorem C123_malformed {C : Conf} {s : St} (h : Ready s) (W : World) (p : Bytes) (hp : request? p = none) :
    step C W s (.packet p) = { s with status := .dead } := by
  rw [step_packet h]
  obtain ⟨h1, h2, h3, h4⟩ := h
  unfold packet
  split
  · rfl
  · rename_i t b ht
    split
    · unfold hello
      rw [if_pos h2]
      rfl
    · rename_i hne
      rw [if_neg (by simp [h2])]
      split
      · rfl
      · rename_i rid b' hr
        obtain ⟨e1, b1⟩ := getInt_some ht
        obtain ⟨e2, b2⟩ := getInt_some hr
        have := (request_iff (p := p) (t := t) (rid := rid) (b := b')).2
          ⟨by rw [e1, e2]; simp, hne, by omega, by omega⟩
        rw [hp] at this
        cases this

theorem step_request {C : Conf} {s : St} (h : Ready s) (W : World) {p : Bytes} {t rid : Nat} {b : Bytes}
    (hp : request? p = some (t, rid, b)) : step C W s (.packet p) = handle C W s t rid b := by
  rw [step_packet h]
  exact packet_request hp h.2.1

/-- C123: a request that is not known fails, and nothing else happens. -/
theorem C123_unknown {C : Conf} {s : St} (h : Ready s) (W : World) {p : Bytes} {t rid : Nat} {b : Bytes}
    (hp : request? p = some (t, rid, b))
    (ht : t ∉ [0x10000002, 0x10000004, 0x10000005, 0x10000006, 0x10000007, 0x10000008, 0x10000009, 0x1000000f]) :
    step C W s (.packet p) =
      { s with out := s.out ++ [.reply (be 4 0x80000003 ++ be 4 rid ++ str b!"unsupported request")] } := by
  rw [step_request h W hp]
  simp only [List.mem_cons, List.not_mem_nil, or_false, not_or] at ht
  obtain ⟨a1, a2, a3, a4, a5, a6, a7, a8⟩ := ht
  unfold handle
  rw [if_neg (show t ≠ tSession from a1), if_neg (show t ≠ tAlive from a2), if_neg (show t ≠ tTerminate from a3),
    if_neg (show t ≠ tOpen from a4), if_neg (show t ≠ tClose from a5), if_neg (show t ≠ tStdio from a6), if_neg (show t ≠ tStop from a7),
    if_neg (show t ≠ tProxy from a8)]
  rfl

/-- C123: while an answer is waited for, and once the client is a proxy, no packet is looked at. -/
theorem C123_waits {C : Conf} {s : St} (h : s.wait ≠ none ∨ s.proxied = true) (W : World) (p : Bytes) :
    step C W s (.packet p) = s := by
  unfold step
  split
  · rfl
  · have : (s.wait.isSome || s.proxied) = true := by
      rcases h with h | h
      · cases hw : s.wait with
        | none => exact absurd hw h
        | some w => simp
      · simp [h]
    simp only [this, if_true]

/-- C123: a client is told whether the master is alive, with the number of its process. -/
theorem C123_alive {C : Conf} {s : St} (h : Ready s) (W : World) {p b : Bytes} {rid : Nat} (hp : request? p = some (0x10000004, rid, b)) :
    step C W s (.packet p) = { s with out := s.out ++ [.reply (be 4 0x80000005 ++ be 4 rid ++ be 4 C.pid)] } := by
  rw [step_request h W hp]
  rfl

end Verif.Mux
