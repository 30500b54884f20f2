/-
C124: what is done for a client has been permitted by the user.
-/
import Verif.Mux.Proto

namespace Verif.Mux
open Verif Wire

theorem asks_iff (C : Conf) : asks C = true ↔ Asking C := by simp [asks, Asking]

theorem allowed_iff (a : Option Bytes) : allowed a = true ↔ Agrees a := by
  unfold Agrees
  cases a with
  | none => simp [allowed]
  | some p => simp [allowed, or_assoc]

/-- What is claimed of the new acts of a step -/
structure Permitted (C : Conf) (W : World) (l : List Act) : Prop where
  asked : Asking C → ∀ a ∈ l, Uses a → ¬ Unasked a →
    ∃ text, Asks C text a ∧ l.head? = some (.asked (text.take 1023)) ∧ Agrees (W.answer (text.take 1023))
  quiet : ¬ Asking C → ∀ t, Act.asked t ∉ l
  refused : ∀ t, Act.asked t ∈ l → ¬ Agrees (W.answer t) → ∃ rid, l = [.asked t, .reply (errReply sDenied rid denied)]

/-- An act that needs no question and is none -/
def Plain (a : Act) : Prop := (Uses a → Unasked a) ∧ ∀ t, a ≠ .asked t

theorem permitted_plain {C : Conf} {W : World} {l : List Act} (h : ∀ a ∈ l, Plain a) : Permitted C W l :=
  ⟨fun _ a ha hu hn => absurd ((h a ha).1 hu) hn, fun _ t ht => (h _ ht).2 t rfl, fun t ht => absurd rfl ((h _ ht).2 t)⟩

theorem plain_reply (p : Bytes) : Plain (.reply p) := ⟨fun h => h.elim, fun t h => (by cases h)⟩

theorem permitted_nil {C : Conf} {W : World} : Permitted C W [] := permitted_plain (by simp)

theorem permitted_reply {C : Conf} {W : World} (p : Bytes) : Permitted C W [.reply p] :=
  permitted_plain (by simpa using plain_reply p)

/-- New acts -/
def New (C : Conf) (W : World) (s t : St) : Prop := ∃ l, t.out = s.out ++ l ∧ Permitted C W l

theorem new_same {C : Conf} {W : World} {s t : St} (h : t.out = s.out) : New C W s t := ⟨[], by simp [h], permitted_nil⟩

theorem new_reply {C : Conf} {W : World} {s t : St} (p : Bytes) (h : t.out = s.out ++ [.reply p]) : New C W s t :=
  ⟨_, h, permitted_reply p⟩

/-- The user is asked, and agrees. -/
theorem new_permit {C : Conf} {W : World} {s t : St} {q : Bytes} {k : List Act} (hp : (permit C W s q).1 = true)
    (ht : t.out = (permit C W s q).2.out ++ k) (hk : ∀ a ∈ k, (∀ t, a ≠ .asked t) ∧ (Uses a → ¬ Unasked a → Asks C q a)) : New C W s t := by
  rcases permit_cases C W s q with ⟨e1, e2⟩ | ⟨e1, e2⟩ <;> rw [e2] at hp ht
  · have hn : ¬ Asking C := by rw [← asks_iff]; simp [e1]
    exact ⟨k, ht, fun ha => absurd ha hn, fun _ t ht => (hk _ ht).1 t rfl, fun t ht => absurd rfl ((hk _ ht).1 t)⟩
  · have ha : Asking C := (asks_iff C).1 e1
    have hg := (allowed_iff _).1 hp
    refine ⟨.asked (prompt q) :: k, by rw [ht]; simp [St.act], fun _ a hm hu hn => ?_, fun hn => absurd ha hn, fun t ht hna => ?_⟩
    · rcases List.mem_cons.1 hm with rfl | hm
      · exact hu.elim
      · exact ⟨q, (hk a hm).2 hu hn, rfl, hg⟩
    · rcases List.mem_cons.1 ht with h | h
      · cases h; exact absurd hg hna
      · exact absurd rfl ((hk _ h).1 t)

/-- The user is asked, and refuses. -/
theorem new_refuse {C : Conf} {W : World} {s t : St} {q : Bytes} {rid : Nat} (hp : (permit C W s q).1 ≠ true)
    (ht : t.out = ((permit C W s q).2.err sDenied rid denied).out) : New C W s t := by
  rcases permit_cases C W s q with ⟨e1, e2⟩ | ⟨e1, e2⟩ <;> rw [e2] at hp ht
  · exact absurd rfl hp
  · have ha : Asking C := (asks_iff C).1 e1
    have hg : ¬ Agrees (W.answer (prompt q)) := fun h => hp ((allowed_iff _).2 h)
    refine ⟨[.asked (prompt q), .reply (errReply sDenied rid denied)], by rw [ht]; simp [St.act, St.err], fun _ a hm hu hn => ?_,
      fun hn => absurd ha hn, fun t ht hna => ?_⟩
    · simp only [List.mem_cons, List.not_mem_nil, or_false] at hm
      rcases hm with rfl | rfl <;> exact hu.elim
    · simp only [List.mem_cons, List.not_mem_nil, or_false] at ht
      rcases ht with h | h
      · cases h; exact ⟨rid, rfl⟩
      · cases h

theorem place_eq (f : Fwd) (other : Bytes) : listenText f other = place f.listenPath f.listenHost other := by
  unfold listenText place
  cases f.listenPath <;> cases f.listenHost <;> rfl

theorem shown_eq (n : Nat) : portText n = shown n := rfl

theorem or_some {a b : Option Bytes} {c : Bytes} (h : (a <|> b) = some c) : a = some c ∨ a = none ∧ b = some c := by
  cases a with
  | none => exact .inr ⟨rfl, h⟩
  | some x => exact .inl h

/-- The question says what will be opened. -/
theorem format_asks {C : Conf} {ftype : Nat} {f : Fwd} {desc : Bytes} (h : format C ftype f = .text desc) (hv : invalid ftype f = false) :
    Asks C (askFwd C desc) (if ftype = fLocal ∨ ftype = fDynamic then .listen f else .askRemote f) := by
  unfold format at h
  unfold askFwd
  by_cases h1 : ftype = fLocal
  · rw [if_pos h1] at h
    rw [if_pos (Or.inl h1)]
    cases ho : (f.connectPath <|> f.connectHost) with
    | none => rw [ho] at h; simp at h
    | some c =>
      rw [ho] at h
      simp only [Text.text.injEq] at h
      subst h h1
      have hp : f.connectPort ≠ 0 := by
        simp only [invalid, Bool.or_eq_false_iff, Bool.and_eq_false_iff, decide_eq_false_iff_not] at hv
        rcases hv.1.2 with (h | h) | h
        · exact absurd (by decide : fLocal ≠ fDynamic) h
        · exact absurd (by decide : fLocal ≠ fRemote) h
        · exact h
      have := Asks.local_ (C := C) f c hp (or_some ho)
      simpa only [place_eq, shown_eq, anyText, List.append_assoc, List.cons_append, List.nil_append] using this
  · rw [if_neg h1] at h
    by_cases h2 : ftype = fDynamic
    · rw [if_pos h2] at h
      rw [if_pos (Or.inr h2)]
      simp only [Text.text.injEq] at h
      subst h h2
      have hl : f.listenPath = none := by
        simp only [invalid, Bool.or_eq_false_iff, Bool.and_eq_false_iff, decide_eq_false_iff_not] at hv
        rcases hv.1.1.2 with h | h
        · exact absurd trivial h
        · simpa using h
      have := Asks.dynamic (C := C) f hl
      have hpl : place none f.listenHost (anyText C) = (f.listenHost.getD (anyText C)).take 200 := by
        unfold place
        cases f.listenHost <;> rfl
      rw [show (if C.gateway = true then b!"*" else b!"LOCALHOST") = anyText C from rfl, hpl] at this
      simpa only [shown_eq, List.append_assoc, List.cons_append, List.nil_append] using this
    · rw [if_neg h2] at h
      rw [if_neg (by simp [h1, h2])]
      by_cases h3 : ftype = fRemote
      · rw [if_pos h3] at h
        cases ho : (f.connectPath <|> f.connectHost) with
        | none => rw [ho] at h; simp at h
        | some c =>
          rw [ho] at h
          simp only [Text.text.injEq] at h
          subst h
          have := Asks.remote (C := C) f c (or_some ho)
          simpa only [place_eq, shown_eq, List.append_assoc, List.cons_append, List.nil_append] using this
      · rw [if_neg h3] at h; cases h

theorem not_asked_reply (p t : Bytes) : Act.reply p ≠ .asked t := fun h => by cases h

theorem openFwd_new {C : Conf} {W : World} {s : St} {rid : Nat} {b : Bytes} : New C W s (openFwd C W s rid b) := by
  unfold openFwd
  split
  · exact new_same rfl
  · rename_i ftype f _
    split
    · exact new_same rfl
    · exact new_same rfl
    · rename_i desc hd
      split
      · exact new_reply _ rfl
      · rename_i hv
        have hask := format_asks hd (by simpa using hv)
        have key : New C W s (askOpen C W s rid ftype f desc) := by
          unfold askOpen
          split
          · rename_i hp
            unfold openIt
            split
            · rename_i ht
              rw [if_pos ht] at hask
              split
              · refine new_permit hp (k := [.listen f, .reply (okReply rid)]) (by simp [St.act, St.ok]) ?_
                simp only [List.mem_cons, List.not_mem_nil, or_false, forall_eq_or_imp, forall_eq]
                exact ⟨⟨fun t h => (by cases h), fun _ _ => hask⟩, not_asked_reply _, fun h => h.elim⟩
              · exact new_permit hp (k := [.reply _]) rfl (by simpa using fun h => h.elim)
            · rename_i ht
              rw [if_neg ht] at hask
              split
              · refine new_permit hp (k := [.askRemote f]) rfl ?_
                simp only [List.mem_cons, List.not_mem_nil, or_false, forall_eq]
                exact ⟨fun t h => (by cases h), fun _ _ => hask⟩
              · exact new_permit hp (k := [.reply _]) rfl (by simpa using fun h => h.elim)
          · rename_i hp
            exact new_refuse hp rfl
        unfold openNew
        split
        · split
          · split
            · exact new_reply _ rfl
            · exact new_reply _ rfl
          · exact key
        · split
          · exact new_reply _ rfl
          · exact key

theorem closeFwd_new {C : Conf} {W : World} {s : St} {rid : Nat} {b : Bytes} : New C W s (closeFwd C W s rid b) := by
  unfold closeFwd
  split
  · exact new_same rfl
  · rename_i f _
    split
    · exact new_same rfl
    · exact new_same rfl
    · unfold closeFound
      split
      · split
        · exact new_reply _ rfl
        · rename_i g _
          split
          · refine ⟨[.cancelRemote g, .reply (okReply rid)], by simp [St.ok, St.act], permitted_plain ?_⟩
            simp only [List.mem_cons, List.not_mem_nil, or_false, forall_eq_or_imp, forall_eq]
            exact ⟨⟨fun _ => trivial, fun t h => (by cases h)⟩, plain_reply _⟩
          · exact new_reply _ rfl
      · split
        · split
          · refine ⟨[.unlisten f, .reply (okReply rid)], by simp [St.ok, St.act], permitted_plain ?_⟩
            simp only [List.mem_cons, List.not_mem_nil, or_false, forall_eq_or_imp, forall_eq]
            exact ⟨⟨fun _ => trivial, fun t h => (by cases h)⟩, plain_reply _⟩
          · exact new_reply _ rfl
        · exact new_reply _ rfl

theorem handle_new {C : Conf} {W : World} {s : St} {type rid : Nat} {b : Bytes} : New C W s (handle C W s type rid b) := by
  unfold handle
  split
  · unfold newSession
    split
    · exact new_same rfl
    · split
      · exact new_reply _ rfl
      · split
        · exact new_reply _ rfl
        · split
          · rename_i hp
            refine new_permit hp (k := [.openSession _ _ _ _]) rfl ?_
            simp only [List.mem_cons, List.not_mem_nil, or_false, forall_eq]
            exact ⟨fun t h => (by cases h), fun _ _ => .session ..⟩
          · rename_i hp
            exact new_refuse hp rfl
  split
  · exact new_reply _ rfl
  split
  · unfold terminate
    split
    · rename_i hp
      refine new_permit hp (k := [.terminate, .reply (okReply rid)]) (by simp [St.act, St.ok]) ?_
      simp only [List.mem_cons, List.not_mem_nil, or_false, forall_eq_or_imp, forall_eq]
      exact ⟨⟨fun t h => (by cases h), fun _ _ => .terminate⟩, not_asked_reply _, fun h => h.elim⟩
    · rename_i hp
      exact new_refuse hp rfl
  split
  · exact openFwd_new
  split
  · exact closeFwd_new
  split
  · unfold stdioFwd
    split
    · exact new_same rfl
    · rename_i host port _
      split
      · exact new_reply _ rfl
      · split
        · exact new_reply _ rfl
        · split
          · rename_i hp
            refine new_permit hp (k := [.openStdio host port (W.fds.take 2)]) rfl ?_
            simp only [List.mem_cons, List.not_mem_nil, or_false, forall_eq]
            refine ⟨fun t h => (by cases h), fun _ _ => ?_⟩
            unfold askStdio
            split
            · rename_i he
              subst he
              exact .path ..
            · rename_i hne
              exact .address host port _ hne
          · rename_i hp
            exact new_refuse hp rfl
  split
  · unfold stopListening
    split
    · rename_i hp
      split
      · refine new_permit hp (k := [.stopListening, .reply (okReply rid)]) (by simp [St.act, St.ok]) ?_
        simp only [List.mem_cons, List.not_mem_nil, or_false, forall_eq_or_imp, forall_eq]
        exact ⟨⟨fun t h => (by cases h), fun _ _ => .stop⟩, not_asked_reply _, fun h => h.elim⟩
      · exact new_permit hp (k := [.reply _]) rfl (by simpa using fun h => h.elim)
    · rename_i hp
      exact new_refuse hp rfl
  split
  · refine ⟨[.proxy, .reply _], by simp [proxy, St.act]; rfl, permitted_plain ?_⟩
    simp only [List.mem_cons, List.not_mem_nil, or_false, forall_eq_or_imp, forall_eq]
    exact ⟨⟨fun _ => trivial, fun t h => (by cases h)⟩, plain_reply _⟩
  · exact new_reply _ rfl

theorem step_new (C : Conf) (W : World) (s : St) (e : Event) : New C W s (step C W s e) := by
  unfold step
  split
  · exact new_same rfl
  · cases e with
    | packet p =>
      simp only []
      split
      · exact new_same rfl
      · unfold packet
        split
        · exact new_same rfl
        · split
          · unfold hello
            repeat' split
            all_goals exact new_same rfl
          · split
            · exact new_same rfl
            · split
              · exact new_same rfl
              · exact handle_new
    | opened success =>
      simp only []
      split
      · rename_i rid q id _ _
        unfold sessionConfirm
        split
        · refine ⟨setUp C W id q ++ [.reply (openedReply rid id)], by simp [St.act], permitted_plain fun a ha => ?_⟩
          rcases List.mem_append.1 ha with h | h
          · unfold setUp at h
            simp only [List.mem_append, List.mem_cons, List.not_mem_nil, or_false] at h
            rcases h with (h | h) | rfl
            · split at h
              · simp only [List.mem_cons, List.not_mem_nil, or_false] at h
                subst h; exact ⟨fun h => h.elim, fun t h => (by cases h)⟩
              · simp at h
            · split at h
              · simp only [List.mem_cons, List.not_mem_nil, or_false] at h
                subst h; exact ⟨fun h => h.elim, fun t h => (by cases h)⟩
              · simp at h
            · exact ⟨fun h => h.elim, fun t h => (by cases h)⟩
          · simp only [List.mem_cons, List.not_mem_nil, or_false] at h
            subst h; exact plain_reply _
        · exact new_reply _ rfl
      · unfold stdioConfirm
        split <;> exact new_reply _ rfl
      · exact new_same rfl
    | forwarded success p =>
      simp only []
      split
      · rename_i rid fid _
        unfold forwardConfirm
        split
        · exact new_reply _ rfl
        · rename_i f _
          split
          · exact new_reply _ rfl
          · split
            · split
              · split
                · exact new_same rfl
                · rename_i port _ _
                  split
                  · exact new_same rfl
                  · refine ⟨[.reply (portReply rid port), .allocate f (some port)], by simp [St.act], permitted_plain ?_⟩
                    simp only [List.mem_cons, List.not_mem_nil, or_false, forall_eq_or_imp, forall_eq]
                    exact ⟨plain_reply _, fun h => h.elim, fun t h => (by cases h)⟩
              · exact new_reply _ rfl
            · split
              · refine ⟨[.allocate f none, .reply (errReply sFailure rid (remoteFailed f))], by simp [St.act, St.err], permitted_plain ?_⟩
                simp only [List.mem_cons, List.not_mem_nil, or_false, forall_eq_or_imp, forall_eq]
                exact ⟨⟨fun h => h.elim, fun t h => (by cases h)⟩, plain_reply _⟩
              · exact new_reply _ rfl
      · exact new_same rfl
    | exit status => simp only []; split <;> first | exact new_same rfl | exact new_reply _ rfl
    | ttyFailed => simp only []; split <;> first | exact new_same rfl | exact new_reply _ rfl
    | childClosed => simp only []; split <;> exact new_same rfl
    | others a b => exact new_same rfl

/-- C124: with ControlMaster ask or autoask, sessions and forwardings are opened, and listening and the connection ended, only after the
user has agreed to a question that says so. Missing: proxies and the cancelling of forwardings, for which nobody is asked; and a question
about a dynamic forwarding does not say where a forwarding leads that has a destination. -/
theorem C124_asked_partial (C : Conf) (W : World) (s : St) (e : Event) (ha : Asking C) :
    ∃ l, (step C W s e).out = s.out ++ l ∧ ∀ a ∈ l, Uses a → ¬ Unasked a →
      ∃ text, Asks C text a ∧ l.head? = some (.asked (text.take 1023)) ∧ Agrees (W.answer (text.take 1023)) := by
  obtain ⟨l, h1, h2⟩ := step_new C W s e
  exact ⟨l, h1, h2.asked ha⟩

/-- C124: otherwise no questions are asked. -/
theorem C124_quiet (C : Conf) (W : World) (s : St) (e : Event) (ha : ¬ Asking C) :
    ∃ l, (step C W s e).out = s.out ++ l ∧ ∀ t, Act.asked t ∉ l := by
  obtain ⟨l, h1, h2⟩ := step_new C W s e
  exact ⟨l, h1, h2.quiet ha⟩

/-- C124: if the user does not agree the request is answered with a refusal, and that is all. -/
theorem C124_refused (C : Conf) (W : World) (s : St) (e : Event) (t : Bytes) (k : List Act) (hk : (step C W s e).out = s.out ++ k)
    (ht : Act.asked t ∈ k) (hn : ¬ Agrees (W.answer t)) :
    ∃ rid, k = [.asked t, .reply (be 4 0x80000002 ++ be 4 rid ++ str b!"Permission denied")] := by
  obtain ⟨l, h1, h2⟩ := step_new C W s e
  have : k = l := List.append_cancel_left (hk.symm.trans h1)
  subst this
  exact h2.refused t ht hn

end Verif.Mux
