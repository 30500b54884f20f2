/-
One message is answered.
-/
import Verif.CliAuth.Exchange

namespace Verif.CliAuth
open Verif Wire Text
open _root_.Verif.PubKey (Key Kind Curve Pub sigalgByName toBlob fromBlob typeFromName)
open _root_.Verif.Match (names)
open scoped _root_.Verif.Match

structure Inv (C : Conf) (W : World) (s : St) : Prop where
  core : Core C W s
  slot : s.status = .running → SlotOk s
  turn : s.status = .running → s.method = .nothing ∨ First C s.off s.authlist s.method

/-- After a message has been answered. -/
structure Stepped (C : Conf) (W : World) (s : St) (m : Msg) (t : St) : Prop where
  inv : Inv C W t
  grows : Grows (Answers C W s m) s t
  packets : packets t.out ≤ packets s.out + 1
  potential : potential C W t ≤ potential C W s + total C W ∧ (¬ isPartial m → potential C W t ≤ CliAuth.potential C W s)
  started : t.started = true → s.started = true ∨ m.ty = 6
  success : t.status = .success → m.ty = 52 ∧ s.started = true

/-- A packet that counts for none of the methods. -/
def Uncounted (C : Conf) (a : Act) : Prop :=
  isRequest C b!"password" (fun b => b.head? = some 0) a = false ∧
  isRequest C b!"keyboard-interactive" (fun b => b ≠ []) a = false ∧
  isRequest C b!"hostbased" (fun b => b ≠ []) a = false ∧
  isRequest C b!"publickey" (fun b => b.head? = some 0) a = false

theorem uncounted_ty {C : Conf} {ty : Nat} {b : Bytes} (h : ty ≠ 50) : Uncounted C (.packet ty b) := by
  have : ∀ m p, isRequest C m p (.packet ty b) = false := by
    intro m p
    unfold isRequest requestOf
    simp [h]
  exact ⟨this _ _, this _ _, this _ _, this _ _⟩

theorem uncounted_request {C : Conf} {m body : Bytes} (hm : m.length ≤ maxString)
    (h : body = [] ∨ (m = b!"password" ∧ body.head? = some 1)) : Uncounted C (request C m body) := by
  unfold Uncounted isRequest
  rw [requestOf_request C m body hm]
  rcases h with rfl | ⟨rfl, h⟩
  · simp
  · simp [h]

theorem core_packet {C : Conf} {W : World} {s : St} {a : Act} (h : Core C W s) (hu : Uncounted C a) :
    Core C W (s.act a) ∧ potential C W (s.act a) = potential C W s ∧ packets (s.act a).out ≤ packets s.out + 1 := by
  obtain ⟨h1, h2, h3, h4⟩ := hu
  have hc : ∀ m p, isRequest C m p a = false → (s.out ++ [a]).countP (isRequest C m p) = s.out.countP (isRequest C m p) := by
    intro m p hp
    rw [List.countP_append, List.countP_singleton, hp]
    rfl
  refine ⟨⟨h.methods.same rfl rfl rfl rfl, h.keys, h.fresh, h.len, h.host, h.ktypes, h.active, ?_, ?_, ?_, h.crash⟩, ?_, ?_⟩
  · show passwords C (s.out ++ [a]) ≤ C.prompts ∧ passwords C (s.out ++ [a]) ≤ s.attemptPw
    unfold passwords; rw [hc _ _ h1]; exact h.pw
  · show kbdints C (s.out ++ [a]) ≤ C.prompts ∧ kbdints C (s.out ++ [a]) ≤ s.attemptKbd
    unfold kbdints; rw [hc _ _ h2]; exact h.kb
  · show hostbaseds C (s.out ++ [a]) + s.hostKeys.countP _ ≤ _
    unfold hostbaseds; rw [hc _ _ h3]; exact h.hb
  · show offers C (s.out ++ [a]) + untried s.keys + _ = _
    unfold offers; rw [hc _ _ h4]; rfl
  · show packets (s.out ++ [a]) ≤ _
    unfold packets
    rw [List.countP_append, List.countP_singleton]
    split <;> omega

/-- The connection is closed after some quiet acts. -/
theorem Core.ended {C : Conf} {W : World} {s : St} (h : Core C W s) : Core C W { s with status := .ended } :=
  ⟨h.methods.same rfl rfl rfl rfl, h.keys, h.fresh, h.len, h.host, h.ktypes, h.active, h.pw, h.kb, h.hb, fun h => (by cases h)⟩

theorem inv_ended {C : Conf} {W : World} {s : St} (h : Core C W s) : Inv C W { s with status := .ended } :=
  ⟨h.ended, fun h => (by cases h), fun h => (by cases h)⟩

/-- Nothing is done, except that the connection may be closed. -/
theorem stepped_ended {C : Conf} {W : World} {s : St} {m : Msg} (h : Inv C W s) : Stepped C W s m { s with status := .ended } :=
  ⟨inv_ended h.core, ⟨[], by simp, by simp⟩, Nat.le_succ _, ⟨Nat.le_add_right _ _, fun _ => Nat.le_refl _⟩, fun h => .inl h,
    fun h => (by cases h)⟩

theorem stepped_same {C : Conf} {W : World} {s : St} {m : Msg} (h : Inv C W s) (hr : s.status = .running) : Stepped C W s m s :=
  ⟨h, ⟨[], by simp, by simp⟩, Nat.le_succ _, ⟨Nat.le_add_right _ _, fun _ => Nat.le_refl _⟩, fun h => .inl h,
    fun h => (by rw [hr] at h; cases h)⟩

/-- Acts other than packets, then perhaps the end. -/
theorem stepped_quiet {C : Conf} {W : World} {s t : St} {m : Msg} {P : Act → Prop} (h : Inv C W s) (hr : s.status = .running)
    (hq : Quiet P s t) (hP : ∀ a, P a → Answers C W s m a ∧ NoPacket a) :
    Stepped C W s m t ∧ Stepped C W s m { t with status := .ended } := by
  obtain ⟨h1, h2, h3⟩ := h.core.quiet hq (fun a ha => (hP a ha).2)
  have hg : Grows (Answers C W s m) s t := hq.grows.mono fun a ha => (hP a ha).1
  have hsame := hq.Same
  have hst : t.status = .running ∧ t.slot = s.slot := by
    obtain ⟨a, l, rfl, -⟩ := hq
    exact ⟨hr, rfl⟩
  refine ⟨⟨⟨h1, fun hrun => ?_, fun hrun => ?_⟩, hg, by omega, by omega, fun h => .inl (by rw [← hsame.started]; exact h), ?_⟩,
    ⟨inv_ended h1, hg, by show packets t.out ≤ _; omega, by show potential C W t ≤ _ ∧ (_ → potential C W t ≤ _); omega,
      fun h => .inl (by rw [← hsame.started]; exact h), fun h => (by cases h)⟩⟩
  · unfold SlotOk
    rw [hst.2, hsame.method]
    exact h.slot hr
  · rw [hsame.method, hsame.off, hsame.authlist]
    exact h.turn hr
  · intro h'; rw [hst.1] at h'; cases h'

/-- Acts other than packets, then a packet that counts for none. -/
theorem stepped_packet {C : Conf} {W : World} {s t : St} {m : Msg} {P : Act → Prop} {a : Act} (h : Inv C W s)
    (hr : s.status = .running) (hq : Quiet P s t) (hP : ∀ a, P a → Answers C W s m a ∧ NoPacket a) (hu : Uncounted C a)
    (ha : Answers C W s m a) : Stepped C W s m (t.act a) := by
  obtain ⟨h1, -⟩ := stepped_quiet h hr hq hP
  obtain ⟨c1, c2, c3⟩ := core_packet h1.inv.core hu
  obtain ⟨-, h2, h3⟩ := h.core.quiet hq (fun a ha => (hP a ha).2)
  have hst : t.status = .running := by
    obtain ⟨a, l, rfl, -⟩ := hq
    exact hr
  refine ⟨⟨c1, h1.inv.slot, h1.inv.turn⟩, h1.grows.trans ⟨[a], rfl, by simpa using ha⟩, by omega, by omega, h1.started, h1.success⟩

theorem newPassword_quiet (C : Conf) : ∀ (n : Nat) (s : St), Quiet (fun a => Changes C a ∧ NoPacket a) s (newPassword C n s).2 := by
  intro n
  induction n with
  | zero => intro s; exact Quiet.refl _ s
  | succ n ih =>
    intro s
    rw [newPassword]
    have h1 : Quiet (fun a => Changes C a ∧ NoPacket a) s (ask s (changePrompt C b!"Enter " ++ b!"'s new password: ") false).2 :=
      ask_quiet s ⟨.new, fun ty p h => (by cases h)⟩
    cases hx : ask s (changePrompt C b!"Enter " ++ b!"'s new password: ") false with
    | mk o u =>
      rw [hx] at h1
      cases o with
      | none => exact h1
      | some pw =>
        simp only
        have h2 : Quiet (fun a => Changes C a ∧ NoPacket a) u (read u (changePrompt C b!"Retype " ++ b!"'s new password: ") false).2 :=
          read_quiet u ⟨.again, fun ty p h => (by cases h)⟩
        cases hy : read u (changePrompt C b!"Retype " ++ b!"'s new password: ") false with
        | mk again v =>
          rw [hy] at h2
          have h3 := Quiet.trans h1 h2
          simp only
          split
          · exact h3.trans (ih v)
          · exact h3

theorem show?_quiet {P : Act → Prop} (s : St) {t : Bytes} (h : P (.shown t)) : Quiet P s (show? s t) := by
  unfold show?
  split
  · exact Quiet.refl _ s
  · exact Quiet.act s h

theorem changeReq_stepped {C : Conf} {W : World} {s : St} {m : Msg} (h : Inv C W s) (hr : s.status = .running)
    (hm : m.ty = 60) (hmeth : s.method = .password) (b : Bytes) : Stepped C W s m (changeReq C s b) := by
  unfold changeReq
  split
  · exact stepped_ended h
  · rename_i info b' _
    split
    · exact stepped_ended h
    · have h0 : Quiet (fun a => Changes C a ∧ NoPacket a) s (if info = [] then s else s.act (.shown info)) := by
        exact show?_quiet (t := info) s ⟨.shown info, fun ty p h => (by cases h)⟩
      generalize hs0 : (if info = [] then s else s.act (.shown info)) = s0 at h0
      have h1 : Quiet (fun a => Changes C a ∧ NoPacket a) s0 (read s0 (changePrompt C b!"Enter " ++ b!"'s old password: ") false).2 :=
        read_quiet s0 ⟨.old, fun ty p h => (by cases h)⟩
      cases hx : read s0 (changePrompt C b!"Enter " ++ b!"'s old password: ") false with
      | mk old u =>
        rw [hx] at h1
        simp only
        have h2 := newPassword_quiet C (u.answers.length + 1) u
        cases hy : newPassword C (u.answers.length + 1) u with
        | mk o v =>
          rw [hy] at h2
          have h3 := (Quiet.trans h0 h1).trans h2
          have hP : ∀ a, Changes C a ∧ NoPacket a → Answers C W s m a ∧ NoPacket a :=
            fun a ha => ⟨.change a hm hmeth ha.1, ha.2⟩
          cases o with
          | none => exact (stepped_quiet h hr h3 hP).1
          | some pw =>
            simp only
            have hpk : Act.packet 50 (reqHead C v.method.name ++ be 1 1 ++ str old ++ str pw) =
                request C b!"password" (1 :: (str old ++ str pw)) := by
              have : v.method = .password := h3.Same.method.trans hmeth
              rw [this, be_one, ← reqHead_eq]
              simp only [List.append_assoc]; rfl
            rw [hpk]
            exact stepped_packet h hr h3 hP (uncounted_request (by decide) (.inr ⟨rfl, rfl⟩)) (.change _ hm hmeth (.send old pw))

theorem infoPrompts_spec (C : Conf) : ∀ (n : Nat) (b acc : Bytes) (s : St),
    Quiet (fun a => Informs C a ∧ NoPacket a) s (infoPrompts C n b acc s).2 ∧
      ∀ rest r, (infoPrompts C n b acc s).1 = some (rest, r) → ∃ l : List Bytes, l.length = n ∧ r = acc ++ (l.map str).flatten := by
  intro n
  induction n with
  | zero =>
    intro b acc s
    refine ⟨Quiet.refl _ s, fun rest r h => ⟨[], rfl, ?_⟩⟩
    simp only [infoPrompts, Option.some.injEq, Prod.mk.injEq] at h
    simp [h.2]
  | succ n ih =>
    intro b acc s
    rw [infoPrompts]
    split
    · exact ⟨Quiet.refl _ s, fun rest r h => (by cases h)⟩
    · rename_i prompt b1 _
      split
      · exact ⟨Quiet.refl _ s, fun rest r h => (by cases h)⟩
      · rename_i echo b2 _
        have h1 : Quiet (fun a => Informs C a ∧ NoPacket a) s
            (read s (b!"(" ++ C.user ++ b!"@" ++ hostName C ++ b!") " ++ prompt) (echo ≠ 0)).2 :=
          read_quiet s ⟨.prompt _ _, fun ty p h => (by cases h)⟩
        cases hx : read s (b!"(" ++ C.user ++ b!"@" ++ hostName C ++ b!") " ++ prompt) (echo ≠ 0) with
        | mk resp u =>
          rw [hx] at h1
          simp only
          obtain ⟨i1, i2⟩ := ih b2 (acc ++ str resp) u
          refine ⟨Quiet.trans h1 i1, fun rest r h => ?_⟩
          obtain ⟨l, hl, hr⟩ := i2 rest r h
          exact ⟨resp :: l, by simp [hl], by rw [hr]; simp [List.append_assoc]⟩

theorem infoReq_stepped {C : Conf} {W : World} {s : St} {m : Msg} (h : Inv C W s) (hr : s.status = .running)
    (hm : m.ty = 60) (hmeth : s.method = .kbdint) (b : Bytes) : Stepped C W s m (infoReq C s b) := by
  have hI : Inv C W { s with infoReqSeen := true } :=
    ⟨⟨h.core.methods.same rfl rfl rfl rfl, h.core.keys, h.core.fresh, h.core.len, h.core.host, h.core.ktypes, h.core.active,
      h.core.pw, h.core.kb, h.core.hb, h.core.crash⟩, h.slot, h.turn⟩
  have back : ∀ {t}, Stepped C W { s with infoReqSeen := true } m t → Stepped C W s m t := by
    intro t ht
    refine ⟨ht.inv, ht.grows.mono fun a ha => ?_, ht.packets, ht.potential, ht.started, ht.success⟩
    cases ha with
    | bare h => exact .bare h
    | unknown h => exact .unknown h
    | next a v l p h1 h2 h3 h4 h5 => exact .next a v l p h1 h2 h3 h4 h5
    | banner v t r h1 h2 h3 h4 => exact .banner v t r h1 h2 h3 h4
    | prove alg blob f key k ext agent a h1 h2 h3 h4 h5 h6 h7 h8 => exact .prove alg blob f key k ext agent a h1 h2 h3 h4 h5 h6 h7 h8
    | other a h1 h2 h3 => exact .other a h1 h2 h3
    | change a h1 h2 h3 => exact .change a h1 h2 h3
    | inform a h1 h2 h3 => exact .inform a h1 h2 h3
  have hP : ∀ a, Informs C a ∧ NoPacket a → Answers C W { s with infoReqSeen := true } m a ∧ NoPacket a :=
    fun a ha => ⟨.inform a hm hmeth ha.1, ha.2⟩
  unfold infoReq
  split
  · exact back (stepped_ended hI)
  · rename_i name b1 _
    split
    · exact back (stepped_ended hI)
    · rename_i inst b2 _
      split
      · exact back (stepped_ended hI)
      · rename_i b3 _
        have h0 : Quiet (fun a => Informs C a ∧ NoPacket a) { s with infoReqSeen := true }
            (show? (show? { s with infoReqSeen := true } name) inst) :=
          (show?_quiet _ ⟨.shown name, fun ty p h => (by cases h)⟩).trans (show?_quiet _ ⟨.shown inst, fun ty p h => (by cases h)⟩)
        split
        · exact back (stepped_quiet hI hr h0 hP).2
        · rename_i n b4 hn
          obtain ⟨i1, i2⟩ := infoPrompts_spec C n b4 (be 4 n) (show? (show? { s with infoReqSeen := true } name) inst)
          cases hx : infoPrompts C n b4 (be 4 n) (show? (show? { s with infoReqSeen := true } name) inst) with
          | mk o u =>
            rw [hx] at i1 i2
            have hq := h0.trans i1
            cases o with
            | none => exact back (stepped_quiet hI hr hq hP).2
            | some q =>
              obtain ⟨rest, acc⟩ := q
              simp only
              split
              · exact back (stepped_quiet hI hr hq hP).2
              · obtain ⟨l, hl, hacc⟩ := i2 rest acc rfl
                rw [hacc, ← hl]
                refine back (stepped_packet hI hr hq hP (uncounted_ty (by decide)) (.inform _ hm hmeth (.send l ?_)))
                rw [hl]
                exact (getInt_some hn).2

theorem failure_stepped {C : Conf} {W : World} {s : St} {m : Msg} (h : Inv C W s) (hr : s.status = .running)
    (hm : m.ty = 51) (hst : s.started = true) : Stepped C W s m (failure C W s m.payload) := by
  unfold failure
  split
  · exact stepped_same h hr
  · rename_i list b1 hl
    split
    · exact stepped_same h hr
    · rename_i p b2 hp
      split
      · exact stepped_same h hr
      · rename_i hb2
        simp only [ne_eq, Decidable.not_not] at hb2
        subst hb2
        obtain ⟨v, hnamed, hv, -⟩ := getCstr_named hl
        obtain ⟨c, hpay, hpc⟩ : ∃ c : UInt8, m.payload = str v ++ [c] ∧ (p ≠ 0 → c ≠ 0) := by
          obtain ⟨x, h1, h2⟩ := getInt_one hp
          refine ⟨x, by rw [hv, h1], fun hp0 hc => hp0 ?_⟩
          rw [h2, hc]; rfl
        have hfin : ∀ s1 : St, Core C W s1 → s1.status = .running → s1.out = s.out → s1.started = s.started →
            s1.sigAlgs = s.sigAlgs → s1.hasHostbound = s.hasHostbound → s1.authlist = some list →
            potential C W s1 ≤ potential C W s + total C W ∧ (¬ isPartial m → potential C W s1 ≤ potential C W s) →
            Stepped C W s m (userauth C W s1) := by
          intro s1 hc h1 h2 h3 h4 h5 h6 h7
          have ht := userauth_tried hc h1
          refine ⟨⟨ht.core, fun hx => (ht.running hx).1, fun hx => .inr (ht.running hx).2.1⟩, ?_, ?_, ?_, ?_, ?_⟩
          · obtain ⟨l, g1, g2⟩ := ht.grows
            refine ⟨l, by rw [g1, h2], fun x hx => .next x v list c hm hst hpay hnamed ?_⟩
            have := g2 x hx
            unfold DoesIn at this
            rw [h4, h5, h6] at this
            exact this
          · rw [← h2]; exact ht.packets
          · have := ht.potential
            exact ⟨by omega, fun hn => Nat.le_trans this (h7.2 hn)⟩
          · intro hx
            rw [ht.started, h3] at hx
            exact .inl hx
          · intro hx
            exact absurd hx ht.notSuccess
        have hc := h.core
        split
        · rename_i hp0
          refine hfin { resetKeys s with authlist := some list } ?_ hr rfl rfl rfl rfl rfl ⟨?_, fun hn => ?_⟩
          · refine ⟨hc.methods.same rfl rfl rfl rfl, ?_, ?_, ?_, hc.host, hc.ktypes, hc.active, hc.pw, hc.kb, hc.hb, hc.crash⟩
            · intro id hid
              have hid' : id ∈ s.keys.map fun id => { id with tried := false } := hid
              simp only [List.mem_map] at hid'
              obtain ⟨x, hx, rfl⟩ := hid'
              exact (hc.keys x hx).tried false
            · intro hx
              show s.keys.map _ = []
              rw [hc.fresh hx]; rfl
            · show (s.keys.map _).length ≤ _
              rw [List.length_map]; exact hc.len
          · unfold potential
            show offers C s.out + untried (s.keys.map _) + _ ≤ _
            have := untried_le (s.keys.map fun id => { id with tried := false })
            rw [List.length_map] at this
            have := hc.len
            show offers C s.out + untried (s.keys.map fun id => { id with tried := false }) + (if s.prepared then 0 else total C W) ≤ _
            omega
          · exact absurd ⟨hm, v, c, hpay, hpc hp0⟩ hn
        · exact hfin { s with authlist := some list }
            ⟨hc.methods.same rfl rfl rfl rfl, hc.keys, hc.fresh, hc.len, hc.host, hc.ktypes, hc.active, hc.pw, hc.kb, hc.hb, hc.crash⟩
            hr rfl rfl rfl rfl rfl ⟨Nat.le_add_right _ _, fun _ => Nat.le_refl _⟩

theorem pkOk_stepped {C : Conf} {W : World} {s : St} {m : Msg} (h : Inv C W s) (hr : s.status = .running)
    (hm : m.ty = 60) (hsl : s.slot = .pkOk) (hmeth : s.method = .publickey) : Stepped C W s m (pkOk C W s m.payload) := by
  unfold pkOk
  split
  · exact stepped_ended h
  · rename_i alg b1 hb1
    split
    · exact stepped_ended h
    · rename_i blob b2 hb2
      split
      · exact stepped_ended h
      · rename_i he
        simp only [ne_eq, Decidable.not_not] at he
        subst he
        split
        · rename_i t key ht hkey
          split
          · exact stepped_ended h
          · split
            · rename_i k ext agent file tried priv hfind
              have hmem := List.mem_of_find?_eq_some hfind
              rw [List.mem_reverse] at hmem
              have hfit := List.find?_some hfind
              simp only [Option.any_some] at hfit
              obtain ⟨ho, hacc, hpriv⟩ := h.core.keys _ hmem
              obtain ⟨v, -, hv, -⟩ := getCstr_named hb1
              have hpay : m.payload = str v ++ str blob := by
                rw [hv, (getStr_some hb2).1, List.append_nil]
              have hans : ∀ a, Proves C W s.sigAlgs s.hasHostbound file k a → Answers C W s m a :=
                fun a ha => .prove v blob file key k ext agent a hm hmeth hpay hkey hfit ho (hacc k rfl) ha
              have hsign := signAndSend_spec (W := W) (listed_keysOk h.core.keys) hmem (k := k) rfl s
              have hfin := sign_after h.core hr hmeth (.inr hsl) (fun _ => ho) hsign
              cases hrs : signAndSend C W s.keys ⟨some k, ext, agent, file, tried, priv⟩ k s with
              | sent u =>
                rw [hrs] at hfin
                obtain ⟨h1, h2, h3, h4, h5, h6, h7⟩ := hfin
                refine ⟨⟨h1, fun _ => h4, fun _ => ?_⟩, h3.mono hans, Nat.le_of_eq h7, ⟨Nat.le_trans h6 (Nat.le_add_right _ _), fun _ => h6⟩, ?_, ?_⟩
                · rw [h2.method, h2.off, h2.authlist]; exact h.turn hr
                · intro hx; rw [h2.started] at hx; exact .inl hx
                · intro hx; rw [h5] at hx; cases hx
              | stop u =>
                rw [hrs] at hfin
                obtain ⟨h1, h2, h3, h4, h6, h7⟩ := hfin
                refine ⟨⟨h1, fun hx => absurd hx h4.1, fun hx => absurd hx h4.1⟩, h3.mono hans, by simp only; omega,
                  ⟨by simp only; omega, fun _ => h6⟩, ?_, fun hx => absurd hx h4.2⟩
                intro hx
                have hx' : u.started = true := hx
                rw [h2.started] at hx'; exact .inl hx'
              | unsent u =>
                rw [hrs] at hfin
                obtain ⟨h1, h2, h3, h4, h5, h5', h6, h7⟩ := hfin
                have htr := userauth_tried h1 h5
                refine ⟨⟨htr.core, fun hx => (htr.running hx).1, fun hx => .inr (htr.running hx).2.1⟩, ?_, ?_, ?_, ?_,
                  fun hx => absurd hx htr.notSuccess⟩
                · refine (h3.mono hans).trans (htr.grows.mono fun a ha => .other a hm hmeth ?_)
                  exact (DoesIn.same h2 a).1 ha
                · have := htr.packets
                  simp only
                  omega
                · have := htr.potential
                  exact ⟨by simp only; omega, fun _ => Nat.le_trans this h6⟩
                · intro hx
                  have hx' : (userauth C W u).started = true := hx
                  rw [htr.started, h2.started] at hx'; exact .inl hx'
            · exact stepped_ended h
        · exact stepped_ended h

theorem extGo_core {C : Conf} {W : World} : ∀ (n : Nat) (b : Bytes) (s : St), Inv C W s → s.status = .running →
    Inv C W (extGo n b s) ∧ (extGo n b s).out = s.out ∧ potential C W (extGo n b s) = potential C W s ∧
      (extGo n b s).started = s.started ∧ (extGo n b s).status ≠ .success := by
  intro n
  induction n with
  | zero =>
    intro b s h hr
    rw [extGo]
    split
    · exact ⟨inv_ended h.core, rfl, rfl, rfl, fun h => (by cases h)⟩
    · exact ⟨h, rfl, rfl, rfl, by rw [hr]; exact fun h => (by cases h)⟩
  | succ n ih =>
    intro b s h hr
    have he : Inv C W { s with status := .ended } ∧ ({ s with status := .ended } : St).out = s.out ∧
        potential C W { s with status := .ended } = potential C W s ∧ ({ s with status := .ended } : St).started = s.started ∧
        ({ s with status := .ended } : St).status ≠ .success := ⟨inv_ended h.core, rfl, rfl, rfl, fun h => (by cases h)⟩
    rw [extGo]
    split
    · exact he
    · rename_i name b1 _
      split
      · exact he
      · rename_i val b2 _
        have hent : ∀ t, extEntry s name val = some t → ∃ sa hb, t = { s with sigAlgs := sa, hasHostbound := hb } := by
          intro t ht
          unfold extEntry at ht
          split at ht
          · split at ht
            · cases ht
            · cases ht; exact ⟨some val, s.hasHostbound, rfl⟩
          · split at ht
            · split at ht
              · cases ht
              · cases ht
                split
                · exact ⟨s.sigAlgs, true, rfl⟩
                · exact ⟨s.sigAlgs, s.hasHostbound, rfl⟩
            · split at ht
              · split at ht
                · cases ht
                · cases ht; exact ⟨s.sigAlgs, s.hasHostbound, rfl⟩
              · cases ht; exact ⟨s.sigAlgs, s.hasHostbound, rfl⟩
        split
        · exact he
        · rename_i t ht
          obtain ⟨sa, hb, rfl⟩ := hent t ht
          have hc := h.core
          exact ih b2 _ ⟨⟨hc.methods.same rfl rfl rfl rfl, hc.keys, hc.fresh, hc.len, hc.host, hc.ktypes, hc.active, hc.pw, hc.kb,
            hc.hb, hc.crash⟩, h.slot, h.turn⟩ hr

theorem Inv.ext {C : Conf} {W : World} {s : St} (h : Inv C W s) (n : Nat) (e : Ext) : Inv C W { s with extCount := n, ext := e } :=
  ⟨⟨h.core.methods.same rfl rfl rfl rfl, h.core.keys, h.core.fresh, h.core.len, h.core.host, h.core.ktypes, h.core.active,
    h.core.pw, h.core.kb, h.core.hb, h.core.crash⟩, h.slot, h.turn⟩

theorem protocolError_stepped {C : Conf} {W : World} {s : St} {m : Msg} (h : Inv C W s) (hr : s.status = .running)
    (hm : m.ty = 7) (n : Nat) (e : Ext) : Stepped C W s m (protocolError { s with extCount := n, ext := e } m.seq) := by
  have hi := h.ext n e
  obtain ⟨c1, c2, c3⟩ := core_packet hi.core (a := .packet 3 (be 4 m.seq)) (uncounted_ty (by decide))
  refine ⟨⟨c1, h.slot, h.turn⟩, ⟨[_], rfl, fun x hx => ?_⟩, c3, ?_, fun h => .inl h, fun hx => ?_⟩
  · simp only [List.mem_singleton] at hx
    subst hx
    exact .unknown hm
  · exact ⟨Nat.le_trans (Nat.le_of_eq c2) (Nat.le_add_right _ _), fun _ => Nat.le_of_eq c2⟩
  · have hx' : s.status = .success := hx
    rw [hr] at hx'; cases hx'

theorem extInfo_stepped {C : Conf} {W : World} {s : St} {m : Msg} (h : Inv C W s) (hr : s.status = .running)
    (hm : m.ty = 7) (b : Bytes) : Stepped C W s m (extInfo s m.seq b) := by
  unfold extInfo
  split
  · exact protocolError_stepped h hr hm _ _
  · split
    · have hi := h.ext (s.extCount + 1) .kexError
      exact ⟨inv_ended hi.core, ⟨[], by simp, by simp⟩, Nat.le_succ _, ⟨Nat.le_add_right _ _, fun _ => Nat.le_refl _⟩,
        fun h => .inl h, fun h => (by cases h)⟩
    · rename_i n b1 _
      split
      · exact protocolError_stepped h hr hm _ _
      · obtain ⟨h1, h2, h3, h4, h5⟩ := extGo_core n b1 _ (h.ext (s.extCount + 1) .kexError) hr
        have h3' : potential C W (extGo n b1 { s with extCount := s.extCount + 1, ext := .kexError }) = potential C W s := h3
        refine ⟨h1, ⟨[], by rw [h2]; simp, by simp⟩, by rw [h2]; exact Nat.le_succ _, by rw [h3']; exact ⟨Nat.le_add_right _ _, fun _ => Nat.le_refl _⟩, ?_,
          fun hx => absurd hx h5⟩
        intro hx
        rw [h4] at hx
        exact .inl hx

theorem serviceAccept_stepped {C : Conf} {W : World} {s : St} {m : Msg} (h : Inv C W s) (hr : s.status = .running)
    (hm : m.ty = 6) (b : Bytes) : Stepped C W s m (serviceAccept C s b) := by
  unfold serviceAccept
  split
  · exact stepped_ended h
  · split
    · exact stepped_ended h
    · have hpk : Act.packet 50 (reqHead C s.method.name) = request C s.method.name [] := by
        rw [← reqHead_eq, List.append_nil]
      have hlen : s.method.name.length ≤ maxString := by
        cases s.method <;> decide
      obtain ⟨c1, c2, c3⟩ := core_packet h.core (a := .packet 50 (reqHead C s.method.name))
        (by rw [hpk]; exact uncounted_request hlen (.inl rfl))
      refine ⟨⟨⟨c1.methods.same rfl rfl rfl rfl, c1.keys, c1.fresh, c1.len, c1.host, c1.ktypes, c1.active, c1.pw, c1.kb, c1.hb,
        c1.crash⟩, h.slot, h.turn⟩, ⟨[_], rfl, fun x hx => ?_⟩, c3, ?_, fun _ => .inr hm, fun hx => ?_⟩
      · simp only [List.mem_singleton] at hx
        subst hx
        rw [hpk]
        exact .bare hm
      · exact ⟨Nat.le_trans (Nat.le_of_eq c2) (Nat.le_add_right _ _), fun _ => Nat.le_of_eq c2⟩
      · have hx' : s.status = .success := hx
        rw [hr] at hx'; cases hx'

theorem banner_stepped {C : Conf} {W : World} {s : St} {m : Msg} (h : Inv C W s) (hr : s.status = .running)
    (hm : m.ty = 53) (hst : s.started = true) : Stepped C W s m (banner s m.payload) := by
  unfold banner
  split
  · exact stepped_ended h
  · rename_i msg b1 hb
    split
    · exact stepped_ended h
    · obtain ⟨v, hnamed, hpay, -⟩ := getCstr_named hb
      refine (stepped_quiet h hr (show?_quiet (P := fun a => a = .shown msg) s rfl) ?_).1
      rintro a rfl
      exact ⟨Answers.banner v msg b1 hm hst hpay hnamed, fun ty p h => (by cases h)⟩

theorem step_stepped {C : Conf} {W : World} {s : St} (h : Inv C W s) (hr : s.status = .running) (m : Msg) :
    Stepped C W s m (step C W s m) := by
  unfold step
  rw [if_neg (by rw [hr]; simp)]
  split
  · rename_i hm; exact serviceAccept_stepped h hr hm _
  · split
    · rename_i hm
      split
      · exact extInfo_stepped h hr hm _
      · exact protocolError_stepped h hr hm s.extCount s.ext
      · exact stepped_ended h
    · split
      · rename_i hm; exact failure_stepped h hr hm.1 hm.2
      · split
        · rename_i hm
          have hc := h.core
          exact ⟨⟨⟨hc.methods.same rfl rfl rfl rfl, hc.keys, hc.fresh, hc.len, hc.host, hc.ktypes, hc.active, hc.pw, hc.kb, hc.hb,
            fun h => (by cases h)⟩, fun h => (by cases h), fun h => (by cases h)⟩, ⟨[], by simp, by simp⟩, Nat.le_succ _,
            ⟨Nat.le_add_right _ _, fun _ => Nat.le_refl _⟩, fun h => .inl h, fun _ => hm⟩
        · split
          · rename_i hm; exact banner_stepped h hr hm.1 hm.2
          · split
            · rename_i hm
              have hsl := h.slot hr
              split
              · exact stepped_ended h
              · rename_i hs; exact pkOk_stepped h hr hm hs (hsl.1 hs)
              · rename_i hs; exact changeReq_stepped h hr hm (hsl.2.1 hs) _
              · rename_i hs; exact infoReq_stepped h hr hm (hsl.2.2 hs) _
            · exact stepped_ended h

theorem init_inv (C : Conf) (W : World) (b : Before) (answers : List (Option Bytes)) : Inv C W (init C b answers) := by
  have hu : Uncounted C (.packet 5 (str b!"ssh-userauth")) := uncounted_ty (by decide)
  obtain ⟨h1, h2, h3, h4⟩ := hu
  have hc : ∀ m p, isRequest C m p (.packet 5 (str b!"ssh-userauth")) = false →
      List.countP (isRequest C m p) [.packet 5 (str b!"ssh-userauth")] = 0 := by
    intro m p hp
    rw [List.countP_singleton, hp]; rfl
  refine ⟨⟨fun l hl => (by cases hl), by simp [init], fun _ => rfl, Nat.zero_le _, fun k hk => hk, by simp [init], by simp [init], ?_, ?_, ?_,
    fun h => (by cases h)⟩, fun _ => ⟨fun h => (by cases h), fun h => (by cases h), fun h => (by cases h)⟩, fun _ => .inl rfl⟩
  · show passwords C [.packet 5 (str b!"ssh-userauth")] ≤ _ ∧ passwords C [.packet 5 (str b!"ssh-userauth")] ≤ _
    unfold passwords; rw [hc _ _ h1]; exact ⟨Nat.zero_le _, Nat.zero_le _⟩
  · show kbdints C [.packet 5 (str b!"ssh-userauth")] ≤ _ ∧ kbdints C [.packet 5 (str b!"ssh-userauth")] ≤ _
    unfold kbdints; rw [hc _ _ h2]; exact ⟨Nat.zero_le _, Nat.zero_le _⟩
  · show hostbaseds C [.packet 5 (str b!"ssh-userauth")] + C.hostKeys.countP _ ≤ _
    unfold hostbaseds; rw [hc _ _ h3]; exact Nat.le_of_eq (Nat.zero_add _)

theorem step_stopped {C : Conf} {W : World} {s : St} (hr : s.status ≠ .running) (m : Msg) : step C W s m = s := by
  unfold step; rw [if_pos hr]

theorem reach_inv {C : Conf} {W : World} {s : St} (h : Reach C W s) : Inv C W s := by
  induction h with
  | start b a => exact init_inv C W b a
  | @step s m _ ih =>
    by_cases hr : s.status = .running
    · exact (step_stepped ih hr m).inv
    · rw [step_stopped hr]; exact ih

end Verif.CliAuth
