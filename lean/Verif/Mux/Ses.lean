/-
C125: the sessions of a client.
-/
import Verif.Mux.Ask
import Verif.Match.Props

namespace Verif.Mux
open Verif Wire
open _root_.Verif.Match (Glob matchPattern C05_match_pattern)

theorem takeWhile_cut {c : UInt8} {name value : Bytes} (h : c ∉ name) : (name ++ c :: value).takeWhile (· ≠ c) = name := by
  induction name with
  | nil => simp
  | cons x name ih =>
    simp only [List.mem_cons, not_or] at h
    rw [List.cons_append, List.takeWhile_cons_of_pos (by simpa using Ne.symm h.1), ih h.2]

theorem cut_first {c : UInt8} {e : Bytes} (h : c ∈ e) : ∃ name value, e = name ++ c :: value ∧ c ∉ name := by
  induction e with
  | nil => simp at h
  | cons x e ih =>
    by_cases hx : x = c
    · exact ⟨[], e, by simp [hx], by simp⟩
    · have : c ∈ e := by
        rcases List.mem_cons.1 h with h | h
        · exact absurd h.symm hx
        · exact h
      obtain ⟨a, b, h1, h2⟩ := ih this
      exact ⟨x :: a, b, by rw [h1]; rfl, by simp [h2, Ne.symm hx]⟩

theorem cut_of_mem {c : UInt8} {e : Bytes} (h : c ∈ e) :
    ∃ value, e = e.takeWhile (· ≠ c) ++ c :: value ∧ c ∉ e.takeWhile (· ≠ c) := by
  obtain ⟨a, b, rfl, hn⟩ := cut_first h
  exact ⟨b, by rw [takeWhile_cut hn], by rw [takeWhile_cut hn]; exact hn⟩

theorem envPermitted_iff (C : Conf) (e : Bytes) : envPermitted C e = true ↔ EnvOk C e := by
  unfold envPermitted EnvOk
  constructor
  · intro h
    split at h
    · cases h
    · rename_i h1
      split at h
      · cases h
      · rename_i h2
        have hm : (61 : UInt8) ∈ e := by simpa using h1
        obtain ⟨value, he, hn⟩ := cut_of_mem hm
        obtain ⟨p, hp, hg⟩ := List.any_eq_true.1 h
        refine ⟨_, value, he, hn, fun h0 => h2 (.inl (by rw [h0]; rfl)), by omega, p, hp, (C05_match_pattern _ _).1 hg⟩
  · rintro ⟨name, value, rfl, hn, hne, hl, p, hp, hg⟩
    rw [if_neg (by simp), takeWhile_cut hn, if_neg]
    · exact List.any_eq_true.2 ⟨p, hp, (C05_match_pattern _ _).2 hg⟩
    · rintro (h | h)
      · exact hne (List.eq_nil_of_length_eq_zero h)
      · omega

/-- Variables as they are sent: how each is written, and what it is -/
def vars (vs : List (Bytes × Bytes)) : Bytes := (vs.map fun v => str v.1).flatten

open Classical in
/-- The variables that are kept -/
noncomputable def kept (C : Conf) (vs : List (Bytes × Bytes)) : List Bytes := (vs.map (·.2)).filter fun e => decide (EnvOk C e)

theorem kept_cons_pos {C : Conf} {v : Bytes × Bytes} {vs : List (Bytes × Bytes)} (h : EnvOk C v.2) : kept C (v :: vs) = v.2 :: kept C vs := by
  simp [kept, h]

theorem kept_cons_neg {C : Conf} {v : Bytes × Bytes} {vs : List (Bytes × Bytes)} (h : ¬ EnvOk C v.2) : kept C (v :: vs) = kept C vs := by
  simp [kept, h]

theorem envLoop_some {C : Conf} : ∀ (f : Nat) (b : Bytes) (acc r : List Bytes), acc.length ≤ 4096 → envLoop C f b acc = some r →
    ∃ vs rest, (∀ v ∈ vs, Named v.1 v.2) ∧ b = vars vs ++ rest ∧ r = acc ++ kept C vs ∧ r.length ≤ 4097 ∧
      (rest = [] ∨ r.length = 4097) := by
  intro f
  induction f with
  | zero => intro b acc r _ h; simp [envLoop] at h
  | succ f ih =>
    intro b acc r ha h
    rw [envLoop] at h
    by_cases h0 : b = []
    · rw [if_pos h0, Option.some.injEq] at h
      subst h0 h
      exact ⟨[], [], by simp, rfl, by simp [kept], by omega, .inl rfl⟩
    · rw [if_neg h0] at h
      cases h1 : getCstr b with
      | none => simp [h1] at h
      | some x =>
        obtain ⟨e, b1⟩ := x
        simp only [h1] at h
        obtain ⟨n, hn, rfl, hl⟩ := getCstr_named h1
        by_cases hp : envPermitted C e = true
        · have hok := (envPermitted_iff C e).1 hp
          rw [if_pos hp] at h
          by_cases hm : acc.length + 1 > maxEnv
          · rw [if_pos hm, Option.some.injEq] at h
            subst h
            have : maxEnv = 4096 := rfl
            refine ⟨[(n, e)], b1, by simpa using hn, by simp [vars], ?_, by simp; omega, .inr (by simp; omega)⟩
            rw [kept_cons_pos hok]
            simp [kept]
          · rw [if_neg hm] at h
            have : maxEnv = 4096 := rfl
            obtain ⟨vs, rest, i1, i2, i3, i4, i5⟩ := ih _ _ _ (by simp; omega) h
            refine ⟨(n, e) :: vs, rest, by simpa using ⟨hn, by simpa using i1⟩, by rw [i2]; simp [vars], ?_, i4, i5⟩
            rw [kept_cons_pos hok, i3]
            simp
        · have hok : ¬ EnvOk C e := fun h => hp ((envPermitted_iff C e).2 h)
          rw [if_neg hp] at h
          obtain ⟨vs, rest, i1, i2, i3, i4, i5⟩ := ih _ _ _ ha h
          exact ⟨(n, e) :: vs, rest, by simpa using ⟨hn, by simpa using i1⟩, by rw [i2]; simp [vars], by rw [kept_cons_neg hok, i3], i4, i5⟩

/-- The request for a session, as it is read -/
theorem getSes_some {C : Conf} {b : Bytes} {q : Ses} (h : getSes C b = some q) :
    ∃ reserved nt nc vs rest, Named nt q.term ∧ Named nc q.cmd ∧ (∀ v ∈ vs, Named v.1 v.2) ∧
      b = str reserved ++ be 4 q.tty ++ be 4 q.x11 ++ be 4 q.agent ++ be 4 q.subsys ++ be 4 q.esc ++ str nt ++ str nc ++ vars vs ++ rest ∧
      q.env = kept C vs ∧ q.env.length ≤ 4097 ∧ (rest = [] ∨ q.env.length = 4097) := by
  simp only [getSes, bind, Option.bind_eq_some_iff, Prod.exists, pure, Option.some.injEq] at h
  obtain ⟨res, b1, h1, tty, b2, h2, x11, b3, h3, agent, b4, h4, subsys, b5, h5, esc, b6, h6, term, b7, h7, cmd, b8, h8, env, h9, rfl⟩ := h
  obtain ⟨rfl, _⟩ := getStr_some h1
  obtain ⟨rfl, _⟩ := getInt_some h2
  obtain ⟨rfl, _⟩ := getInt_some h3
  obtain ⟨rfl, _⟩ := getInt_some h4
  obtain ⟨rfl, _⟩ := getInt_some h5
  obtain ⟨rfl, _⟩ := getInt_some h6
  obtain ⟨nt, hnt, rfl, _⟩ := getCstr_named h7
  obtain ⟨nc, hnc, rfl, _⟩ := getCstr_named h8
  obtain ⟨vs, rest, i1, i2, i3, i4, i5⟩ := envLoop_some _ _ _ _ (by simp) h9
  refine ⟨res, nt, nc, vs, rest, hnt, hnc, i1, ?_, by simpa using i3, i4, i5⟩
  rw [i2]
  simp only [List.append_assoc]

theorem kept_ok {C : Conf} {vs : List (Bytes × Bytes)} {e : Bytes} (h : e ∈ kept C vs) : EnvOk C e := by
  classical
  unfold kept at h
  simpa using (List.mem_filter.1 h).2

/-! ### What happens to the connection -/

def isOpen : Act → Bool
  | .openSession .. => true
  | .openStdio .. => true
  | _ => false

/-- How many channels have been opened for the client -/
def opens (l : List Act) : Nat := l.countP isOpen

/-- An act that sets nothing up -/
def NoSetup : Act → Prop
  | .setup .. | .agent _ | .x11 _ => False
  | _ => True

structure Kept (C : Conf) (s t : St) : Prop where
  acts : ∃ l, t.out = s.out ++ l ∧ (∀ a ∈ l, NoSetup a) ∧
    ((opens l = 0 ∧ t.child = s.child) ∨ (opens l = 1 ∧ s.child = none ∧ t.child ≠ none))
  wait : ∀ rid q, t.wait = some (.session rid q) → s.wait = some (.session rid q) ∨ ∀ e ∈ q.env, EnvOk C e

theorem kept_of {C : Conf} {s t : St} (l : List Act) (h : t.out = s.out ++ l) (hn : ∀ a ∈ l, NoSetup a) (ho : opens l = 0)
    (hc : t.child = s.child) (hw : t.wait = s.wait ∨ t.wait = none ∨ ∃ r f, t.wait = some (.forward r f)) : Kept C s t := by
  refine ⟨⟨l, h, hn, .inl ⟨ho, hc⟩⟩, fun rid q hq => ?_⟩
  rcases hw with hw | hw | ⟨r, f, hw⟩
  · rw [hw] at hq; exact .inl hq
  · rw [hw] at hq; cases hq
  · rw [hw] at hq; cases hq

theorem kept_permit {C : Conf} {W : World} {s t : St} {q : Bytes} (h : Kept C (permit C W s q).2 t) : Kept C s t := by
  rcases permit_cases C W s q with ⟨_, e⟩ | ⟨_, e⟩ <;> rw [e] at h
  · exact h
  · obtain ⟨⟨l, h1, h2, h3⟩, h4⟩ := h
    refine ⟨⟨.asked (prompt q) :: l, by rw [h1]; simp [St.act], ?_, ?_⟩, h4⟩
    · intro a ha
      rcases List.mem_cons.1 ha with rfl | ha
      · trivial
      · exact h2 a ha
    · have : opens (.asked (prompt q) :: l) = opens l := by simp [opens, isOpen]
      rw [this]
      exact h3

theorem kept_same {C : Conf} {s t : St} (h : t.out = s.out) (hc : t.child = s.child) (hw : t.wait = s.wait) : Kept C s t :=
  kept_of [] (by simp [h]) (by simp) rfl hc (.inl hw)

theorem kept_reply {C : Conf} {s t : St} (p : Bytes) (h : t.out = s.out ++ [.reply p]) (hc : t.child = s.child) (hw : t.wait = s.wait) :
    Kept C s t :=
  kept_of [.reply p] h (by simp [NoSetup]) rfl hc (.inl hw)

theorem openIt_kept {C : Conf} {W : World} {s : St} {rid ftype : Nat} {f : Fwd} : Kept C s (openIt W s rid ftype f) := by
  unfold openIt
  split
  · split
    · exact kept_of [.listen f, .reply (okReply rid)] (by simp [St.act, St.ok]) (by simp [NoSetup]) rfl rfl (.inl rfl)
    · exact kept_reply _ rfl rfl rfl
  · split
    · exact kept_of [.askRemote f] rfl (by simp [NoSetup]) rfl rfl (.inr (.inr ⟨_, _, rfl⟩))
    · exact kept_reply _ rfl rfl rfl

theorem openFwd_kept {C : Conf} {W : World} {s : St} {rid : Nat} {b : Bytes} : Kept C s (openFwd C W s rid b) := by
  unfold openFwd
  split
  · exact kept_same rfl rfl rfl
  · rename_i ftype f _
    split
    · exact kept_same rfl rfl rfl
    · exact kept_same rfl rfl rfl
    · rename_i desc _
      split
      · exact kept_reply _ rfl rfl rfl
      · have key : Kept C s (askOpen C W s rid ftype f desc) := by
          unfold askOpen
          split
          · exact kept_permit openIt_kept
          · exact kept_permit (kept_reply _ rfl rfl rfl)
        unfold openNew
        split
        · split
          · split
            · exact kept_reply _ rfl rfl rfl
            · exact kept_reply _ rfl rfl rfl
          · exact key
        · split
          · exact kept_reply _ rfl rfl rfl
          · exact key

theorem closeFwd_kept {C : Conf} {W : World} {s : St} {rid : Nat} {b : Bytes} : Kept C s (closeFwd C W s rid b) := by
  unfold closeFwd
  split
  · exact kept_same rfl rfl rfl
  · rename_i f _
    split
    · exact kept_same rfl rfl rfl
    · exact kept_same rfl rfl rfl
    · unfold closeFound
      split
      · split
        · exact kept_reply _ rfl rfl rfl
        · rename_i g _
          split
          · exact kept_of [.cancelRemote g, .reply (okReply rid)] (by simp [St.act, St.ok]) (by simp [NoSetup]) rfl rfl (.inl rfl)
          · exact kept_reply _ rfl rfl rfl
      · split
        · split
          · exact kept_of [.unlisten f, .reply (okReply rid)] (by simp [St.act, St.ok]) (by simp [NoSetup]) rfl rfl (.inl rfl)
          · exact kept_reply _ rfl rfl rfl
        · exact kept_reply _ rfl rfl rfl

theorem permit_child (C : Conf) (W : World) (s : St) (q : Bytes) : (permit C W s q).2.child = s.child := by
  rcases permit_cases C W s q with ⟨_, e⟩ | ⟨_, e⟩ <;> rw [e] <;> rfl

theorem newSession_kept {C : Conf} {W : World} {s : St} {rid : Nat} {b : Bytes} : Kept C s (newSession C W s rid b) := by
  unfold newSession
  split
  · exact kept_same rfl rfl rfl
  · rename_i q hq
    split
    · exact kept_reply _ rfl rfl rfl
    · split
      · exact kept_reply _ rfl rfl rfl
      · rename_i hc
        split
        · refine kept_permit (W := W) (q := askSession C) ⟨⟨[.openSession _ _ _ _], rfl, by simp [NoSetup], .inr ⟨rfl, ?_, by simp [startSession]⟩⟩, fun r q' h => ?_⟩
          · rw [permit_child]; simpa using hc
          · simp only [startSession, Option.some.injEq, Wait.session.injEq] at h
            obtain ⟨_, _, _, vs, _, _, _, _, _, hv, _⟩ := getSes_some hq
            rw [← h.2]
            exact .inr fun e he => kept_ok (hv ▸ he)
        · exact kept_permit (kept_reply _ rfl rfl rfl)

theorem stdioFwd_kept {C : Conf} {W : World} {s : St} {rid : Nat} {b : Bytes} : Kept C s (stdioFwd C W s rid b) := by
  unfold stdioFwd
  split
  · exact kept_same rfl rfl rfl
  · rename_i host port _
    split
    · exact kept_reply _ rfl rfl rfl
    · split
      · exact kept_reply _ rfl rfl rfl
      · rename_i hc
        split
        · refine kept_permit (W := W) (q := askStdio host port) ⟨⟨[.openStdio _ _ _], rfl, by simp [NoSetup], .inr ⟨rfl, ?_, by simp⟩⟩, fun r q' h => ?_⟩
          · rw [permit_child]; simpa using hc
          · simp at h
        · exact kept_permit (kept_reply _ rfl rfl rfl)

theorem handle_kept {C : Conf} {W : World} {s : St} {type rid : Nat} {b : Bytes} : Kept C s (handle C W s type rid b) := by
  unfold handle
  split
  · exact newSession_kept
  split
  · exact kept_reply _ rfl rfl rfl
  split
  · unfold terminate
    split
    · exact kept_permit (kept_of [.terminate, .reply (okReply rid)] (by simp [St.act, St.ok]) (by simp [NoSetup]) rfl rfl (.inl rfl))
    · exact kept_permit (kept_reply _ rfl rfl rfl)
  split
  · exact openFwd_kept
  split
  · exact closeFwd_kept
  split
  · exact stdioFwd_kept
  split
  · unfold stopListening
    split
    · split
      · exact kept_permit (kept_of [.stopListening, .reply (okReply rid)] (by simp [St.act, St.ok]) (by simp [NoSetup]) rfl rfl (.inl rfl))
      · exact kept_permit (kept_reply _ rfl rfl rfl)
    · exact kept_permit (kept_reply _ rfl rfl rfl)
  split
  · exact kept_of [.proxy, .reply (be 4 sProxy ++ be 4 rid)] (by simp [proxy, St.act]) (by simp [NoSetup]) rfl rfl (.inl rfl)
  · exact kept_reply _ rfl rfl rfl

theorem packet_kept {C : Conf} {W : World} {s : St} {p : Bytes} : Kept C s (packet C W s p) := by
  unfold packet
  split
  · exact kept_same rfl rfl rfl
  · split
    · unfold hello
      repeat' split
      all_goals exact kept_same rfl rfl rfl
    · split
      · exact kept_same rfl rfl rfl
      · split
        · exact kept_same rfl rfl rfl
        · exact handle_kept

theorem forwardConfirm_kept {C : Conf} {s : St} {rid fid : Nat} {success : Bool} {p : Bytes} : Kept C s (forwardConfirm s rid fid success p) := by
  unfold forwardConfirm
  split
  · exact kept_of [.reply _] rfl (by simp [NoSetup]) rfl rfl (.inr (.inl rfl))
  · rename_i f _
    split
    · exact kept_of [.reply _] rfl (by simp [NoSetup]) rfl rfl (.inr (.inl rfl))
    · split
      · split
        · split
          · exact kept_same rfl rfl rfl
          · rename_i port _ _
            split
            · exact kept_same rfl rfl rfl
            · exact kept_of [.reply (portReply rid port), .allocate f (some port)] (by simp [St.act]) (by simp [NoSetup]) rfl rfl (.inr (.inl rfl))
        · exact kept_of [.reply _] rfl (by simp [NoSetup]) rfl rfl (.inr (.inl rfl))
      · split
        · exact kept_of [.allocate f none, .reply (errReply sFailure rid (remoteFailed f))] (by simp [St.act, St.err]) (by simp [NoSetup]) rfl rfl (.inr (.inl rfl))
        · exact kept_of [.reply _] rfl (by simp [NoSetup]) rfl rfl (.inr (.inl rfl))

/-- What may be in the acts of a connection -/
def ActOk (C : Conf) : Act → Prop
  | .setup _ q => ∀ e ∈ q.env, EnvOk C e
  | .agent _ => C.forwardAgent = true
  | .x11 _ => C.forwardX11 = true
  | _ => True

theorem noSetup_ok {C : Conf} {a : Act} (h : NoSetup a) : ActOk C a := by
  cases a <;> first | trivial | exact h.elim

structure SInv (C : Conf) (s : St) : Prop where
  acts : ∀ a ∈ s.out, ActOk C a
  wait : ∀ rid q, s.wait = some (.session rid q) → ∀ e ∈ q.env, EnvOk C e
  atMost : opens s.out ≤ 1
  one : opens s.out = 1 → s.child ≠ none ∨ s.status ≠ .running

theorem opens_append (a b : List Act) : opens (a ++ b) = opens a + opens b := by simp [opens]

theorem sinv_kept {C : Conf} {s t : St} (hi : SInv C s) (hs : s.status = .running) (h : Kept C s t) : SInv C t := by
  obtain ⟨⟨l, h1, h2, h3⟩, h4⟩ := h
  have h0 : s.child = none → opens s.out = 0 := fun hc => by
    have := hi.atMost
    have h' := hi.one
    rcases Nat.lt_or_ge (opens s.out) 1 with h | h
    · omega
    · rcases h' (by omega) with h | h
      · exact absurd hc h
      · exact absurd hs h
  refine ⟨fun a ha => ?_, fun rid q hq => ?_, ?_, fun ho => ?_⟩
  · rw [h1] at ha
    rcases List.mem_append.1 ha with ha | ha
    · exact hi.acts a ha
    · exact noSetup_ok (h2 a ha)
  · rcases h4 rid q hq with h | h
    · exact hi.wait rid q h
    · exact h
  · rw [h1, opens_append]
    have := hi.atMost
    rcases h3 with ⟨h, _⟩ | ⟨h, hc, _⟩
    · omega
    · rw [h0 hc]; omega
  · rw [h1, opens_append] at ho
    rcases h3 with ⟨h, hc⟩ | ⟨h, hc, hd⟩
    · rw [hc]
      rcases hi.one (by omega) with h | h
      · exact .inl h
      · exact absurd hs h
    · exact .inl hd

theorem sinv_step {C : Conf} {s : St} (hi : SInv C s) (W : World) (e : Event) : SInv C (step C W s e) := by
  unfold step
  split
  · exact hi
  · rename_i hs
    have hs : s.status = .running := Classical.byContradiction hs
    cases e with
    | packet p =>
      simp only []
      split
      · exact hi
      · exact sinv_kept hi hs packet_kept
    | opened success =>
      simp only []
      split
      · rename_i rid q id hw hc
        unfold sessionConfirm
        split
        · refine ⟨fun a ha => ?_, fun _ _ h => (by cases h), ?_, fun _ => .inl ?_⟩
          · simp only [St.act, List.mem_append, List.mem_cons, List.not_mem_nil, or_false] at ha
            rcases ha with (ha | ha) | rfl
            · exact hi.acts a ha
            · unfold setUp at ha
              simp only [List.mem_append, List.mem_cons, List.not_mem_nil, or_false] at ha
              rcases ha with (h | h) | rfl
              · split at h
                · rename_i h'
                  simp only [List.mem_cons, List.not_mem_nil, or_false] at h
                  subst h
                  exact h'.2.1
                · simp at h
              · split at h
                · rename_i h'
                  simp only [List.mem_cons, List.not_mem_nil, or_false] at h
                  subst h
                  exact h'.2
                · simp at h
              · exact hi.wait rid q hw
            · trivial
          · have : opens (setUp C W id q) = 0 := by
              unfold setUp
              split <;> split <;> rfl
            simp only [St.act, opens_append, this]
            have h1 : opens [Act.reply (openedReply rid id)] = 0 := rfl
            rw [h1]
            have := hi.atMost
            omega
          · simp [St.act, hc]
        · exact sinv_kept hi hs (kept_of [.reply _] rfl (by simp [NoSetup]) rfl rfl (.inr (.inl rfl)))
      · unfold stdioConfirm
        split <;> exact sinv_kept hi hs (kept_of [.reply _] rfl (by simp [NoSetup]) rfl rfl (.inr (.inl rfl)))
      · exact hi
    | forwarded success p =>
      simp only []
      split
      · exact sinv_kept hi hs forwardConfirm_kept
      · exact hi
    | exit status => simp only []; split <;> first | exact hi | exact sinv_kept hi hs (kept_reply _ rfl rfl rfl)
    | ttyFailed => simp only []; split <;> first | exact hi | exact sinv_kept hi hs (kept_reply _ rfl rfl rfl)
    | childClosed =>
      simp only []
      split
      · exact ⟨hi.acts, hi.wait, hi.atMost, fun _ => .inr (by simp)⟩
      · exact hi
    | others a b => exact ⟨hi.acts, hi.wait, hi.atMost, hi.one⟩

theorem reach_sinv {C : Conf} {s : St} (h : Reach C s) : SInv C s := by
  induction h with
  | init => exact ⟨by simp [init, ActOk], fun _ _ h => (by cases h), (by simp [init, opens, isOpen]), fun h => (by simp [init, opens, isOpen] at h)⟩
  | step W e _ ih => exact sinv_step ih W e

/-- C125: variables reach the server only if SendEnv of the master has them; the agent and X11 only if the master forwards them. -/
theorem C125_permitted {C : Conf} {s : St} (h : Reach C s) :
    (∀ id q, Act.setup id q ∈ s.out → ∀ e ∈ q.env, EnvOk C e) ∧
    (∀ id, Act.agent id ∈ s.out → C.forwardAgent = true) ∧ (∀ id, Act.x11 id ∈ s.out → C.forwardX11 = true) :=
  ⟨fun _ _ hm => (reach_sinv h).acts _ hm, fun _ hm => (reach_sinv h).acts _ hm, fun _ hm => (reach_sinv h).acts _ hm⟩

/-- C125: there is no more than one session, or one forwarding of input and output, for a control connection. -/
theorem C125_single {C : Conf} {s : St} (h : Reach C s) :
    (s.out.countP fun a => match a with | .openSession .. => true | .openStdio .. => true | _ => false) ≤ 1 := by
  have := (reach_sinv h).atMost
  unfold opens at this
  rw [show (fun a => match a with | .openSession .. => true | .openStdio .. => true | _ => false) = isOpen from
    funext fun a => by cases a <;> rfl]
  exact this

/-- C125: a session is opened for a request with three descriptors, which are those of the session; the window is half as large for a
terminal. What is asked for is kept until the server has opened the channel. -/
theorem C125_opened {C : Conf} {s : St} (hr : Ready s) (W : World) {p b : Bytes} {rid : Nat} (hp : request? p = some (0x10000002, rid, b))
    {k : List Act} (hk : (step C W s (.packet p)).out = s.out ++ k) {fds : List Nat} {w m : Nat} {esc : Option Nat}
    (ho : Act.openSession fds w m esc ∈ k) :
    ∃ q reserved nt nc vs rest, Named nt q.term ∧ Named nc q.cmd ∧ (∀ v ∈ vs, Named v.1 v.2) ∧
      b = str reserved ++ be 4 q.tty ++ be 4 q.x11 ++ be 4 q.agent ++ be 4 q.subsys ++ be 4 q.esc ++ str nt ++ str nc ++ vars vs ++ rest ∧
      q.env = kept C vs ∧ q.env.length ≤ 4097 ∧ (rest = [] ∨ q.env.length = 4097) ∧
      s.child = none ∧ W.fds.length ≥ 3 ∧ fds = W.fds.take 3 ∧
      w = (if q.tty = 0 then 2097152 else 1048576) ∧ m = (if q.tty = 0 then 32768 else 16384) ∧
      esc = (if q.tty = 0 ∨ q.esc = 0xffffffff then none else some q.esc) ∧
      (step C W s (.packet p)).wait = some (.session rid q) ∧ (step C W s (.packet p)).child = some W.next := by
  rw [step_request hr W hp] at hk ⊢
  have hh : handle C W s 0x10000002 rid b = newSession C W s rid b := rfl
  rw [hh] at hk ⊢
  unfold newSession at hk ⊢
  have nope : ∀ {l : List Act}, s.out ++ l = s.out ++ k → (∀ a ∈ l, isOpen a = false) → False := by
    intro l h1 h2
    rw [List.append_cancel_left h1] at h2
    have := h2 _ ho
    cases this
  cases hq : getSes C b with
  | none =>
    simp only [hq] at hk
    exact (nope (l := []) (by simpa [St.die] using hk) (by simp)).elim
  | some q =>
    simp only [hq] at hk ⊢
    obtain ⟨res, nt, nc, vs, rest, i1, i2, i3, i4, i5, i6, i7⟩ := getSes_some hq
    by_cases h1 : W.fds.length < 3
    · rw [if_pos h1] at hk
      exact (nope (l := [.reply _]) hk (by simp [isOpen])).elim
    · rw [if_neg h1] at hk ⊢
      by_cases h2 : s.child.isSome = true
      · rw [if_pos h2] at hk
        exact (nope (l := [.reply _]) hk (by simp [isOpen])).elim
      · rw [if_neg h2] at hk ⊢
        by_cases h3 : (permit C W s (askSession C)).1 = true
        · rw [if_pos h3] at hk ⊢
          have hmem : Act.openSession fds w m esc = .openSession (W.fds.take 3) (half q sesWindow) (half q sesPacket) (escOf q) := by
            rcases permit_cases C W s (askSession C) with ⟨_, e⟩ | ⟨_, e⟩ <;> rw [e] at hk
            · have := List.append_cancel_left hk
              rw [← this] at ho
              simpa using ho
            · simp only [startSession, St.act, List.append_assoc] at hk
              have := List.append_cancel_left hk
              rw [← this] at ho
              simpa using ho
          simp only [Act.openSession.injEq] at hmem
          obtain ⟨rfl, rfl, rfl, rfl⟩ := hmem
          refine ⟨q, res, nt, nc, vs, rest, i1, i2, i3, i4, i5, i6, i7, by simpa using h2, by omega, rfl, ?_, ?_, ?_, rfl, rfl⟩
          · unfold half
            by_cases ht : q.tty = 0 <;> simp [ht, sesWindow]
          · unfold half
            by_cases ht : q.tty = 0 <;> simp [ht, sesPacket]
          · unfold escOf
            by_cases ht : q.tty = 0 <;> by_cases he : q.esc = 0xffffffff <;> simp [ht, he]
        · rw [if_neg h3] at hk
          rcases permit_cases C W s (askSession C) with ⟨_, e⟩ | ⟨_, e⟩ <;> rw [e] at hk
          · exact (nope (l := [.reply _]) hk (by simp [isOpen])).elim
          · exact (nope (l := [.asked (prompt (askSession C)), .reply (errReply sDenied rid denied)])
              (by rw [← hk]; simp [St.act, St.err]) (by simp [isOpen])).elim

/-- C125: when the server has opened the channel the session is set up as it was asked for, and the client is told the number of the
channel; when the server has refused, it is told that. -/
theorem C125_confirmed {C : Conf} {s : St} (hs : s.status = .running) {rid id : Nat} {q : Ses} (hw : s.wait = some (.session rid q))
    (hc : s.child = some id) (W : World) (success : Bool) :
    (step C W s (.opened success)).wait = none ∧ (step C W s (.opened success)).status = .running ∧
    (step C W s (.opened success)).out = s.out ++ (if success = true then
      (if q.x11 ≠ 0 ∧ C.forwardX11 = true ∧ W.x11 = true then [.x11 id] else []) ++
      (if q.agent ≠ 0 ∧ C.forwardAgent = true then [.agent id] else []) ++
      [.setup id q, .reply (be 4 0x80000006 ++ be 4 rid ++ be 4 id)]
      else [.reply (be 4 0x80000003 ++ be 4 rid ++ str b!"Session open refused by peer")]) := by
  have : step C W s (.opened success) = sessionConfirm C W s rid q id success := by
    unfold step
    rw [if_neg (by simp [hs])]
    simp only [hw, hc]
  rw [this]
  unfold sessionConfirm
  cases success with
  | true =>
    refine ⟨rfl, hs, ?_⟩
    simp only [if_true, St.act, setUp, openedReply, sOpened, List.append_assoc, List.cons_append, List.nil_append]
  | false => exact ⟨rfl, hs, rfl⟩

end Verif.Mux
