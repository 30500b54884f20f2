/-
Theorems about what a session runs (C103).
-/
import Verif.Session.Spec
import Verif.Match.Props

namespace Verif.Session
open Verif Verif.Wire

theorem internal_iff (f : Bytes) : internal f = true ↔ Internal f := by
  unfold internal Internal
  simp only [decide_eq_true_eq]
  have hlen : (b!"internal-sftp" : Bytes).length = 13 := rfl
  constructor
  · rintro ⟨h1, h2⟩
    have hf := List.take_append_drop 13 f
    rw [h1] at hf
    cases hd : f.drop 13 with
    | nil => left; rw [hd] at hf; simpa using hf.symm
    | cons b rest =>
      right
      rw [hd] at hf h2
      refine ⟨b, rest, ?_, hf.symm⟩
      simpa using h2
  · rintro (rfl | ⟨b, rest, hb, rfl⟩)
    · decide
    · rw [← hlen, List.take_left, List.drop_left]
      exact ⟨rfl, by simpa using hb⟩

theorem forcedCmd_iff (C : Cfg) (f : Bytes) : forcedCmd C = some f ↔ Forces C f := by
  unfold forcedCmd Forces
  cases C.admForced <;> simp

theorem forcedCmd_none (C : Cfg) : forcedCmd C = none ↔ NotForced C := by
  unfold forcedCmd NotForced
  cases C.admForced <;> simp

/-! ### Steps -/

/-- What a request can do. -/
inductive Step (C : Cfg) (s : Sess) : Sess → Option Event → Prop
  | same : Step C s s none
  | launch (k : Kind) (cmd : Option Bytes) : s.larval = true → (k = s.kind ∨ k ≠ .none) →
      Step C s { (prepare C { s with kind := k } cmd).s with larval := false, running := true }
        (some (.launch (prepare C { s with kind := k } cmd)))
  | failed (k : Kind) (cmd : Option Bytes) : s.larval = true → (k = s.kind ∨ k ≠ .none) →
      Step C s (prepare C { s with kind := k } cmd).s none
  | pty (term tty : Option Bytes) : s.larval = true → s.tty = none → (tty ≠ none → C.keyPty = true ∧ C.permitTty = true) →
      Step C s { s with term := term, tty := tty } none
  | x11 (p d disp a : Bytes) : s.larval = true → C.keyX11 = true → C.x11 = true → C.noForward = false →
      xauthValid p = true → xauthValid d = true → OwnName C a →
      Step C s { s with authProto := some p, authData := some d, display := some disp, authDisplay := a } none
  | agent (sock : Option Bytes) : s.larval = true → C.keyAgent = true → C.agent = true → C.noForward = false →
      Step C s { s with agentAsked := true, agentSock := sock } none
  | env (n v : Bytes) : s.larval = true → s.env.length ≤ 128 → (∃ pat ∈ C.acceptEnv, Match.matchPattern n pat = true) →
      Step C s { s with env := s.env ++ [(n, v)] } none
  | signal (n : Bytes) : isSignal n = true → s.running = true → s.forced = false → s.kind = .none →
      Step C s s (some (.signal n))

private theorem doExec_step (C : Cfg) (W : World) (s : Sess) (k : Kind) (cmd : Option Bytes) (hl : s.larval = true)
    (hk : k = s.kind ∨ k ≠ .none) {ok : Bool} {s' : Sess} {e : Option Event}
    (h : doExec C W { s with kind := k } cmd = .done ok s' e) : Step C s s' e := by
  unfold doExec at h
  split at h <;> cases h
  · exact .launch k cmd hl hk
  · exact .failed k cmd hl hk

theorem request_step (C : Cfg) (W : World) (s : Sess) (rtype p : Bytes) {ok : Bool} {s' : Sess} {e : Option Event}
    (h : request C W s rtype p = .done ok s' e) : Step C s s' e := by
  unfold request at h
  split at h
  · rename_i hc
    unfold shellReq at h
    split at h
    · exact doExec_step C W s s.kind none hc.1 (Or.inl rfl) h
    · cases h
  split at h
  · rename_i _ hc
    unfold execReq at h
    split at h
    · exact doExec_step C W s s.kind _ hc.1 (Or.inl rfl) h
    · cases h
  split at h
  · rename_i _ _ hc
    unfold ptyReq at h
    split at h
    · cases h; exact .same
    rename_i hp
    split at h
    · cases h
    rename_i ht
    have ht' : s.tty = none := by
      cases hx : s.tty with
      | none => rfl
      | some _ => exact absurd (by rw [hx]; simp) ht
    split at h
    · cases h
    split at h
    · cases h
    split at h
    · cases h
      exact .pty none s.tty hc.1 ht' (fun h => absurd ht' h)
    split at h
    · cases h
      refine .pty _ _ hc.1 ht' fun _ => ?_
      cases h1 : C.keyPty <;> cases h2 : C.permitTty <;> simp_all
    · cases h
  split at h
  · rename_i _ _ _ hc
    unfold x11Req at h
    split at h
    · cases h; exact .same
    split at h
    · cases h
    rename_i proto data screen _
    split at h
    · rename_i hv
      split at h
      · cases h; exact .same
      · rename_i d a hx
        cases h
        unfold setupX11 at hx
        split at hx
        · cases hx
        · rename_i hn
          have h1 : C.keyX11 = true := by cases hb : C.keyX11 <;> simp_all
          have h2 : C.x11 = true := by cases hb : C.x11 <;> simp_all
          have h3 : C.noForward = false := by cases hb : C.noForward <;> simp_all
          have h4 : OwnName C a := by
            split at hx
            · cases hx
            · rename_i n _
              split at hx
              · cases hx; exact ⟨b!"unix", n, screen, Or.inl rfl, by simp⟩
              · cases hx; exact ⟨_, n, screen, Or.inr rfl, by simp⟩
          exact .x11 proto data d a hc.1 h1 h2 h3 hv.1 hv.2 h4
    · cases h; exact .same
  split at h
  · rename_i _ _ _ _ hc
    unfold agentReq at h
    split at h
    · cases h
    split at h
    · cases h; exact .same
    rename_i hn
    split at h
    · cases h; exact .same
    · cases h
      have h1 : C.keyAgent = true := by cases hb : C.keyAgent <;> simp_all
      have h2 : C.agent = true := by cases hb : C.agent <;> simp_all
      have h3 : C.noForward = false := by cases hb : C.noForward <;> simp_all
      exact .agent _ hc.1 h1 h2 h3
  split at h
  · rename_i _ _ _ _ _ hc
    unfold subsystemReq at h
    split at h
    · split at h
      · cases h; exact .same
      · refine doExec_step C W s _ _ hc.1 (Or.inr ?_) h
        split <;> simp
    · cases h
  split at h
  · rename_i _ _ _ _ _ _ hc
    unfold envReq at h
    split at h
    · cases h
    split at h
    · split at h
      · cases h; exact .same
      · rename_i hl
        split at h
        · rename_i ha
          cases h
          exact .env _ _ hc.1 (by omega) (by simpa using ha)
        · cases h; exact .same
    · cases h
  split at h
  · unfold windowReq at h
    split at h <;> cases h
    exact .same
  split at h
  · unfold breakReq at h
    split at h <;> cases h
    exact .same
  split at h
  · unfold signalReq at h
    split at h
    · split at h
      · cases h; exact .same
      · rename_i hn
        cases h
        refine .signal _ ?_ ?_ ?_ ?_
        · cases hb : isSignal _ <;> simp_all
        · cases hb : s.running <;> simp_all
        · cases hb : s.forced <;> simp_all
        · exact Decidable.not_not.1 fun hk => hn (Or.inr (Or.inr (Or.inr hk)))
    · cases h; exact .same
  · cases h; exact .same

/-! ### One request -/

private theorem findSub_iff (l : List (Bytes × Bytes × Bytes)) (n prog args : Bytes) :
    findSub l n = some (prog, args) ↔ ∃ a b, l = a ++ (n, prog, args) :: b ∧ ∀ e ∈ a, e.1 ≠ n := by
  induction l with
  | nil => simp [findSub]
  | cons e l ih =>
    obtain ⟨m, q, r⟩ := e
    unfold findSub
    by_cases hm : n = m
    · subst hm
      rw [if_pos rfl]
      constructor
      · intro h; cases h; exact ⟨[], l, rfl, by simp⟩
      · rintro ⟨a, b, h1, h2⟩
        cases a with
        | nil => cases h1; rfl
        | cons x a => cases h1; exact absurd rfl (h2 (n, q, r) List.mem_cons_self)
    · rw [if_neg hm, ih]
      constructor
      · rintro ⟨a, b, rfl, h2⟩
        refine ⟨(m, q, r) :: a, b, rfl, ?_⟩
        intro e he
        rcases List.mem_cons.1 he with rfl | he
        · exact fun h => hm h.symm
        · exact h2 e he
      · rintro ⟨a, b, h1, h2⟩
        cases a with
        | nil => cases h1; exact absurd rfl hm
        | cons x a => cases h1; exact ⟨a, b, rfl, fun e he => h2 e (List.mem_cons_of_mem _ he)⟩

/-- A session that may still start something. -/
private theorem child_prepare (C : Cfg) (hp : C.pwchange = false) (hn : C.nologin = false) (s : Sess) (cmd : Option Bytes)
    (hk : s.kind = .none ∨ (cmd ≠ none ∧ s.kind ≠ .sftpError)) :
    Meant C cmd s.kind (child C (prepare C s cmd)) (prepare C s cmd).original := by
  unfold prepare
  cases hf : forcedCmd C with
  | some f =>
    have hF := (forcedCmd_iff C f).1 hf
    simp only
    unfold child forcedKind
    simp only [hp, hn, Bool.false_eq_true, if_false]
    by_cases hi : internal f = true
    · have hI := (internal_iff f).1 hi
      by_cases hk' : s.kind = .none
      · simp only [hi, hk', if_true]
        exact .refused f cmd hF hI
      · simp only [hi, hk', if_true, if_false]
        exact .forcedSftp f cmd s.kind hF hI hk'
    · have hI : ¬ Internal f := fun h => hi ((internal_iff f).2 h)
      by_cases hk' : s.kind = .none
      · simp only [hi, hk', if_true, Bool.false_eq_true, if_false]
        exact .forced f cmd _ hF hI
      · simp only [hi, hk', Bool.false_eq_true, if_false]
        exact .forced f cmd _ hF hI
  | none =>
    have hF := (forcedCmd_none C).1 hf
    simp only
    unfold child
    simp only [hp, hn, Bool.false_eq_true, if_false]
    cases hk' : s.kind with
    | none =>
      cases cmd with
      | none => exact .login hF
      | some c => exact .command c hF
    | ext =>
      rcases hk with h | ⟨h, -⟩
      · rw [hk'] at h; cases h
      · cases cmd with
        | none => exact absurd rfl h
        | some c => exact .subsystem c hF
    | sftp =>
      rcases hk with h | ⟨h, -⟩
      · rw [hk'] at h; cases h
      · cases cmd with
        | none => exact absurd rfl h
        | some c => exact .sftp c hF
    | sftpError =>
      rcases hk with h | ⟨-, h⟩
      · rw [hk'] at h; cases h
      · exact absurd hk' h

private theorem meant_unique {C : Cfg} {cmd : Option Bytes} {k : Kind} {p p' : Prog} {o o' : Option Bytes} (h : Meant C cmd k p o)
    (h' : Meant C cmd k p' o') : p = p' ∧ o = o' := by
  have hu : ∀ f g, Forces C f → Forces C g → f = g := by
    intro f g h1 h2
    exact Option.some.inj (((forcedCmd_iff C f).2 h1).symm.trans ((forcedCmd_iff C g).2 h2))
  have hno : ∀ f, Forces C f → ¬ NotForced C := by
    intro f h1 h2
    have := ((forcedCmd_iff C f).2 h1).symm.trans ((forcedCmd_none C).2 h2)
    cases this
  cases h <;> cases h'
  all_goals first
    | exact ⟨rfl, rfl⟩
    | (rename_i a _ b _ ; exact absurd b (hno _ a))
    | (rename_i a b; exact absurd b (hno _ a))
    | skip
  all_goals
    first
    | (rename_i f h1 h2 g h3 h4; cases hu _ _ h1 h3; first | exact ⟨rfl, rfl⟩ | contradiction)
    | (rename_i f h1 h2 g h3 h4 h5; cases hu _ _ h1 h3; first | exact ⟨rfl, rfl⟩ | contradiction)
    | (rename_i f h1 h2 h3 g h4 h5; cases hu _ _ h1 h4; first | exact ⟨rfl, rfl⟩ | contradiction)
    | (rename_i f h1 h2 h3 g h4 h5 h6; cases hu _ _ h1 h4; first | exact ⟨rfl, rfl⟩ | contradiction)
    | contradiction
    | (exfalso; first
        | exact hno _ ‹Forces C _› ‹NotForced C›)

private theorem doExec_launch (C : Cfg) (W : World) (s : Sess) (cmd : Option Bytes) {ok : Bool} {s' : Sess} {L : Launch}
    (h : doExec C W s cmd = .done ok s' (some (.launch L))) : W.starts = true ∧ L = prepare C s cmd := by
  unfold doExec at h
  split at h
  · rename_i hs; cases h; exact ⟨hs, rfl⟩
  · cases h

private theorem doExec_starts (C : Cfg) (W : World) (s : Sess) (cmd : Option Bytes) (h : W.starts = true) :
    ∃ ok s', doExec C W s cmd = .done ok s' (some (.launch (prepare C s cmd))) := by
  unfold doExec; rw [if_pos h]; exact ⟨_, _, rfl⟩

private theorem meant_kind {C : Cfg} {cmd : Option Bytes} {k : Kind} {p : Prog} {o : Option Bytes} (s : Sess) (hk : s.kind = k)
    (hp : C.pwchange = false) (hn : C.nologin = false) (hk' : k = .none ∨ (cmd ≠ none ∧ k ≠ .sftpError))
    (h : Meant C cmd k p o) : child C (prepare C s cmd) = p ∧ (prepare C s cmd).original = o := by
  subst hk
  exact meant_unique (child_prepare C hp hn s cmd hk') h

/-- **C103.** On a session on which nothing has been tried yet, a program is started exactly if the client asks for a shell, a
command or a subsystem that there is, and processes can be had; what is run is what was asked for, or the command forced. -/
theorem C103_step (C : Cfg) (W : World) (s : Sess) (hl : s.larval = true) (hk : s.kind = .none) (hp : C.pwchange = false)
    (hn : C.nologin = false) (rtype p : Bytes) (prog : Prog) (orig : Option Bytes) :
    (∃ ok s' L, request C W s rtype p = .done ok s' (some (.launch L)) ∧ child C L = prog ∧ L.original = orig) ↔
    W.starts = true ∧ ∃ cmd k, Asks C rtype p cmd k ∧ Meant C cmd k prog orig := by
  constructor
  · rintro ⟨ok, s', L, h, rfl, rfl⟩
    unfold request at h
    simp only [hl, true_and] at h
    split at h
    · rename_i hr
      subst hr
      unfold shellReq at h
      split at h
      · rename_i hp0
        subst hp0
        obtain ⟨h1, rfl⟩ := doExec_launch C W _ _ h
        refine ⟨h1, none, .none, .shell, ?_⟩
        have := child_prepare C hp hn s none (Or.inl hk)
        rw [hk] at this
        exact this
      · cases h
    split at h
    · rename_i hr
      subst hr
      unfold execReq at h
      split at h
      · rename_i c hg
        obtain ⟨h1, rfl⟩ := doExec_launch C W _ _ h
        obtain ⟨v, hv, he, hm⟩ := getCstr_named hg
        rw [List.append_nil] at he
        subst he
        refine ⟨h1, some c, .none, .exec v c hv hm, ?_⟩
        have := child_prepare C hp hn s (some c) (Or.inl hk)
        rw [hk] at this
        exact this
      · cases h
    split at h
    · have := Step.same (C := C) (s := s)
      unfold ptyReq at h
      repeat' split at h
      all_goals cases h
    split at h
    · unfold x11Req at h
      repeat' split at h
      all_goals cases h
    split at h
    · unfold agentReq at h
      repeat' split at h
      all_goals cases h
    split at h
    · rename_i hr
      subst hr
      unfold subsystemReq at h
      split at h
      · rename_i n hg
        split at h
        · cases h
        · rename_i prog args hf
          obtain ⟨h1, rfl⟩ := doExec_launch C W _ _ h
          obtain ⟨v, hv, he, hm⟩ := getCstr_named hg
          rw [List.append_nil] at he
          subst he
          obtain ⟨a, b, ha, hb⟩ := (findSub_iff _ _ _ _).1 hf
          by_cases hi : prog = b!"internal-sftp"
          · subst hi
            refine ⟨h1, some args, .sftp, .internal v n args a b hv hm ha hb, ?_⟩
            exact child_prepare C hp hn { s with kind := .sftp } (some args) (Or.inr ⟨by simp, by simp⟩)
          · refine ⟨h1, some args, .ext, .external v n prog args a b hv hm ha hb hi, ?_⟩
            rw [if_neg hi]
            exact child_prepare C hp hn { s with kind := .ext } (some args) (Or.inr ⟨by simp, by simp⟩)
      · cases h
    split at h
    · unfold envReq at h
      repeat' split at h
      all_goals cases h
    split at h
    · unfold windowReq at h
      repeat' split at h
      all_goals cases h
    split at h
    · unfold breakReq at h
      repeat' split at h
      all_goals cases h
    split at h
    · unfold signalReq at h
      repeat' split at h
      all_goals cases h
    · cases h
  · rintro ⟨hs, cmd, k, ha, hm⟩
    cases ha with
    | shell =>
      obtain ⟨ok, s', h⟩ := doExec_starts C W s none hs
      refine ⟨ok, s', _, ?_, meant_kind s hk hp hn (Or.inl rfl) hm⟩
      unfold request shellReq
      rw [if_pos ⟨hl, rfl⟩, if_pos rfl]
      exact h
    | exec v c hv hlen =>
      obtain ⟨ok, s', h⟩ := doExec_starts C W s (some c) hs
      refine ⟨ok, s', _, ?_, meant_kind s hk hp hn (Or.inl rfl) hm⟩
      unfold request execReq
      have := getCstr_of_named hv [] hlen
      rw [List.append_nil] at this
      rw [if_neg (by rintro ⟨-, h⟩; revert h; decide), if_pos ⟨hl, rfl⟩, this]
      exact h
    | internal v n args a b hv hlen hsub hb =>
      obtain ⟨ok, s', h⟩ := doExec_starts C W { s with kind := .sftp } (some args) hs
      refine ⟨ok, s', _, ?_, meant_kind { s with kind := .sftp } rfl hp hn (Or.inr ⟨by simp, by simp⟩) hm⟩
      unfold request subsystemReq
      have := getCstr_of_named hv [] hlen
      rw [List.append_nil] at this
      rw [if_neg (by rintro ⟨-, h⟩; revert h; decide), if_neg (by rintro ⟨-, h⟩; revert h; decide),
        if_neg (by rintro ⟨-, h⟩; revert h; decide), if_neg (by rintro ⟨-, h⟩; revert h; decide),
        if_neg (by rintro ⟨-, h⟩; revert h; decide), if_pos ⟨hl, rfl⟩, this]
      simp only [(findSub_iff _ _ _ _).2 ⟨a, b, hsub, hb⟩, if_true]
      exact h
    | external v n q args a b hv hlen hsub hb hi =>
      obtain ⟨ok, s', h⟩ := doExec_starts C W { s with kind := .ext } (some args) hs
      refine ⟨ok, s', _, ?_, meant_kind { s with kind := .ext } rfl hp hn (Or.inr ⟨by simp, by simp⟩) hm⟩
      unfold request subsystemReq
      have := getCstr_of_named hv [] hlen
      rw [List.append_nil] at this
      rw [if_neg (by rintro ⟨-, h⟩; revert h; decide), if_neg (by rintro ⟨-, h⟩; revert h; decide),
        if_neg (by rintro ⟨-, h⟩; revert h; decide), if_neg (by rintro ⟨-, h⟩; revert h; decide),
        if_neg (by rintro ⟨-, h⟩; revert h; decide), if_pos ⟨hl, rfl⟩, this]
      simp only [(findSub_iff _ _ _ _).2 ⟨a, b, hsub, hb⟩, if_neg hi]
      exact h

/-! ### All requests -/

private theorem launches_append (a b : List Event) : launches (a ++ b) = launches a ++ launches b := by
  induction a with
  | nil => rfl
  | cons e a ih => cases e <;> simp [launches, ih]

private theorem signals_append (a b : List Event) : signals (a ++ b) = signals a ++ signals b := by
  induction a with
  | nil => rfl
  | cons e a ih => cases e <;> simp [signals, ih]

private theorem run_induct (C : Cfg) (P : Sess → List Event → Sess → Prop) (h0 : ∀ s, P s [] s)
    (h1 : ∀ s s' e l t, Step C s s' e → P s' l t → P s (e.toList ++ l) t) (reqs : List Req) :
    ∀ s, P s (run C reqs s).1 (run C reqs s).2 := by
  induction reqs with
  | nil => intro s; exact h0 s
  | cons r reqs ih =>
    intro s
    rw [run]
    cases hr : request C r.W s r.rtype r.payload with
    | fatal => exact h0 s
    | done ok s' e => exact h1 s s' e _ _ (request_step C r.W s r.rtype r.payload hr) (ih s')

private theorem prepare_larval (C : Cfg) (s : Sess) (cmd : Option Bytes) : (prepare C s cmd).s.larval = s.larval := by
  unfold prepare; split <;> rfl

private theorem step_larval {C : Cfg} {s s' : Sess} {e : Option Event} (h : Step C s s' e) : s.larval = false → s'.larval = false := by
  intro hl
  cases h <;> simp_all

/-- **C103.** On one session at most one program is started. -/
theorem C103_once (C : Cfg) (reqs : List Req) (s : Sess) :
    (launches (run C reqs s).1).length ≤ 1 ∧ (s.larval = false → launches (run C reqs s).1 = []) := by
  apply run_induct C (fun s l _ => (launches l).length ≤ 1 ∧ (s.larval = false → launches l = []))
  · intro s; simp [launches]
  · intro s s' e l t hs ⟨h1, h2⟩
    rw [launches_append]
    cases hs with
    | launch k cmd hl hk => exact ⟨by simp [launches, h2 rfl], fun h => by rw [hl] at h; cases h⟩
    | same => exact ⟨by simpa [launches] using h1, fun h => by simpa [launches] using h2 h⟩
    | signal n _ _ _ _ => exact ⟨by simpa [launches] using h1, fun h => by simpa [launches] using h2 h⟩
    | failed k cmd hl hk => exact ⟨by simpa [launches] using h1, fun h => by rw [hl] at h; cases h⟩
    | pty _ _ hl => exact ⟨by simpa [launches] using h1, fun h => by rw [hl] at h; cases h⟩
    | x11 _ _ _ _ hl => exact ⟨by simpa [launches] using h1, fun h => by rw [hl] at h; cases h⟩
    | agent _ hl => exact ⟨by simpa [launches] using h1, fun h => by rw [hl] at h; cases h⟩
    | env _ _ hl => exact ⟨by simpa [launches] using h1, fun h => by rw [hl] at h; cases h⟩

/-- **C103.** Where a command is forced, then whatever the client asks for, in whatever order, and whatever fails on the way:
only the command forced is run; if this is the internal server for SFTP, then that with the options of the command, or nothing.
If the password is to be changed first, or nobody may log in, then not even that. -/
theorem C103_forced (C : Cfg) (f : Bytes) (hf : Forces C f) (reqs : List Req) (s : Sess) :
    ∀ L ∈ launches (run C reqs s).1, L.command = some f ∧
      (C.pwchange = true → child C L = .passwd ∨ child C L = .noTty) ∧
      (C.pwchange = false → C.nologin = true → child C L = .nologin) ∧
      (C.pwchange = false → C.nologin = false →
        (¬ Internal f → child C L = .command f) ∧ (Internal f → child C L = .sftpOnly ∨ child C L = .sftp (sftpWords f))) := by
  apply run_induct C (fun _ l _ => ∀ L ∈ launches l, L.command = some f ∧
      (C.pwchange = true → child C L = .passwd ∨ child C L = .noTty) ∧
      (C.pwchange = false → C.nologin = true → child C L = .nologin) ∧
      (C.pwchange = false → C.nologin = false →
        (¬ Internal f → child C L = .command f) ∧ (Internal f → child C L = .sftpOnly ∨ child C L = .sftp (sftpWords f))))
  · intro s L hL; simp [launches] at hL
  · intro s s' e l t hs ih L hL
    rw [launches_append, List.mem_append] at hL
    rcases hL with hL | hL
    · have hc := (forcedCmd_iff C f).2 hf
      cases hs with
      | launch k cmd hl hk =>
        have : L = prepare C { s with kind := k } cmd := by simpa [launches] using hL
        subst this
        have hpr : prepare C { s with kind := k } cmd =
            ⟨some f, cmd, { s with forced := true, kind := forcedKind k f }⟩ := by unfold prepare; rw [hc]
        rw [hpr]
        refine ⟨rfl, ?_, ?_, ?_⟩
        · intro hp; unfold child; rw [if_pos hp]; split <;> simp
        · intro hp hn; unfold child; rw [if_neg (by simp [hp]), if_pos hn]
        · intro hp hn
          unfold child forcedKind
          rw [if_neg (by simp [hp]), if_neg (by simp [hn])]
          refine ⟨fun hi => ?_, fun hi => ?_⟩
          · have : internal f = false := by
              cases hb : internal f with
              | false => rfl
              | true => exact absurd ((internal_iff f).1 hb) hi
            simp only [this, Bool.false_eq_true, if_false]
            by_cases hk0 : k = .none
            · simp only [hk0, if_true]
            · simp only [hk0, if_false]
          · simp only [(internal_iff f).2 hi, if_true]
            by_cases hk0 : k = .none
            · left; simp only [hk0, if_true]
            · right; simp only [hk0, if_false]; rfl
      | same => simp [launches] at hL
      | signal n _ _ _ _ => simp [launches] at hL
      | failed k cmd hl hk => simp [launches] at hL
      | pty _ _ hl => simp [launches] at hL
      | x11 _ _ _ _ hl => simp [launches] at hL
      | agent _ hl => simp [launches] at hL
      | env _ _ hl => simp [launches] at hL
    · exact ih L hL

/-- **C103.** Signals: only those of the list, and none at all where a command is forced. -/
theorem C103_signals (C : Cfg) (reqs : List Req) (s : Sess) :
    (∀ n ∈ signals (run C reqs s).1,
      n ∈ ([b!"HUP", b!"INT", b!"KILL", b!"QUIT", b!"TERM", b!"USR1", b!"USR2"] : List Bytes)) ∧
    (∀ f, Forces C f → s.running = false → signals (run C reqs s).1 = []) := by
  have hall := run_induct C (fun s l _ => (∀ n ∈ signals l, isSignal n = true) ∧
    (∀ f, Forces C f → (s.running = true → s.forced = true) → signals l = [])) ?_ ?_ reqs s
  · refine ⟨fun n hn => ?_, fun f hf hr => hall.2 f hf (fun h => by rw [hr] at h; cases h)⟩
    have := hall.1 n hn
    unfold isSignal at this
    simpa using this
  · intro s; simp [signals]
  · intro s s' e l t hs ⟨h1, h2⟩
    rw [signals_append]
    have hpre : ∀ f, Forces C f → ∀ k cmd, (prepare C { s with kind := k } cmd).s.forced = true := by
      intro f hf k cmd
      unfold prepare
      rw [(forcedCmd_iff C f).2 hf]
    cases hs with
    | launch k cmd hl hk =>
      exact ⟨by simpa [signals] using h1, fun f hf _ => by simpa [signals] using h2 f hf (fun _ => hpre f hf k cmd)⟩
    | same => exact ⟨by simpa [signals] using h1, fun f hf h => by simpa [signals] using h2 f hf h⟩
    | signal n a b c d =>
      refine ⟨?_, fun f hf h => ?_⟩
      · intro m hm
        rcases List.mem_append.1 hm with hm | hm
        · have : m = n := by simpa [signals] using hm
          rw [this]; exact a
        · exact h1 m hm
      · have := h b
        rw [c] at this; cases this
    | failed k cmd hl hk =>
      exact ⟨by simpa [signals] using h1, fun f hf _ => by simpa [signals] using h2 f hf (fun _ => hpre f hf k cmd)⟩
    | pty _ _ hl => exact ⟨by simpa [signals] using h1, fun f hf h => by simpa [signals] using h2 f hf h⟩
    | x11 _ _ _ _ hl => exact ⟨by simpa [signals] using h1, fun f hf h => by simpa [signals] using h2 f hf h⟩
    | agent _ hl => exact ⟨by simpa [signals] using h1, fun f hf h => by simpa [signals] using h2 f hf h⟩
    | env _ _ hl => exact ⟨by simpa [signals] using h1, fun f hf h => by simpa [signals] using h2 f hf h⟩

private theorem xauth_bytes (t : Bytes) (h : xauthValid t = true) :
    ∀ c ∈ t, c ∉ ([0, 9, 10, 13, 32, 34, 35, 39, 59, 92] : List UInt8) := by
  intro c hc hm
  have := List.all_eq_true.1 h c hc
  revert this
  simp only [List.mem_cons, List.not_mem_nil, or_false] at hm
  rcases hm with rfl | rfl | rfl | rfl | rfl | rfl | rfl | rfl | rfl | rfl <;> decide

private theorem permitted_step {C : Cfg} {s s' : Sess} {e : Option Event} (h : Step C s s' e) (hp : Permitted C s) :
    Permitted C s' := by
  have hprep : ∀ k cmd, Permitted C (prepare C { s with kind := k } cmd).s := by
    intro k cmd
    unfold prepare
    split <;> exact ⟨hp.tty, hp.display, hp.agent, hp.env, hp.name, hp.xauth⟩
  cases h with
  | same => exact hp
  | launch k cmd hl hk =>
    have := hprep k cmd
    exact ⟨this.tty, this.display, this.agent, this.env, this.name, this.xauth⟩
  | failed k cmd hl hk => exact hprep k cmd
  | pty term tty hl ht h => exact ⟨fun hn => (h hn).symm, hp.display, hp.agent, hp.env, hp.name, hp.xauth⟩
  | x11 p d disp a hl h1 h2 h3 h4 h5 h6 =>
    refine ⟨hp.tty, fun _ => ⟨h2, h1, h3⟩, hp.agent, hp.env, fun _ => h6, ?_⟩
    rintro t (ht | ht)
    · cases ht; exact xauth_bytes _ h4
    · cases ht; exact xauth_bytes _ h5
  | agent sock hl h1 h2 h3 => exact ⟨hp.tty, hp.display, fun _ => ⟨h2, h1, h3⟩, hp.env, hp.name, hp.xauth⟩
  | env n v hl h1 h2 =>
    refine ⟨hp.tty, hp.display, hp.agent, ⟨?_, ?_⟩, hp.name, hp.xauth⟩
    · show (s.env ++ [(n, v)]).length ≤ 129
      simp only [List.length_append, List.length_cons, List.length_nil]; omega
    · intro x hx
      rcases List.mem_append.1 hx with hx | hx
      · exact hp.env.2 x hx
      · have : x = (n, v) := by simpa using hx
        subst this
        obtain ⟨pat, hpat, hm⟩ := h2
        exact ⟨pat, hpat, (Match.C05_match_pattern n pat).1 hm⟩
  | signal => exact hp

/-- **C103.** A session comes to have a terminal, a display, an agent's socket or variables of the client only where both the
configuration and the key permit it; what is kept for xauth has no blank, newline or quote. -/
theorem C103_permits (C : Cfg) (reqs : List Req) : Permitted C (run C reqs fresh).2 := by
  have h0 : Permitted C fresh :=
    ⟨fun h => absurd rfl h, fun h => absurd rfl h, fun h => absurd rfl h, ⟨by decide, by simp [fresh]⟩, fun h => absurd rfl h, by simp [fresh]⟩
  refine run_induct C (fun s _ t => Permitted C s → Permitted C t) (fun _ h => h) ?_ reqs fresh h0
  intro s s' e l t hs ih hp
  exact ih (permitted_step hs hp)

/-- **C103.** And so has what is started: a session is permitted all it has when the program is started. -/
theorem C103_launched (C : Cfg) (reqs : List Req) : ∀ L ∈ launches (run C reqs fresh).1, Permitted C L.s := by
  have h0 : Permitted C fresh :=
    ⟨fun h => absurd rfl h, fun h => absurd rfl h, fun h => absurd rfl h, ⟨by decide, by simp [fresh]⟩, fun h => absurd rfl h, by simp [fresh]⟩
  refine run_induct C (fun s l _ => Permitted C s → ∀ L ∈ launches l, Permitted C L.s) ?_ ?_ reqs fresh h0
  · intro s _ L hL; simp [launches] at hL
  · intro s s' e l t hs ih hp L hL
    have hs' := permitted_step hs hp
    rw [launches_append, List.mem_append] at hL
    rcases hL with hL | hL
    · cases hs with
      | launch k cmd hl hk =>
        have : L = prepare C { s with kind := k } cmd := by simpa [launches] using hL
        subst this
        exact ⟨hs'.tty, hs'.display, hs'.agent, hs'.env, hs'.name, hs'.xauth⟩
      | same => simp [launches] at hL
      | signal n _ _ _ _ => simp [launches] at hL
      | failed k cmd hl hk => simp [launches] at hL
      | pty _ _ hl => simp [launches] at hL
      | x11 _ _ _ _ hl => simp [launches] at hL
      | agent _ hl => simp [launches] at hL
      | env _ _ hl => simp [launches] at hL
    · exact ih hs' L hL

end Verif.Session
