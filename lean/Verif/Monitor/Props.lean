/-
C27, C28 and C60: what the privileged monitor does for a child that may send anything.
-/
import Verif.Monitor.Hist
import Verif.KeyOpts.Props

namespace Verif.Monitor

open Wire Spec
open Auth.Spec (Fulfils steps Usable Multi RootMay)

variable {w : World} {c : Cfg} {h p : List (Ev × Out)} {ev : Ev} {st st' : St} {a : Act} {o : Out}

/-- A served request, with all that is known about it. -/
theorem act_served (hh : Hist w c h st) (hs : step w c st ev = (o, st')) (ha : o.act = some a) :
    ∃ e m v st1, Served1 w c h st ev o st' e m v st1 a := by
  rcases step_round (hist_inv hh) hs with ⟨h1, _⟩ | ⟨e, m, v, st1, a', h1⟩
  · rw [h1] at ha; simp at ha
  · have := h1.round.act
    rw [ha] at this
    obtain rfl : a = a' := by simpa using this
    exact ⟨e, m, v, st1, h1⟩

theorem act_handle (hs : step w c st ev = (o, st')) (ha : o.act = some a) :
    ∃ st0, ∃ e : Ent, ∃ m v st1, ev.msg = e.req.code :: m ∧ handle w c st0 e.req m ev.ans = .ret v st1 a := by
  unfold step at hs
  split at hs
  · simp only [Prod.mk.injEq] at hs
    obtain ⟨rfl, rfl⟩ := hs
    simp at ha
  · rename_i e m hg
    obtain ⟨g1, g2, g3⟩ := gate_some hg
    split at hs
    · simp only [Prod.mk.injEq] at hs
      obtain ⟨rfl, rfl⟩ := hs
      simp at ha
    · simp only [Prod.mk.injEq] at hs
      obtain ⟨rfl, rfl⟩ := hs
      simp at ha
    · rename_i v st1 a' hh
      have := (after_round hs).act
      rw [ha] at this
      obtain rfl : a = a' := by simpa using this
      exact ⟨_, e, m, v, st1, g3, hh⟩

/-! ### C27: which requests are answered -/

/-- **C27.** A request is answered only when it may be asked in view of what has been answered so far,
and the answer is to the request that was sent. -/
theorem C27_order (hh : Hist w c h st) (hs : step w c st ev = (o, st')) (ha : o.act = some a) :
    May c (acts h) (kind a) ∧ ∃ m, ev.msg = (kind a).code :: m := by
  obtain ⟨e, m, v, st1, h1⟩ := act_served hh hs ha
  exact ⟨h1.facts.may, m, by rw [h1.good.kind]; exact h1.msg⟩

/-- **C27.** Any other message ends the connection with nothing done and nothing logged. -/
theorem C27_refused (hh : Hist w c h st) (hs : step w c st ev = (o, st'))
    (hn : ∀ r m, ev.msg = r.code :: m → ¬ May c (acts h) r) :
    o.act = none ∧ o.log = none ∧ (o.fate = .dead ∨ o.fate = .crashed) := by
  rcases step_round (hist_inv hh) hs with h1 | ⟨e, m, v, st1, a, h1⟩
  · exact h1
  · exact absurd (by rw [← h1.good.kind]; exact h1.facts.may) (hn _ m h1.msg)

theorem acts_run (h : List (Ev × Out)) (x : Ev × Out) : acts (h ++ [x]) = acts h ++ x.2.act.toList := by
  rw [acts_snoc]

theorem once_step {r : Req} (hr : r ∈ [.state, .moduli, .sign, .pwnam, .authserv, .banner, .pamStart])
    (hh : Hist w c h st) (hs : step w c st ev = (o, st'))
    (ih : (acts h).countP (fun a => decide (kind a = r)) ≤ 1) :
    (acts (h ++ [(ev, o)])).countP (fun a => decide (kind a = r)) ≤ 1 := by
  rw [acts_run, List.countP_append]
  cases ha : o.act with
  | none => simpa using ih
  | some a =>
    by_cases hk : kind a = r
    · obtain ⟨hm, _⟩ := C27_order hh hs ha
      have hns : ¬ Served r (acts h) := by
        rw [hk] at hm
        simp only [List.mem_cons, List.not_mem_nil, or_false] at hr
        rcases hr with rfl | rfl | rfl | rfl | rfl | rfl | rfl
        · exact hm
        · exact hm
        · exact hm
        · exact hm.2
        · exact hm.2
        · exact hm.2
        · exact hm.2.2
      have h0 : (acts h).countP (fun a => decide (kind a = r)) = 0 := by
        rw [List.countP_eq_zero]
        intro x hx hkx
        exact hns ⟨x, hx, by simpa using hkx⟩
      rw [h0]
      simp [hk]
    · simpa [hk] using ih

/-- **C27.** Requests meant to be served once are served at most once before authentication. -/
theorem C27_once (hrun : Run w c h) {r : Req}
    (hr : r ∈ [.state, .moduli, .sign, .pwnam, .authserv, .banner, .pamStart]) :
    (acts h).countP (fun a => decide (kind a = r)) ≤ 1 := by
  obtain ⟨h0, st, ev, hh, rfl⟩ := hrun
  have hcount : ∀ {h0 st}, Hist w c h0 st → (acts h0).countP (fun a => decide (kind a = r)) ≤ 1 := by
    intro h0 st hh
    induction hh with
    | nil => simp [acts]
    | snoc ev hh' hs _ ih => exact once_step hr hh' hs ih
  exact once_step hr hh (Prod.eta _) (hcount hh)

/-! ### C27: what acceptance means -/

theorem merge_none (gs : List KeyOpts.Opts) :
    gs.foldl (fun p o => p.bind fun p => KeyOpts.merge p o) none = none := by
  induction gs with
  | nil => rfl
  | cons y gs ih => simpa using ih

theorem merge_command {p y r : KeyOpts.Opts} (hm : KeyOpts.merge p y = some r) (hc : r.command ≠ none) :
    p.command ≠ none ∨ y.command ≠ none := by
  by_cases hp : p.command = none
  · by_cases hy : y.command = none
    · exfalso
      apply hc
      unfold KeyOpts.merge at hm
      rw [hp, hy] at hm
      simp only [KeyOpts.mergeCommand, Option.some.injEq] at hm
      subst hm
      rfl
    · exact Or.inr hy
  · exact Or.inl hp

theorem mergeFrom_facts (gs : List KeyOpts.Opts) (p x : KeyOpts.Opts)
    (hm : gs.foldl (fun p o => p.bind fun p => KeyOpts.merge p o) (some p) = some x) :
    (x.command ≠ none → p.command ≠ none ∨ ∃ g ∈ gs, g.command ≠ none) ∧
      (x.pty = true → p.pty = true ∧ ∀ g ∈ gs, g.pty = true) := by
  induction gs generalizing p with
  | nil =>
    simp only [List.foldl_nil, Option.some.injEq] at hm
    subst hm
    simp
  | cons y gs ih =>
    simp only [List.foldl_cons, Option.bind_some] at hm
    cases hr : KeyOpts.merge p y with
    | none => rw [hr, merge_none] at hm; simp at hm
    | some r =>
      rw [hr] at hm
      obtain ⟨i1, i2⟩ := ih r hm
      constructor
      · intro hc
        rcases i1 hc with h1 | ⟨g, hg, h1⟩
        · rcases merge_command hr h1 with h2 | h2
          · exact Or.inl h2
          · exact Or.inr ⟨y, by simp, h2⟩
        · exact Or.inr ⟨g, by simp [hg], h1⟩
      · intro hc
        obtain ⟨h1, h2⟩ := i2 hc
        have hb := (KeyOpts.C25_both_grant hr).pty.1 h1
        refine ⟨hb.1, fun g hg => ?_⟩
        rcases List.mem_cons.1 hg with rfl | hg
        · exact hb.2
        · exact h2 g hg

theorem mergeAll_facts {gs : List KeyOpts.Opts} {x : KeyOpts.Opts} (hm : mergeAll gs = some x) :
    (x.command ≠ none → ∃ g ∈ gs, g.command ≠ none) ∧ (x.pty = true → ∀ g ∈ gs, g.pty = true) := by
  obtain ⟨h1, h2⟩ := mergeFrom_facts gs _ x hm
  exact ⟨fun h => (h1 h).resolve_left (fun h => h rfl), fun h => (h2 h).2⟩

theorem rootMay_some {c : Cfg} {st : St} (hr : rootMay c st = some true) (hu : st.uid = some 0) :
    ∃ forced, RootMay c.auth st.method forced ∧
      (forced = true → ∃ o, st.opts = some o ∧ o.command ≠ none) := by
  unfold rootMay at hr
  rw [if_pos hu] at hr
  have hra : ∀ f, Auth.rootAllowed c.auth f st.method = true → RootMay c.auth st.method f := by
    intro f hf
    unfold Auth.rootAllowed at hf
    unfold RootMay
    cases hroot : c.auth.root <;> rw [hroot] at hf <;> simp at hf ⊢ <;> exact hf
  split at hr
  · split at hr
    · simp at hr
    · rename_i o ho
      simp only [Option.some.injEq] at hr
      refine ⟨_, hra _ hr, fun hf => ⟨o, ho, ?_⟩⟩
      intro hn
      rw [hn] at hf
      simp at hf
  · simp only [Option.some.injEq] at hr
    exact ⟨false, hra _ hr, by simp⟩

/-- How the log names an action: a password attempt may be called "none" if it was empty; a signature
is called by the kind of key that was approved. -/
def Named (as : List Act) (a : Act) (l : Auth.Log) : Prop :=
  (∃ pw ok, a = .password pw ok ∧ l.sub = none ∧ (l.method = b!"password" ∨ (l.method = b!"none" ∧ pw = []))) ∨
  (∃ b s d al ok u cu ch, a = .keyVerify b s d al ok ∧ l.sub = none ∧
    last [.keyallowed, .keyverify] as = some (.keyAllowed u b cu ch true) ∧
    l.method = if u then b!"publickey" else b!"hostbased") ∨
  (∃ ok, a = .pamFree ok ∧ l.method = b!"keyboard-interactive" ∧ l.sub = some b!"pam")

theorem decides_kind {e : Ent} (he : e ∈ preTable) (hd : e.decides = true) :
    e.req = .authpassword ∨ e.req = .keyverify ∨ e.req = .pamFree := by
  simp only [preTable, List.mem_cons, List.not_mem_nil, or_false] at he
  rcases he with rfl | rfl | rfl | rfl | rfl | rfl | rfl | rfl | rfl | rfl | rfl | rfl | rfl | rfl | rfl <;>
    simp at hd ⊢

/-- **C27.** Every log line is about a request that decides authentication, under its own name, and
says success (whole or in part) only if that very request was answered with success. -/
theorem C27_logged (hh : Hist w c h st) (hs : step w c st ev = (o, st')) {l : Auth.Log}
    (hl : o.log = some l) :
    ∃ a, o.act = some a ∧ Named (acts h) a l ∧
      (l.verdict = .accepted ∨ l.verdict = .partly → yes a = true) := by
  rcases step_round (hist_inv hh) hs with ⟨_, h1, _⟩ | ⟨e, m, v, st1, a, h1⟩
  · rw [h1] at hl; simp at hl
  obtain ⟨_, _, _, _, _, _, _, _, _, _, _, u12, u13, u14, u15, u16⟩ := useOnce_rest e st1
  obtain ⟨hd, l1, l2, l3⟩ := h1.round.log l hl
  rw [u15] at l1
  rw [u16] at l2
  refine ⟨a, h1.round.act, ?_, ?_⟩
  · have hm := h1.facts.method
    rw [← l1, ← l2] at hm
    have hk := h1.good.kind
    rcases decides_kind h1.ent hd with hr | hr | hr <;> rw [hr] at hk <;> cases a <;> simp [kind] at hk
    · exact Or.inl ⟨_, _, rfl, hm⟩
    · obtain ⟨m1, u, cu, ch, m2, m3⟩ := hm
      exact Or.inr (Or.inl ⟨_, _, _, _, _, u, cu, ch, rfl, m1, m2, m3⟩)
    · exact Or.inr (Or.inr ⟨_, rfl, hm⟩)
  · intro hv
    rcases h1.good.says (l3 hv) with hy | hp
    · exact hy
    · exact absurd hp (decides_yes h1.ent hd)

/-- What must have happened for a user to be let in, in the last round (`ev`, answered with `a`, logged
as `l`) of conversation `h`. -/
structure LetIn (c : Cfg) (h : List (Ev × Out)) (ev : Ev) (a : Act) (l : Auth.Log) : Prop where
  /-- a request that decides authentication was answered with success -/
  yes : yes a = true
  accepted : l.verdict = .accepted
  /-- the user was named, exists and may log in; for root PermitRootLogin agrees with the method,
  and a forced command that it asks for comes from a key that was used -/
  user : ∃ u uid, Act.pwnam u ∈ acts h ∧ c.auth.getpw u = some uid ∧
    (uid = 0 → ∃ forced, RootMay c.auth l.method forced ∧
      (forced = true → ∃ k ∈ granted h, k.command ≠ none))
  /-- PAM agrees with the account -/
  account : c.auth.usePam = true → ev.ans.account = true ∧ ev.follow.head? = some 102
  /-- one of the configured lists of methods has been completed -/
  methods : Multi c.auth → ∃ L ∈ c.auth.lists, Usable c.auth L ∧ Fulfils (steps L) (wins h)

/-- **C27.** The monitor lets a user in only if all this has happened. -/
theorem C27_accept (hh : Hist w c h st) (hs : step w c st ev = (o, st')) (hf : o.fate = .accepted) :
    ∃ a l, o.act = some a ∧ o.log = some l ∧ LetIn c (h ++ [(ev, o)]) ev a l := by
  have hi := hist_inv hh
  rcases step_round hi hs with ⟨_, _, h1 | h1⟩ | ⟨e, m, v, st1, a, h1⟩
  · rw [hf] at h1; simp at h1
  · rw [hf] at h1; simp at h1
  obtain ⟨u1, u2, u3, u4, u5, u6, u7, u8, u9, _, _, u12, u13, u14, u15, u16⟩ := useOnce_rest e st1
  obtain ⟨hv, hd, hvalid, hroot, hacc, hmulti, hlog⟩ := h1.round.accepted hf
  have hact := h1.round.act
  have hy : yes a = true := by
    rcases h1.good.says hv with hy | hp
    · exact hy
    · exact absurd hp (decides_yes h1.ent hd)
  have hA := served_invA h1
  obtain ⟨ls, f, hsame⟩ := h1.round.same
  have hpw : Served .pwnam (acts (h ++ [(ev, o)])) := by
    cases hdec : decide (st'.attempt = 0) with
    | true =>
      have := hA.nobody ((hA.attempt).1 (by simpa using hdec))
      rw [hsame] at this
      simp only at this
      rw [hvalid] at this
      simp at this
    | false =>
      by_cases hx : Served .pwnam (acts (h ++ [(ev, o)]))
      · exact hx
      · exact absurd ((hA.attempt).2 hx) (by simpa using hdec)
  have hacts : acts (h ++ [(ev, o)]) = acts h ++ [a] := by rw [acts_snoc, hact]; rfl
  have hpw0 : Served .pwnam (acts h) := by
    rw [hacts, served_snoc] at hpw
    rcases hpw with hx | hx
    · exact hx
    · cases a <;> simp [kind] at hx
      simp [Spec.yes] at hy
  have hne : e.req ≠ .pwnam := by
    rw [← h1.good.kind]
    intro hx
    cases a <;> simp [kind] at hx
    simp [Spec.yes] at hy
  refine ⟨a, _, hact, hlog, hy, rfl, ?_, hacc, ?_⟩
  · obtain ⟨x, hx, hk⟩ := hpw
    cases x <;> simp [kind] at hk
    rename_i u
    obtain ⟨w1, w2⟩ := hA.who u hx
    have hval := hA.valid
    have hv' : st'.valid = true := by rw [hsame]; exact hvalid
    have hval2 : st'.uid.isSome = true := by rw [← hval]; exact hv'
    obtain ⟨uid, huid⟩ := Option.isSome_iff_exists.1 hval2
    refine ⟨u, uid, hx, by rw [← w2]; exact huid, ?_⟩
    rintro rfl
    have huid' : (useOnce e st1).uid = some 0 := by rw [hsame] at huid; exact huid
    obtain ⟨forced, r1, r2⟩ := rootMay_some hroot huid'
    refine ⟨forced, r1, fun hfc => ?_⟩
    obtain ⟨op, o1, o2⟩ := r2 hfc
    have hopts := hA.opts
    rw [hsame] at hopts
    simp only at hopts o1
    rw [o1] at hopts
    exact (mergeAll_facts hopts.symm).1 o2
  · intro hm
    obtain ⟨g1, g2⟩ := h1.good.lists hne
    have hst : (useOnce e st1).multi = true := by
      rw [u12, g1]
      exact (hi.multi hpw0).2 hm
    obtain ⟨ls', hu⟩ := hmulti hst
    rw [u15, u16, u13, g2] at hu
    have hname := methodOf_name h1.facts.method (Or.inl hy)
    obtain ⟨_, _, k3⟩ := update_lists (hi.lists hpw0) hname hu
    obtain ⟨L, hL, hus, hful⟩ := k3 rfl
    refine ⟨L, hL, hus, ?_⟩
    rw [wins_snoc, hact, hlog]
    simp only [hy, if_true, u15, u16]
    exact hful

/-! ### C27: what a success means -/

/-- The user the child named. -/
def User (as : List Act) (u : Bytes) : Prop := Act.pwnam u ∈ as

/-- **C27.** A password is accepted only if the password methods are on, the back end agreed, the user
exists and may log in, root may use passwords, and empty passwords are permitted if it is empty. -/
theorem C27_password (hh : Hist w c h st) (hs : step w c st ev = (o, st')) {pw : Bytes}
    (ha : o.act = some (.password pw true)) :
    c.auth.enabled b!"password" = true ∧ ev.ans.password = true ∧ pw.length ≤ 1024 ∧
      (pw = [] → c.permitEmpty = true) ∧
      ∃ u uid, User (acts h) u ∧ c.auth.getpw u = some uid ∧ (uid = 0 → c.auth.root = .yes) := by
  obtain ⟨e, m, v, st1, h1⟩ := act_served hh hs ha
  have hi := (hist_inv hh).a
  obtain ⟨p1, p2, p3, p4, p5⟩ := h1.facts.password
  obtain ⟨m1, m2⟩ := h1.facts.may
  obtain ⟨x, hx, hk⟩ := hi.order2 m1
  cases x <;> simp [kind] at hk
  rename_i u
  have hval := hi.valid
  rw [p3] at hval
  obtain ⟨uid, huid⟩ := Option.isSome_iff_exists.1 hval.symm
  refine ⟨m2, p2, p1, p5, u, uid, hx, by rw [← (hi.who u hx).2]; exact huid, ?_⟩
  rintro rfl
  exact p4 huid

/-- What the back ends said when the monitor answered. -/
def BackEnd (an : Ans) : Act → Prop
  | .pamQuery true => an.query = some (true, 0)
  | .pamRespond true => an.respond = true
  | .pamAccount true => an.account = true
  | .pamInit true => an.init = true
  | .sign .. => an.sign = true
  | _ => True

/-- **C27.** The answers about PAM are those of PAM. -/
theorem C27_pam_answers (hs : step w c st ev = (o, st')) (ha : o.act = some a) : BackEnd ev.ans a := by
  obtain ⟨st0, e, m, v, st1, -, hh⟩ := act_handle hs ha
  cases hr : e.req <;> rw [hr] at hh <;> simp only [handle, Res.ret.injEq, reduceCtorEq] at hh
  case state => rw [← hh.2.2]; trivial
  case banner => rw [← hh.2.2]; trivial
  case moduli =>
    unfold answerModuli at hh
    repeat' split at hh
    all_goals try contradiction
    rw [Res.ret.injEq] at hh
    rw [← hh.2.2]; trivial
  case sign =>
    unfold answerSign at hh
    repeat' split at hh
    all_goals try contradiction
    rename_i hsg
    rw [Res.ret.injEq] at hh
    rw [← hh.2.2]; exact hsg
  case pwnam =>
    unfold answerPwnam at hh
    repeat' split at hh
    all_goals try contradiction
    rw [Res.ret.injEq] at hh
    rw [← hh.2.2]; trivial
  case authserv =>
    unfold answerAuthserv at hh
    repeat' split at hh
    all_goals try contradiction
    all_goals
      rw [Res.ret.injEq] at hh
      rw [← hh.2.2]; trivial
  case authpassword =>
    unfold answerPassword at hh
    repeat' split at hh
    all_goals try contradiction
    all_goals
      rw [Res.ret.injEq] at hh
      rw [← hh.2.2]; trivial
  case pamStart =>
    unfold answerPamStart at hh
    repeat' split at hh
    all_goals try contradiction
    rw [Res.ret.injEq] at hh
    rw [← hh.2.2]; trivial
  case pamAccount =>
    unfold answerPamAccount at hh
    repeat' split at hh
    all_goals try contradiction
    rw [Res.ret.injEq] at hh
    rw [← hh.2.2]
    cases hx : ev.ans.account
    · trivial
    · exact hx
  case pamInit =>
    unfold answerPamInit at hh
    repeat' split at hh
    all_goals try contradiction
    all_goals
      rw [Res.ret.injEq] at hh
      rw [← hh.2.2]
      first | trivial | assumption
  case pamQuery =>
    unfold answerPamQuery at hh
    repeat' split at hh
    all_goals try contradiction
    rename_i zero num hq _
    rw [Res.ret.injEq] at hh
    rw [← hh.2.2]
    cases zero
    · trivial
    · by_cases hn : num = 0
      · subst hn; exact hq
      · simp [hn, BackEnd]
  case pamRespond =>
    unfold answerPamRespond at hh
    repeat' split at hh
    all_goals try contradiction
    rw [Res.ret.injEq] at hh
    rw [← hh.2.2]
    cases hx : ev.ans.respond
    · trivial
    · exact hx
  case pamFree =>
    unfold answerPamFree at hh
    repeat' split at hh
    all_goals try contradiction
    rw [Res.ret.injEq] at hh
    rw [← hh.2.2]; trivial
  case keyallowed =>
    unfold answerKeyAllowed at hh
    repeat' split at hh
    all_goals try contradiction
    all_goals
      rw [Res.ret.injEq] at hh
      rw [← hh.2.2]; trivial
  case keyverify =>
    unfold answerKeyVerify at hh
    repeat' split at hh
    all_goals try contradiction
    all_goals
      rw [Res.ret.injEq] at hh
      rw [← hh.2.2]; trivial

/-- **C27.** A PAM conversation counts as success only if it is open and the last thing PAM said in it,
to a query or a response, was that the user is authenticated. -/
theorem C27_pam (hh : Hist w c h st) (hs : step w c st ev = (o, st')) (ha : o.act = some (.pamFree true)) :
    Talking (acts h) ∧
      (last [.pamInit, .pamQuery, .pamRespond, .pamFree] (acts h) = some (.pamQuery true) ∨
       last [.pamInit, .pamQuery, .pamRespond, .pamFree] (acts h) = some (.pamRespond true)) := by
  obtain ⟨e, m, v, st1, h1⟩ := act_served hh hs ha
  exact ⟨h1.facts.may, h1.facts.pam⟩

/-- **C27.** Before authentication no more than `MaxAuthTries` failures are logged while the
conversation goes on; one more ends it. -/
theorem C27_tries (hh : Hist w c h st) (hs : step w c st ev = (o, st')) :
    failed h ≤ c.auth.maxTries ∧ failed (h ++ [(ev, o)]) ≤ c.auth.maxTries + 1 ∧
      (c.auth.maxTries < failed (h ++ [(ev, o)]) → o.fate ≠ .go) := by
  have hi := hist_inv hh
  refine ⟨hi.lim, ?_, ?_⟩
  · rw [failed_snoc]
    have := hi.lim
    split
    · split <;> omega
    · omega
  · intro hlt hgo
    have := (step_inv hi hs hgo).lim
    omega

/-! ### C28: keys -/

theorem style_name {as : List Act} {g} (hi : InvA w c as g st) {u s : Bytes} (hu : User as u)
    (hs : Act.authserv s ∈ as) : userStyle st = fullName u s := by
  unfold userStyle fullName
  rw [hi.style s hs, (hi.who u hu).1]
  by_cases hx : s = [] <;> simp [hx]

/-- **C28.** A signature is reported good only if the key is byte for byte the one approved by the
latest answer about keys, the signature verifies under that key over the data sent, and that data is a
request of the kind the key was approved for, for the session identifier of this connection and the
user (with style) named in it. -/
theorem C28_key (hh : Hist w c h st) (hs : step w c st ev = (o, st')) {b s d al : Bytes}
    (ha : o.act = some (.keyVerify b s d al true)) :
    ∃ user cu ch sid key u style sk,
      last [.keyallowed, .keyverify] (acts h) = some (.keyAllowed user b cu ch true) ∧
      w.parse b = some key ∧ w.verify key s d (if al = [] then none else some al) = some sk ∧
      SessionId (acts h) sid ∧ User (acts h) u ∧ Act.authserv style ∈ acts h ∧
      (if user then UserRequest w c sid (fullName u style) d
        else HostRequest sid (fullName u style) cu ch d) := by
  obtain ⟨e, m, v, st1, h1⟩ := act_served hh hs ha
  have hi := (hist_inv hh).a
  obtain ⟨user, cu, ch, sid, key, v1, v2, v3, v4, v5, v6, v7⟩ := h1.facts.verified
  obtain ⟨sk, v8, v9⟩ := v7 rfl
  have hm := h1.facts.may
  obtain ⟨x, hx, hk⟩ := hm.1
  cases x <;> simp [kind] at hk
  rename_i style
  obtain ⟨y, hy, hk⟩ := hi.order2 hm.1
  cases y <;> simp [kind] at hk
  rename_i u
  rw [style_name hi hy hx] at v3
  exact ⟨user, cu, ch, sid, key, u, style, sk, v1, v4, v8, v2, hy, hx, v3⟩

/-- **C28.** The data is checked whatever becomes of the signature: nothing else is ever looked at. -/
theorem C28_data (hh : Hist w c h st) (hs : step w c st ev = (o, st')) {b s d al : Bytes} {ok : Bool}
    (ha : o.act = some (.keyVerify b s d al ok)) :
    ∃ user cu ch sid u style,
      last [.keyallowed, .keyverify] (acts h) = some (.keyAllowed user b cu ch true) ∧
      SessionId (acts h) sid ∧ User (acts h) u ∧ Act.authserv style ∈ acts h ∧
      (if user then UserRequest w c sid (fullName u style) d
        else HostRequest sid (fullName u style) cu ch d) := by
  obtain ⟨e, m, v, st1, h1⟩ := act_served hh hs ha
  have hi := (hist_inv hh).a
  obtain ⟨user, cu, ch, sid, key, v1, v2, v3, v4, v5, v6, v7⟩ := h1.facts.verified
  have hm := h1.facts.may
  obtain ⟨x, hx, hk⟩ := hm.1
  cases x <;> simp [kind] at hk
  rename_i style
  obtain ⟨y, hy, hk⟩ := hi.order2 hm.1
  cases y <;> simp [kind] at hk
  rename_i u
  rw [style_name hi hy hx] at v3
  exact ⟨user, cu, ch, sid, u, style, v1, v2, hy, hx, v3⟩

/-- **C28.** A security key must have seen a touch unless both the configuration and the key's line
waive it, and a PIN if either asks for it. -/
theorem C28_touch (hh : Hist w c h st) (hs : step w c st ev = (o, st')) {b s d al cu ch key : Bytes}
    (ha : o.act = some (.keyVerify b s d al true)) {f : Nat}
    (hu : last [.keyallowed, .keyverify] (acts h) = some (.keyAllowed true b cu ch true))
    (hk : w.parse b = some key)
    (hf : w.verify key s d (if al = [] then none else some al) = some (some f)) :
    ∃ k, (grants h).1 = some k ∧ ((c.touch = true ∨ k.noPresence = false) → f &&& 1 ≠ 0) ∧
      ((c.uv = true ∨ k.verify = true) → f &&& 4 ≠ 0) := by
  obtain ⟨e, m, v, st1, h1⟩ := act_served hh hs ha
  obtain ⟨user, cu', ch', sid, key', v1, v2, v3, v4, v5, v6, v7⟩ := h1.facts.verified
  obtain ⟨sk, v8, v9⟩ := v7 rfl
  rw [hu] at v1
  simp only [Option.some.injEq, Act.keyAllowed.injEq] at v1
  obtain ⟨rfl, _⟩ := v1
  rw [hk] at v4
  obtain rfl : key = key' := by simpa using v4
  rw [hf] at v8
  obtain rfl : some f = sk := by simpa using v8
  obtain ⟨k, k1, k2⟩ := v9 rfl
  exact ⟨k, k1, k2 f rfl⟩

/-- **C28.** A key is approved only if its method is on, its algorithm is accepted, the back end allows
it for the user, and it is not the public key of one that has already been used. -/
theorem C28_approved (hh : Hist w c h st) (hs : step w c st ev = (o, st')) {user : Bool}
    {key cu ch : Bytes} (ha : o.act = some (.keyAllowed user key cu ch true)) :
    (if user then c.auth.enabled b!"publickey" = true ∧ w.userAlg key = true ∧ ev.ans.userKey ≠ none
      else c.auth.enabled b!"hostbased" = true ∧ w.hostAlg key = true ∧ ev.ans.hostKey = true) ∧
    ∀ b s d al k, Act.keyVerify b s d al true ∈ acts h → w.parse b = some k →
      w.samePublic key k = false := by
  obtain ⟨e, m, v, st1, h1⟩ := act_served hh hs ha
  have hap := h1.facts.approved
  have hused : ∀ b s d al k, Act.keyVerify b s d al true ∈ acts h → w.parse b = some k →
      k ∈ usedKeys w (acts h) := by
    intro b s d al k hm hk
    simp only [usedKeys, List.mem_reverse, List.mem_filterMap]
    exact ⟨_, hm, hk⟩
  cases user with
  | true =>
    obtain ⟨p1, p2, p3, p4⟩ := hap
    exact ⟨⟨p1, p2, p3⟩, fun b s d al k hm hk => p4 _ (hused b s d al k hm hk)⟩
  | false =>
    obtain ⟨p1, p2, p3, p4⟩ := hap
    exact ⟨⟨p1, p2, p3⟩, fun b s d al k hm hk => p4 _ (hused b s d al k hm hk)⟩

/-- **C28.** Two proofs are never given with the same public key. -/
theorem C28_reuse (hh : Hist w c h st) (hs : step w c st ev = (o, st')) {b s d al b' s' d' al' k : Bytes}
    (ha : o.act = some (.keyVerify b s d al true)) (hb : Act.keyVerify b' s' d' al' true ∈ acts h)
    (hk : w.parse b' = some k) : w.samePublic b k = false := by
  obtain ⟨e, m, v, st1, h1⟩ := act_served hh hs ha
  obtain ⟨user, cu', ch', sid, key', v1, v2, v3, v4, v5, v6, v7⟩ := h1.facts.verified
  refine v6 k ?_
  simp only [usedKeys, List.mem_reverse, List.mem_filterMap]
  exact ⟨_, hb, hk⟩

/-! ### After authentication -/

structure PostInv (w : World) (h : List (Ev × Out)) (st : St) : Prop where
  perm : ∃ o, mergeAll (granted h) = some o ∧ ∀ r, r ≠ .pwnam → st.permit r = postPermit o r
  sid : ∀ s, st.sid = some s → SessionId (acts h) s

theorem postTable_once {e : Ent} (he : e ∈ postTable) : e.once = false ∨ e.req = .state := by
  simp only [postTable, List.mem_cons, List.not_mem_nil, or_false] at he
  rcases he with rfl | rfl | rfl | rfl | rfl | rfl <;> simp

theorem post_start (hh : Hist w c h st) (hs : step w c st ev = (o, st')) (hf : o.fate = .accepted) {s : St}
    (hp : postInit st' = some s) : PostInv w (h ++ [(ev, o)]) s := by
  rcases step_round (hist_inv hh) hs with ⟨_, _, h1 | h1⟩ | ⟨e, m, v, st1, a, h1⟩
  · rw [hf] at h1; simp at h1
  · rw [hf] at h1; simp at h1
  have hA := served_invA h1
  unfold postInit at hp
  split at hp
  · simp at hp
  · rename_i op hop
    simp only [Option.some.injEq] at hp
    subst hp
    refine ⟨⟨op, ?_, fun _ _ => rfl⟩, ?_⟩
    · rw [← hop]; exact hA.opts.symm
    · exact fun s hs => hA.sid s hs

/-- What one round after authentication does. -/
inductive PostDone (w : World) (st : St) (an : Ans) : Act → St → Prop where
  | moduli : PostDone w st an .moduli st
  | pty : st.permit .pty = true → PostDone w st an .pty st
  | ptycleanup : st.permit .ptycleanup = true → PostDone w st an .ptycleanup st
  | sign (k : Nat) (d : Bytes) : mayThisBeSigned w st k d = true → (∃ b, w.hostIndex b = some k) →
      an.sign = true → PostDone w st an (.sign k d)
        { st with
          sid := saveSid st d
          permit := setPermit st.permit .pwnam true }

theorem answerSign_done {m : Bytes} {an : Ans} {v : Bool} {st1 : St}
    (hh : answerSign w st m an = .ret v st1 a) : PostDone w st an a st1 := by
  unfold answerSign at hh
  split at hh
  · simp at hh
  · split at hh
    · simp at hh
    · rename_i k hk
      split at hh
      · rename_i hmay
        split at hh
        · rename_i hsg
          rw [Res.ret.injEq] at hh
          obtain ⟨_, rfl, rfl⟩ := hh
          exact .sign _ _ hmay ⟨_, hk⟩ hsg
        · simp at hh
      · simp at hh

theorem stepPost_round (hs : stepPost w st ev = (o, st')) :
    Unserved o ∨ ∃ a, o.act = some a ∧ o.log = none ∧ o.fate = .go ∧ PostDone w st ev.ans a st' := by
  unfold stepPost at hs
  split at hs
  · simp only [Prod.mk.injEq] at hs
    obtain ⟨rfl, rfl⟩ := hs
    exact Or.inl ⟨rfl, rfl, Or.inl rfl⟩
  · rename_i e m hg
    obtain ⟨g1, g2, g3⟩ := gate_some hg
    split at hs
    · simp only [Prod.mk.injEq] at hs
      obtain ⟨rfl, rfl⟩ := hs
      exact Or.inl ⟨rfl, rfl, Or.inl rfl⟩
    · simp only [Prod.mk.injEq] at hs
      obtain ⟨rfl, rfl⟩ := hs
      exact Or.inl ⟨rfl, rfl, Or.inr rfl⟩
    · rename_i v st1 a hh
      simp only [Prod.mk.injEq] at hs
      obtain ⟨rfl, rfl⟩ := hs
      right
      have honce : useOnce e st1 = st1 := by
        rcases postTable_once g1 with ho | ho
        · simp [useOnce, ho]
        · rw [ho] at hh; simp [handlePost] at hh
      refine ⟨a, rfl, rfl, rfl, ?_⟩
      rw [honce]
      cases hr : e.req <;> rw [hr] at hh g2 <;> simp only [handlePost, Res.ret.injEq, reduceCtorEq] at hh
      case moduli =>
        unfold answerModuli at hh
        repeat' split at hh
        all_goals try contradiction
        rw [Res.ret.injEq] at hh
        obtain ⟨_, rfl, rfl⟩ := hh
        exact .moduli
      case sign => exact answerSign_done hh
      case pty => obtain ⟨_, rfl, rfl⟩ := hh; exact .pty g2
      case ptycleanup => obtain ⟨_, rfl, rfl⟩ := hh; exact .ptycleanup g2

theorem sessionId_more {as : List Act} {s : Bytes} (h : SessionId as s) (bs : List Act) :
    SessionId (as ++ bs) s := by
  obtain ⟨k, r, hr⟩ := h
  exact ⟨k, r ++ bs.filter fun a => decide (kind a = .sign), by rw [List.filter_append, hr]; rfl⟩

theorem accepted_signed (hh : Hist w c h st) (hs : step w c st ev = (o, st')) (hf : o.fate = .accepted) :
    ∃ s, st'.sid = some s := by
  obtain ⟨a, l, ha, hl, hin⟩ := C27_accept hh hs hf
  obtain ⟨e, m, v, st1, h1⟩ := act_served hh hs ha
  have hA := served_invA h1
  obtain ⟨u, _, hu, _⟩ := hin.user
  have hsg := hA.order1 ⟨_, hu, rfl⟩
  cases hsid : st'.sid with
  | none => exact absurd hsg (hA.noSid hsid)
  | some s => exact ⟨s, rfl⟩

theorem post_inv (hp : Post w c h p st) : PostInv w h st ∧ ∃ s, st.sid = some s := by
  induction hp with
  | start ev hh hs hf hi =>
    refine ⟨post_start hh hs hf hi, ?_⟩
    obtain ⟨s, hsid⟩ := accepted_signed hh hs hf
    unfold postInit at hi
    split at hi
    · simp at hi
    · simp only [Option.some.injEq] at hi
      subst hi
      exact ⟨s, hsid⟩
  | snoc ev hp hs hgo ih =>
    obtain ⟨⟨⟨op, o1, o2⟩, i2⟩, s, hsid⟩ := ih
    rcases stepPost_round hs with ⟨_, _, hd | hd⟩ | ⟨a, ha, -, -, hdone⟩
    · rw [hgo] at hd; simp at hd
    · rw [hgo] at hd; simp at hd
    · cases hdone with
      | moduli => exact ⟨⟨⟨op, o1, o2⟩, i2⟩, s, hsid⟩
      | pty _ => exact ⟨⟨⟨op, o1, o2⟩, i2⟩, s, hsid⟩
      | ptycleanup _ => exact ⟨⟨⟨op, o1, o2⟩, i2⟩, s, hsid⟩
      | sign k d hm hk hsg =>
        have hsv : ∀ x, saveSid _ d = some x → x = s := fun x hx => by
          unfold saveSid at hx
          rw [hsid] at hx
          simpa using hx.symm
        refine ⟨⟨⟨op, o1, fun r hr => ?_⟩, fun x hx => ?_⟩, s, by simp [saveSid, hsid]⟩
        · simp only [setPermit, if_neg hr]; exact o2 r hr
        · rw [hsv x hx]; exact i2 s hsid

/-- **C27.** After authentication the monitor looks up groups, signs with host keys and handles
terminals, nothing else; terminals only if every key that was used allows one. -/
theorem C27_post (hp : Post w c h p st) (hs : stepPost w st ev = (o, st')) (ha : o.act = some a) :
    (∃ m, ev.msg = (kind a).code :: m) ∧
    (kind a = .moduli ∨ kind a = .sign ∨
      ((kind a = .pty ∨ kind a = .ptycleanup) ∧ ∀ k ∈ granted h, k.pty = true)) := by
  obtain ⟨⟨⟨op, o1, o2⟩, _⟩, _⟩ := post_inv hp
  constructor
  · unfold stepPost at hs
    split at hs
    · simp only [Prod.mk.injEq] at hs
      obtain ⟨rfl, rfl⟩ := hs
      simp at ha
    · rename_i e m hg
      obtain ⟨g1, g2, g3⟩ := gate_some hg
      refine ⟨m, ?_⟩
      rw [g3]
      split at hs
      · simp only [Prod.mk.injEq] at hs
        obtain ⟨rfl, rfl⟩ := hs
        simp at ha
      · simp only [Prod.mk.injEq] at hs
        obtain ⟨rfl, rfl⟩ := hs
        simp at ha
      · rename_i v st1 a' hh
        simp only [Prod.mk.injEq] at hs
        obtain ⟨rfl, rfl⟩ := hs
        obtain rfl : a' = a := by simpa using ha
        cases hr : e.req <;> rw [hr] at hh <;> simp only [handlePost, Res.ret.injEq, reduceCtorEq] at hh
        case moduli =>
          unfold answerModuli at hh
          repeat' split at hh
          all_goals try contradiction
          rw [Res.ret.injEq] at hh
          obtain ⟨_, _, rfl⟩ := hh
          rfl
        case sign =>
          have := answerSign_done hh
          unfold answerSign at hh
          repeat' split at hh
          all_goals try contradiction
          rw [Res.ret.injEq] at hh
          obtain ⟨_, _, rfl⟩ := hh
          rfl
        case pty => obtain ⟨_, _, rfl⟩ := hh; rfl
        case ptycleanup => obtain ⟨_, _, rfl⟩ := hh; rfl
  · rcases stepPost_round hs with ⟨h1, _⟩ | ⟨a', ha', -, -, hdone⟩
    · rw [h1] at ha; simp at ha
    · rw [ha] at ha'
      obtain rfl : a = a' := by simpa using ha'
      cases hdone with
      | moduli => exact Or.inl rfl
      | sign _ _ _ _ _ => exact Or.inr (Or.inl rfl)
      | pty hpt =>
        rw [o2 _ (by simp)] at hpt
        refine Or.inr (Or.inr ⟨Or.inl rfl, (mergeAll_facts o1).2 ?_⟩)
        simpa [postPermit] using hpt
      | ptycleanup hpt =>
        rw [o2 _ (by simp)] at hpt
        refine Or.inr (Or.inr ⟨Or.inr rfl, (mergeAll_facts o1).2 ?_⟩)
        simpa [postPermit] using hpt

/-! ### C60: what host keys sign -/

/-- **C60.** Before authentication a host key signs at most once, and what it signs has the length of a
hash. -/
theorem C60_before (hh : Hist w c h st) (hs : step w c st ev = (o, st')) {k : Nat} {d : Bytes}
    (ha : o.act = some (.sign k d)) :
    ¬ Served .sign (acts h) ∧ (d.length = 20 ∨ d.length = 32 ∨ d.length = 48 ∨ d.length = 64) := by
  obtain ⟨e, m, v, st1, h1⟩ := act_served hh hs ha
  have hns : ¬ Served .sign (acts h) := h1.facts.may
  refine ⟨hns, ?_⟩
  rcases h1.facts.signable k d rfl with hx | hx | hx | hx | ⟨sid, pub, ⟨k', r, hr⟩, _⟩
  · exact Or.inl hx
  · exact Or.inr (Or.inl hx)
  · exact Or.inr (Or.inr (Or.inl hx))
  · exact Or.inr (Or.inr (Or.inr hx))
  · exfalso
    apply hns
    have : Act.sign k' sid ∈ (acts h).filter fun a => decide (kind a = .sign) := by rw [hr]; simp
    exact ⟨_, (List.mem_filter.1 this).1, rfl⟩

theorem may_signable {as : List Act} (hsid : ∀ s, st.sid = some s → SessionId as s) {k : Nat} {d : Bytes}
    (hm : mayThisBeSigned w st k d = true) : Signable w as k d := by
  unfold mayThisBeSigned at hm
  split at hm
  · split at hm
    · rename_i sid pub h1 h2
      exact Or.inr (Or.inr (Or.inr (Or.inr ⟨sid, pub, hsid sid h1, h2, by simpa [proofText] using hm⟩)))
    · simp at hm
  · rename_i hx
    unfold Signable
    omega

/-- **C60.** After authentication a host key signs hashes, and the statement that it belongs to this
server in the session named by the first signature; the key is one of the server's own. -/
theorem C60_after (hp : Post w c h p st) (hs : stepPost w st ev = (o, st')) {k : Nat} {d : Bytes}
    (ha : o.act = some (.sign k d)) :
    Signable w (acts h ++ acts p) k d ∧ ∃ b, w.hostIndex b = some k := by
  obtain ⟨⟨_, hsid⟩, _⟩ := post_inv hp
  rcases stepPost_round hs with ⟨h1, _⟩ | ⟨a', ha', -, -, hdone⟩
  · rw [h1] at ha; simp at ha
  · rw [ha] at ha'
    obtain rfl : Act.sign k d = a' := by simpa using ha'
    cases hdone with
    | sign _ _ hm hk _ => exact ⟨may_signable (fun s hs => sessionId_more (hsid s hs) _) hm, hk⟩

theorem post_run (hp : Post w c h p st) : Run w c h := by
  induction hp with
  | start ev hh hs _ _ => exact ⟨_, _, ev, hh, by rw [hs]⟩
  | snoc _ _ _ _ ih => exact ih

/-- **C60.** The session identifier never changes: it is the one and only thing signed before
authentication. -/
theorem C60_session (hp : Post w c h p st) : ∃ sid k, st.sid = some sid ∧
    (acts h).filter (fun a => decide (kind a = .sign)) = [.sign k sid] := by
  obtain ⟨⟨_, hsid⟩, s, hs⟩ := post_inv hp
  obtain ⟨k, rest, hr⟩ := hsid s hs
  refine ⟨s, k, hs, ?_⟩
  have hrun : Run w c h := post_run hp
  have hone := C27_once hrun (r := .sign) (by simp)
  rw [List.countP_eq_length_filter, hr] at hone
  cases rest with
  | nil => exact hr
  | cons x xs => simp at hone

/-! ### Concrete conversations -/

/-- Play a list of rounds. -/
def play (w : World) (c : Cfg) : St → List Ev → List (Ev × Out) × St
  | st, [] => ([], st)
  | st, ev :: evs =>
    ((ev, (step w c st ev).1) :: (play w c (step w c st ev).2 evs).1,
      (play w c (step w c st ev).2 evs).2)

theorem play_hist (hh : Hist w c h st) (evs : List Ev)
    (hgo : (play w c st evs).1.all (fun x => decide (x.2.fate = .go)) = true) :
    Hist w c (h ++ (play w c st evs).1) (play w c st evs).2 := by
  induction evs generalizing h st with
  | nil => simpa [play] using hh
  | cons ev evs ih =>
    simp only [play, List.all_cons, Bool.and_eq_true, decide_eq_true_eq] at hgo
    have := ih (.snoc ev hh (Prod.eta _).symm hgo.1) hgo.2
    simpa only [play, List.append_assoc, List.singleton_append] using this

namespace Toy

def wd : World where
  parse := some
  samePublic := fun a b => a == b
  verify := fun _ _ _ _ => some (some 1)
  hostIndex := fun _ => some 0
  hostPublic := fun _ => some b!"host"
  userAlg := fun _ => true
  hostAlg := fun _ => true

def cf : Cfg where
  auth := { enabled := fun _ => true, lists := [b!"publickey,publickey"], maxTries := 6, usePam := false,
            root := .yes, getpw := fun u => if u = b!"alice" then some 1000 else none, bsdauth := false }
  permitEmpty := false
  refuse := false
  touch := true
  uv := false
  oldSid := false

def hash : Bytes := List.replicate 32 7

def signEv : Ev := { msg := 6 :: (str b!"host" ++ str hash ++ str [] ++ be 4 0), ans := { sign := true } }
def nameEv : Ev := { msg := 8 :: str b!"alice" }
def servEv : Ev := { msg := 4 :: (str b!"ssh-connection" ++ str []) }
def askEv (key : Bytes) (o : KeyOpts.Opts) : Ev :=
  { msg := 22 :: (be 4 2 ++ str [] ++ str [] ++ str key ++ be 4 0), ans := { userKey := some o } }
def text (key : Bytes) : Bytes :=
  str hash ++ be 1 50 ++ str b!"alice" ++ str b!"ssh-connection" ++ str b!"publickey" ++ be 1 1 ++
    str b!"alg" ++ str key
def proveEv (key : Bytes) : Ev := { msg := 24 :: (str key ++ str b!"sig" ++ str (text key) ++ str []) }

/-- sign, name the user, two keys without options -/
def good : List Ev := [signEv, nameEv, servEv, askEv b!"k1" { pty := true }, proveEv b!"k1",
  askEv b!"k2" { pty := true }]

/-- two keys bound to different commands -/
def clash : List Ev :=
  [signEv, nameEv, servEv, askEv b!"k1" { command := some b!"ls" }, proveEv b!"k1",
    askEv b!"k2" { command := some b!"id" }]

def hG : List (Ev × Out) := (play wd cf (init cf) good).1
def sG : St := (play wd cf (init cf) good).2
def hC : List (Ev × Out) := (play wd cf (init cf) clash).1
def sC : St := (play wd cf (init cf) clash).2

end Toy

/-- A conversation that satisfies the hypotheses of the theorems above: the child gets one signature,
names the user and proves possession of two keys, and the user is let in. -/
theorem toy_hist : Hist Toy.wd Toy.cf Toy.hG Toy.sG :=
  play_hist .nil Toy.good (by decide +kernel)

example : acts Toy.hG = [.sign 0 Toy.hash, .pwnam b!"alice", .authserv [], .keyAllowed true b!"k1" [] [] true,
    .keyVerify b!"k1" b!"sig" (Toy.text b!"k1") [] true, .keyAllowed true b!"k2" [] [] true] := by
  decide +kernel

example : wins Toy.hG = [(b!"publickey", none)] ∧ Multi Toy.cf.auth := by
  refine ⟨by decide +kernel, by decide, by decide⟩

/-- The second key lets the user in; the same key again, a key that was not asked about, or a request
for something not yet enabled do not. -/
example : (step Toy.wd Toy.cf Toy.sG (Toy.proveEv b!"k2")).1 =
      ⟨some (.keyVerify b!"k2" b!"sig" (Toy.text b!"k2") [] true), some ⟨.accepted, b!"publickey", none⟩,
        .accepted⟩ ∧
    (step Toy.wd Toy.cf Toy.sG (Toy.proveEv b!"k3")).1.fate = .dead ∧
    (step Toy.wd Toy.cf Toy.sG Toy.signEv).1.fate = .dead ∧
    (step Toy.wd Toy.cf Toy.sG { msg := [104] }).1.fate = .dead ∧
    (step Toy.wd Toy.cf Toy.sG (Toy.askEv b!"k1" {})).1.act = some (.keyAllowed true b!"k1" [] [] false) := by
  decide +kernel

/-- **A flaw in the code.** `mm_answer_keyverify` does not look at the result of merging the options
of a second key. If the two keys are bound to different commands there are no options left: the
monitor still lets the user in and then uses a NULL pointer, before anything is done for the user. -/
theorem C27_clash_crashes : Hist Toy.wd Toy.cf Toy.hC Toy.sC ∧
    (step Toy.wd Toy.cf Toy.sC (Toy.proveEv b!"k2")).1.fate = .accepted ∧
    postInit (step Toy.wd Toy.cf Toy.sC (Toy.proveEv b!"k2")).2 = none := by
  refine ⟨play_hist .nil Toy.clash (by decide +kernel), by decide +kernel, ?_⟩
  have : ((step Toy.wd Toy.cf Toy.sC (Toy.proveEv b!"k2")).2.opts).isNone = true := by decide +kernel
  unfold postInit
  rw [Option.isNone_iff_eq_none.1 this]

/-- After the good conversation the server can be asked for proof of its other host keys. -/
def Toy.sP : St := (step Toy.wd Toy.cf Toy.sG (Toy.proveEv b!"k2")).2

theorem toy_post : ∃ s h, postInit Toy.sP = some s ∧ Post Toy.wd Toy.cf h [] s := by
  cases hp : postInit Toy.sP with
  | none =>
    have : (postInit Toy.sP).isSome = true := by decide +kernel
    rw [hp] at this
    simp at this
  | some s =>
    exact ⟨s, _, rfl, .start (Toy.proveEv b!"k2") toy_hist (Prod.eta _).symm (by decide +kernel) hp⟩

example : (postInit Toy.sP).map (fun s =>
    ((stepPost Toy.wd s { msg := 6 :: (str b!"host" ++ str (proofText Toy.hash b!"host") ++ str [] ++ be 4 0), ans := { sign := true } }).1.fate,
     (stepPost Toy.wd s { msg := 6 :: (str b!"host" ++ str (proofText b!"other" b!"host") ++ str [] ++ be 4 0), ans := { sign := true } }).1.fate,
     (stepPost Toy.wd s { msg := [28] }).1.act)) = some (.go, .dead, some .pty) := by
  decide +kernel

end Verif.Monitor
