/-
Every handler keeps the record straight.
-/
import Verif.Monitor.Inv

namespace Verif.Monitor

open Wire Spec
open Auth.Spec (Fulfils steps Usable Multi RootMay Sat stepOf Known)

/-- The entries of the first table that may be used more than once. -/
theorem preTable_once {e : Ent} (he : e ∈ preTable) : e.once = true ∨ e.req = .authpassword ∨
    e.req = .keyallowed ∨ e.req = .keyverify ∨ e.req = .pamAccount ∨ e.req = .pamQuery := by
  simp only [preTable, List.mem_cons, List.not_mem_nil, or_false] at he
  rcases he with rfl | rfl | rfl | rfl | rfl | rfl | rfl | rfl | rfl | rfl | rfl | rfl | rfl | rfl | rfl <;>
    simp

theorem permI_useOnce {w : World} {c : Cfg} {as : List Act} {g} {st : St} (hi : InvA w c as g st)
    {a : Act} {e : Ent} (he : e ∈ preTable) (hk : kind a = e.req) {r : Req}
    (h : st.permit r = true) (hr : e.once = true → r ≠ e.req) : PermI (as ++ [a]) r := by
  by_cases hne : r = kind a
  · subst hne
    have h0 := hi.perm _ h
    rw [hk] at h0 ⊢
    rcases preTable_once he with ho | ho | ho | ho | ho | ho
    · exact absurd hk (hr ho)
    all_goals
      rw [ho] at h0 ⊢
      simp only [PermI, served_snoc] at h0 ⊢
      try exact Or.inl h0
  · exact permI_keep hi h hne fun hx => fun hy => hne (hy.trans hx.symm)

theorem useOnce_permit (e : Ent) (st : St) (r : Req) :
    (useOnce e st).permit r = true ↔ st.permit r = true ∧ (e.once = true → r ≠ e.req) := by
  unfold useOnce
  split
  · rename_i h
    simp only [setPermit]
    split
    · rename_i h2; simp [h, h2]
    · rename_i h2; simp [h2]
  · rename_i h; simp [h]

theorem useOnce_rest (e : Ent) (st : St) :
    (useOnce e st).attempt = st.attempt ∧ (useOnce e st).user = st.user ∧
    (useOnce e st).uid = st.uid ∧ (useOnce e st).valid = st.valid ∧
    (useOnce e st).style = st.style ∧ (useOnce e st).sid = st.sid ∧
    (useOnce e st).key = st.key ∧ (useOnce e st).prevKeys = st.prevKeys ∧
    (useOnce e st).opts = st.opts ∧ (useOnce e st).pamCtx = st.pamCtx ∧
    (useOnce e st).pamOk = st.pamOk ∧ (useOnce e st).multi = st.multi ∧
    (useOnce e st).lists = st.lists ∧ (useOnce e st).failures = st.failures ∧
    (useOnce e st).method = st.method ∧ (useOnce e st).sub = st.sub := by
  unfold useOnce
  split <;> simp

/-- what the state of another round has in common with the previous one -/
def SameCore (st st' : St) : Prop :=
  st'.attempt = st.attempt ∧ st'.user = st.user ∧ st'.uid = st.uid ∧ st'.valid = st.valid ∧
  st'.style = st.style ∧ st'.sid = st.sid ∧ st'.key = st.key ∧ st'.prevKeys = st.prevKeys ∧
  st'.opts = st.opts

theorem sameCore_once {st st' : St} (e : Ent) (h : SameCore st st') : SameCore st (useOnce e st') := by
  obtain ⟨a1, a2, a3, a4, a5, a6, a7, a8, a9, _⟩ := useOnce_rest e st'
  unfold SameCore at h ⊢
  rw [a1, a2, a3, a4, a5, a6, a7, a8, a9]
  exact h

/-- What a handler that returned leaves behind. -/
structure Good (w : World) (c : Cfg) (as : List Act) (g : Option KeyOpts.Opts × List KeyOpts.Opts)
    (ev : Ev) (st : St) (e : Ent) (v : Bool) (st1 : St) (a : Act) : Prop where
  inv : ∀ o : Out, o.act = some a → InvA w c (as ++ [a]) (grantStep g (ev, o)) (useOnce e st1)
  may : May c as e.req
  kind : kind a = e.req
  says : v = true → yes a = true ∨ e.req = .pamAccount
  lists : e.req ≠ .pwnam → st1.multi = st.multi ∧ st1.lists = st.lists
  failures : st1.failures = st.failures
  setup : e.req = .pwnam → v = false ∧ st1.multi = (monLists c).1 ∧ st1.lists = (monLists c).2 ∧
    ¬ Served .pwnam as

variable {w : World} {c : Cfg} {as : List Act} {g : Option KeyOpts.Opts × List KeyOpts.Opts} {ev : Ev}
  {st st1 : St} {e : Ent} {v : Bool} {a : Act} {m : Bytes}

/-- The requests that change no more than the table. -/
theorem good_table (hi : InvA w c as g st) (he : e ∈ preTable)
    (hk : kind a = e.req) (hmay : May c as e.req)
    (hq : kind a ≠ .keyallowed ∧ kind a ≠ .keyverify ∧ kind a ≠ .pwnam ∧ kind a ≠ .authserv ∧
      kind a ≠ .sign ∧ kind a ≠ .pamInit ∧ kind a ≠ .pamFree ∧ kind a ≠ .pamQuery ∧
      kind a ≠ .pamRespond)
    (hpw : kind a = .pamStart ∨ kind a = .banner → Served .pwnam as)
    (hperm : ∀ r, st1.permit r = true → st.permit r = true ∨ PermI (as ++ [a]) r)
    (hc : SameCore st st1 ∧ st1.pamCtx = st.pamCtx ∧ st1.pamOk = st.pamOk ∧ st1.multi = st.multi ∧
      st1.lists = st.lists ∧ st1.failures = st.failures)
    (hsays : v = true → yes a = true ∨ e.req = .pamAccount) : Good w c as g ev st e v st1 a := by
  obtain ⟨q1, q2, q3, q4, q5, q6, q7, q8, q9⟩ := hq
  obtain ⟨c0, c1, c2, c3, c4, c5⟩ := hc
  have hrest := useOnce_rest e st1
  refine ⟨?_, hmay, hk, hsays, fun _ => ⟨c3, c4⟩, c5,
    fun h => absurd (hk.trans h) q3⟩
  intro o ho
  rw [grant_quiet ho q1 q2]
  refine invA_quiet hi ⟨q1, q2, q3, q4, q5⟩ hpw (fun h => absurd h (by simp [q6, q7])) ?_ ?_ ?_ (sameCore_once e c0)
  · intro r hr
    obtain ⟨h1, h2⟩ := (useOnce_permit e st1 r).1 hr
    rcases hperm r h1 with h | h
    · exact permI_useOnce hi he hk h h2
    · exact h
  · rw [talking_quiet q6 q7, hrest.2.2.2.2.2.2.2.2.2.1, c1]; exact hi.talking
  · rw [ok_quiet q6 q7 q8 q9, hrest.2.2.2.2.2.2.2.2.2.2.1, c2]; exact hi.pamOk

theorem sameCore_rfl (st : St) : SameCore st st := ⟨rfl, rfl, rfl, rfl, rfl, rfl, rfl, rfl, rfl⟩

theorem good_state (hi : InvA w c as g st) (he : e ∈ preTable) (hr : e.req = .state)
    (hp : st.permit e.req = true) : Good w c as g ev st e false st .state := by
  have hpi := hi.perm _ hp
  rw [hr] at hpi
  refine good_table hi he hr.symm (by rw [hr]; exact hpi) (by simp [kind]) (by simp [kind])
    (fun r h => Or.inl h) ⟨sameCore_rfl st, rfl, rfl, rfl, rfl, rfl⟩ (by simp)

theorem good_banner (hi : InvA w c as g st) (he : e ∈ preTable) (hr : e.req = .banner)
    (hp : st.permit e.req = true) : Good w c as g ev st e false st .banner := by
  have hpi := hi.perm _ hp
  rw [hr] at hpi
  refine good_table hi he hr.symm (by rw [hr]; exact hpi) (by simp [kind])
    (fun _ => hpi.1) (fun r h => Or.inl h) ⟨sameCore_rfl st, rfl, rfl, rfl, rfl, rfl⟩ (by simp)

theorem good_moduli (hi : InvA w c as g st) (he : e ∈ preTable) (hr : e.req = .moduli)
    (hp : st.permit e.req = true) (h : answerModuli st m = .ret v st1 a) :
    Good w c as g ev st e v st1 a := by
  have hpi := hi.perm _ hp
  rw [hr] at hpi
  unfold answerModuli at h
  repeat' split at h
  all_goals try contradiction
  simp only [Res.ret.injEq] at h
  obtain ⟨rfl, rfl, rfl⟩ := h
  refine good_table hi he hr.symm (by rw [hr]; exact hpi) (by simp [kind]) (by simp [kind])
    (fun r h => Or.inl h) ⟨sameCore_rfl st, rfl, rfl, rfl, rfl, rfl⟩ (by simp)

theorem good_password (hi : InvA w c as g st) (he : e ∈ preTable) (hr : e.req = .authpassword)
    (hp : st.permit e.req = true) {an : Ans} (h : answerPassword c st m an = .ret v st1 a) :
    Good w c as g ev st e v st1 a := by
  have hpi := hi.perm _ hp
  rw [hr] at hpi
  unfold answerPassword at h
  split at h
  · rename_i hen
    split at h
    · simp at h
    · rename_i pw _ _
      rw [Res.ret.injEq] at h
      obtain ⟨rfl, rfl, rfl⟩ := h
      refine good_table hi he hr.symm (by rw [hr]; exact ⟨hpi, hen⟩) (by simp [kind]) (by simp [kind])
        (fun r h => Or.inl h)
        ⟨⟨rfl, rfl, rfl, rfl, rfl, rfl, rfl, rfl, rfl⟩, rfl, rfl, rfl, rfl, rfl⟩ ?_
      intro hv
      exact Or.inl hv
  · simp at h

theorem good_pamStart (hi : InvA w c as g st) (he : e ∈ preTable) (hr : e.req = .pamStart)
    (hp : st.permit e.req = true) (h : answerPamStart c st = .ret v st1 a) :
    Good w c as g ev st e v st1 a := by
  have hpi := hi.perm _ hp
  rw [hr] at hpi
  unfold answerPamStart at h
  split at h
  · rename_i hu
    simp only [Res.ret.injEq] at h
    obtain ⟨rfl, rfl, rfl⟩ := h
    refine good_table hi he hr.symm (by rw [hr]; exact ⟨hu, hpi⟩) (by simp [kind]) (fun _ => hpi.1) ?_
      ⟨⟨rfl, rfl, rfl, rfl, rfl, rfl, rfl, rfl, rfl⟩, rfl, rfl, rfl, rfl, rfl⟩ (by simp)
    intro r h
    by_cases h1 : r = .pamAccount
    · subst h1; right; simp [PermI, served_snoc, kind]
    · by_cases h2 : r = .pamInit
      · subst h2; right; simp [PermI, last_snoc, kind]
      · left
        unfold pamStartPermit at h
        split at h <;> simpa [setPermit, h1, h2] using h
  · simp at h

theorem good_pamAccount (hi : InvA w c as g st) (he : e ∈ preTable) (hr : e.req = .pamAccount)
    (hp : st.permit e.req = true) {an : Ans} (h : answerPamAccount c st an = .ret v st1 a) :
    Good w c as g ev st e v st1 a := by
  have hpi := hi.perm _ hp
  rw [hr] at hpi
  unfold answerPamAccount at h
  split at h
  · simp only [Res.ret.injEq] at h
    obtain ⟨rfl, rfl, rfl⟩ := h
    exact good_table hi he hr.symm (by rw [hr]; exact hpi) (by simp [kind]) (by simp [kind])
      (fun r h => Or.inl h) ⟨sameCore_rfl st, rfl, rfl, rfl, rfl, rfl⟩ (fun _ => Or.inr hr)
  · simp at h

/-- PAM conversation requests -/
theorem good_pam (hi : InvA w c as g st) (he : e ∈ preTable)
    (hk : kind a = e.req) (hmay : May c as e.req)
    (hq : kind a ≠ .keyallowed ∧ kind a ≠ .keyverify ∧ kind a ≠ .pwnam ∧ kind a ≠ .authserv ∧
      kind a ≠ .sign ∧ kind a ≠ .pamStart ∧ kind a ≠ .banner)
    (hpi : kind a = .pamInit ∨ kind a = .pamFree → Served .pamStart as)
    (hperm : ∀ r, st1.permit r = true → st.permit r = true ∨ PermI (as ++ [a]) r)
    (htalk : st1.pamCtx = true ↔ Talking (as ++ [a]))
    (hok : st1.pamOk = true →
      last [.pamInit, .pamQuery, .pamRespond, .pamFree] (as ++ [a]) = some (.pamQuery true) ∨
      last [.pamInit, .pamQuery, .pamRespond, .pamFree] (as ++ [a]) = some (.pamRespond true))
    (hc : SameCore st st1 ∧ st1.multi = st.multi ∧ st1.lists = st.lists ∧ st1.failures = st.failures)
    (hsays : v = true → yes a = true ∨ e.req = .pamAccount) : Good w c as g ev st e v st1 a := by
  obtain ⟨q1, q2, q3, q4, q5, q6, q7⟩ := hq
  obtain ⟨c0, c3, c4, c5⟩ := hc
  have hrest := useOnce_rest e st1
  refine ⟨?_, hmay, hk, hsays, fun _ => ⟨c3, c4⟩, c5,
    fun h => absurd (hk.trans h) q3⟩
  intro o ho
  rw [grant_quiet ho q1 q2]
  refine invA_quiet hi ⟨q1, q2, q3, q4, q5⟩ (fun h => absurd h (by simp [q6, q7])) hpi ?_ ?_ ?_
    (sameCore_once e c0)
  · intro r hr
    obtain ⟨h1, h2⟩ := (useOnce_permit e st1 r).1 hr
    rcases hperm r h1 with h | h
    · exact permI_useOnce hi he hk h h2
    · exact h
  · rw [hrest.2.2.2.2.2.2.2.2.2.1]; exact htalk
  · rw [hrest.2.2.2.2.2.2.2.2.2.2.1]; exact hok

theorem good_pamInit (hi : InvA w c as g st) (he : e ∈ preTable) (hr : e.req = .pamInit)
    (hp : st.permit e.req = true) {an : Ans} (h : answerPamInit c st an = .ret v st1 a) :
    Good w c as g ev st e v st1 a := by
  have hpi := hi.perm _ hp
  rw [hr] at hpi
  have hst : Served .pamStart as := by
    rcases hpi with h | ⟨b, h⟩
    · exact last_served h
    · exact hi.order5 (Or.inr (last_served h))
  unfold answerPamInit at h
  split at h
  · rename_i hen
    split at h
    · simp at h
    · rename_i hctx
      split at h
      · simp only [Res.ret.injEq] at h
        obtain ⟨rfl, rfl, rfl⟩ := h
        refine good_pam hi he hr.symm (by rw [hr]; exact ⟨hen, hpi⟩) (by simp [kind]) (fun _ => hst) ?_ ?_ (by simp)
          ⟨⟨rfl, rfl, rfl, rfl, rfl, rfl, rfl, rfl, rfl⟩, rfl, rfl, rfl⟩ (by simp)
        · intro r h
          by_cases h1 : r = .pamQuery
          · subst h1; right; simp [PermI]
          · by_cases h2 : r = .pamFree
            · subst h2; right; simp [PermI]
            · left; simpa [setPermit, h1, h2] using h
        · simp [Talking, last_snoc, kind]
      · simp only [Res.ret.injEq] at h
        obtain ⟨rfl, rfl, rfl⟩ := h
        refine good_pam hi he hr.symm (by rw [hr]; exact ⟨hen, hpi⟩) (by simp [kind]) (fun _ => hst)
          (fun r h => Or.inl h) ?_ (by simp)
          ⟨⟨rfl, rfl, rfl, rfl, rfl, rfl, rfl, rfl, rfl⟩, rfl, rfl, rfl⟩ (by simp)
        simp [Talking, last_snoc, kind, hctx]
  · simp at h

theorem good_pamQuery (hi : InvA w c as g st) (he : e ∈ preTable) (hr : e.req = .pamQuery)
    {an : Ans} (h : answerPamQuery st an = .ret v st1 a) :
    Good w c as g ev st e v st1 a := by
  unfold answerPamQuery at h
  repeat' split at h
  all_goals try contradiction
  rename_i hctx _ z n _ _
  simp only [Res.ret.injEq] at h
  obtain ⟨rfl, rfl, rfl⟩ := h
  have ht := hi.talking.1 hctx
  refine good_pam hi he hr.symm (by rw [hr]; exact ht) (by simp [kind]) (by simp [kind]) ?_ ?_ ?_
      ⟨⟨rfl, rfl, rfl, rfl, rfl, rfl, rfl, rfl, rfl⟩, rfl, rfl, rfl⟩ (by simp)
  · intro r h
    by_cases h1 : r = .pamRespond
    · subst h1; right; simp [PermI, last_snoc, kind]
    · left; simpa [setPermit, h1] using h
  · rw [talking_quiet (by simp [kind]) (by simp [kind])]; exact hi.talking
  · intro h
    simp only at h
    left
    simp [last_snoc, kind, h]

theorem good_pamRespond (hi : InvA w c as g st) (he : e ∈ preTable) (hr : e.req = .pamRespond)
    (hp : st.permit e.req = true) {an : Ans} (h : answerPamRespond st m an = .ret v st1 a) :
    Good w c as g ev st e v st1 a := by
  have hpi := hi.perm _ hp
  rw [hr] at hpi
  unfold answerPamRespond at h
  repeat' split at h
  all_goals try contradiction
  rename_i hctx _ _ _ _ _ _ _ _
  simp only [Res.ret.injEq] at h
  obtain ⟨rfl, rfl, rfl⟩ := h
  have ht := hi.talking.1 hctx
  refine good_pam hi he hr.symm (by rw [hr]; exact ⟨ht, hpi⟩) (by simp [kind]) (by simp [kind])
      (fun r h => Or.inl h) ?_ ?_
      ⟨⟨rfl, rfl, rfl, rfl, rfl, rfl, rfl, rfl, rfl⟩, rfl, rfl, rfl⟩ (by simp)
  · rw [talking_quiet (by simp [kind]) (by simp [kind])]; exact hi.talking
  · intro h
    simp only at h
    right
    simp [last_snoc, kind, h]

theorem good_pamFree (hi : InvA w c as g st) (he : e ∈ preTable) (hr : e.req = .pamFree)
    (h : answerPamFree st = .ret v st1 a) :
    Good w c as g ev st e v st1 a := by
  unfold answerPamFree at h
  split at h
  · rename_i hctx
    simp only [Res.ret.injEq] at h
    obtain ⟨rfl, rfl, rfl⟩ := h
    have ht := hi.talking.1 hctx
    refine good_pam hi he hr.symm (by rw [hr]; exact ht) (by simp [kind])
      (fun _ => hi.order5 (Or.inl (last_served ht))) ?_ ?_ (by simp)
      ⟨⟨rfl, rfl, rfl, rfl, rfl, rfl, rfl, rfl, rfl⟩, rfl, rfl, rfl⟩ ?_
    · intro r h
      by_cases h1 : r = .pamInit
      · subst h1; right; simp [PermI, last_snoc, kind]
      · left; simpa [setPermit, h1] using h
    · simp [Talking, last_snoc, kind]
    · intro hv; exact Or.inl hv
  · simp at h

/-! ### Requests that change more than the table -/

theorem served_of_mem {as : List Act} {a : Act} (h : a ∈ as) : Served (kind a) as := ⟨a, h, rfl⟩

/-- the part of the record that concerns keys and PAM, for a request about something else -/
theorem invA_named {a : Act} {st' : St} (hi : InvA w c as g st)
    (hk : kind a = .pwnam ∨ kind a = .authserv ∨ kind a = .sign)
    (hperm : ∀ r, st'.permit r = true → PermI (as ++ [a]) r)
    (horder : (kind a = .pwnam → Served .sign as) ∧ (kind a = .authserv → Served .pwnam as))
    (hatt : st'.attempt = 0 ↔ ¬ Served .pwnam (as ++ [a]))
    (hwho : ∀ u, .pwnam u ∈ as ++ [a] → st'.user = u ∧ st'.uid = c.auth.getpw u)
    (hnob : ¬ Served .pwnam (as ++ [a]) → st'.valid = false)
    (hval : st'.valid = st'.uid.isSome)
    (hsty : ∀ s, .authserv s ∈ as ++ [a] → st'.style = if s = [] then none else some s)
    (hnosid : st'.sid = none → ¬ Served .sign (as ++ [a]))
    (hsid : ∀ s, st'.sid = some s → SessionId (as ++ [a]) s)
    (he : st'.pamCtx = st.pamCtx ∧ st'.pamOk = st.pamOk ∧ st'.key = st.key ∧
      st'.prevKeys = st.prevKeys ∧ st'.opts = st.opts) : InvA w c (as ++ [a]) g st' := by
  obtain ⟨e1, e2, e3, e4, e5⟩ := he
  have n1 : kind a ≠ .keyallowed := by rcases hk with h | h | h <;> simp [h]
  have n2 : kind a ≠ .keyverify := by rcases hk with h | h | h <;> simp [h]
  have n3 : kind a ≠ .pamInit := by rcases hk with h | h | h <;> simp [h]
  have n4 : kind a ≠ .pamFree := by rcases hk with h | h | h <;> simp [h]
  have n5 : kind a ≠ .pamQuery := by rcases hk with h | h | h <;> simp [h]
  have n6 : kind a ≠ .pamRespond := by rcases hk with h | h | h <;> simp [h]
  have n7 : kind a ≠ .pamStart := by rcases hk with h | h | h <;> simp [h]
  have n8 : kind a ≠ .banner := by rcases hk with h | h | h <;> simp [h]
  have hl : last [.keyallowed, .keyverify] (as ++ [a]) = last [.keyallowed, .keyverify] as := by
    rw [last_snoc, if_neg (by simp [n1, n2])]
  refine ⟨hperm, ?_, ?_, ?_, ?_, ?_, hatt, hwho, hnob, hval, hsty, hnosid, hsid, ?_, ?_, ?_, ?_, ?_, ?_⟩
  · simp only [served_snoc]; rintro (h | h)
    · exact Or.inl (hi.order1 h)
    · exact Or.inl (horder.1 h)
  · simp only [served_snoc]; rintro (h | h)
    · exact Or.inl (hi.order2 h)
    · exact Or.inl (horder.2 h)
  · simp only [served_snoc]; rintro (h | h)
    · exact Or.inl (hi.order3 h)
    · exact absurd h n7
  · simp only [served_snoc]; rintro (h | h)
    · exact Or.inl (hi.order4 h)
    · exact absurd h n8
  · simp only [served_snoc]; rintro ((h | h) | (h | h))
    · exact Or.inl (hi.order5 (Or.inl h))
    · exact absurd h n3
    · exact Or.inl (hi.order5 (Or.inr h))
    · exact absurd h n4
  · rw [e1, talking_quiet n3 n4]; exact hi.talking
  · rw [e2, ok_quiet n3 n4 n5 n6]; exact hi.pamOk
  · intro ks hks
    rw [e3] at hks
    rw [hl, usedKeys_snoc w as a (Or.inr n2)]
    exact hi.key ks hks
  · intro k cu ch h
    rw [hl] at h
    exact hi.noUser k cu ch h
  · rw [e4, usedKeys_snoc w as a (Or.inr n2)]; exact hi.prev
  · rw [e5]; exact hi.opts

theorem mem_other {as : List Act} {x a : Act} (h : x ∈ as ++ [a]) (hne : kind x ≠ kind a) : x ∈ as := by
  rcases List.mem_append.1 h with hx | hx
  · exact hx
  · rw [List.mem_singleton.1 hx] at hne; exact absurd rfl hne

theorem perm_after {a : Act} (hi : InvA w c as g st) (he : e ∈ preTable) (hk : kind a = e.req)
    (hperm : ∀ r, st1.permit r = true → st.permit r = true ∨ PermI (as ++ [a]) r) :
    ∀ r, (useOnce e st1).permit r = true → PermI (as ++ [a]) r := by
  intro r hr
  obtain ⟨h1, h2⟩ := (useOnce_permit e st1 r).1 hr
  rcases hperm r h1 with h | h
  · exact permI_useOnce hi he hk h h2
  · exact h

theorem good_pwnam (hi : InvA w c as g st) (he : e ∈ preTable) (hr : e.req = .pwnam)
    (hp : st.permit e.req = true) (h : answerPwnam c st m = .ret v st1 a) :
    Good w c as g ev st e v st1 a := by
  have hpi := hi.perm _ hp
  rw [hr] at hpi
  unfold answerPwnam at h
  repeat' split at h
  all_goals try contradiction
  rename_i u _ _ _
  rw [Res.ret.injEq] at h
  obtain ⟨rfl, rfl, rfl⟩ := h
  refine ⟨?_, by rw [hr]; exact hpi, hr.symm, by simp, fun h => absurd hr h, rfl,
    fun _ => ⟨rfl, rfl, rfl, hpi.2⟩⟩
  intro o ho
  rw [grant_quiet ho (by simp [kind]) (by simp [kind])]
  have hrest := useOnce_rest e { st with
    attempt := st.attempt + 1, user := u, uid := c.auth.getpw u,
    valid := (c.auth.getpw u).isSome, multi := (monLists c).1,
    lists := (monLists c).2, permit := pwnamPermit c st.permit }
  obtain ⟨r1, r2, r3, r4, r5, r6, r7, r8, r9, r10, r11, _⟩ := hrest
  refine invA_named hi (Or.inl rfl) (perm_after hi he hr.symm ?_) ⟨fun _ => hpi.1, by simp [kind]⟩
    ?_ ?_ ?_ ?_ ?_ ?_ ?_ ⟨r10, r11, r7, r8, r9⟩
  · intro r h
    by_cases h1 : r = .authserv
    · subst h1; right
      simp only [PermI, served_snoc, kind]
      exact ⟨by simp, fun h => h.elim (fun h => hpi.2 (hi.order2 h)) (by simp)⟩
    · by_cases h2 : r = .banner
      · subst h2; right
        simp only [PermI, served_snoc, kind]
        exact ⟨by simp, fun h => h.elim (fun h => hpi.2 (hi.order4 h)) (by simp)⟩
      · by_cases h3 : r = .pamStart
        · subst h3; right
          simp only [PermI, served_snoc, kind]
          exact ⟨by simp, fun h => h.elim (fun h => hpi.2 (hi.order3 h)) (by simp)⟩
        · left
          simp only [pwnamPermit] at h
          split at h <;> simpa [setPermit, h1, h2, h3] using h
  · rw [r1]; simp [served_snoc, kind]
  · intro u' hu'
    rw [r2, r3]
    rcases List.mem_append.1 hu' with h | h
    · exact absurd (served_of_mem h) hpi.2
    · simp at h; simp [h]
  · simp [served_snoc, kind]
  · rw [r3, r4]
  · intro s hs
    have := served_of_mem (mem_other hs (by simp [kind]))
    exact absurd (hi.order2 this) hpi.2
  · intro h
    rw [r6] at h
    rw [served_snoc]
    rintro (h' | h')
    · exact hi.noSid h h'
    · simp [kind] at h'
  · intro s h
    rw [r6] at h
    exact sessionId_snoc (hi.sid s h) _

theorem good_authserv (hi : InvA w c as g st) (he : e ∈ preTable) (hr : e.req = .authserv)
    (hp : st.permit e.req = true) (h : answerAuthserv st m = .ret v st1 a) :
    Good w c as g ev st e v st1 a := by
  have hpi := hi.perm _ hp
  rw [hr] at hpi
  unfold answerAuthserv at h
  split at h
  · simp at h
  · split at h
    · simp at h
    · rename_i s _ _
      rw [Res.ret.injEq] at h
      obtain ⟨rfl, rfl, rfl⟩ := h
      refine ⟨?_, by rw [hr]; exact hpi, hr.symm, by simp, fun _ => ⟨rfl, rfl⟩, rfl, by simp [hr]⟩
      intro o ho
      rw [grant_quiet ho (by simp [kind]) (by simp [kind])]
      have hrest := useOnce_rest e { st with
        permit := permitAuth preTable st.permit true, style := if s = [] then none else some s }
      obtain ⟨r1, r2, r3, r4, r5, r6, r7, r8, r9, r10, r11, _⟩ := hrest
      refine invA_named hi (Or.inr (Or.inl rfl)) (perm_after hi he hr.symm ?_)
        ⟨by simp [kind], fun _ => hpi.1⟩ ?_ ?_ ?_ ?_ ?_ ?_ ?_ ⟨r10, r11, r7, r8, r9⟩
      · intro r h
        simp only [permitAuth] at h
        split at h
        · rename_i hany
          right
          simp only [preTable, List.any_cons, List.any_nil, Bool.or_false, Bool.false_or,
            Bool.and_false, Bool.and_true, Bool.true_or, Bool.or_eq_true, decide_eq_true_eq] at hany
          rcases hany with rfl | rfl | rfl | rfl <;> simp [PermI, served_snoc, kind]
        · exact Or.inl h
      · rw [r1, hi.attempt]; simp [served_snoc, kind]
      · intro u hu
        rw [r2, r3]
        exact hi.who u (mem_other hu (by simp [kind]))
      · intro h
        rw [r4]
        exact hi.nobody fun h' => h ((served_snoc _ _ _).2 (Or.inl h'))
      · rw [r3, r4]; exact hi.valid
      · intro s' hs
        rw [r5]
        rcases List.mem_append.1 hs with h | h
        · exact absurd (served_of_mem h) hpi.2
        · simp at h; rw [h]
      · intro h
        rw [r6] at h
        rw [served_snoc]
        rintro (h' | h')
        · exact hi.noSid h h'
        · simp [kind] at h'
      · intro s h
        rw [r6] at h
        exact sessionId_snoc (hi.sid s h) _

theorem signable {k : Nat} {d : Bytes} (hi : ∀ s, st.sid = some s → SessionId as s)
    (h : mayThisBeSigned w st k d = true) : Signable w as k d := by
  unfold mayThisBeSigned at h
  unfold Signable
  split at h
  · split at h
    · rename_i sid pub h1 h2
      simp only [decide_eq_true_eq] at h
      exact Or.inr (Or.inr (Or.inr (Or.inr ⟨sid, pub, hi _ h1, h2, h⟩)))
    · simp at h
  · rename_i hn
    omega

theorem good_sign (hi : InvA w c as g st) (he : e ∈ preTable) (hr : e.req = .sign)
    (hp : st.permit e.req = true) {an : Ans} (h : answerSign w st m an = .ret v st1 a) :
    Good w c as g ev st e v st1 a ∧ ∃ k d, a = .sign k d ∧ Signable w as k d := by
  have hpi := hi.perm _ hp
  rw [hr] at hpi
  unfold answerSign at h
  repeat' split at h
  all_goals try contradiction
  rename_i key d _ _ k _ hsg _
  rw [Res.ret.injEq] at h
  obtain ⟨rfl, rfl, rfl⟩ := h
  refine ⟨⟨?_, by rw [hr]; exact hpi, hr.symm, by simp, fun _ => ⟨rfl, rfl⟩, rfl, by simp [hr]⟩, k, d, rfl,
    signable hi.sid hsg⟩
  intro o ho
  rw [grant_quiet ho (by simp [kind]) (by simp [kind])]
  have hrest := useOnce_rest e { st with
    sid := saveSid st d, permit := setPermit st.permit .pwnam true }
  obtain ⟨r1, r2, r3, r4, r5, r6, r7, r8, r9, r10, r11, _⟩ := hrest
  have hnp : ¬ Served .pwnam as := fun h => hpi (hi.order1 h)
  refine invA_named hi (Or.inr (Or.inr rfl)) (perm_after hi he hr.symm ?_)
    ⟨by simp [kind], by simp [kind]⟩ ?_ ?_ ?_ ?_ ?_ ?_ ?_ ⟨r10, r11, r7, r8, r9⟩
  · intro r h
    by_cases h1 : r = .pwnam
    · subst h1; right
      simp only [PermI, served_snoc, kind]
      exact ⟨by simp, fun h => h.elim hnp (by simp)⟩
    · left; simpa [setPermit, h1] using h
  · rw [r1, hi.attempt]; simp [served_snoc, kind]
  · intro u hu
    rw [r2, r3]
    exact hi.who u (mem_other hu (by simp [kind]))
  · intro h
    rw [r4]
    exact hi.nobody fun h' => h ((served_snoc _ _ _).2 (Or.inl h'))
  · rw [r3, r4]; exact hi.valid
  · intro s hs
    rw [r5]
    exact hi.style s (mem_other hs (by simp [kind]))
  · intro h
    rw [r6] at h
    simp only [saveSid] at h
    split at h <;> simp at h
  · intro s h
    rw [r6] at h
    simp only [saveSid] at h
    split at h
    · simp only [Option.some.injEq] at h
      subst h
      refine ⟨k, [], ?_⟩
      rw [List.filter_append]
      have : as.filter (fun a => decide (kind a = .sign)) = [] := by
        rw [List.filter_eq_nil_iff]
        intro x hx
        simp only [decide_eq_true_eq]
        intro hk
        exact hpi ⟨x, hx, hk⟩
      rw [this]
      simp [kind]
    · rename_i s' hs'
      simp only [Option.some.injEq] at h
      subst h
      exact sessionId_snoc (hi.sid _ hs') _

end Verif.Monitor
