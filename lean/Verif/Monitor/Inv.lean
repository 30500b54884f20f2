/-
What the monitor's state records about the conversation so far.
-/
import Verif.Monitor.Lemmas

namespace Verif.Monitor

open Wire Spec
open Auth.Spec (Fulfils steps Usable Multi RootMay Sat stepOf Known)

/-- what a permitted request says about the past -/
def PermI (as : List Act) : Req → Prop
  | .state => ¬ Served .state as
  | .moduli => ¬ Served .moduli as
  | .sign => ¬ Served .sign as
  | .pwnam => Served .sign as ∧ ¬ Served .pwnam as
  | .authserv => Served .pwnam as ∧ ¬ Served .authserv as
  | .banner => Served .pwnam as ∧ ¬ Served .banner as
  | .pamStart => Served .pwnam as ∧ ¬ Served .pamStart as
  | .authpassword => Served .authserv as
  | .keyallowed => Served .authserv as
  | .keyverify => Served .authserv as
  | .pamAccount => Served .pamStart as
  | .pamInit => last [.pamStart, .pamInit, .pamFree] as = some .pamStart ∨
        ∃ b, last [.pamStart, .pamInit, .pamFree] as = some (.pamFree b)
  | .pamRespond => ∃ b, last [.pamQuery, .pamRespond] as = some (.pamQuery b)
  | _ => True

/-- the keys with which a signature was made, latest first -/
def usedKeys (w : World) (as : List Act) : List Bytes :=
  (as.filterMap fun a => match a with
    | .keyVerify b _ _ _ true => w.parse b
    | _ => none).reverse

/-- the options in force after several keys -/
def mergeAll (gs : List KeyOpts.Opts) : Option KeyOpts.Opts :=
  gs.foldl (fun p o => p.bind fun p => KeyOpts.merge p o) (some KeyOpts.keysDefaults)

structure InvA (w : World) (c : Cfg) (as : List Act) (g : Option KeyOpts.Opts × List KeyOpts.Opts)
    (st : St) : Prop where
  perm : ∀ r, st.permit r = true → PermI as r
  order1 : Served .pwnam as → Served .sign as
  order2 : Served .authserv as → Served .pwnam as
  order3 : Served .pamStart as → Served .pwnam as
  order4 : Served .banner as → Served .pwnam as
  order5 : Served .pamInit as ∨ Served .pamFree as → Served .pamStart as
  attempt : st.attempt = 0 ↔ ¬ Served .pwnam as
  who : ∀ u, .pwnam u ∈ as → st.user = u ∧ st.uid = c.auth.getpw u
  nobody : ¬ Served .pwnam as → st.valid = false
  valid : st.valid = st.uid.isSome
  style : ∀ s, .authserv s ∈ as → st.style = if s = [] then none else some s
  noSid : st.sid = none → ¬ Served .sign as
  sid : ∀ s, st.sid = some s → SessionId as s
  talking : st.pamCtx = true ↔ Talking as
  pamOk : st.pamOk = true →
    last [.pamInit, .pamQuery, .pamRespond, .pamFree] as = some (.pamQuery true) ∨
    last [.pamInit, .pamQuery, .pamRespond, .pamFree] as = some (.pamRespond true)
  key : ∀ ks, st.key = some ks →
    last [.keyallowed, .keyverify] as = some (.keyAllowed ks.user ks.blob ks.cuser ks.chost true) ∧
    (∃ b, w.parse b = some ks.blob) ∧ (ks.user = true → g.1 = some ks.opts) ∧
    (∀ p ∈ usedKeys w as, w.samePublic ks.blob p = false)
  noUser : ∀ k cu ch, last [.keyallowed, .keyverify] as = some (.keyAllowed false k cu ch true) →
    g.1 = none
  prev : st.prevKeys = usedKeys w as
  opts : st.opts = mergeAll g.2

theorem sessionId_snoc {as : List Act} {s : Bytes} (h : SessionId as s) (a : Act) :
    SessionId (as ++ [a]) s := by
  obtain ⟨k, r, hr⟩ := h
  refine ⟨k, r ++ ([a].filter fun a => decide (kind a = .sign)), ?_⟩
  rw [List.filter_append, hr]
  simp

theorem usedKeys_snoc (w : World) (as : List Act) (a : Act) (h : yes a = false ∨ kind a ≠ .keyverify) :
    usedKeys w (as ++ [a]) = usedKeys w as := by
  unfold usedKeys
  rw [List.filterMap_append]
  have : ([a].filterMap fun a => match a with
    | .keyVerify b _ _ _ true => w.parse b
    | _ => none) = [] := by
    cases a <;> simp [yes, kind] at h ⊢
    subst h; rfl
  simp [this]

theorem grant_quiet {g : Option KeyOpts.Opts × List KeyOpts.Opts} {ev : Ev} {o : Out} {a : Act}
    (ho : o.act = some a) (h1 : kind a ≠ .keyallowed) (h2 : kind a ≠ .keyverify) :
    grantStep g (ev, o) = g := by
  unfold grantStep
  simp only [ho]
  cases a <;> simp [kind] at h1 h2 ⊢

/-- A round that only concerns the table, PAM or nothing at all. -/
theorem invA_quiet {w : World} {c : Cfg} {as : List Act} {g} {st st' : St} {a : Act}
    (hi : InvA w c as g st)
    (hk : kind a ≠ .keyallowed ∧ kind a ≠ .keyverify ∧ kind a ≠ .pwnam ∧ kind a ≠ .authserv ∧
      kind a ≠ .sign)
    (hpw : kind a = .pamStart ∨ kind a = .banner → Served .pwnam as)
    (hpi : kind a = .pamInit ∨ kind a = .pamFree → Served .pamStart as)
    (hperm : ∀ r, st'.permit r = true → PermI (as ++ [a]) r)
    (htalk : st'.pamCtx = true ↔ Talking (as ++ [a]))
    (hok : st'.pamOk = true →
      last [.pamInit, .pamQuery, .pamRespond, .pamFree] (as ++ [a]) = some (.pamQuery true) ∨
      last [.pamInit, .pamQuery, .pamRespond, .pamFree] (as ++ [a]) = some (.pamRespond true))
    (he : st'.attempt = st.attempt ∧ st'.user = st.user ∧ st'.uid = st.uid ∧ st'.valid = st.valid ∧
      st'.style = st.style ∧ st'.sid = st.sid ∧ st'.key = st.key ∧ st'.prevKeys = st.prevKeys ∧
      st'.opts = st.opts) : InvA w c (as ++ [a]) g st' := by
  obtain ⟨e1, e2, e3, e4, e5, e6, e7, e8, e9⟩ := he
  obtain ⟨k1, k2, k3, k4, k5⟩ := hk
  have hmem : ∀ x, x ∈ as ++ [a] → kind x ≠ kind a → x ∈ as := by
    intro x hx hne
    rcases List.mem_append.1 hx with hx | hx
    · exact hx
    · rw [List.mem_singleton.1 hx] at hne; exact absurd rfl hne
  have hl : last [.keyallowed, .keyverify] (as ++ [a]) = last [.keyallowed, .keyverify] as := by
    rw [last_snoc, if_neg (by simp [k1, k2])]
  constructor
  · exact hperm
  · simp only [served_snoc]; rintro (h | h)
    · exact Or.inl (hi.order1 h)
    · exact absurd h k3
  · simp only [served_snoc]; rintro (h | h)
    · exact Or.inl (hi.order2 h)
    · exact absurd h k4
  · simp only [served_snoc]; rintro (h | h)
    · exact Or.inl (hi.order3 h)
    · exact Or.inl (hpw (Or.inl h))
  · simp only [served_snoc]; rintro (h | h)
    · exact Or.inl (hi.order4 h)
    · exact Or.inl (hpw (Or.inr h))
  · simp only [served_snoc]; rintro ((h | h) | (h | h))
    · exact Or.inl (hi.order5 (Or.inl h))
    · exact Or.inl (hpi (Or.inl h))
    · exact Or.inl (hi.order5 (Or.inr h))
    · exact Or.inl (hpi (Or.inr h))
  · rw [e1, hi.attempt]; simp [served_snoc, k3]
  · intro u hu
    rw [e2, e3]
    exact hi.who u (hmem _ hu (fun h => k3 h.symm))
  · intro h
    rw [e4]
    exact hi.nobody fun h' => h ((served_snoc _ _ _).2 (Or.inl h'))
  · rw [e4, e3]; exact hi.valid
  · intro s hs
    rw [e5]
    exact hi.style s (hmem _ hs (fun h => k4 h.symm))
  · intro h
    rw [e6] at h
    rw [served_snoc]
    rintro (h' | h')
    · exact hi.noSid h h'
    · exact k5 h'
  · intro s hs
    rw [e6] at hs
    exact sessionId_snoc (hi.sid s hs) a
  · exact htalk
  · exact hok
  · intro ks hks
    rw [e7] at hks
    rw [hl, usedKeys_snoc w as a (Or.inr k2)]
    exact hi.key ks hks
  · intro k cu ch h
    rw [hl] at h
    exact hi.noUser k cu ch h
  · rw [e8, usedKeys_snoc w as a (Or.inr k2)]; exact hi.prev
  · rw [e9]; exact hi.opts

theorem talking_quiet {as : List Act} {a : Act} (h1 : kind a ≠ .pamInit) (h2 : kind a ≠ .pamFree) :
    Talking (as ++ [a]) ↔ Talking as := by
  unfold Talking
  rw [last_snoc, if_neg (by simp [h1, h2])]

theorem ok_quiet {as : List Act} {a : Act} (h1 : kind a ≠ .pamInit) (h2 : kind a ≠ .pamFree)
    (h3 : kind a ≠ .pamQuery) (h4 : kind a ≠ .pamRespond) :
    last [.pamInit, .pamQuery, .pamRespond, .pamFree] (as ++ [a]) =
      last [.pamInit, .pamQuery, .pamRespond, .pamFree] as := by
  rw [last_snoc, if_neg (by simp [h1, h2, h3, h4])]

theorem last_mem {rs : List Req} {as : List Act} {a : Act} (h : last rs as = some a) : a ∈ as := by
  unfold last at h
  exact (List.mem_filter.1 (List.mem_of_getLast? h)).1

theorem last_served {rs : List Req} {as : List Act} {a : Act} (h : last rs as = some a) :
    Served (kind a) as := ⟨a, last_mem h, rfl⟩

/-- A permission that was there before still holds, unless its own request was served. -/
theorem permI_keep {w : World} {c : Cfg} {as : List Act} {g} {st : St} (hi : InvA w c as g st)
    {a : Act} {r : Req} (h : st.permit r = true) (hne : r ≠ kind a)
    (hp : kind a = .pamInit → r ≠ .pamInit) : PermI (as ++ [a]) r := by
  have hr := hi.perm r h
  cases r <;> simp only [PermI, served_snoc] at hr ⊢ <;>
    first
    | trivial
    | exact fun h => h.elim hr (fun e => hne e.symm)
    | exact ⟨Or.inl hr.1, fun h => h.elim hr.2 (fun e => hne e.symm)⟩
    | exact Or.inl hr
    | skip
  · rw [last_snoc]
    by_cases hk : kind a = .pamStart ∨ kind a = .pamFree
    · rw [if_pos (by rcases hk with hk | hk <;> simp [hk])]
      cases a <;> simp [kind] at hk ⊢
    · rw [if_neg]
      · exact hr
      · intro hm
        simp only [List.mem_cons, List.not_mem_nil, or_false] at hm
        rcases hm with hm | hm | hm
        · exact hk (Or.inl hm)
        · exact hne hm.symm
        · exact hk (Or.inr hm)
  · rw [last_snoc]
    by_cases hk : kind a = .pamQuery
    · rw [if_pos (by simp [hk])]
      cases a <;> simp [kind] at hk ⊢
    · rw [if_neg]
      · exact hr
      · intro hm
        simp only [List.mem_cons, List.not_mem_nil, or_false] at hm
        rcases hm with hm | hm
        · exact hk hm
        · exact hne hm.symm

end Verif.Monitor
