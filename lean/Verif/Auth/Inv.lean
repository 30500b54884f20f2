/-
The invariant of a conversation.
-/
import Verif.Auth.Step

namespace Verif.Auth

open Spec

/-! ### Appending one exchange -/

theorem wins_append (a b : List (Ev × Out)) : wins (a ++ b) = wins a ++ wins b := by
  induction a with
  | nil => rfl
  | cons p a ih =>
    obtain ⟨e, o⟩ := p
    simp only [List.cons_append, wins]
    split <;> simp [ih]

theorem failed_append (a b : List (Ev × Out)) : failed (a ++ b) = failed a + failed b := by
  induction a with
  | nil => simp [failed]
  | cons p a ih =>
    obtain ⟨e, o⟩ := p
    simp only [List.cons_append, failed, ih]
    omega

theorem answered_append (a b : List (Ev × Out)) : answered (a ++ b) = answered a + answered b := by
  induction a with
  | nil => simp [answered]
  | cons p a ih =>
    obtain ⟨e, o⟩ := p
    simp only [List.cons_append, answered, ih]
    omega

/-- no request yet -/
def fresh (h : List (Ev × Out)) : Bool := h.all fun p => !isRequest p.1

theorem strikes_append (f : Bool) (a b : List (Ev × Out)) :
    strikes f (a ++ b) = strikes f a + strikes (f && fresh a) b := by
  induction a generalizing f with
  | nil => simp [strikes, fresh]
  | cons p a ih =>
    obtain ⟨e, o⟩ := p
    simp only [List.cons_append, strikes, ih, fresh, List.all_cons, Bool.and_assoc]
    omega

theorem fresh_append (a b : List (Ev × Out)) : fresh (a ++ b) = (fresh a && fresh b) := by
  simp [fresh, List.all_append]

theorem target_append_some {a b : List (Ev × Out)} {x} (h : target a = some x) :
    target (a ++ b) = some x := by
  induction a with
  | nil => simp [target] at h
  | cons p a ih =>
    obtain ⟨e, o⟩ := p
    cases e with
    | request u s m d r => simpa [target] using h
    | response r =>
      simp only [List.cons_append, target] at h ⊢
      exact ih h

theorem target_append_none {a b : List (Ev × Out)} (h : target a = none) :
    target (a ++ b) = target b := by
  induction a with
  | nil => rfl
  | cons p a ih =>
    obtain ⟨e, o⟩ := p
    cases e with
    | request u s m d r => simp [target] at h
    | response r =>
      simp only [List.cons_append, target] at h ⊢
      exact ih h

/-! ### The invariant -/

/-- the usable lists, as steps -/
noncomputable def usableSteps (c : Cfg) : List (List Bytes) :=
  (c.lists.filter (methodsValid (isEnabled c true))).map steps

/-- what the state knows once the first request has been accepted -/
structure Ready (c : Cfg) (tgt : Option (Bytes × Bytes)) (xs : List (Bytes × Option Bytes)) (st : St) :
    Prop where
  target : tgt = some (st.user, st.service)
  valid : st.valid = true → st.service = b!"ssh-connection" ∧ c.getpw st.user = some st.uid
  multi : st.multi = true ↔ Multi c
  tracks : st.multi = true → Tracks (usableSteps c) xs st.lists
  open_ : st.multi = true → ∀ ts ∈ usableSteps c, left ts xs ≠ []

structure Live (c : Cfg) (h : List (Ev × Out)) (st : St) : Prop where
  zero : st.attempt = 0 → target h = none ∧ wins h = [] ∧ st.noneEnabled = true
  pos : 0 < st.attempt → Ready c (target h) (wins h) st
  low : strikes true h ≤ st.failures
  high : st.failures ≤ failed h
  lim : st.failures < c.maxTries ∨ failed h = 0
  fresh : fresh h = true ↔ st.attempt = 0
  answered : answered h = st.attempt
  attempts : st.attempt ≤ 1024
  none : st.noneEnabled = true → ∀ x ∈ wins h, x.1 ≠ b!"none"

structure Past (c : Cfg) (h : List (Ev × Out)) : Prop where
  backed : ∀ e o v m s, (e, o) ∈ h → o.log = some ⟨v, m, s⟩ → v = .accepted ∨ v = .partly →
    Backed c h e m s
  sameUser : ∀ u s m d r o, (Ev.request u s m d r, o) ∈ h → o.log ≠ none →
    target h = some (cutColon u, s)
  noneOnce : (wins h).countP (fun x => decide (x.1 = b!"none")) ≤ 1
  strikes : strikes true h ≤ max c.maxTries 1
  answered : answered h ≤ 1024
  success : ∀ e l, (e, (⟨l, .success⟩ : Out)) ∈ h →
    (∃ m s, l = some ⟨.accepted, m, s⟩) ∧ (c.usePam = true → (resultOf e).account = true)
  lists : LoggedIn h → Multi c → ∃ l ∈ c.lists, Usable c l ∧ Fulfils (steps l) (wins h)

theorem usableSteps_clean (c : Cfg) : ∀ ts ∈ usableSteps c, Clean ts := by
  intro ts hts
  obtain ⟨l, hl, rfl⟩ := List.mem_map.1 hts
  exact usable_clean ((methodsValid_iff c l).1 (List.mem_filter.1 hl).2)

theorem steps_ne (l : Bytes) : steps l ≠ [] := Text.split_ne_nil 44 l

theorem setup_ready {c : Cfg} {st st0 : St} {u s : Bytes} (h : setup c st u s = some st0)
    (hn : st.noneEnabled = true) :
    Ready c (some (u, s)) [] st0 ∧ st0.failures = st.failures ∧ st0.over = st.over ∧
      st0.noneEnabled = st.noneEnabled := by
  unfold setup at h
  cases hs : setupLists c st.noneEnabled with
  | none => simp [hs] at h
  | some p =>
    obtain ⟨mu, ls⟩ := p
    simp only [hs] at h
    simp only [Option.some.injEq] at h
    subst h
    refine ⟨⟨rfl, ?_, ?_, ?_, ?_⟩, rfl, rfl, rfl⟩
    · intro hv
      simp only [decide_eq_true_eq] at hv
      refine ⟨hv.2, ?_⟩
      simp only [hv.2, if_true]
      cases hg : c.getpw u with
      | none => simp [hg] at hv
      | some uid => simp
    · rw [hn] at hs
      unfold setupLists at hs
      split at hs
      · rename_i e; simp at hs; simp [Multi, e, hs.1]
      · rename_i e1
        split at hs
        · rename_i e; simp at hs; simp [Multi, e, hs.1]
        · rename_i e2
          simp only at hs
          split at hs
          · simp at hs
          · simp at hs; simp [Multi, e1, e2, hs.1]
    · intro hm
      simp only at hm
      subst hm
      rw [hn] at hs
      unfold setupLists at hs
      split at hs
      · simp at hs
      · split at hs
        · simp at hs
        · simp only at hs
          split at hs
          · simp at hs
          · simp only [Option.some.injEq, Prod.mk.injEq, true_and] at hs
            subst hs
            simp only [Tracks, usableSteps, List.map_map]
            conv => lhs; rw [← List.map_id (c.lists.filter _)]
            apply List.map_congr_left
            intro l _
            simp [left_nil, steps, Text.join_split]
    · intro _ ts hts
      rw [left_nil]
      obtain ⟨l, _, rfl⟩ := List.mem_map.1 hts
      exact steps_ne l

theorem prep_ready {c : Cfg} {h : List (Ev × Out)} {st st1 : St} {e : Ev} (o : Out)
    (hl : Live c h st) (hk : st.attempt = 0 → st.kbd = none) (hp : Prep c st e st1) :
    Ready c (target (h ++ [(e, o)])) (wins h) st1 ∧ st1.failures = st.failures ∧
      st1.over = st.over ∧ st1.noneEnabled = st.noneEnabled ∧
      st1.attempt = st.attempt + (if isRequest e = true then 1 else 0) ∧ 0 < st1.attempt ∧
      st1.attempt ≤ 1024 := by
  cases hp with
  | first h0 hs =>
    obtain ⟨z1, z2, z3⟩ := hl.zero h0
    obtain ⟨r, r1, r2, r3⟩ := setup_ready hs z3
    rw [target_append_none z1, z2]
    refine ⟨⟨?_, r.valid, r.multi, r.tracks, r.open_⟩, r1, r2, r3, by simp [isRequest, h0], by simp, by simp⟩
    have := r.target
    simp only [Option.some.injEq, Prod.mk.injEq] at this
    simp only [target]
    rw [← this.1, ← this.2]
    rfl
  | again h0 h1 hu hs =>
    have r := hl.pos h0
    rw [target_append_some r.target]
    exact ⟨⟨rfl, r.valid, r.multi, r.tracks, r.open_⟩, rfl, rfl, rfl, by simp [isRequest], by simp, by simp; omega⟩
  | resp hk' =>
    have h0 : 0 < st.attempt := by
      rcases Nat.eq_zero_or_pos st.attempt with h | h
      · exact absurd (hk h) hk'
      · exact h
    have r := hl.pos h0
    rw [target_append_some r.target]
    exact ⟨⟨rfl, r.valid, r.multi, r.tracks, r.open_⟩, rfl, rfl, rfl, by simp [isRequest], h0, hl.attempts⟩

theorem Ready.same {c tgt xs a b} (h : Ready c tgt xs a) (hs : Same a b) : Ready c tgt xs b := by
  obtain ⟨h1, h2, h3, h4, h5⟩ := h
  refine ⟨by rw [h1, hs.user, hs.service], ?_, ?_, ?_, ?_⟩
  · intro hv; rw [← hs.service, ← hs.user, ← hs.uid]; exact h2 (hs.valid.trans hv)
  · rw [← hs.multi]; exact h3
  · intro hm; rw [← hs.lists]; exact h4 (hs.multi.trans hm)
  · intro hm; exact h5 (hs.multi.trans hm)

theorem rootAllowed_may {c : Cfg} {f : Bool} {m : Bytes} (h : rootAllowed c f m = true) : RootMay c m f := by
  unfold rootAllowed at h
  unfold RootMay
  cases hr : c.root <;> simp [hr] at h ⊢ <;> exact h

structure Inv (c : Cfg) (h : List (Ev × Out)) (st : St) : Prop where
  kbd : KbdOk c st.kbd
  kbd0 : st.attempt = 0 → st.kbd = none
  kbdQ : st.kbd ≠ none → st.serverFail = false
  live : st.over = false → Live c h st
  past : Past c h

/-- an exchange without a log line adds nothing -/
theorem past_quiet {c : Cfg} {h : List (Ev × Out)} {e : Ev} {r : Reply} (hr : r ≠ .success)
    (hp : Past c h) (ht : ∀ x, target h = some x → target (h ++ [(e, (⟨none, r⟩ : Out))]) = some x) :
    Past c (h ++ [(e, ⟨none, r⟩)]) := by
  have hw : wins (h ++ [(e, (⟨none, r⟩ : Out))]) = wins h := by rw [wins_append]; simp [wins]
  refine ⟨?_, ?_, ?_, ?_, ?_, ?_, ?_⟩
  · intro e' o v m s hm hl hv
    rcases List.mem_append.1 hm with hm | hm
    · obtain ⟨b1, b2, b3, b4, u, uid, b5, b6⟩ := hp.backed e' o v m s hm hl hv
      exact ⟨b1, b2, b3, b4, u, uid, ht _ b5, b6⟩
    · simp at hm
      obtain ⟨_, rfl⟩ := hm
      simp at hl
  · intro u s m d r' o hm hl
    rcases List.mem_append.1 hm with hm | hm
    · exact ht _ (hp.sameUser u s m d r' o hm hl)
    · simp at hm
      obtain ⟨_, rfl⟩ := hm
      simp at hl
  · rw [hw]; exact hp.noneOnce
  · rw [strikes_append]; simp [strikes, strike]; exact hp.strikes
  · rw [answered_append]; simp [answered]; exact hp.answered
  · intro e' l hm
    rcases List.mem_append.1 hm with hm | hm
    · exact hp.success e' l hm
    · simp at hm
      exact absurd hm.2.2.symm hr
  · rintro ⟨e', l, hm⟩ hmu
    rcases List.mem_append.1 hm with hm | hm
    · rw [hw]; exact hp.lists ⟨e', l, hm⟩ hmu
    · simp at hm
      exact absurd hm.2.2.symm hr

theorem target_mono {h : List (Ev × Out)} {p} : ∀ x, target h = some x → target (h ++ [p]) = some x :=
  fun _ hx => target_append_some hx

end Verif.Auth
