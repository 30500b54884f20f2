/-
Every message keeps the invariant.
-/
import Verif.Auth.Inv

namespace Verif.Auth

open Spec

theorem wins_one (e : Ev) (v : Verdict) (m : Bytes) (s : Option Bytes) (r : Reply) :
    wins [(e, (⟨some ⟨v, m, s⟩, r⟩ : Out))] = if v = .accepted ∨ v = .partly then [(m, s)] else [] := by
  cases v <;> simp [wins]

theorem past_log {c : Cfg} {h : List (Ev × Out)} {e : Ev} {v : Verdict} {m : Bytes}
    {s : Option Bytes} {r : Reply} {h' : List (Ev × Out)}
    (hh : h' = h ++ [(e, (⟨some ⟨v, m, s⟩, r⟩ : Out))]) (hp : Past c h)
    (hb : v = .accepted ∨ v = .partly → Backed c h' e m s)
    (hu : ∀ u sv n d rs, e = .request u sv n d rs → target h' = some (cutColon u, sv))
    (hn : v = .accepted ∨ v = .partly → m = b!"none" → ∀ x ∈ wins h, x.1 ≠ b!"none")
    (hs : strikes true h' ≤ max c.maxTries 1)
    (ha : answered h' ≤ 1024)
    (hok : r = .success → v = .accepted ∧ (c.usePam = true → (resultOf e).account = true) ∧
      (Multi c → ∃ l ∈ c.lists, Usable c l ∧ Fulfils (steps l) (wins h')))
    (hnew : LoggedIn h → v ≠ .accepted ∧ v ≠ .partly) : Past c h' := by
  have hw : wins h' = wins h ++ wins [(e, (⟨some ⟨v, m, s⟩, r⟩ : Out))] := by rw [hh, wins_append]
  have ht : ∀ x, target h = some x → target h' = some x := by
    intro x hx; rw [hh]; exact target_append_some hx
  refine ⟨?_, ?_, ?_, hs, ha, ?_, ?_⟩
  · intro e' o v' m' s' hm hl hv
    rw [hh] at hm
    rcases List.mem_append.1 hm with hm | hm
    · obtain ⟨b1, b2, b3, b4, u, uid, b5, b6⟩ := hp.backed e' o v' m' s' hm hl hv
      exact ⟨b1, b2, b3, b4, u, uid, ht _ b5, b6⟩
    · simp at hm
      obtain ⟨rfl, rfl⟩ := hm
      simp at hl
      obtain ⟨rfl, rfl, rfl⟩ := hl
      exact hb hv
  · intro u sv n d rs o hm hl
    rw [hh] at hm
    rcases List.mem_append.1 hm with hm | hm
    · exact ht _ (hp.sameUser u sv n d rs o hm hl)
    · simp at hm
      exact hu u sv n d rs hm.1.symm
  · rw [hw, List.countP_append, wins_one]
    by_cases hv : v = .accepted ∨ v = .partly
    · rw [if_pos hv]
      by_cases hm : m = b!"none"
      · have : (wins h).countP (fun x => decide (x.1 = b!"none")) = 0 := by
          rw [List.countP_eq_zero]
          intro x hx
          simpa using hn hv hm x hx
        rw [this]
        have := @List.countP_le_length _ (fun x : Bytes × Option Bytes => decide (x.1 = b!"none")) [(m, s)]
        simp only [List.length_singleton] at this
        omega
      · have : [(m, s)].countP (fun x => decide (x.1 = b!"none")) = 0 := by
          rw [List.countP_eq_zero]
          intro x hx
          simp at hx
          subst hx
          simpa using hm
        rw [this]
        exact hp.noneOnce
    · rw [if_neg hv]
      simpa using hp.noneOnce
  · intro e' l hm
    rw [hh] at hm
    rcases List.mem_append.1 hm with hm | hm
    · exact hp.success e' l hm
    · simp at hm
      obtain ⟨rfl, rfl, rfl⟩ := hm
      obtain ⟨rfl, h2, _⟩ := hok rfl
      exact ⟨⟨m, s, rfl⟩, h2⟩
  · rintro ⟨e', l, hm⟩ hmu
    rw [hh] at hm
    rcases List.mem_append.1 hm with hm | hm
    · have hv := hnew ⟨e', l, hm⟩
      rw [hw, wins_one, if_neg (by simp [hv]), List.append_nil]
      exact hp.lists ⟨e', l, hm⟩ hmu
    · simp at hm
      obtain ⟨rfl, rfl, rfl⟩ := hm
      exact (hok rfl).2.2 hmu

theorem bump_le (st : St) (m : Bytes) : bump st m ≤ st.failures + 1 := by
  unfold bump; split <;> omega

theorem le_bump (st : St) (m : Bytes) : st.failures ≤ bump st m := by
  unfold bump; split <;> omega

theorem step_inv {c : Cfg} {h : List (Ev × Out)} {st : St} (e : Ev) (hi : Inv c h st)
    (hfin : LoggedIn h → st.over = true) :
    Inv c (h ++ [(e, (step c st e).1)]) (step c st e).2 := by
  by_cases hover : st.over = true
  · rw [step_over e hover]
    exact ⟨hi.kbd, hi.kbd0, hi.kbdQ, by simp [hover], past_quiet (by simp) hi.past target_mono⟩
  · have hover : st.over = false := by simpa using hover
    have hl := hi.live hover
    have hnl : ¬ LoggedIn h := fun x => by have := hfin x; simp [hover] at this
    have hsum := step_sum e hover hi.kbd hi.kbdQ
    revert hsum
    generalize (step c st e).1 = o
    generalize (step c st e).2 = st'
    intro hsum
    cases hsum with
    | die => exact ⟨hi.kbd, hi.kbd0, hi.kbdQ, by simp, past_quiet (by simp) hi.past target_mono⟩
    | ignored hreq =>
      refine ⟨hi.kbd, hi.kbd0, hi.kbdQ, fun _ => ?_, past_quiet (by simp) hi.past target_mono⟩
      have hw : wins (h ++ [(e, (⟨none, .quiet⟩ : Out))]) = wins h := by rw [wins_append]; simp [wins]
      have ht : target (h ++ [(e, (⟨none, .quiet⟩ : Out))]) = target h := by
        cases hth : target h with
        | none =>
          rw [target_append_none hth]
          cases e with
          | request => simp [isRequest] at hreq
          | response r => rfl
        | some x => exact target_append_some hth
      refine ⟨?_, ?_, ?_, ?_, ?_, ?_, ?_, hl.attempts, ?_⟩
      · rw [hw, ht]; exact hl.zero
      · rw [hw, ht]; exact hl.pos
      · rw [strikes_append]; simp [strikes, strike]; exact hl.low
      · rw [failed_append]; simp [failed]; exact hl.high
      · rw [failed_append]; simp [failed]; exact hl.lim
      · rw [fresh_append, Bool.and_eq_true, hl.fresh]; simp [fresh, hreq]
      · rw [answered_append]; simp [answered, hreq]; exact hl.answered
      · rw [hw]; exact hl.none
    | go st1 st2 authed pm sub _ _ hprep hsame hf hran hsf hkq hpm hkbd hnone =>
      -- the state that was looked at
      have hpr := fun o => prep_ready o hl hi.kbd0 hprep
      have hready := fun o => (hpr o).1.same hsame
      obtain ⟨_, hfail, hov, hnon, hatt, hpos, hatt1⟩ := hpr ⟨none, .quiet⟩
      have hfail2 : st2.failures = st.failures := hsame.failures ▸ hfail
      have hatt2 : st2.attempt = st.attempt + (if isRequest e = true then 1 else 0) := hsame.attempt ▸ hatt
      have hpos2 : 0 < st2.attempt := hsame.attempt ▸ hpos
      have hle2 : st2.attempt ≤ 1024 := hsame.attempt ▸ hatt1
      -- the target named by a request
      have huser : ∀ o u sv n d rs, e = .request u sv n d rs →
          target (h ++ [(e, o)]) = some (cutColon u, sv) := by
        intro o u sv n d rs he
        subst he
        have ht := (hpr o).1.target
        cases hprep with
        | first h0 hs =>
          rw [target_append_none (hl.zero h0).1]
          rfl
        | again h0 h1 hu hs =>
          rw [ht]
          simp only
          rw [← hu, ← hs]
          rfl
      have hans : ∀ (l : Log) (rp : Reply), answered (h ++ [(e, (⟨some l, rp⟩ : Out))]) = st2.attempt := by
        intro l rp
        rw [answered_append, hl.answered, hatt2]
        simp [answered]
      have hfresh : ∀ o, fresh (h ++ [(e, o)]) = true ↔ st2.attempt = 0 := by
        intro o
        rw [fresh_append, Bool.and_eq_true, hl.fresh]
        constructor
        · rintro ⟨h0, h1⟩
          simp [fresh] at h1
          rw [hatt2, h1, h0]
          rfl
        · intro h0; omega
      have hstrike : ∀ m rp, (m = pm ∨ byName pm = some m) →
          strikes true (h ++ [(e, (⟨some ⟨.failed, m, sub⟩, rp⟩ : Out))]) ≤ bump st2 m := by
        intro m rp hm
        rw [strikes_append]
        simp only [strikes, strike, Bool.true_and, Nat.add_zero]
        have hlow := hl.low
        split
        · have := le_bump st2 m; omega
        · rename_i hx
          have hsf' : st2.serverFail = false := by
            cases hy : st2.serverFail with
            | false => rfl
            | true => exact absurd (Or.inl (hsf hy)) hx
          have : bump st2 m = st2.failures + 1 := by
            unfold bump
            rw [if_pos]
            refine ⟨hsf', ?_⟩
            by_cases hmn : m = b!"none"
            · left
              have hfr : ¬ fresh h = true := fun hy => hx (Or.inr ⟨hy, hmn⟩)
              rw [hl.fresh] at hfr
              cases hq : isRequest e with
              | true => rw [hatt2, hq]; simp; omega
              | false =>
                exfalso
                have := hpm hq
                subst this
                rcases hm with rfl | hm
                · exact absurd hmn (by decide)
                · rw [byName_kbd] at hm
                  simp at hm
                  rw [← hm] at hmn
                  exact absurd hmn (by decide)
            · exact Or.inr hmn
          omega
      have hstrike0 : ∀ v m rp, v ≠ .failed →
          strikes true (h ++ [(e, (⟨some ⟨v, m, sub⟩, rp⟩ : Out))]) = strikes true h ∧
          failed (h ++ [(e, (⟨some ⟨v, m, sub⟩, rp⟩ : Out))]) = failed h := by
        intro v m rp hv
        rw [strikes_append, failed_append]
        cases v <;> simp [strikes, strike, failed] at hv ⊢
      have hfailed : ∀ m rp, failed (h ++ [(e, (⟨some ⟨.failed, m, sub⟩, rp⟩ : Out))]) = failed h + 1 := by
        intro m rp; rw [failed_append]; simp [failed]
      -- a success is backed
      have hbacked : ∀ (m : Bytes) (o : Out), Won c st2 (resultOf e) authed pm m →
          Backed c (h ++ [(e, o)]) e m sub ∧
          (m = b!"none" → (∀ x ∈ wins h, x.1 ≠ b!"none") ∧ st2.noneEnabled = false) ∧
          (∀ s, sub = some s → 44 ∉ s) := by
        intro m o hw
        obtain ⟨m', hr⟩ := hran hw.authed
        have hmm : m' = m := by
          have := hr.name.symm.trans hw.name
          simpa using this
        subst hmm
        have hv := (hready o).valid hw.valid
        refine ⟨⟨hr.ok, hr.attempts, (byName_known hr.name).1, hr.enabled, st2.user, st2.uid, ?_, hv.2, ?_⟩, ?_, hr.sub⟩
        · rw [(hready o).target, hv.1]
        · intro h0; exact rootAllowed_may (hw.root h0)
        · intro hn
          obtain ⟨n1, n2⟩ := hr.once hn
          exact ⟨hl.none (hnon ▸ n1), n2⟩
      have hlimmax : strikes true h ≤ max c.maxTries 1 := hi.past.strikes
      have hclean := usableSteps_clean c
      have hmc : ∀ m, byName pm = some m → 44 ∉ m ∧ 58 ∉ m := fun m hm =>
        ⟨(known_clean (byName_known hm).1).1, (known_clean (byName_known hm).1).2.1⟩
      -- accepting
      have haccept : ∀ m ls rp, Won c st2 (resultOf e) authed pm m →
          (st2.multi = true → updateLists m sub st2.lists false = some (true, ls)) →
          (rp = .success → c.usePam = true → (resultOf e).account = true) →
          Past c (h ++ [(e, (⟨some ⟨.accepted, m, sub⟩, rp⟩ : Out))]) := by
        intro m ls rp hw hu hpam
        have hb := hbacked m ⟨some ⟨.accepted, m, sub⟩, rp⟩ hw
        refine past_log rfl hi.past (fun _ => hb.1) (fun u sv n d rs he => huser _ u sv n d rs he)
          (fun _ hn => (hb.2.1 hn).1) ?_ ?_ ?_ (fun hx => absurd hx hnl)
        · rw [(hstrike0 .accepted m rp (by simp)).1]; exact hlimmax
        · rw [hans]; exact hle2
        · intro hs
          refine ⟨rfl, hpam hs, ?_⟩
          intro hmu
          have hr := hready ⟨some ⟨.accepted, m, sub⟩, rp⟩
          have hm := hr.multi.2 hmu
          have hupd := hu hm
          rw [hr.tracks hm] at hupd
          obtain ⟨k1, _⟩ := updateLists_spec hclean (hr.open_ hm) (hmc m hw.name) hb.2.2 false hupd
          obtain ⟨ts, hts, hleft⟩ := k1 rfl
          obtain ⟨l, hlm, rfl⟩ := List.mem_map.1 hts
          obtain ⟨l1, l2⟩ := List.mem_filter.1 hlm
          refine ⟨l, l1, (methodsValid_iff c l).1 l2, ?_⟩
          rw [fulfils_iff, wins_append]
          exact hleft
      -- one step of several
      have hpartial : ∀ m ls rp, rp ≠ .success → Won c st2 (resultOf e) authed pm m → st2.multi = true →
          updateLists m sub st2.lists false = some (false, ls) →
          Past c (h ++ [(e, (⟨some ⟨.partly, m, sub⟩, rp⟩ : Out))]) ∧
          Ready c (target (h ++ [(e, (⟨some ⟨.partly, m, sub⟩, rp⟩ : Out))]))
            (wins (h ++ [(e, (⟨some ⟨.partly, m, sub⟩, rp⟩ : Out))])) { st2 with lists := ls } := by
        intro m ls rp hrp hw hm hupd
        have hb := hbacked m ⟨some ⟨.partly, m, sub⟩, rp⟩ hw
        have hr := hready ⟨some ⟨.partly, m, sub⟩, rp⟩
        constructor
        · refine past_log rfl hi.past (fun _ => hb.1) (fun u sv n d rs he => huser _ u sv n d rs he)
            (fun _ hn => (hb.2.1 hn).1) ?_ ?_ (fun hs => absurd hs hrp) (fun hx => absurd hx hnl)
          · rw [(hstrike0 .partly m rp (by simp)).1]; exact hlimmax
          · rw [hans]; exact hle2
        · rw [hr.tracks hm] at hupd
          obtain ⟨_, k2⟩ := updateLists_spec hclean (hr.open_ hm) (hmc m hw.name) hb.2.2 false hupd
          obtain ⟨k3, k4⟩ := k2 rfl
          have hwin : wins (h ++ [(e, (⟨some ⟨.partly, m, sub⟩, rp⟩ : Out))]) = wins h ++ [(m, sub)] := by
            rw [wins_append]; simp [wins]
          rw [hwin]
          exact ⟨hr.target, hr.valid, hr.multi, fun _ => k3, fun _ => k4⟩
      -- failing
      have hfailing : ∀ m rp, rp ≠ .success → (m = pm ∨ byName pm = some m) →
          Past c (h ++ [(e, (⟨some ⟨.failed, m, sub⟩, rp⟩ : Out))]) := by
        intro m rp hrp hm
        refine past_log rfl hi.past (by simp) (fun u sv n d rs he => huser _ u sv n d rs he)
          (by simp) ?_ ?_ (fun hs => absurd hs hrp) (fun hx => absurd hx hnl)
        · have h1 := hstrike m rp hm
          have h2 := bump_le st2 m
          have h3 := hl.lim
          have h4 := hl.high
          rcases h3 with h3 | h3
          · omega
          · omega
        · rw [hans]; exact hle2
      have hsame' : ∀ v m rp, v ≠ .accepted → v ≠ .partly →
          wins (h ++ [(e, (⟨some ⟨v, m, sub⟩, rp⟩ : Out))]) = wins h := by
        intro v m rp h1 h2
        rw [wins_append, wins_one, if_neg (by simp [h1, h2]), List.append_nil]
      cases hf with
      | die =>
        exact ⟨hkbd, by simp; omega, hkq, by simp, past_quiet (by simp) hi.past target_mono⟩
      | win m ls hw hu hpam =>
        exact ⟨hkbd, by simp; omega, hkq, by simp, haccept m ls _ hw hu (fun _ => hpam)⟩
      | denied m ls hw hu =>
        exact ⟨hkbd, by simp; omega, hkq, by simp, haccept m ls _ hw hu (by simp)⟩
      | part m ls hw hm hu hlim =>
        obtain ⟨p1, p2⟩ := hpartial m ls (.failure (Text.join 44 (methodsGet c { st2 with lists := ls })) true) (by simp) hw hm hu
        refine ⟨hkbd, by simp; omega, hkq, fun _ => ?_, p1⟩
        have hb := hbacked m ⟨some ⟨.partly, m, sub⟩, .quiet⟩ hw
        obtain ⟨s1, s2⟩ := hstrike0 .partly m (.failure (Text.join 44 (methodsGet c { st2 with lists := ls })) true) (by simp)
        refine ⟨by simp; omega, fun _ => p2, ?_, ?_, Or.inl hlim, ?_, hans _ _, hle2, ?_⟩
        · rw [s1]; simp only [hfail2]; exact hl.low
        · rw [s2]; simp only [hfail2]; exact hl.high
        · exact hfresh _
        · intro hne x hx
          rw [wins_append] at hx
          simp only at hne
          rcases List.mem_append.1 hx with hx | hx
          · exact hl.none (hnon ▸ hnone hne) x hx
          · simp [wins] at hx
            subst hx
            intro hmn
            have := (hb.2.1 hmn).2
            rw [this] at hne
            simp at hne
      | partEnd m ls hw hm hu =>
        exact ⟨hkbd, by simp; omega, hkq, by simp, (hpartial m ls _ (by simp) hw hm hu).1⟩
      | wait hpost _ =>
        obtain ⟨s1, s2⟩ := hstrike0 .postponed pm .quiet (by simp)
        refine ⟨hkbd, by omega, hkq, fun _ => ?_, ?_⟩
        · refine ⟨by omega, fun _ => ?_, ?_, ?_, ?_, hfresh _, hans _ _, hle2, ?_⟩
          · rw [hsame' .postponed pm .quiet (by simp) (by simp)]; exact hready _
          · rw [s1, hfail2]; exact hl.low
          · rw [s2, hfail2]; exact hl.high
          · rw [s2, hfail2]; exact hl.lim
          · rw [hsame' .postponed pm .quiet (by simp) (by simp)]
            intro hne; exact hl.none (hnon ▸ hnone hne)
        · refine past_log rfl hi.past (by simp) (fun u sv n d rs he => huser _ u sv n d rs he)
            (by simp) ?_ ?_ (by simp) (fun hx => absurd hx hnl)
          · rw [s1]; exact hlimmax
          · rw [hans]; exact hle2
      | fail m hpost hm hlim =>
        refine ⟨hkbd, by simp; omega, hkq, fun _ => ?_, hfailing m _ (by simp) hm⟩
        have hw := hsame' .failed m (.failure (Text.join 44 (methodsGet c st2)) false) (by simp) (by simp)
        have hr := hready ⟨some ⟨.failed, m, sub⟩, .failure (Text.join 44 (methodsGet c st2)) false⟩
        refine ⟨by simp; omega, fun _ => ?_, hstrike m _ hm, ?_, Or.inl hlim, hfresh _, hans _ _, hle2, ?_⟩
        · rw [hw]; exact ⟨hr.target, hr.valid, hr.multi, hr.tracks, hr.open_⟩
        · rw [hfailed]
          have := bump_le st2 m
          have := hl.high
          simp only
          omega
        · rw [hw]
          intro hne; exact hl.none (hnon ▸ hnone hne)
      | failEnd m hpost hm hlim =>
        exact ⟨hkbd, by simp; omega, hkq, by simp, hfailing m _ (by simp) hm⟩

/-! ### Conversations -/

theorem init_inv (c : Cfg) : Inv c [] init := by
  refine ⟨?_, fun _ => rfl, by simp [init], fun _ => ?_, ?_⟩
  · intro k hk; simp [init] at hk
  · refine ⟨by simp [init, target, wins], by simp [init], by simp [init, strikes], by simp [init, failed],
      Or.inr rfl, by simp [fresh, init], rfl, by simp [init], by simp [wins]⟩
  · refine ⟨by simp, by simp, by simp [wins], by simp [strikes], by simp [answered], by simp, ?_⟩
    rintro ⟨_, _, hm⟩
    simp at hm

theorem step_ends {c : Cfg} {h : List (Ev × Out)} {st : St} (e : Ev) (hi : Inv c h st)
    (hr : (step c st e).1.reply = .success ∨ (step c st e).1.reply = .fatal) :
    (step c st e).2.over = true := by
  by_cases hover : st.over = true
  · rw [step_over e hover] at hr ⊢
    exact hover
  · have hover : st.over = false := by simpa using hover
    have hsum := step_sum e hover hi.kbd hi.kbdQ
    revert hsum hr
    generalize (step c st e).1 = o
    generalize (step c st e).2 = st'
    intro hr hsum
    cases hsum with
    | die => rfl
    | ignored _ => simp at hr
    | go st1 st2 authed pm sub _ _ _ _ hf _ _ _ _ _ _ =>
      cases hf <;> first | rfl | simp at hr

/-- the connection has ended -/
def Ended (h : List (Ev × Out)) : Prop := ∃ p ∈ h, p.2.reply = .success ∨ p.2.reply = .fatal

theorem hist_inv {c : Cfg} {h : List (Ev × Out)} {st : St} (hh : Hist c h st) :
    Inv c h st ∧ (Ended h → st.over = true) := by
  induction hh with
  | nil => exact ⟨init_inv c, by rintro ⟨p, hp, _⟩; simp at hp⟩
  | @snoc h st e _ ih =>
    obtain ⟨i1, i2⟩ := ih
    refine ⟨step_inv e i1 ?_, ?_⟩
    · rintro ⟨e', l, hm⟩
      exact i2 ⟨_, hm, Or.inl rfl⟩
    · rintro ⟨p, hp, hr⟩
      rcases List.mem_append.1 hp with hp | hp
      · have := i2 ⟨p, hp, hr⟩
        rw [step_over e this]
        exact this
      · simp at hp
        subst hp
        exact step_ends e i1 hr

end Verif.Auth
