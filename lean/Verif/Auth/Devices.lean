/-
Keyboard-interactive: one request gives the client at most one verdict of each device.
-/
import Verif.Auth.Main

namespace Verif.Auth

open Spec

theorem scan_spec (st : St) (tok : Bytes) (ds : List Bytes) (used : List Bool) (cur : Option Bytes)
    (hlen : used.length = ds.length) :
    (scanDevices st tok ds used cur).2.length = ds.length ∧
    (∀ d, (d, true) ∈ ds.zip used → (d, true) ∈ ds.zip (scanDevices st tok ds used cur).2) ∧
    (∀ d, (scanDevices st tok ds used cur).1 = some d → cur = some d ∨
      ((d, true) ∈ ds.zip (scanDevices st tok ds used cur).2 ∧ (d, false) ∈ ds.zip used)) := by
  induction ds generalizing used cur with
  | nil => simp [scanDevices]; exact List.eq_nil_of_length_eq_zero hlen
  | cons a ds ih =>
    cases used with
    | nil => simp at hlen
    | cons u used =>
      simp only [List.length_cons, Nat.add_right_cancel_iff] at hlen
      simp only [scanDevices, List.headD_cons, List.tail_cons]
      by_cases hc : deviceFits st tok a u = true
      · simp only [hc, if_true]
        have hc : u = false := by
          unfold deviceFits at hc
          simp only [Bool.and_eq_true, Bool.not_eq_true'] at hc
          exact hc.1.1
        obtain ⟨i1, i2, i3⟩ := ih used (some a) hlen
        refine ⟨by simp [i1], ?_, ?_⟩
        · intro d hd
          simp only [List.zip_cons_cons, List.mem_cons, Prod.mk.injEq] at hd ⊢
          rcases hd with ⟨_, hd⟩ | hd
          · rw [hc] at hd; simp at hd
          · exact Or.inr (i2 d hd)
        · intro d hd
          right
          simp only [List.zip_cons_cons, List.mem_cons, Prod.mk.injEq]
          rcases i3 d hd with h | ⟨h1, h2⟩
          · simp at h
            subst h
            simp [hc]
          · exact ⟨Or.inr h1, Or.inr h2⟩
      · simp only [hc, Bool.false_eq_true, if_false]
        obtain ⟨i1, i2, i3⟩ := ih used cur hlen
        refine ⟨by simp [i1], ?_, ?_⟩
        · intro d hd
          simp only [List.zip_cons_cons, List.mem_cons, Prod.mk.injEq] at hd ⊢
          rcases hd with ⟨h1, h2⟩ | hd
          · exact Or.inl ⟨h1, h2⟩
          · exact Or.inr (i2 d hd)
        · intro d hd
          simp only [List.zip_cons_cons, List.mem_cons, Prod.mk.injEq]
          rcases i3 d hd with h | ⟨h1, h2⟩
          · exact Or.inl h
          · exact Or.inr ⟨Or.inr h1, Or.inr h2⟩

theorem flag_unique {ds : List Bytes} {used : List Bool} {d : Bytes} (hn : ds.Nodup)
    (h1 : (d, true) ∈ ds.zip used) (h2 : (d, false) ∈ ds.zip used) : False := by
  induction ds generalizing used with
  | nil => simp at h1
  | cons a ds ih =>
    cases used with
    | nil => simp at h1
    | cons u used =>
      simp only [List.zip_cons_cons, List.mem_cons, Prod.mk.injEq] at h1 h2
      have hn' := List.nodup_cons.1 hn
      rcases h1 with ⟨rfl, rfl⟩ | h1
      · rcases h2 with ⟨_, h2⟩ | h2
        · simp at h2
        · exact hn'.1 (List.of_mem_zip h2).1
      · rcases h2 with ⟨rfl, rfl⟩ | h2
        · exact hn'.1 (List.of_mem_zip h1).1
        · exact ih hn'.2 h1 h2

theorem devices_nodup (c : Cfg) : c.devices.Nodup := by
  unfold Cfg.devices devicesOf
  cases c.bsdauth <;> cases c.usePam <;> decide

/-- the flags of a context: those in `g` are used -/
structure Flags (c : Cfg) (k : Kbd) (g : List Bytes) : Prop where
  len : k.used.length = c.devices.length
  used : ∀ d ∈ g, (d, true) ∈ c.devices.zip k.used

theorem nextDevice_flags {c : Cfg} {st : St} (fuel : Nat) {k : Kbd} {g : List Bytes}
    (h : Flags c k g) :
    Flags c (nextDevice c st fuel k) g ∧
    ∀ d, (nextDevice c st fuel k).device = some d →
      (d, true) ∈ c.devices.zip (nextDevice c st fuel k).used ∧ d ∉ g := by
  induction fuel generalizing k with
  | zero => simp [nextDevice]; exact ⟨h.len, h.used⟩
  | succ n ih =>
    simp only [nextDevice]
    cases hn : k.names with
    | none => simp; exact ⟨h.len, h.used⟩
    | some ns =>
      simp only
      split
      · simp; exact ⟨h.len, h.used⟩
      · obtain ⟨s1, s2, s3⟩ := scan_spec st (Text.strsep 44 ns).1 c.devices k.used none h.len
        cases hs : (scanDevices st (Text.strsep 44 ns).1 c.devices k.used none).1 with
        | none =>
          simp only
          exact ih ⟨s1, fun d hd => s2 d (h.used d hd)⟩
        | some d' =>
          simp only
          refine ⟨⟨s1, fun d hd => s2 d (h.used d hd)⟩, ?_⟩
          intro d hd
          simp only [Option.some.injEq] at hd
          subst hd
          rcases s3 d' hs with h' | ⟨h1, h2⟩
          · simp at h'
          · exact ⟨h1, fun hg => flag_unique (devices_nodup c) (h.used _ hg) h2⟩

/-- the outstanding challenge, if any, is of a device that has not given its verdict -/
def Pending (c : Cfg) (kbd : Option Kbd) (g : List Bytes) : Prop :=
  ∀ k, kbd = some k → Flags c k g ∧ ∀ d, k.device = some d →
    (d, true) ∈ c.devices.zip k.used ∧ d ∉ g

theorem challengeStart_pending {c : Cfg} {st : St} {k : Kbd} {g : List Bytes} (avail : Bool)
    (h : Flags c k g) : Pending c (challengeStart c st k avail).1 g := by
  intro k' hk
  unfold challengeStart at hk
  simp only at hk
  obtain ⟨f1, f2⟩ := nextDevice_flags (st := st) (kbdFuel k) h
  cases hd : (nextDevice c st (kbdFuel k) k).device with
  | none => simp [hd] at hk
  | some d =>
    simp only [hd] at hk
    cases avail with
    | false => simp at hk
    | true =>
      simp at hk
      subst hk
      exact ⟨f1, f2⟩

theorem fin_kbd {c st r authed pm sub o st'} (h : Fin c st r authed pm sub o st') :
    st'.kbd = st.kbd ∧ (∀ l, o.log = some l → l.sub = sub) := by
  cases h <;> refine ⟨rfl, ?_⟩ <;> intro l hl <;> simp at hl <;> subst hl <;> rfl

theorem finish_kbd (c st r authed pm sub) :
    (finish c st r authed pm sub).2.kbd = st.kbd ∧
    (∀ l, (finish c st r authed pm sub).1.log = some l → l.sub = sub) :=
  fin_kbd (finish_cases c st r authed pm sub)

theorem pending_weaken {c kbd g} (h : Pending c kbd g) : Pending c kbd [] := by
  intro k hk
  obtain ⟨h1, h2⟩ := h k hk
  exact ⟨⟨h1.len, by simp⟩, fun d hd => ⟨(h2 d hd).1, by simp⟩⟩

theorem request_pending {c : Cfg} {st : St} (u s m d r) (h : Pending c st.kbd []) :
    Pending c (step c st (.request u s m d r)).2.kbd [] := by
  simp only [step]
  split
  · exact h
  · have ht : ∀ st1, Pending c (tryMethod c st1 m d r).2.kbd [] := by
      intro st1
      have h0 : Pending c none [] := by intro k hk; simp at hk
      simp only [tryMethod]
      split
      · split
        · rw [(finish_kbd _ _ _ _ _ _).1]
          unfold runMethod
          split
          · exact h0
          · split
            · exact challengeStart_pending _ ⟨by simp [kbdAlloc], by simp⟩
            · exact h0
        · rw [(finish_kbd _ _ _ _ _ _).1]; exact h0
      · rw [(finish_kbd _ _ _ _ _ _).1]; exact h0
    unfold request
    split
    · exact h
    · split
      · cases setup c st (userPart u) s with
        | none => exact h
        | some st0 => exact ht _
      · split
        · exact h
        · exact ht _

theorem guesses_append (a b : List (Ev × Out)) : guesses (a ++ b) = guesses a ++ guesses b := by
  induction a with
  | nil => rfl
  | cons p a ih =>
    obtain ⟨e, o⟩ := p
    simp only [List.cons_append, guesses]
    split
    · split <;> simp [ih]
    · exact ih

/-- one response adds at most its device's verdict -/
theorem response_pending {c : Cfg} {st : St} {r : Result} {g : List Bytes} (h : Pending c st.kbd g)
    (hg : g.Nodup) (hi : KbdOk c st.kbd) :
    ∃ d : List Bytes, guesses [(Ev.response r, (step c st (.response r)).1)] = d ∧ (g ++ d).Nodup ∧
      (∀ x ∈ d, x ∈ c.devices) ∧ Pending c (step c st (.response r)).2.kbd (g ++ d) := by
  simp only [step]
  split
  · exact ⟨[], by simp [guesses], by simpa using hg, by simp, by simpa using h⟩
  · unfold response
    cases hk : st.kbd with
    | none =>
      refine ⟨[], by simp [guesses], by simpa using hg, by simp, ?_⟩
      simp only [hk]
      intro k hk'; simp at hk'
    | some k =>
      obtain ⟨_, d, hd, hkd⟩ := hi k hk
      obtain ⟨p1, p2⟩ := h k hk
      obtain ⟨q1, q2⟩ := p2 d hkd
      have hnd : (g ++ [d]).Nodup := by
        rw [List.nodup_append]
        refine ⟨hg, by simp, ?_⟩
        intro a ha b hb
        simp at hb
        subst hb
        intro e
        exact q2 (e ▸ ha)
      have hfl : Flags c k (g ++ [d]) := by
        refine ⟨p1.len, ?_⟩
        intro x hx
        rcases List.mem_append.1 hx with hx | hx
        · exact p1.used x hx
        · simp at hx; subst hx; exact q1
      -- whatever is logged
      have hguess : ∀ o : Out, (∀ l, o.log = some l → l.sub = k.device) →
          ¬ (r.ok = false ∧ r.more = true) →
          guesses [(Ev.response r, o)] = [d] ∨ guesses [(Ev.response r, o)] = [] := by
        intro o ho hr
        simp only [guesses, resultOf]
        split
        · rename_i l
          simp only [hr, if_false]
          have := ho _ l
          simp only at this
          rw [hkd] at this
          simp at this
          left; simp [this]
        · exact Or.inr rfl
      have hdone : ∀ st2 authed, ¬ (r.ok = false ∧ r.more = true) → Pending c st2.kbd (g ++ [d]) →
          ∃ d', guesses [(Ev.response r, (finish c st2 r authed b!"keyboard-interactive" k.device).1)] = d' ∧
            (g ++ d').Nodup ∧ (∀ x ∈ d', x ∈ c.devices) ∧
            Pending c (finish c st2 r authed b!"keyboard-interactive" k.device).2.kbd (g ++ d') := by
        intro st2 authed hr hpend
        obtain ⟨f1, f2⟩ := finish_kbd c st2 r authed b!"keyboard-interactive" k.device
        rw [f1]
        rcases hguess _ f2 hr with hx | hx
        · exact ⟨_, hx, hnd, by simpa using hd, hpend⟩
        · refine ⟨_, hx, by simpa using hg, by simp, ?_⟩
          intro k' hk'
          obtain ⟨a1, a2⟩ := hpend k' hk'
          exact ⟨⟨a1.len, fun x hx => a1.used x (by simp at hx ⊢; exact Or.inl hx)⟩,
            fun x hx => ⟨(a2 x hx).1, fun hm => (a2 x hx).2 (by simp at hm ⊢; exact Or.inl hm)⟩⟩
      simp only
      split
      · rename_i hok
        have hr : ¬ (r.ok = false ∧ r.more = true) := by simp [hok]
        split
        · apply hdone _ _ hr
          intro k' hk'; simp at hk'
        · apply hdone _ _ hr
          exact challengeStart_pending _ hfl
      · rename_i hok
        split
        · rename_i hmore
          have hr : r.ok = false ∧ r.more = true := ⟨by simpa using hok, hmore⟩
          obtain ⟨f1, f2⟩ := finish_kbd c { st with postponed := true, kbd := some k } r false b!"keyboard-interactive" k.device
          refine ⟨[], ?_, by simpa using hg, by simp, ?_⟩
          · simp only [guesses, resultOf]
            split
            · simp [hr]
            · rfl
          · rw [f1, List.append_nil]
            intro k' hk'
            simp at hk'
            subst hk'
            exact ⟨p1, p2⟩
        · rename_i hmore
          have hr : ¬ (r.ok = false ∧ r.more = true) := by simp [hmore]
          apply hdone _ _ hr
          exact challengeStart_pending _ hfl

theorem hist_pending {c : Cfg} {h : List (Ev × Out)} {st : St} (hh : Hist c h st) :
    Pending c st.kbd [] := by
  induction hh with
  | nil => intro k hk; simp [init] at hk
  | @snoc h st e hh ih =>
    cases e with
    | request u s m d r => exact request_pending u s m d r ih
    | response r =>
      obtain ⟨_, _, _, _, hp⟩ := response_pending (r := r) ih (by simp) (hist_inv hh).1.kbd
      exact pending_weaken hp

end Verif.Auth
