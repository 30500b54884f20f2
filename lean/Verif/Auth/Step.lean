/-
One message, as a list of cases.
-/
import Verif.Auth.Lists

namespace Verif.Auth

open Spec

/-- `userauth_finish` gives the method's success its full weight: valid user, root rule, lists. -/
structure Won (c : Cfg) (st : St) (r : Result) (authed : Bool) (pm : Bytes) (m : Bytes) : Prop where
  authed : authed = true
  valid : st.valid = true
  quiet : st.postponed = false
  name : byName pm = some m
  root : st.uid = 0 → rootAllowed c r.forced m = true

/-- the number of failures after a failed attempt -/
def bump (st : St) (m : Bytes) : Nat :=
  if st.serverFail = false ∧ (st.attempt > 1 ∨ m ≠ b!"none") then st.failures + 1 else st.failures

inductive Fin (c : Cfg) (st : St) (r : Result) (authed : Bool) (pm : Bytes) (sub : Option Bytes) :
    Out → St → Prop where
  | die : Fin c st r authed pm sub ⟨none, .fatal⟩ { st with over := true }
  | win (m ls) : Won c st r authed pm m →
      (st.multi = true → updateLists m sub st.lists false = some (true, ls)) →
      (c.usePam = true → r.account = true) →
      Fin c st r authed pm sub ⟨some ⟨.accepted, m, sub⟩, .success⟩ { st with lists := ls, over := true }
  | denied (m ls) : Won c st r authed pm m →
      (st.multi = true → updateLists m sub st.lists false = some (true, ls)) →
      Fin c st r authed pm sub ⟨some ⟨.accepted, m, sub⟩, .fatal⟩ { st with lists := ls, over := true }
  | part (m ls) : Won c st r authed pm m → st.multi = true →
      updateLists m sub st.lists false = some (false, ls) → st.failures < c.maxTries →
      Fin c st r authed pm sub
        ⟨some ⟨.partly, m, sub⟩, .failure (Text.join 44 (methodsGet c { st with lists := ls })) true⟩
        { st with lists := ls }
  | partEnd (m ls) : Won c st r authed pm m → st.multi = true →
      updateLists m sub st.lists false = some (false, ls) →
      Fin c st r authed pm sub ⟨some ⟨.partly, m, sub⟩, .fatal⟩ { st with lists := ls, over := true }
  | wait : st.postponed = true → authed = false →
      Fin c st r authed pm sub ⟨some ⟨.postponed, pm, sub⟩, .quiet⟩ st
  | fail (m) : st.postponed = false → (m = pm ∨ byName pm = some m) → bump st m < c.maxTries →
      Fin c st r authed pm sub ⟨some ⟨.failed, m, sub⟩, .failure (Text.join 44 (methodsGet c st)) false⟩
        { st with failures := bump st m }
  | failEnd (m) : st.postponed = false → (m = pm ∨ byName pm = some m) → c.maxTries ≤ bump st m →
      Fin c st r authed pm sub ⟨some ⟨.failed, m, sub⟩, .fatal⟩
        { st with failures := bump st m, over := true }

theorem finishReply_fail {c : Cfg} {st : St} {r : Result} {m : Bytes} {sub : Option Bytes}
    (h : st.postponed = false) :
    finishReply c st r false false m sub =
      if c.maxTries ≤ bump st m then
        (⟨some ⟨.failed, m, sub⟩, .fatal⟩, { st with failures := bump st m, over := true })
      else (⟨some ⟨.failed, m, sub⟩, .failure (Text.join 44 (methodsGet c st)) false⟩,
        { st with failures := bump st m }) := by
  simp [finishReply, h, verdict, bump]

theorem finishReply_part {c : Cfg} {st : St} {r : Result} {m : Bytes} {sub : Option Bytes}
    (h : st.postponed = false) :
    finishReply c st r false true m sub =
      if c.maxTries ≤ st.failures then
        (⟨some ⟨.partly, m, sub⟩, .fatal⟩, { st with over := true })
      else (⟨some ⟨.partly, m, sub⟩, .failure (Text.join 44 (methodsGet c st)) true⟩, st) := by
  cases st
  simp only at h
  subst h
  simp [finishReply, verdict]

theorem finishReply_win {c : Cfg} {st : St} {r : Result} {m : Bytes} {sub : Option Bytes}
    (h : st.postponed = false) :
    finishReply c st r true false m sub =
      if c.usePam = true ∧ r.account = false then
        (⟨some ⟨.accepted, m, sub⟩, .fatal⟩, { st with over := true })
      else (⟨some ⟨.accepted, m, sub⟩, .success⟩, { st with over := true }) := by
  simp [finishReply, h, verdict]

theorem finishReply_wait {c : Cfg} {st : St} {r : Result} {m : Bytes} {sub : Option Bytes}
    (h : st.postponed = true) :
    finishReply c st r false false m sub = (⟨some ⟨.postponed, m, sub⟩, .quiet⟩, st) := by
  simp [finishReply, h, verdict]

theorem finish_cases (c : Cfg) (st : St) (r : Result) (authed : Bool) (pm : Bytes)
    (sub : Option Bytes) :
    Fin c st r authed pm sub (finish c st r authed pm sub).1 (finish c st r authed pm sub).2 := by
  cases authed with
  | false =>
    simp only [finish, Bool.false_eq_true, if_false]
    cases hp : st.postponed with
    | true => rw [finishReply_wait hp]; exact .wait hp rfl
    | false =>
      rw [finishReply_fail hp]
      split
      · rename_i h; exact .failEnd pm hp (Or.inl rfl) h
      · rename_i h; exact .fail pm hp (Or.inl rfl) (by omega)
  | true =>
    simp only [finish, if_true]
    by_cases hv : st.valid = false
    · rw [if_pos hv]; exact .die
    · rw [if_neg hv]
      have hv : st.valid = true := by simpa using hv
      by_cases hp : st.postponed = true
      · rw [if_pos hp]; exact .die
      · rw [if_neg hp]
        have hp : st.postponed = false := by simpa using hp
        cases hn : byName pm with
        | none => exact .die
        | some m =>
          simp only
          by_cases hr : st.uid = 0 ∧ rootAllowed c r.forced m = false
          · rw [if_pos hr, finishReply_fail hp]
            split
            · rename_i h; exact .failEnd m hp (Or.inr hn) h
            · rename_i h; exact .fail m hp (Or.inr hn) (by omega)
          · rw [if_neg hr]
            have hw : Won c st r true pm m := by
              refine ⟨rfl, hv, hp, hn, ?_⟩
              intro h0
              cases hx : rootAllowed c r.forced m with
              | true => rfl
              | false => exact absurd ⟨h0, hx⟩ hr
            by_cases hmu : st.multi = true
            · rw [if_pos hmu]
              cases hul : updateLists m sub st.lists false with
              | none => exact .die
              | some p =>
                obtain ⟨b, ls⟩ := p
                cases b with
                | true =>
                  simp only
                  rw [finishReply_win (st := { st with lists := ls }) hp]
                  split
                  · exact .denied m ls hw (fun _ => hul)
                  · rename_i h
                    refine .win m ls hw (fun _ => hul) ?_
                    intro hu
                    cases hx : r.account with
                    | true => rfl
                    | false => exact absurd ⟨hu, hx⟩ h
                | false =>
                  simp only
                  rw [finishReply_part (st := { st with lists := ls }) hp]
                  split
                  · exact .partEnd m ls hw hmu hul
                  · rename_i h; exact .part m ls hw hmu hul (by simp at h; omega)
            · rw [if_neg hmu, finishReply_win hp]
              split
              · exact .denied m st.lists hw (by simp [hmu])
              · rename_i h
                refine .win m st.lists hw (by simp [hmu]) ?_
                intro hu
                cases hx : r.account with
                | true => rfl
                | false => exact absurd ⟨hu, hx⟩ h

/-! ### Keyboard-interactive devices -/

theorem scanDevices_mem (st : St) (tok : Bytes) (ds : List Bytes) (used : List Bool)
    (cur : Option Bytes) {d : Bytes} (h : (scanDevices st tok ds used cur).1 = some d) :
    d ∈ ds ∨ cur = some d := by
  induction ds generalizing used cur with
  | nil => exact Or.inr h
  | cons a ds ih =>
    simp only [scanDevices] at h
    split at h
    · rcases ih _ _ h with h | h
      · exact Or.inl (List.mem_cons_of_mem _ h)
      · simp at h; subst h; simp
    · rcases ih _ _ h with h | h
      · exact Or.inl (List.mem_cons_of_mem _ h)
      · exact Or.inr h

theorem nextDevice_mem (c : Cfg) (st : St) (fuel : Nat) (k : Kbd) {d : Bytes}
    (h : (nextDevice c st fuel k).device = some d) : d ∈ c.devices := by
  induction fuel generalizing k with
  | zero => simp [nextDevice] at h
  | succ n ih =>
    simp only [nextDevice] at h
    cases hn : k.names with
    | none => simp [hn] at h
    | some ns =>
      simp only [hn] at h
      split at h
      · simp at h
      · cases hs : (scanDevices st (Text.strsep 44 ns).1 c.devices k.used none).1 with
        | none =>
          simp only [hs] at h
          exact ih _ h
        | some d' =>
          simp only [hs] at h
          simp at h
          subst h
          rcases scanDevices_mem _ _ _ _ _ hs with h | h
          · exact h
          · simp at h

/-- the device of an outstanding challenge is one of the server's, and the method is switched on -/
def KbdOk (c : Cfg) (kbd : Option Kbd) : Prop :=
  ∀ k, kbd = some k → c.enabled b!"keyboard-interactive" = true ∧ ∃ d ∈ c.devices, k.device = some d

theorem challengeStart_ok {c : Cfg} (st : St) (k : Kbd) (avail : Bool)
    (h : c.enabled b!"keyboard-interactive" = true) : KbdOk c (challengeStart c st k avail).1 := by
  intro k' hk
  refine ⟨h, ?_⟩
  unfold challengeStart at hk
  simp only at hk
  cases hd : (nextDevice c st (kbdFuel k) k).device with
  | none => simp [hd] at hk
  | some d =>
    simp only [hd] at hk
    cases avail with
    | false => simp at hk
    | true =>
      simp at hk
      subst hk
      exact ⟨d, nextDevice_mem _ _ _ _ hd, hd⟩

theorem devices_mem {c : Cfg} {d : Bytes} (h : d ∈ c.devices) :
    (d = b!"bsdauth" ∧ c.bsdauth = true) ∨ (d = b!"pam" ∧ c.bsdauth = false ∧ c.usePam = true) := by
  unfold Cfg.devices devicesOf at h
  cases hb : c.bsdauth <;> cases hp : c.usePam <;> simp [hb, hp] at h <;> simp [h]

/-! ### The whole step -/

/-- everything `userauth_finish` and the bookkeeping of later messages depend on -/
structure Same (a b : St) : Prop where
  attempt : a.attempt = b.attempt
  failures : a.failures = b.failures
  user : a.user = b.user
  service : a.service = b.service
  valid : a.valid = b.valid
  uid : a.uid = b.uid
  lists : a.lists = b.lists
  multi : a.multi = b.multi
  over : a.over = b.over

/-- the state in which the method is looked up -/
inductive Prep (c : Cfg) (st : St) : Ev → St → Prop where
  | first {u s m d r st0} : st.attempt = 0 → setup c st (userPart u) s = some st0 →
      Prep c st (.request u s m d r) { st0 with attempt := 1 }
  | again {u s m d r} : 0 < st.attempt → st.attempt < 1024 → userPart u = st.user → s = st.service →
      Prep c st (.request u s m d r) { st with attempt := st.attempt + 1 }
  | resp {r} : st.kbd ≠ none → Prep c st (.response r) st

/-- the successful run of a method -/
structure Ran (c : Cfg) (e : Ev) (st1 st2 : St) (pm m : Bytes) (sub : Option Bytes) : Prop where
  ok : (resultOf e).ok = true
  name : byName pm = some m
  attempts : Attempts c e m sub
  enabled : m ≠ b!"none" → c.enabled m = true
  once : m = b!"none" → st1.noneEnabled = true ∧ st2.noneEnabled = false
  sub : ∀ s, sub = some s → 44 ∉ s

inductive Sum (c : Cfg) (st : St) (e : Ev) : Out → St → Prop where
  | die : Sum c st e ⟨none, .fatal⟩ { st with over := true }
  | ignored : isRequest e = false → Sum c st e ⟨none, .quiet⟩ st
  | go (st1 st2 authed pm sub o st') : Prep c st e st1 → Same st1 st2 →
      Fin c st2 (resultOf e) authed pm sub o st' →
      (authed = true → ∃ m, Ran c e st1 st2 pm m sub) →
      (st2.serverFail = true → (resultOf e).serverFail = true) →
      (st2.kbd ≠ none → st2.serverFail = false) →
      (isRequest e = false → pm = b!"keyboard-interactive") →
      KbdOk c st2.kbd →
      (st2.noneEnabled = true → st1.noneEnabled = true) →
      Sum c st e o st'

theorem go_of {c : Cfg} {st st1 st2 : St} {e : Ev} {authed : Bool} {pm : Bytes} {sub : Option Bytes}
    (hp : Prep c st e st1) (hs : Same st1 st2)
    (hr : authed = true → ∃ m, Ran c e st1 st2 pm m sub)
    (h1 : st2.serverFail = true → (resultOf e).serverFail = true)
    (h1' : st2.kbd ≠ none → st2.serverFail = false)
    (h2 : isRequest e = false → pm = b!"keyboard-interactive")
    (hk : KbdOk c st2.kbd) (h3 : st2.noneEnabled = true → st1.noneEnabled = true) :
    Sum c st e (finish c st2 (resultOf e) authed pm sub).1
      (finish c st2 (resultOf e) authed pm sub).2 :=
  .go st1 st2 authed pm sub _ _ hp hs (finish_cases _ _ _ _ _ _) hr h1 h1' h2 hk h3

theorem byName_known {n m : Bytes} (h : byName n = some m) :
    Known m ∧ (n = m ∨ (n = b!"publickey-hostbound-v00@openssh.com" ∧ m = b!"publickey")) := by
  unfold byName at h
  have hm := List.mem_of_find?_eq_some h
  have hp := List.find?_some h
  refine ⟨mem_names.1 hm, ?_⟩
  simp at hp
  rcases hp with hp | hp
  · exact Or.inl hp
  · right
    unfold synonym at hp
    split at hp
    · rename_i e
      simp at hp
      exact ⟨hp.symm, e⟩
    · simp at hp

theorem lookup_some {c : Cfg} {st : St} {n m : Bytes} (h : lookup c st n = some m) :
    byName n = some m ∧ isEnabled c st.noneEnabled m = true ∧ methodAllowed st m none = true := by
  unfold lookup at h
  cases hb : byName n with
  | none => simp [hb] at h
  | some m' =>
    simp only [hb] at h
    split at h
    · rename_i he
      split at h
      · rename_i ha
        simp at h
        subst h
        exact ⟨rfl, he, ha⟩
      · simp at h
    · simp at h

theorem tryMethod_sum {c : Cfg} {st st1 : St} {u s method devs : Bytes} {r : Result}
    (hp : Prep c st (.request u s method devs r) st1) :
    Sum c st (.request u s method devs r) (tryMethod c st1 method devs r).1
      (tryMethod c st1 method devs r).2 := by
  have key0 : Sum c st (.request u s method devs r)
      (finish c { st1 with kbd := none, postponed := false, serverFail := false } r false method none).1
      (finish c { st1 with kbd := none, postponed := false, serverFail := false } r false method none).2 := by
    refine go_of hp ⟨rfl, rfl, rfl, rfl, rfl, rfl, rfl, rfl, rfl⟩ (by simp) (by simp) (by simp) (by simp [isRequest]) ?_ (fun h => h)
    intro k hk
    simp at hk
  simp only [tryMethod]
  split
  · rename_i m hl
    obtain ⟨hb, he, _⟩ := lookup_some hl
    obtain ⟨hkn, hsy⟩ := byName_known hb
    split
    · have hatt : Attempts c (.request u s method devs r) m none := Or.inl ⟨u, s, method, devs, r, rfl, rfl, hsy⟩
      unfold runMethod
      by_cases h1 : m = b!"none"
      · rw [if_pos h1]
        refine go_of hp ⟨rfl, rfl, rfl, rfl, rfl, rfl, rfl, rfl, rfl⟩ ?_ (by simp) (by simp) (by simp [isRequest]) ?_ (by simp)
        · intro hok
          refine ⟨m, hok, hb, hatt, fun h => absurd h1 h, ?_, by simp⟩
          intro _
          simp only [isEnabled, if_pos h1] at he
          exact ⟨he, rfl⟩
        · intro k hk; simp at hk
      · rw [if_neg h1]
        have hen : c.enabled m = true := by
          simp only [isEnabled, if_neg h1] at he
          exact he
        by_cases h2 : m = b!"keyboard-interactive"
        · rw [if_pos h2]
          refine go_of hp ⟨rfl, rfl, rfl, rfl, rfl, rfl, rfl, rfl, rfl⟩ (by simp) (by simp) (by simp) (by simp [isRequest]) ?_ (fun h => h)
          exact challengeStart_ok _ _ _ (h2 ▸ hen)
        · rw [if_neg h2]
          refine go_of hp ⟨rfl, rfl, rfl, rfl, rfl, rfl, rfl, rfl, rfl⟩ ?_ (fun h => h) (by simp) (by simp [isRequest]) ?_ (fun h => h)
          · intro hok
            exact ⟨m, hok, hb, hatt, fun _ => hen, fun h => absurd h h1, by simp⟩
          · intro k hk; simp at hk
    · exact key0
  · exact key0

theorem byName_kbd : byName b!"keyboard-interactive" = some b!"keyboard-interactive" := by decide

theorem response_sum {c : Cfg} {st : St} {r : Result} (hk : KbdOk c st.kbd)
    (hq : st.kbd ≠ none → st.serverFail = false) :
    Sum c st (.response r) (response c st r).1 (response c st r).2 := by
  unfold response
  cases hkb : st.kbd with
  | none => exact .ignored rfl
  | some k =>
    obtain ⟨hen, d, hd, hkd⟩ := hk k hkb
    have hsf : st.serverFail = false := hq (by simp [hkb])
    have hpr : Prep c st (.response r) st := .resp (by simp [hkb])
    have hclean : 44 ∉ d := by
      rcases devices_mem hd with ⟨rfl, _⟩ | ⟨rfl, _⟩ <;> decide
    have hran : r.ok = true → ∀ st2, Ran c (.response r) st st2 b!"keyboard-interactive"
        b!"keyboard-interactive" k.device := by
      intro hok st2
      refine ⟨hok, byName_kbd, Or.inr ⟨r, d, rfl, rfl, hkd, devices_mem hd⟩, fun _ => hen, ?_, ?_⟩
      · intro h; exact absurd h (by decide)
      · intro s hs
        rw [hkd] at hs
        simp at hs
        exact hs ▸ hclean
    simp only
    split
    · rename_i hok
      split
      · refine go_of hpr ⟨rfl, rfl, rfl, rfl, rfl, rfl, rfl, rfl, rfl⟩ (fun _ => ⟨_, hran hok _⟩) (by simp [hsf]) (by simp [hsf]) (fun _ => rfl) ?_ (fun h => h)
        intro k hk; simp at hk
      · refine go_of hpr ⟨rfl, rfl, rfl, rfl, rfl, rfl, rfl, rfl, rfl⟩ (by simp) (by simp [hsf]) (by simp [hsf]) (fun _ => rfl) ?_ (fun h => h)
        exact challengeStart_ok _ _ _ hen
    · split
      · refine go_of hpr ⟨rfl, rfl, rfl, rfl, rfl, rfl, rfl, rfl, rfl⟩ (by simp) (by simp [hsf]) (by simp [hsf]) (fun _ => rfl) ?_ (fun h => h)
        intro k' h'
        simp at h'
        subst h'
        exact ⟨hen, d, hd, hkd⟩
      · refine go_of hpr ⟨rfl, rfl, rfl, rfl, rfl, rfl, rfl, rfl, rfl⟩ (by simp) (by simp [hsf]) (by simp [hsf]) (fun _ => rfl) ?_ (fun h => h)
        exact challengeStart_ok _ _ _ hen

theorem step_sum {c : Cfg} {st : St} (e : Ev) (hover : st.over = false) (hk : KbdOk c st.kbd)
    (hq : st.kbd ≠ none → st.serverFail = false) :
    Sum c st e (step c st e).1 (step c st e).2 := by
  cases e with
  | response r =>
    simp only [step, hover, Bool.false_eq_true, if_false]
    exact response_sum hk hq
  | request u s m d r =>
    simp only [step, hover, Bool.false_eq_true, if_false]
    unfold request
    split
    · exact .die
    · split
      · rename_i h0
        cases hs : setup c st (userPart u) s with
        | none => exact .die
        | some st0 => exact tryMethod_sum (.first h0 hs)
      · rename_i h0
        split
        · exact .die
        · rename_i hu
          have hu1 : userPart u = st.user := Classical.byContradiction fun h => hu (Or.inl h)
          have hu2 : s = st.service := Classical.byContradiction fun h => hu (Or.inr h)
          exact tryMethod_sum (.again (by omega) (by omega) hu1 hu2)

theorem step_over {c : Cfg} {st : St} (e : Ev) (h : st.over = true) :
    step c st e = (⟨none, .quiet⟩, st) := by
  cases e <;> simp [step, h]

end Verif.Auth
