/-
C131 - C133: when output is sent while someone types.
-/
import Verif.Pace.Spec

namespace Verif.Pace
open Verif Wire

theorem typing_what {s : St} {e : Env} (h : Typing e) :
    what s e = if s.active && e.enqueued && some? e then .keystroke
      else if s.active then (if e.now ≥ s.until_ then .stop else if e.now ≥ s.next && !some? e then .chaff else .nothing) else .nothing := by
  obtain ⟨h1, h2, h3⟩ := h
  have hf : (!few e && some? e) = false := by
    rcases h3 with h3 | ⟨h3, h4⟩
    · simp [some?, h3]
    · simp [few, h3, h4]
  unfold what
  rw [h1, h2, hf]
  rfl

theorem not_typing {s : St} {e : Env} (h : ¬ Typing e) : what s e = .stop := by
  unfold what
  split
  · rfl
  rename_i h1
  split
  · rfl
  rename_i h2
  split
  · rfl
  rename_i h3
  refine absurd ⟨by simpa using h1, by simpa using h2, ?_⟩ h
  simp only [few, some?, Bool.and_eq_true, Bool.not_eq_true', Bool.and_eq_false_iff, decide_eq_true_eq, not_and, decide_eq_false_iff_not] at h3
  by_cases ho : e.out = 0
  · exact .inl ho
  · right
    cases hi : e.interactive with
    | false => exact absurd ho (h3 (.inl hi))
    | true =>
      refine ⟨rfl, ?_⟩
      by_cases hl : e.out < 256
      · exact hl
      · exact absurd ho (h3 (.inr hl))

theorem goes_iff {s : St} {e : Env} (ha : s.active = true) : what s e ≠ .stop ↔ Goes s e := by
  by_cases ht : Typing e
  · rw [typing_what ht, ha]
    simp only [Goes, ht, true_and, Bool.true_and, if_true]
    by_cases h1 : e.enqueued = true ∧ e.out ≠ 0
    · rw [if_pos (by simpa [some?] using h1)]
      simp [h1]
    · rw [if_neg (by simpa [some?] using h1)]
      by_cases h2 : e.now ≥ s.until_
      · rw [if_pos h2]
        simp only [ne_eq, not_true_eq_false, false_iff, not_or]
        exact ⟨h1, by omega⟩
      · rw [if_neg h2]
        constructor
        · intro _
          exact .inr (by omega)
        · intro _ h
          split at h <;> cases h
  · rw [not_typing ht]
    simp [Goes, ht]

theorem lastUsed_zero {l : List Chan} {t : Nat} (h : ∀ c ∈ l, c.x11 = false) : lastUsed l t = t := by
  induction l generalizing t with
  | nil => rfl
  | cons c l ih =>
    unfold lastUsed
    rw [h c (List.mem_cons_self ..)]
    simp only [Bool.not_false, Bool.or_true, if_true]
    exact ih fun c' h' => h c' (List.mem_cons_of_mem _ h')

theorem noX11 {e : Env} (h : NoX11 e) : x11Recently e = false := by
  unfold x11Recently
  rw [lastUsed_zero h]
  simp

/-- what a call does when hiding is on and goes on -/
theorem call_goes {I : Nat} {s : St} {e : Env} (hI : I ≠ 0) (ha : s.active = true) (hg : Goes s e) :
    call I s e = if e.now < s.next then
      ⟨{ s with until_ := chaffUntil s e (what s e = .keystroke) }, x11Recently e, what s e = .chaff && e.ping, some s.next⟩
    else
      ⟨{ s with until_ := chaffUntil s e (what s e = .keystroke), next := setNext e.now (I * passed I s e % 2 ^ 32) s.rate e.jitter }, true,
        what s e = .chaff && e.ping, some s.next⟩ := by
  unfold call
  rw [if_neg hI, if_neg ((goes_iff ha).2 hg)]
  unfold go
  rw [if_neg (by simp [starts, ha]), if_neg (by simp [ha])]

/-- What remains, and what does not: with names for numbers, which are large. -/
theorem held_facts {s : St} {U : Nat} {b c : Bool} {d : Option Nat} {r : Res} (hc : r = ⟨{ s with until_ := U }, b, c, d⟩) :
    r.ready = b ∧ r.st.active = s.active ∧ r.st.next = s.next ∧ r.st.rate = s.rate := by
  subst hc
  exact ⟨rfl, rfl, rfl, rfl⟩

theorem gone_facts {s : St} {U N : Nat} {b c : Bool} {d : Option Nat} {r : Res} (hc : r = ⟨{ s with until_ := U, next := N }, b, c, d⟩) :
    r.ready = b ∧ r.st.active = s.active ∧ r.st.next = N ∧ r.st.rate = s.rate := by
  subst hc
  exact ⟨rfl, rfl, rfl, rfl⟩

theorem ite4 {P : Res → Prop} {a b c : Prop} [Decidable a] [Decidable b] [Decidable c] {A B C D : Res} (hA : P A) (hB : P B) (hC : P C)
    (hD : P D) : P (if a then A else if b then B else if c then C else D) := by
  split
  · exact hA
  split
  · exact hB
  split
  · exact hC
  · exact hD

/-! ### C131 -/

/-- Before the time for it nothing is let through, whatever has been typed, and this time does not change. -/
theorem C131_held {I : Nat} {s : St} {e : Env} (hI : I ≠ 0) (ha : s.active = true) (hg : Goes s e) (hx : NoX11 e) (hn : e.now < s.next) :
    (call I s e).ready = false ∧ (call I s e).sent = false ∧ (call I s e).deadline = some s.next ∧ (call I s e).st.active = true ∧
    (call I s e).st.next = s.next := by
  rw [call_goes hI ha hg, if_pos hn]
  refine ⟨noX11 hx, ?_, rfl, ha, rfl⟩
  have : what s e ≠ .chaff := fun h => by
    rw [typing_what hg.1] at h
    repeat' split at h
    all_goals first | cases h | skip
    rename_i h'
    simp only [Bool.and_eq_true, decide_eq_true_eq, ge_iff_le] at h'
    omega
  simp [this]

/-- the next time, after one at which output is let through -/
def after (I next rate t j : Nat) : Nat := setNext t (I * ((t - next) / (I * msec) + 1) % 2 ^ 32) rate j

/-- the function of C131_times -/
def slots (I : Nat) : Nat → Nat → List (Nat × Nat) → List Nat
  | _, _, [] => []
  | next, rate, (t, j) :: l =>
    if t < next then slots I next rate l
    else t :: slots I (after I next rate t j) rate l

theorem allGo_cons {I : Nat} {s : St} {e : Env} {l : List Env} (h : AllGo I s (e :: l)) : Goes s e ∧ AllGo I (call I s e).st l :=
  ⟨h [] e l rfl, fun pre e' post hl => h (e :: pre) e' post (by rw [hl]; rfl)⟩

theorem times_slots {I : Nat} (hI : I ≠ 0) (l : List Env) (s : St) (ha : s.active = true) (hg : AllGo I s l) (hx : ∀ e ∈ l, NoX11 e) :
    times I s l = slots I s.next s.rate (l.map fun e => (e.now, e.jitter)) := by
  induction l generalizing s with
  | nil => rfl
  | cons e l ih =>
    obtain ⟨h1, h2⟩ := allGo_cons hg
    have hc := call_goes hI ha h1
    have hx' := noX11 (hx e (List.mem_cons_self ..))
    unfold times
    rw [List.map_cons, slots]
    have hP : after I s.next s.rate e.now e.jitter = setNext e.now (I * passed I s e % 2 ^ 32) s.rate e.jitter := by rw [after, passed]
    rw [hP]
    by_cases hn : e.now < s.next
    · rw [if_pos hn] at hc
      obtain ⟨a1, a2, a3, a4⟩ := held_facts hc
      rw [if_pos hn, a1, hx', if_neg (by decide), ih _ (a2.trans ha) h2 fun e' h => hx e' (List.mem_cons_of_mem _ h), a3, a4]
    · rw [if_neg hn] at hc
      obtain ⟨a1, a2, a3, a4⟩ := gone_facts hc
      rw [if_neg hn, if_pos a1, ih _ (a2.trans ha) h2 fun e' h => hx e' (List.mem_cons_of_mem _ h), a3, a4]

/-- While hiding is on, the times at which output is let through are a function of when the program looked and of random numbers, not of
when keys were pressed; and looking before the time, as it does when a key is pressed, changes nothing. -/
theorem C131_times {I : Nat} (hI : I ≠ 0) :
    ∃ f : Nat → Nat → List (Nat × Nat) → List Nat,
      (∀ next rate t j l m, t < next → (∀ x ∈ m, x.1 < next) → f next rate (m ++ (t, j) :: l) = f next rate (m ++ l)) ∧
      ∀ (s : St) (l : List Env), s.active = true → AllGo I s l → (∀ e ∈ l, NoX11 e) →
        times I s l = f s.next s.rate (l.map fun e => (e.now, e.jitter)) := by
  refine ⟨slots I, fun next rate t j l m ht hm => ?_, fun s l ha hg hx => times_slots hI l s ha hg hx⟩
  induction m with
  | nil =>
    show slots I next rate ((t, j) :: l) = slots I next rate l
    rw [slots, if_pos ht]
  | cons x m ih =>
    obtain ⟨a, b⟩ := x
    have ha : a < next := hm (a, b) (List.mem_cons_self ..)
    show slots I next rate ((a, b) :: (m ++ (t, j) :: l)) = slots I next rate ((a, b) :: (m ++ l))
    rw [slots, slots, if_pos ha, if_pos ha]
    exact ih fun x hx => hm x (List.mem_cons_of_mem _ hx)

theorem uniform_lt {b r : Nat} (h : 0 < b) : uniform b r < b := by
  unfold uniform
  split
  · exact h
  · exact Nat.mod_lt _ h

theorem uniform_le (b r : Nat) : uniform b r ≤ b := by
  unfold uniform
  split
  · omega
  · exact Nat.le_of_lt (Nat.mod_lt _ (by omega))

/-- The fuzz of the rate is less than a tenth of the interval. -/
def RateOk (I : Nat) (s : St) : Prop := s.rate ≤ I * 100000

theorem fuzz_le (ms : Nat) : fuzz ms ≤ ms * 100000 := by
  unfold fuzz msec fuzzPercent
  omega

theorem setNext_bounds {now ms rate jitter I : Nat} (hr : rate ≤ I * 100000) (hm : I ≤ ms) :
    now + ms * 900000 ≤ setNext now ms rate jitter ∧ setNext now ms rate jitter ≤ now + ms * 1100000 := by
  have h1 := fuzz_le ms
  have h2 := uniform_le (fuzz ms) jitter
  unfold setNext msec
  omega

theorem fresh_rate {X n u r : Nat} {x b c : Bool} {d : Option Nat} (h : r ≤ X) : (⟨⟨x, n, u, r⟩, b, c, d⟩ : Res).st.rate ≤ X := h

theorem same_rate {X : Nat} {s : St} {b c : Bool} {d : Option Nat} (h : s.rate ≤ X) : (⟨s, b, c, d⟩ : Res).st.rate ≤ X := h

theorem rate_call {I : Nat} {s : St} (h : RateOk I s) (e : Env) : RateOk I (call I s e).st := by
  unfold RateOk at h ⊢
  unfold call
  split
  · exact h
  split
  · exact h
  unfold go
  exact ite4 (P := fun r => r.st.rate ≤ I * 100000) (fresh_rate (Nat.le_trans (uniform_le _ _) (fuzz_le I))) (same_rate h)
    (Nat.le_trans (Nat.le_of_eq (held_facts rfl).2.2.2) h) (Nat.le_trans (Nat.le_of_eq (gone_facts rfl).2.2.2) h)

theorem rate_run {I : Nat} (l : List Env) {s : St} (h : RateOk I s) : RateOk I (run I s l) := by
  induction l generalizing s with
  | nil => exact h
  | cons e l ih => exact ih (rate_call h e)

/-- The time for the next output is one interval later, give or take a tenth, or as many as have passed and one. -/
theorem C131_interval {I : Nat} {pre : List Env} {e : Env} (hI : I ≠ 0) (ha : (run I init pre).active = true) (hg : Goes (run I init pre) e)
    (hn : (run I init pre).next ≤ e.now) {k : Nat} (hk : k = (e.now - (run I init pre).next) / (I * 1000000) + 1) (hl : I * k < 2 ^ 32) :
    e.now + I * k * 900000 ≤ (call I (run I init pre) e).st.next ∧ (call I (run I init pre) e).st.next ≤ e.now + I * k * 1100000 := by
  have hr : RateOk I (run I init pre) := rate_run pre (Nat.zero_le _)
  generalize run I init pre = s at *
  rw [call_goes hI ha hg, if_neg (by omega)]
  have hp : passed I s e = k := by rw [hk, passed, msec]
  show _ ≤ setNext e.now (I * passed I s e % 2 ^ 32) s.rate e.jitter ∧ setNext e.now (I * passed I s e % 2 ^ 32) s.rate e.jitter ≤ _
  rw [hp, Nat.mod_eq_of_lt hl]
  exact setNext_bounds hr (Nat.le_mul_of_pos_right I (by rw [hk]; exact Nat.succ_pos _))

/-! ### C132 -/

/-- Hiding begins with the first keys, which are sent at once; the next are sent an interval later. -/
theorem C132_starts {I : Nat} {s : St} {e : Env} (hI : I ≠ 0) (ha : s.active = false) (ht : Typing e) (hk : e.enqueued = true) (ho : e.out ≠ 0) :
    (call I s e).ready = true ∧ (call I s e).st.active = true ∧
    e.now + I * 900000 ≤ (call I s e).st.next ∧ (call I s e).st.next ≤ e.now + I * 1100000 ∧
    e.now + 1024 * 1000000 ≤ (call I s e).st.until_ ∧ (call I s e).st.until_ < e.now + 3072 * 1000000 := by
  have hs : starts s e = true := by
    obtain ⟨-, -, h3⟩ := ht
    rcases h3 with h3 | ⟨h3, h4⟩
    · exact absurd h3 ho
    · simp [starts, ha, few, h3, h4, hk, some?, ho]
  have hw : what s e ≠ .stop := by
    rw [typing_what ht, ha]
    simp
  unfold call
  rw [if_neg hI, if_neg hw]
  unfold go
  rw [if_pos hs]
  have h1 := setNext_bounds (now := e.now) (ms := I) (I := I) (jitter := e.jitter) (Nat.le_trans (uniform_le (fuzz I) e.rate) (fuzz_le I))
    (Nat.le_refl _)
  have h2 := uniform_lt (b := chaffRange) (r := e.chaff) (by decide)
  refine ⟨rfl, rfl, h1.1, h1.2, ?_, ?_⟩
  · show _ ≤ chaffUntil s e true
    unfold chaffUntil chaffMin msec
    rw [if_pos rfl]
    omega
  · show chaffUntil s e true < _
    unfold chaffUntil chaffMin msec
    rw [if_pos rfl]
    unfold chaffRange at h2 ⊢
    omega

/-- It ends only if there is no terminal, keys are exchanged, there is more than a few keys to send, or time is up. -/
theorem C132_ends {I : Nat} {s : St} {e : Env} (hI : I ≠ 0) (ha : s.active = true) : (call I s e).st.active = false ↔ ¬ Goes s e := by
  by_cases hg : Goes s e
  · rw [call_goes hI ha hg]
    by_cases hn : e.now < s.next
    · rw [if_pos hn, (held_facts rfl).2.1]
      simp [ha, hg]
    · rw [if_neg hn, (gone_facts rfl).2.1]
      simp [ha, hg]
  · have hw : what s e = .stop := by
      cases h : what s e with
      | stop => rfl
      | _ => exact absurd ((goes_iff ha).1 (by rw [h]; intro h; cases h)) hg
    unfold call
    rw [if_neg hI, if_pos hw]
    simp [hg]

/-- Time is up between one and three seconds after the last key. -/
theorem C132_lasts {I : Nat} {s : St} {e : Env} (hI : I ≠ 0) (ha : s.active = true) (hg : Goes s e) :
    (e.enqueued = true ∧ e.out ≠ 0 →
      e.now + 1024 * 1000000 ≤ (call I s e).st.until_ ∧ (call I s e).st.until_ < e.now + 3072 * 1000000) ∧
    (¬ (e.enqueued = true ∧ e.out ≠ 0) → (call I s e).st.until_ = s.until_) := by
  have hu : (call I s e).st.until_ = chaffUntil s e (what s e = .keystroke) := by
    rw [call_goes hI ha hg]
    split <;> rfl
  rw [hu]
  constructor
  · rintro ⟨h1, h2⟩
    have hw : what s e = .keystroke := by
      rw [typing_what hg.1, if_pos (by simp [ha, h1, some?, h2])]
    have h2 := uniform_lt (b := chaffRange) (r := e.chaff) (by decide)
    rw [hw]
    unfold chaffUntil chaffMin msec
    rw [if_pos (by simp)]
    unfold chaffRange at h2 ⊢
    omega
  · intro h
    have hw : what s e ≠ .keystroke := fun hw => by
      rw [typing_what hg.1] at hw
      split at hw
      · rename_i h'
        simp only [Bool.and_eq_true, some?, decide_eq_true_eq] at h'
        exact h ⟨h'.1.2, h'.2⟩
      · repeat' split at hw
        all_goals cases hw
    unfold chaffUntil
    simp [hw]

/-- Whenever output is let through something is sent: keys, or in their place chaff. -/
theorem C132_covered {I : Nat} {s : St} {e : Env} (hI : I ≠ 0) (ha : s.active = true) (hg : Goes s e) (hp : e.ping = true) (hn : s.next ≤ e.now) :
    Sends (call I s e) e ∧ ((call I s e).sent = true ↔ e.out = 0) := by
  have hs : (call I s e).ready = true ∧ (call I s e).sent = decide (what s e = .chaff) := by
    rw [call_goes hI ha hg, if_neg (by omega)]
    exact ⟨rfl, by simp [hp]⟩
  by_cases ho : e.out = 0
  · have hw : what s e = .chaff := by
      rw [typing_what hg.1, if_neg (by simp [some?, ho]), if_pos ha]
      rcases hg.2 with h | h
      · exact absurd ho h.2
      · rw [if_neg (by omega), if_pos (by simp [hn, some?, ho])]
    have : (call I s e).sent = true := by rw [hs.2]; simp [hw]
    exact ⟨⟨hs.1, .inr this⟩, by simp [this, ho]⟩
  · have hw : what s e ≠ .chaff := fun hw => by
      rw [typing_what hg.1] at hw
      repeat' split at hw
      all_goals first | cases hw | skip
      rename_i h
      simp [some?, ho] at h
    have : (call I s e).sent = false := by rw [hs.2]; simp [hw]
    exact ⟨⟨hs.1, .inl ho⟩, by simp [this, ho]⟩

/-- There is no other chaff. -/
theorem C132_only {I : Nat} {s : St} {e : Env} (h : (call I s e).sent = true) : s.active = true ∧ Goes s e ∧ s.next ≤ e.now ∧ e.out = 0 := by
  unfold call at h
  split at h
  · cases h
  split at h
  · cases h
  rename_i hw
  unfold go at h
  split at h
  · cases h
  split at h
  · cases h
  rename_i ha
  have ha : s.active = true := by simpa using ha
  have hg := (goes_iff ha).1 hw
  have hc : what s e = .chaff := by
    split at h
    · simp only [Bool.and_eq_true, decide_eq_true_eq] at h
      exact h.1
    · simp only [Bool.and_eq_true, decide_eq_true_eq] at h
      exact h.1
  rw [typing_what hg.1] at hc
  repeat' split at hc
  all_goals first | cases hc | skip
  rename_i h'
  simp only [Bool.and_eq_true, decide_eq_true_eq, ge_iff_le, some?, Bool.not_eq_true', decide_eq_false_iff_not, ne_eq, Decidable.not_not] at h'
  exact ⟨ha, hg, h'.1, h'.2⟩

/-- Chaff is as long as one key. -/
theorem C132_length (chan : Nat) (key : UInt8) : chaffPayload.length = (keyPayload chan key).length := by
  simp [chaffPayload, keyPayload, str, be_length]

/-! ### C133 -/

/-- Without the option, nothing is held back and no chaff is sent. -/
theorem C133_off {s : St} {e : Env} : (call 0 s e).ready = true ∧ (call 0 s e).sent = false := ⟨rfl, rfl⟩

/-- Output is held back only while hiding is on, and only until the time that has been set, at which the program looks again. -/
theorem C133_released {I : Nat} {s : St} {e : Env} (h : (call I s e).ready = false) :
    s.active = true ∧ Goes s e ∧ e.now < s.next ∧ (call I s e).deadline = some s.next := by
  unfold call at h ⊢
  split at h
  · cases h
  rename_i hI
  split at h
  · cases h
  rename_i hw
  rw [if_neg hI, if_neg hw]
  unfold go at h ⊢
  split at h
  · cases h
  rename_i h1
  split at h
  · cases h
  rename_i h2
  have ha : s.active = true := by simpa using h2
  split at h
  · rename_i hn
    rw [if_neg h1, if_neg h2, if_pos hn]
    exact ⟨ha, (goes_iff ha).1 hw, hn, rfl⟩
  · cases h

/-- Each time the program looks, at most one interval has passed. -/
def Punctual (I : Nat) (s : St) (l : List Env) : Prop :=
  ∀ pre e post, l = pre ++ e :: post → (run I s pre).active = true → e.now < (run I s pre).next + I * 1000000

theorem next_bound {I : Nat} (hI : I ≠ 0) (hI' : I ≤ 1000) {s : St} {e : Env} {t : Nat} (hr : RateOk I s)
    (hs : s.active = true → s.next ≤ t + I * 1100000) (ht : t ≤ e.now) (hp : s.active = true → e.now < s.next + I * 1000000)
    (ha : (call I s e).st.active = true) : (call I s e).st.next ≤ e.now + I * 1100000 := by
  cases hact : s.active with
  | true =>
    have hg : Goes s e := by
      by_cases hg : Goes s e
      · exact hg
      · rw [(C132_ends hI hact).2 hg] at ha
        cases ha
    rw [call_goes hI hact hg]
    split
    · have := hs hact
      show s.next ≤ _
      omega
    · have h1 := hp hact
      have hp : passed I s e = 1 := by
        unfold passed msec
        rw [Nat.div_eq_of_lt (by omega)]
      show setNext e.now (I * passed I s e % 2 ^ 32) s.rate e.jitter ≤ _
      rw [hp, Nat.mul_one, Nat.mod_eq_of_lt (by omega)]
      exact (setNext_bounds hr (Nat.le_refl _)).2
  | false =>
    unfold call at ha ⊢
    rw [if_neg hI] at ha ⊢
    split at ha
    · cases ha
    rename_i hw
    rw [if_neg hw]
    unfold go at ha ⊢
    split at ha
    · rename_i hst
      rw [if_pos hst]
      exact (setNext_bounds (Nat.le_trans (uniform_le (fuzz I) e.rate) (fuzz_le I)) (Nat.le_refl _)).2
    · rw [hact] at ha
      simp only [Bool.not_false, if_true] at ha
      rw [hact] at ha
      cases ha

theorem run_append (I : Nat) (s : St) (l r : List Env) : run I s (l ++ r) = run I (run I s l) r := by
  induction l generalizing s with
  | nil => rfl
  | cons e l ih => exact ih _

/-- What is held is held for an interval and a tenth at most, if the program is never late by a whole interval. -/
theorem C133_delay_partial {I : Nat} (hI : I ≠ 0) (hI' : I ≤ 1000) {l : List Env} {e : Env} (hm : (l ++ [e]).Pairwise fun a b => a.now ≤ b.now)
    (hp : Punctual I init (l ++ [e])) (h : (call I (run I init l) e).ready = false) :
    (run I init l).next ≤ e.now + I * 1100000 := by
  have key : ∀ (l : List Env) (s : St) (t : Nat), RateOk I s → (s.active = true → s.next ≤ t + I * 1100000) → (∀ x ∈ l, t ≤ x.now) →
      l.Pairwise (fun a b => a.now ≤ b.now) → Punctual I s l → ∃ t', (t' = t ∨ ∃ x ∈ l, x.now = t') ∧
        ((run I s l).active = true → (run I s l).next ≤ t' + I * 1100000) := by
    intro l
    induction l with
    | nil => exact fun s t _ h2 _ _ _ => ⟨t, .inl rfl, h2⟩
    | cons x l ih =>
      intro s t h1 h2 h3 h4 h5
      obtain ⟨h6, h7⟩ := List.pairwise_cons.1 h4
      obtain ⟨t', ht', h⟩ := ih (call I s x).st x.now (rate_call h1 x)
        (fun ha => next_bound hI hI' h1 h2 (h3 x (List.mem_cons_self ..)) (h5 [] x l rfl) ha)
        h6 h7 (fun pre e' post hl => h5 (x :: pre) e' post (by rw [hl]; rfl))
      refine ⟨t', ?_, h⟩
      rcases ht' with rfl | ⟨y, hy, rfl⟩
      · exact .inr ⟨x, List.mem_cons_self .., rfl⟩
      · exact .inr ⟨y, List.mem_cons_of_mem _ hy, rfl⟩
  obtain ⟨hm1, -, hm2⟩ := List.pairwise_append.1 hm
  obtain ⟨t, ht, hn⟩ := key l init 0 (Nat.zero_le _) (fun h => (by cases h)) (fun _ _ => Nat.zero_le _) hm1
    (fun pre e' post hl => hp pre e' (post ++ [e]) (by rw [hl]; simp))
  have := hn (C133_released h).1
  have hle : t ≤ e.now := by
    rcases ht with rfl | ⟨x, hx, rfl⟩
    · exact Nat.zero_le _
    · exact hm2 x hx e (List.mem_singleton.2 rfl)
  omega

theorem lastUsed_some {l : List Chan} {t : Nat} (h : lastUsed l t ≠ t) : ∃ c ∈ l, c.x11 = true ∧ c.lastused ≠ 0 := by
  induction l generalizing t with
  | nil => exact absurd rfl h
  | cons c l ih =>
    unfold lastUsed at h
    split at h
    · obtain ⟨c', h1, h2⟩ := ih h
      exact ⟨c', List.mem_cons_of_mem _ h1, h2⟩
    · rename_i hc
      simp only [Bool.or_eq_true, decide_eq_true_eq, Bool.not_eq_true', not_or, Bool.not_eq_false] at hc
      exact ⟨c, List.mem_cons_self .., hc.2, hc.1⟩

/-- Output is let through before its time only if there is an X11 connection that has been used. -/
theorem C133_x11_partial {I : Nat} {s : St} {e : Env} (hI : I ≠ 0) (ha : s.active = true) (hg : Goes s e) (hn : e.now < s.next)
    (hr : (call I s e).ready = true) : ∃ c ∈ e.chans, c.x11 = true ∧ c.lastused ≠ 0 := by
  rw [call_goes hI ha hg, if_pos hn] at hr
  have hr : x11Recently e = true := hr
  unfold x11Recently at hr
  simp only [Bool.and_eq_true, decide_eq_true_eq] at hr
  exact lastUsed_some hr.1

/-! ### What is not so -/

/-- a key has been pressed at the time (in milliseconds) -/
def key (ms : Nat) (chans : List Chan) : Env := ⟨ms * 1000000, true, false, true, 36, true, true, chans, 0, 0, 0⟩

/-- a look, with nothing pressed -/
def look (ms : Nat) : Env := ⟨ms * 1000000, true, false, true, 0, false, true, [], 0, 0, 0⟩

/-- An X11 connection lets output through when it has *not* been used for more than a second; and when it has just been used, output is
held. (channels.c:5359) -/
theorem C133_x11_original_false :
    ¬ (∀ (l : List Env) (e : Env), (run 20 init l).active = true → Goes (run 20 init l) e → e.now < (run 20 init l).next →
      (call 20 (run 20 init l) e).ready = true → X11Used e) ∧
    ¬ (∀ (l : List Env) (e : Env), (run 20 init l).active = true → Goes (run 20 init l) e → e.now < (run 20 init l).next →
      X11Used e → (call 20 (run 20 init l) e).ready = true) := by
  constructor
  · intro h
    obtain ⟨c, hc, -, -, hu⟩ := h [key 10000 []] (key 10005 [⟨true, 2⟩]) (by decide +kernel)
      ⟨⟨rfl, rfl, .inr ⟨rfl, by decide⟩⟩, .inl ⟨rfl, by decide⟩⟩ (by decide +kernel) (by decide +kernel)
    rw [List.mem_singleton.1 hc] at hu
    exact absurd hu (by decide +kernel)
  · intro h
    have := h [key 10000 []] (key 10005 [⟨true, 10⟩]) (by decide +kernel)
      ⟨⟨rfl, rfl, .inr ⟨rfl, by decide⟩⟩, .inl ⟨rfl, by decide⟩⟩ (by decide +kernel)
      ⟨⟨true, 10⟩, List.mem_singleton.2 rfl, rfl, by decide, by decide⟩
    exact absurd this (by decide +kernel)

/-- A program that is stopped or a computer that sleeps for an hour, and is woken by a key, holds the next for an hour, as long as one types
on. (clientloop.c:671-680: the intervals that have passed are waited for once more) -/
theorem C133_delay_original_false :
    ¬ ∀ (l : List Env) (e : Env), (l ++ [e]).Pairwise (fun a b => a.now ≤ b.now) → (call 20 (run 20 init l) e).ready = false →
      (run 20 init l).next ≤ e.now + 20 * 1100000 := by
  intro h
  have := h [key 10000 [], key 3610000 []] (key 3610500 []) (by simp [key]) (by decide +kernel)
  exact absurd this (by decide +kernel)

end Verif.Pace
