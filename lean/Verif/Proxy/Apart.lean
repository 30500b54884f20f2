/-
C130: what clients can do to each other and to the program, and what is left of one that has gone.
-/
import Verif.Proxy.Route

namespace Verif.Proxy
open Verif Wire

/-! ### What changes in one step -/

/-- No client has a number at the server. -/
def Bare (l : List (Option Ch)) : Prop := ∀ (n : Nat) (c : Ch), l[n]? = some (some c) → c.kind = .client → c.remote = none

/-- Where a channel comes from: it was there, or is new. -/
def From (s : St) (n : Nat) (c' : Ch) : Prop :=
  (∃ c, s.slots[n]? = some (some c) ∧ c'.uid = c.uid ∧ c'.kind = c.kind ∧ (c'.remote = c.remote ∨ (c'.remote ≠ none ∧ c.kind ≠ .client)) ∧
    (c.sent = true → c'.sent = true)) ∨
  (c'.uid = s.next ∧ c'.kind ≠ .detached ∧ (c'.kind = .client → c'.remote = none) ∧
    ∀ d id, c'.kind = .proxy d id → isClient s.slots d = true)

structure Small (s s' : St) : Prop where
  back : ∀ (n : Nat) (c' : Ch), s'.slots[n]? = some (some c') → From s n c'
  clients : ∀ d, isClient s.slots d = true → isClient s'.slots d = true
  perms : ∀ p ∈ s'.perms, p ∈ s.perms ∨ ∀ d, p.down = some d → isClient s.slots d = true
  next : s.next ≤ s'.next

theorem from_same {s : St} {n : Nat} {c : Ch} (h : s.slots[n]? = some (some c)) : From s n c := .inl ⟨c, h, rfl, rfl, .inl rfl, id⟩

theorem small_same {s s' : St} (hs : s'.slots = s.slots) (hp : ∀ p ∈ s'.perms, p ∈ s.perms ∨ ∀ d, p.down = some d → isClient s.slots d = true)
    (hn : s.next ≤ s'.next) : Small s s' :=
  ⟨fun n c' h => from_same (hs ▸ h), fun d h => by rw [hs]; exact h, hp, hn⟩

theorem small_refl (s : St) : Small s s := small_same rfl (fun _ h => .inl h) (Nat.le_refl _)

theorem small_set {s s' : St} {n : Nat} {o : Option Ch} {c : Ch} (h : s.slots[n]? = some (some c)) (hk : c.kind ≠ .client)
    (hs : s'.slots = s.slots.set n o)
    (ho : ∀ c', o = some c' → c'.uid = c.uid ∧ c'.kind = c.kind ∧ (c'.remote = c.remote ∨ c'.remote ≠ none) ∧ (c.sent = true → c'.sent = true))
    (hp : s'.perms = s.perms) (hn : s'.next = s.next) : Small s s' := by
  refine ⟨fun m c' h' => ?_, fun d hd => ?_, fun p h' => .inl (hp ▸ h'), Nat.le_of_eq hn.symm⟩
  · rw [hs] at h'
    rcases set_cases h' with ⟨rfl, he⟩ | ⟨-, h'⟩
    · obtain ⟨h1, h2, h3, h4⟩ := ho c' he
      exact .inl ⟨c, h, h1, h2, h3.imp_right fun h => ⟨h, hk⟩, h4⟩
    · exact from_same h'
  · obtain ⟨m, e, he, hu, hke⟩ := isClient_iff.1 hd
    have hne : m ≠ n := fun hmn => by
      subst hmn
      rw [h] at he
      cases he
      exact hk hke
    exact isClient_iff.2 ⟨m, e, by rw [hs, getElem_set_ne _ hne]; exact he, hu, hke⟩

theorem small_place {s s' : St} {c : Ch} (hs : s'.slots = place c s.slots) (hu : c.uid = s.next) (hd : c.kind ≠ .detached)
    (hc : c.kind = .client → c.remote = none) (hk : ∀ d id, c.kind = .proxy d id → isClient s.slots d = true) (hp : s'.perms = s.perms)
    (hn : s'.next = s.next + 1) : Small s s' := by
  refine ⟨fun n c' h => ?_, fun d h => ?_, fun p h' => .inl (hp ▸ h'), by omega⟩
  · rw [hs] at h
    rcases place_cases h with ⟨-, rfl⟩ | ⟨-, h⟩
    · exact .inr ⟨hu, hd, hc, hk⟩
    · exact from_same h
  · obtain ⟨m, e, he, h1, h2⟩ := isClient_iff.1 h
    exact isClient_iff.2 ⟨m, e, by rw [hs]; exact place_keeps he, h1, h2⟩

theorem small_closed {s s' : St} {b : Bytes} (hb : Bare s.slots) (hs : s'.slots = closed s.slots b) (hp : s'.perms = s.perms)
    (hn : s'.next = s.next) : Small s s' := by
  have same : s'.slots = s.slots → Small s s' := fun h => small_same h (fun p h' => .inl (hp ▸ h')) (Nat.le_of_eq hn.symm)
  unfold closed at hs
  split at hs
  · exact same hs
  split at hs
  · exact same hs
  rename_i m hm
  obtain ⟨e, he, hr⟩ := byRemote_some hm
  have hk : e.kind ≠ .client := fun h => by
    have := hb m e he h
    rw [hr] at this
    cases this
  unfold closeAt at hs
  rw [at_some.2 he] at hs
  dsimp only at hs
  split at hs
  · exact small_set he hk hs (fun c' h => (by cases h)) hp hn
  · exact small_set he hk hs (fun c' h => (by cases h; exact ⟨rfl, rfl, .inl rfl, fun _ => rfl⟩)) hp hn

theorem small_update {s s' : St} {n type : Nat} {c : Ch} {rest : Bytes} (h : s.slots[n]? = some (some c)) (hk : c.kind ≠ .client)
    (hs : s'.slots = update s.slots n type c rest) (hp : s'.perms = s.perms) (hn : s'.next = s.next) : Small s s' := by
  have same : s'.slots = s.slots → Small s s' := fun h => small_same h (fun p h' => .inl (hp ▸ h')) (Nat.le_of_eq hn.symm)
  unfold update at hs
  split at hs
  · split at hs
    · exact small_set h hk hs (fun c' h => (by cases h; exact ⟨rfl, rfl, .inr (fun h => (by cases h)), id⟩)) hp hn
    · exact same hs
  · split at hs
    · split at hs
      · exact small_set h hk hs (fun c' h => (by cases h)) hp hn
      · exact small_set h hk hs (fun c' h => (by cases h; exact ⟨rfl, rfl, .inl rfl, id⟩)) hp hn
    · exact same hs

theorem small_message {s : St} (type : Nat) (b : Bytes) : Small s (message s type b) := by
  have same : ∀ st, Small s { s with status := st } := fun st => small_same rfl (fun _ h => .inl h) (Nat.le_refl _)
  unfold message
  split
  · exact small_refl s
  split
  · exact same _
  split
  · split
    · exact small_refl s
    · exact same _
  rename_i c hc
  have hc := at_some.1 hc
  split
  · rename_i d id hk
    unfold upstream
    split
    · exact small_update hc (by rw [hk]; intro h; cases h) rfl rfl rfl
    · exact same _
  · split
    · exact small_refl s
    · exact same _
  · rename_i hk
    split
    · exact small_set hc (by rw [hk]; intro h; cases h) rfl (fun c' h => (by cases h; exact ⟨rfl, rfl, .inl rfl, id⟩)) rfl rfl
    · exact small_refl s
  · exact small_refl s

theorem small_collect {s : St} (n : Nat) : Small s (collect s n) := by
  unfold collect
  split
  · rename_i c hc
    have hc := at_some.1 hc
    split
    · rename_i hk
      have hk : c.kind ≠ .client := by rw [hk]; intro h; cases h
      split
      · split
        · exact small_set hc hk rfl (fun c' h => (by cases h)) rfl rfl
        · exact small_refl s
      · split
        · exact small_same rfl (fun _ h => .inl h) (Nat.le_refl _)
        · refine small_set hc hk rfl (fun c' h => ?_) rfl rfl
          split at h
          · cases h
          · cases h
            exact ⟨rfl, rfl, .inl rfl, fun _ => rfl⟩
    · exact small_refl s
  · exact small_refl s

theorem request_shape {s : St} {d : Nat} {t : UInt8} {b : Bytes} (hb : Bare s.slots) (hd : isClient s.slots d = true) :
    Small s (request s d t.toNat b) ∨ (request s d t.toNat b = s.drop d ∧ ¬ Taken t.toNat b) := by
  by_cases ht : Taken t.toNat b
  · left
    generalize t.toNat = T at *
    have hpx : ∀ (id : Nat) (r : Option Nat) (a i : Nat), Ch.kind ⟨s.next, .proxy d id, r, false, false⟩ = .proxy a i → isClient s.slots a = true := by
      intro id r a i h
      cases h
      exact hd
    unfold request
    cases ht with
    | opens id v ctype rest hid hv hl =>
      rw [if_pos (show (90 : Nat) = mOpen from rfl), openParts_iff.2 ⟨hid, v, hv, hl, rfl⟩]
      exact small_place rfl rfl (fun h => (by cases h)) (fun h => (by cases h)) (hpx _ _) rfl rfl
    | confirms r id rest hr hid =>
      rw [if_neg (by decide), if_pos (show (91 : Nat) = mConfirm from rfl), confirmParts_iff.2 ⟨hr, hid, rfl⟩]
      exact small_place rfl rfl (fun h => (by cases h)) (fun h => (by cases h)) (hpx _ _) rfl rfl
    | listens host _ port hl =>
      rw [if_neg (by decide), if_neg (by decide), if_pos (show (80 : Nat) = mGlobal from rfl), listenParts_iff.2 hl]
      refine small_same rfl (fun p hp => ?_) (Nat.le_refl _)
      rcases List.mem_append.1 hp with hp | hp
      · exact .inl hp
      · rw [List.mem_singleton.1 hp]
        exact .inr fun e he => by cases he; exact hd
    | other _ _ h1 h2 h3 =>
      rw [if_neg (show ¬ T = mOpen from h2), if_neg (show ¬ T = mConfirm from h3), if_neg (show ¬ T = mGlobal from h1)]
      split
      · exact small_closed hb rfl rfl rfl
      · exact small_same rfl (fun _ h => .inl h) (Nat.le_refl _)
  · right
    refine ⟨?_, ht⟩
    unfold request
    split
    · rename_i h
      split
      · rfl
      · rename_i ctype id rest hp
        obtain ⟨hid, v, hv, hl, rfl⟩ := openParts_iff.1 hp
        rw [h] at ht
        exact absurd (.opens id v ctype rest hid hv hl) ht
    split
    · rename_i h
      split
      · rfl
      · rename_i r id rest hp
        obtain ⟨hr, hid, rfl⟩ := confirmParts_iff.1 hp
        rw [h] at ht
        exact absurd (.confirms r id rest hr hid) ht
    split
    · rename_i h
      split
      · rfl
      · rename_i host port hp
        rw [h] at ht
        exact absurd (.listens host b port (listenParts_iff.1 hp)) ht
    · rename_i h1 h2 h3
      exact absurd (.other _ b h3 h1 h2) ht

theorem step_shape {s : St} (hb : Bare s.slots) (e : Event) :
    Small s (step s e) ∨
    (∃ d, e = .eof d ∧ s.status = .running ∧ isClient s.slots d = true ∧ step s e = leave s d) ∨
    (∃ d, step s e = s.drop d ∧ (e = .lost d ∨ ∃ p, e = .packet d p ∧ ∀ x t b, p = x :: t :: b → ¬ Taken t.toNat b)) := by
  unfold step
  split
  · exact .inl (small_refl s)
  rename_i hrun
  have hrun : s.status = .running := by simpa using hrun
  cases e with
  | client => exact .inl (small_place rfl rfl (fun h => (by cases h)) (fun _ => rfl) (fun _ _ h => (by cases h)) rfl rfl)
  | own => exact .inl (small_place rfl rfl (fun h => (by cases h)) (fun h => (by cases h)) (fun _ _ h => (by cases h)) rfl rfl)
  | packet a p =>
    dsimp only
    split
    · rename_i ha
      unfold downstream
      split
      · rename_i x t b
        rcases request_shape (t := t) (b := b) hb ha with h | ⟨h, ht⟩
        · exact .inl h
        · exact .inr (.inr ⟨a, h, .inr ⟨_, rfl, fun x' t' b' h' => by cases h'; exact ht⟩⟩)
      · rename_i hp
        exact .inr (.inr ⟨a, rfl, .inr ⟨p, rfl, fun x t b h => absurd h (hp x t b)⟩⟩)
    · exact .inl (small_refl s)
  | eof a =>
    dsimp only
    split
    · rename_i ha
      exact .inr (.inl ⟨a, rfl, hrun, ha, rfl⟩)
    · exact .inl (small_refl s)
  | lost a =>
    dsimp only
    split
    · exact .inr (.inr ⟨a, rfl, .inl rfl⟩)
    · exact .inl (small_refl s)
  | server type b => exact .inl (small_message type b)
  | forwarded host port rchan window max from_ fromPort =>
    obtain ⟨h1, h2, -, h3⟩ := forwarded_frame s host port rchan window max from_ fromPort
    exact .inl (small_same h1 (fun p h => .inl (h3 ▸ h)) (Nat.le_of_eq h2.symm))
  | answer ok =>
    obtain ⟨h1, h2, -, h3⟩ := answer_frame s ok
    exact .inl (small_same h1 (fun p h => .inl (h3 ▸ h)) (Nat.le_of_eq h2.symm))
  | collect n => exact .inl (small_collect n)
  | ownSend m type before after =>
    left
    dsimp only
    split
    · split
      · exact small_same rfl (fun _ h => .inl h) (Nat.le_refl _)
      · exact small_refl s
    · exact small_refl s
  | ownRemote m r =>
    left
    dsimp only
    split
    · rename_i c hc
      split
      · rename_i hk
        exact small_set (at_some.1 hc) (by rw [hk]; intro h; cases h) rfl
          (fun c' h => (by cases h; exact ⟨rfl, rfl, .inr (fun h => (by cases h)), id⟩)) rfl rfl
      · exact small_refl s
    · exact small_refl s
  | ownFree m =>
    left
    dsimp only
    split
    · rename_i c hc
      split
      · rename_i hk
        exact small_set (at_some.1 hc) (by rw [hk]; intro h; cases h) rfl (fun c' h => (by cases h)) rfl rfl
      · exact small_refl s
    · exact small_refl s
  | ownAsk q => exact .inl (small_same rfl (fun _ h => .inl h) (Nat.le_refl _))
  | ownListen host port =>
    refine .inl (small_same rfl (fun p h => ?_) (Nat.le_refl _))
    rcases List.mem_append.1 h with h | h
    · exact .inl h
    · rw [List.mem_singleton.1 h]
      exact .inr fun d hd => (by cases hd)

/-- What remains when channels are taken away. -/
theorem leave_back {s : St} {d n : Nat} {c' : Ch} (h : (leave s d).slots[n]? = some (some c')) :
    ∃ c, s.slots[n]? = some (some c) ∧ c.uid ≠ d ∧ c' = detach d c := by
  simp only [leave, List.getElem?_map, Option.map_eq_some_iff] at h
  obtain ⟨o, ho, h⟩ := h
  split at h
  · cases h
  · rename_i hno
    obtain ⟨c, rfl, rfl⟩ := Option.map_eq_some_iff.1 h
    exact ⟨c, ho, by simpa using hno, rfl⟩

theorem leave_fwd {s : St} {d n : Nat} {c : Ch} (h : s.slots[n]? = some (some c)) (hu : c.uid ≠ d) :
    (leave s d).slots[n]? = some (some (detach d c)) := by
  have := map_keeps (f := fun o => if o.any fun c => c.uid = d then none else o.map (detach d)) h
  simpa [leave, hu] using this

theorem drop_back {s : St} {d n : Nat} {c : Ch} (h : (s.drop d).slots[n]? = some (some c)) : s.slots[n]? = some (some c) ∧ c.uid ≠ d := by
  simp only [St.drop, List.getElem?_map, Option.map_eq_some_iff] at h
  obtain ⟨o, ho, h⟩ := h
  split at h
  · cases h
  · rename_i hno
    subst h
    exact ⟨ho, by simpa using hno⟩

theorem detach_cases (d : Nat) (c : Ch) :
    (detach d c = c ∧ ∀ id, c.kind ≠ .proxy d id) ∨ (∃ id, c.kind = .proxy d id ∧ detach d c = { c with kind := .detached }) := by
  unfold detach
  split
  · rename_i e i hk
    split
    · rename_i h
      subst h
      exact .inr ⟨i, hk, rfl⟩
    · rename_i h
      exact .inl ⟨rfl, fun id h' => by rw [hk] at h'; cases h'; exact h rfl⟩
  · rename_i h
    exact .inl ⟨rfl, fun id h' => h _ _ h'⟩

theorem bare_step {s : St} (hb : Bare s.slots) (e : Event) : Bare (step s e).slots := by
  intro n c hc hk
  rcases step_shape hb e with h | ⟨d, -, -, -, h⟩ | ⟨d, h, -⟩
  · rcases h.back n c hc with ⟨c0, h0, -, h2, h3, -⟩ | ⟨-, -, h3, -⟩
    · rw [h2] at hk
      rcases h3 with h3 | h3
      · rw [h3]
        exact hb n c0 h0 hk
      · exact absurd hk h3.2
    · exact h3 hk
  · rw [h] at hc
    obtain ⟨c0, h0, -, rfl⟩ := leave_back hc
    rcases detach_cases d c0 with ⟨h1, -⟩ | ⟨id, -, h1⟩
    · rw [h1] at hk ⊢
      exact hb n c0 h0 hk
    · rw [h1] at hk
      cases hk
  · rw [h] at hc
    exact hb n c (drop_back hc).1 hk

theorem bare_run {s : St} (hb : Bare s.slots) (evs : List Event) : Bare (run s evs).slots := by
  induction evs generalizing s with
  | nil => exact hb
  | cons e l ih => exact ih (bare_step hb e)

theorem bare_init : Bare init.slots := fun n c h => (by simp [init] at h)

theorem bare (evs : List Event) : Bare (run init evs).slots := bare_run bare_init evs

/-! ### Clients that leave -/

theorem cancel_cancels (p : Perm) : Cancels (cancel p) p.host p.port := by
  refine ⟨rfl, rfl, bindHost p.host, ?_, rfl⟩
  have h : p.fits (bindHost p.host) p.port = true := by simp [Perm.fits]
  exact (fits_iff.1 h).2

/-- When a client leaves, the server is told to listen no more at its ports and nothing else, nothing points to it any more, and the channels
and ports of all others are as they were. -/
theorem C130_leaves {s : St} {d : Nat} (hs : s.status = .running) (hd : isClient s.slots d = true) :
    Gone (step s (.eof d)) d ∧ (step s (.eof d)).down = s.down ∧ (step s (.eof d)).status = .running ∧
    (∃ l, (step s (.eof d)).up = s.up ++ l ∧
      (∀ p ∈ s.perms, p.down = some d → ∃ u ∈ l, Cancels u p.host p.port) ∧
      (∀ u ∈ l, ∃ p ∈ s.perms, p.down = some d ∧ Cancels u p.host p.port)) ∧
    (∀ p ∈ s.perms, p.down ≠ some d → p ∈ (step s (.eof d)).perms) ∧
    (∀ (n : Nat) (c : Ch), s.slots[n]? = some (some c) → c.uid ≠ d → (∀ id, c.kind ≠ .proxy d id) →
      (step s (.eof d)).slots[n]? = some (some c)) := by
  have hs' : step s (.eof d) = leave s d := by
    unfold step
    rw [if_neg (by simp [hs])]
    dsimp only
    rw [if_pos hd]
  rw [hs']
  refine ⟨⟨fun n id hh => ?_, fun p hp => ?_, fun n c hc => ?_⟩, rfl, hs, ⟨_, rfl, fun p hp hpd => ?_, fun u hu => ?_⟩, fun p hp hpd => ?_,
    fun n c hc hu hk => ?_⟩
  · obtain ⟨c', hc, hk⟩ := hh
    obtain ⟨c, -, -, rfl⟩ := leave_back hc
    rcases detach_cases d c with ⟨h1, h2⟩ | ⟨i, -, h1⟩
    · rw [h1] at hk
      exact h2 id hk
    · rw [h1] at hk
      cases hk
  · simpa using (List.mem_filter.1 hp).2
  · obtain ⟨c0, -, hu, rfl⟩ := leave_back hc
    rcases detach_cases d c0 with ⟨h1, -⟩ | ⟨i, -, h1⟩
    · rw [h1]
      exact hu
    · rw [h1]
      exact hu
  · exact ⟨_, List.mem_map.2 ⟨p, List.mem_filter.2 ⟨hp, by simpa using hpd⟩, rfl⟩, cancel_cancels p⟩
  · obtain ⟨p, hp, rfl⟩ := List.mem_map.1 hu
    obtain ⟨hp, hpd⟩ := List.mem_filter.1 hp
    exact ⟨p, hp, by simpa using hpd, cancel_cancels p⟩
  · exact List.mem_filter.2 ⟨hp, by simpa using hpd⟩
  · rw [leave_fwd hc hu]
    rcases detach_cases d c with ⟨h1, -⟩ | ⟨i, h2, -⟩
    · rw [h1]
    · exact absurd h2 (hk i)

theorem gone_step {s : St} {d : Nat} (hb : Bare s.slots) (hg : Gone s d) (hd : d < s.next) (e : Event) :
    Gone (step s e) d ∧ d < (step s e).next ∧ ∃ l, (step s e).down = s.down ++ l ∧ ∀ x ∈ l, x.1 ≠ d := by
  have hno : isClient s.slots d ≠ true := fun h => by
    obtain ⟨n, c, hc, hu, -⟩ := isClient_iff.1 h
    exact hg.2.2 n c hc hu
  have hdown : ∃ l, (step s e).down = s.down ++ l ∧ ∀ x ∈ l, x.1 ≠ d := by
    have nil : ∀ s' : St, s'.down = s.down → ∃ l, s'.down = s.down ++ l ∧ ∀ x ∈ l, x.1 ≠ d := fun s' h => ⟨[], by simp [h], by simp⟩
    by_cases h1 : ∃ t b, e = .server t b
    · obtain ⟨t, b, rfl⟩ := h1
      unfold step
      split
      · exact nil _ rfl
      dsimp only
      unfold message
      split
      · exact nil _ rfl
      split
      · exact nil _ rfl
      split
      · split
        · exact nil _ rfl
        · exact nil _ rfl
      rename_i n rest _ _ c hc
      split
      · rename_i a id hk
        unfold upstream
        split
        · refine ⟨[(a, translated t id rest)], rfl, fun x hx => ?_⟩
          rw [List.mem_singleton.1 hx]
          rintro rfl
          exact hg.1 n id ⟨c, at_some.1 hc, hk⟩
        · exact nil _ rfl
      · split
        · exact nil _ rfl
        · exact nil _ rfl
      · split
        · exact nil _ rfl
        · exact nil _ rfl
      · exact nil _ rfl
    by_cases h2 : ∃ a b c d f g h, e = .forwarded a b c d f g h
    · obtain ⟨a, b, c, k, f, g, h, rfl⟩ := h2
      unfold step
      split
      · exact nil _ rfl
      dsimp only
      unfold forwarded
      split
      · rename_i hh pp a' hfind
        split
        · refine ⟨[(a', _)], rfl, fun x hx => ?_⟩
          rw [List.mem_singleton.1 hx]
          rintro rfl
          exact hg.2.1 _ (List.mem_of_find?_eq_some hfind) rfl
        · exact nil _ rfl
      · exact nil _ rfl
    · exact nil _ (C129_others (fun t b h => h1 ⟨t, b, h⟩) fun a b c d f g h h' => h2 ⟨a, b, c, d, f, g, h, h'⟩)
  refine ⟨?_, ?_, hdown⟩
  · rcases step_shape hb e with h | ⟨a, -, -, -, h⟩ | ⟨a, h, -⟩
    · refine ⟨fun n id hh => ?_, fun p hp hpd => ?_, fun n c hc => ?_⟩
      · obtain ⟨c, hc, hk⟩ := hh
        rcases h.back n c hc with ⟨c0, h0, -, h2, -⟩ | ⟨-, -, -, h4⟩
        · exact hg.1 n id ⟨c0, h0, by rw [← h2, hk]⟩
        · exact hno (h4 d id hk)
      · rcases h.perms p hp with h' | h'
        · exact hg.2.1 p h' hpd
        · exact hno (h' d hpd)
      · rcases h.back n c hc with ⟨c0, h0, h1, -⟩ | ⟨h1, -⟩
        · rw [h1]
          exact hg.2.2 n c0 h0
        · omega
    · rw [h]
      refine ⟨fun n id hh => ?_, fun p hp => hg.2.1 p (List.mem_filter.1 hp).1, fun n c hc => ?_⟩
      · obtain ⟨c, hc, hk⟩ := hh
        obtain ⟨c0, h0, -, rfl⟩ := leave_back hc
        rcases detach_cases a c0 with ⟨h1, -⟩ | ⟨i, -, h1⟩
        · rw [h1] at hk
          exact hg.1 n id ⟨c0, h0, hk⟩
        · rw [h1] at hk
          cases hk
      · obtain ⟨c0, h0, -, rfl⟩ := leave_back hc
        rcases detach_cases a c0 with ⟨h1, -⟩ | ⟨i, -, h1⟩
        · rw [h1]
          exact hg.2.2 n c0 h0
        · rw [h1]
          exact hg.2.2 n c0 h0
    · rw [h]
      exact ⟨fun n id ⟨c, hc, hk⟩ => hg.1 n id ⟨c, (drop_back hc).1, hk⟩, hg.2.1, fun n c hc => hg.2.2 n c (drop_back hc).1⟩
  · rcases step_shape hb e with h | ⟨a, -, -, -, h⟩ | ⟨a, h, -⟩
    · exact Nat.lt_of_lt_of_le hd h.next
    · rw [h]
      exact hd
    · rw [h]
      exact hd

/-- A client that has gone remains so: nothing more is ever put before it. -/
theorem C130_stays_gone {before after : List Event} {d : Nat} (hg : Gone (run init before) d) (hd : d < (run init before).next) :
    Gone (run init (before ++ after)) d ∧
    ∃ l, (run init (before ++ after)).down = (run init before).down ++ l ∧ ∀ x ∈ l, x.1 ≠ d := by
  have hb := bare before
  rw [run_append]
  generalize run init before = s at *
  induction after generalizing s with
  | nil => exact ⟨hg, [], by simp [run], by simp⟩
  | cons e l ih =>
    obtain ⟨h1, h2, k, hk, hk'⟩ := gone_step hb hg hd e
    obtain ⟨h3, m, hm, hm'⟩ := ih (s := step s e) h1 h2 (bare_step hb e)
    refine ⟨h3, k ++ m, by simp only [run]; rw [hm, hk, List.append_assoc], fun x hx => ?_⟩
    rcases List.mem_append.1 hx with hx | hx
    · exact hk' x hx
    · exact hm' x hx

/-! ### Memory -/

/-- All that is pointed to are clients. -/
def Refs (s : St) : Prop :=
  (∀ n d id, Has s n d id → isClient s.slots d = true) ∧ ∀ p ∈ s.perms, ∀ d, p.down = some d → isClient s.slots d = true

theorem client_alive {l : List (Option Ch)} {d : Nat} (h : isClient l d = true) : alive l d = true := by
  obtain ⟨m, e, he, hu, -⟩ := isClient_iff.1 h
  exact alive_iff.2 ⟨m, e, he, hu⟩

/-- Clients do not break off, and send only what is taken. -/
def Decent (e : Event) : Prop := (∀ d, e ≠ .lost d) ∧ ∀ d p, e = .packet d p → ∃ x t b, p = x :: t :: b ∧ Taken t.toNat b

theorem refs_step {s : St} (hb : Bare s.slots) (hr : Refs s) {e : Event} (he : Decent e) : Refs (step s e) := by
  rcases step_shape hb e with h | ⟨a, -, -, -, h⟩ | ⟨a, -, h⟩
  · refine ⟨fun n d id hh => ?_, fun p hp d hd => ?_⟩
    · obtain ⟨c, hc, hk⟩ := hh
      rcases h.back n c hc with ⟨c0, h0, -, h2, -⟩ | ⟨-, -, -, h4⟩
      · exact h.clients d (hr.1 n d id ⟨c0, h0, by rw [← h2, hk]⟩)
      · exact h.clients d (h4 d id hk)
    · rcases h.perms p hp with h' | h'
      · exact h.clients d (hr.2 p h' d hd)
      · exact h.clients d (h' d hd)
  · rw [h]
    have keep : ∀ d, d ≠ a → isClient s.slots d = true → isClient (leave s a).slots d = true := fun d hda hd => by
      obtain ⟨n, c, hc, hu, hk⟩ := isClient_iff.1 hd
      have hdet : detach a c = c := by simp only [detach, hk]
      exact isClient_iff.2 ⟨n, c, by rw [leave_fwd hc (by rw [hu]; exact hda), hdet], hu, hk⟩
    refine ⟨fun n d id hh => ?_, fun p hp d hd => ?_⟩
    · obtain ⟨c, hc, hk⟩ := hh
      obtain ⟨c0, h0, -, rfl⟩ := leave_back hc
      rcases detach_cases a c0 with ⟨h1, h2⟩ | ⟨i, -, h1⟩
      · rw [h1] at hk
        exact keep d (fun h' => h2 id (h' ▸ hk)) (hr.1 n d id ⟨c0, h0, hk⟩)
      · rw [h1] at hk
        cases hk
    · obtain ⟨hp, hpa⟩ := List.mem_filter.1 hp
      refine keep d (fun h' => ?_) (hr.2 p hp d hd)
      rw [hd, h'] at hpa
      simp at hpa
  · rcases h with rfl | ⟨p, rfl, hp⟩
    · exact absurd rfl (he.1 a)
    · obtain ⟨x, t, b, rfl, ht⟩ := he.2 a p rfl
      exact absurd ht (hp x t b rfl)

theorem defined_step {s : St} (hr : Refs s) (hs : s.status ≠ .undefined) (e : Event) : (step s e).status ≠ .undefined := by
  unfold step
  split
  · exact hs
  cases e with
  | server type b =>
    dsimp only
    unfold message
    split
    · exact hs
    split
    · exact fun h => (by cases h)
    split
    · split
      · exact hs
      · exact fun h => (by cases h)
    rename_i n rest _ _ c hc
    split
    · rename_i a id hk
      unfold upstream
      rw [if_pos (client_alive (hr.1 n a id ⟨c, at_some.1 hc, hk⟩))]
      exact hs
    · split
      · exact hs
      · exact fun h => (by cases h)
    · split
      · exact hs
      · exact hs
    · exact hs
  | forwarded a b c d f g h =>
    dsimp only
    unfold forwarded
    split
    · rename_i hh pp a' hfind
      rw [if_pos (client_alive (hr.2 _ (List.mem_of_find?_eq_some hfind) a' rfl))]
      exact hs
    · exact hs
  | packet a p =>
    dsimp only
    unfold downstream request
    repeat' split
    all_goals exact hs
  | collect m =>
    dsimp only
    unfold collect
    repeat' split
    all_goals first | exact hs | exact fun h => (by cases h)
  | answer ok =>
    dsimp only
    unfold answer
    repeat' split
    all_goals exact hs
  | client => exact hs
  | own => exact hs
  | ownAsk q => exact hs
  | ownListen host port => exact hs
  | eof d =>
    dsimp only
    repeat' split
    all_goals exact hs
  | lost d =>
    dsimp only
    repeat' split
    all_goals exact hs
  | ownSend n type before after =>
    dsimp only
    repeat' split
    all_goals exact hs
  | ownRemote n r =>
    dsimp only
    repeat' split
    all_goals exact hs
  | ownFree n =>
    dsimp only
    repeat' split
    all_goals exact hs

theorem defined_run {s : St} (hb : Bare s.slots) (hr : Refs s) (hs : s.status ≠ .undefined) {evs : List Event} (he : ∀ e ∈ evs, Decent e) :
    (run s evs).status ≠ .undefined := by
  induction evs generalizing s with
  | nil => exact hs
  | cons e l ih =>
    exact ih (bare_step hb e) (refs_step hb hr (he e (List.mem_cons_self ..))) (defined_step hr hs e) fun e' h => he e' (List.mem_cons_of_mem _ h)

/-- As long as clients do not break off and send only what is taken, freed memory is not used. -/
theorem C130_defined_partial {evs : List Event} (he : ∀ e ∈ evs, Decent e) : (run init evs).status ≠ .undefined :=
  defined_run bare_init ⟨fun n d id h => (by obtain ⟨c, h, -⟩ := h; simp [init] at h), fun p hp => (by cases hp)⟩ (fun h => (by cases h)) he

/-! ### The end of the program -/

/-- A channel of a client that has gone has a number of the server to close it with, or is closed on this side. -/
def Closable (s : St) : Prop :=
  ∀ (n : Nat) (c : Ch), s.slots[n]? = some (some c) → c.kind = .detached → c.remote ≠ none ∨ c.sent = true

/-- All channels of the client have been confirmed (or closed by it). -/
def Confirmed (s : St) (d : Nat) : Prop :=
  ∀ (n : Nat) (c : Ch) (id : Nat), s.slots[n]? = some (some c) → c.kind = .proxy d id → c.remote ≠ none ∨ c.sent = true

theorem closable_step {s : St} (hb : Bare s.slots) (hr : Closable s) {e : Event} (he : ∀ d, e = .eof d → Confirmed s d) :
    Closable (step s e) := by
  intro n c hc hk
  rcases step_shape hb e with h | ⟨a, ha, -, -, h⟩ | ⟨a, h, -⟩
  · rcases h.back n c hc with ⟨c0, h0, -, h2, h3, h4⟩ | ⟨-, h2, -⟩
    · rcases hr n c0 h0 (by rw [← h2, hk]) with h' | h'
      · rcases h3 with h3 | h3
        · exact .inl (by rw [h3]; exact h')
        · exact .inl h3.1
      · exact .inr (h4 h')
    · exact absurd hk h2
  · rw [h] at hc
    obtain ⟨c0, h0, -, rfl⟩ := leave_back hc
    rcases detach_cases a c0 with ⟨h1, -⟩ | ⟨i, hi, h1⟩
    · rw [h1] at hk ⊢
      exact hr n c0 h0 hk
    · rw [h1]
      exact he a ha n c0 i h0 hi
  · rw [h] at hc
    exact hr n c (drop_back hc).1 hk

theorem alive_step {s : St} (hr : Closable s) (hs : s.status ≠ .fatal) (e : Event) : (step s e).status ≠ .fatal := by
  unfold step
  split
  · exact hs
  cases e with
  | collect m =>
    dsimp only
    unfold collect
    split
    · rename_i c hc
      split
      · rename_i hk
        split
        · split
          · exact hs
          · exact hs
        · rename_i hns
          split
          · rename_i hrem
            rcases hr m c (at_some.1 hc) hk with h | h
            · exact absurd hrem h
            · exact absurd h hns
          · exact hs
      · exact hs
    · exact hs
  | server type b =>
    dsimp only
    unfold message upstream
    repeat' split
    all_goals first | exact hs | exact fun h => (by cases h)
  | forwarded a b c d f g h =>
    dsimp only
    unfold forwarded
    repeat' split
    all_goals first | exact hs | exact fun h => (by cases h)
  | packet a p =>
    dsimp only
    unfold downstream request
    repeat' split
    all_goals exact hs
  | answer ok =>
    dsimp only
    unfold answer
    repeat' split
    all_goals exact hs
  | client => exact hs
  | own => exact hs
  | ownAsk q => exact hs
  | ownListen host port => exact hs
  | eof d =>
    dsimp only
    repeat' split
    all_goals exact hs
  | lost d =>
    dsimp only
    repeat' split
    all_goals exact hs
  | ownSend n type before after =>
    dsimp only
    repeat' split
    all_goals exact hs
  | ownRemote n r =>
    dsimp only
    repeat' split
    all_goals exact hs
  | ownFree n =>
    dsimp only
    repeat' split
    all_goals exact hs

/-- As long as clients leave only when all their channels have been confirmed, the program does not end for it. -/
theorem C130_survives_partial {evs : List Event} (he : ∀ pre d post, evs = pre ++ .eof d :: post → Confirmed (run init pre) d) :
    (run init evs).status ≠ .fatal := by
  have key : ∀ (rest pre : List Event), (∀ a d post, rest = a ++ .eof d :: post → Confirmed (run init (pre ++ a)) d) →
      Closable (run init pre) → (run init pre).status ≠ .fatal → (run init (pre ++ rest)).status ≠ .fatal := by
    intro rest
    induction rest with
    | nil => intro pre _ _ h; simpa using h
    | cons e l ih =>
      intro pre h hc hs
      have h1 : run init (pre ++ [e]) = step (run init pre) e := by rw [run_append]; rfl
      have := ih (pre ++ [e]) (fun a d post hl => by
          have := h (e :: a) d post (by rw [hl]; rfl)
          simpa using this)
        (by
          rw [h1]
          exact closable_step (bare pre) hc fun d hd => by simpa using h [] d l (by rw [hd]; rfl))
        (by rw [h1]; exact alive_step hc hs e)
      simpa using this
  simpa using key evs [] (fun a d post h => by simpa using he a d post h) (fun n c h => (by simp [run, init] at h)) (fun h => (by cases h))

/-! ### Clients among each other -/

theorem closed_same {l : List (Option Ch)} {b : Bytes} {n : Nat} {c : Ch} (h : l[n]? = some (some c))
    (hr : ∀ r rest, b = be 4 r ++ rest → c.remote ≠ some r) : (closed l b)[n]? = some (some c) := by
  unfold closed
  split
  · exact h
  rename_i r rest hb
  obtain ⟨rfl, -⟩ := getInt_some hb
  split
  · exact h
  rename_i m hm
  obtain ⟨e, he, her⟩ := byRemote_some hm
  unfold closeAt
  rw [at_some.2 he]
  dsimp only
  have hnm : n ≠ m := fun hnm => by
    subst hnm
    rw [h] at he
    cases he
    exact hr r rest rfl her
  split
  · rw [getElem_set_ne _ hnm]
    exact h
  · rw [getElem_set_ne _ hnm]
    exact h

/-- What a client sends leaves the channels of all others as they are, unless it says that one with the number of such a channel at the server
is closed. -/
theorem C130_separate_partial {s : St} {d n : Nat} {c : Ch} {p : Bytes} (hp : ∀ x r rest, p = x :: 97 :: (be 4 r ++ rest) → c.remote ≠ some r)
    (hc : s.slots[n]? = some (some c)) (hu : c.uid ≠ d) : (step s (.packet d p)).slots[n]? = some (some c) := by
  unfold step
  split
  · exact hc
  dsimp only
  split
  · have hdrop : (s.drop d).slots[n]? = some (some c) := drop_keeps hc hu
    unfold downstream
    split
    · rename_i x t b
      unfold request
      split
      · split
        · exact hdrop
        · exact place_keeps hc
      split
      · split
        · exact hdrop
        · exact place_keeps hc
      split
      · split
        · exact hdrop
        · exact hc
      split
      · rename_i h
        have : t = 97 := UInt8.toNat_inj.1 h
        exact closed_same hc fun r rest hb => hp x r rest (by rw [this, hb])
      · exact hc
    · exact hdrop
  · exact hc

/-! ### What is not so -/

/-- a client asks for a session that it calls `id` -/
def asks (d id : Nat) : Event := .packet d (0 :: 90 :: (str b!"session" ++ be 4 id ++ be 4 1000 ++ be 4 100))

/-- the server confirms channel `n`, which it calls `r` -/
def agrees (n r : Nat) : Event := .server 91 (be 4 n ++ be 4 r ++ be 4 1000 ++ be 4 100)

/-- a client asks for port 8080 -/
def wants (d : Nat) : Event := .packet d (0 :: 80 :: (str b!"tcpip-forward" ++ 1 :: (str b!"localhost" ++ be 4 8080)))

/-- two clients, each with a channel that the server has confirmed: 2 (of client 0, its number 7, the server's 40) and 3 (of client 1, its
number 7, the server's 41) -/
def two : List Event := [.client, .client, asks 0 7, asks 1 7, agrees 2 40, agrees 3 41]

/-- The other channels of a client are not safe from what another client sends: a packet of client 1 that closes channel 40 closes that of
client 0, which is then gone when the server closes it too, though client 0 has sent nothing. (channels.c:3248-3258) -/
theorem C130_separate_original_false :
    ¬ ∀ (evs : List Event) (d n : Nat) (c : Ch) (p : Bytes), (run init evs).slots[n]? = some (some c) → c.uid ≠ d →
      (∀ id, c.kind ≠ .proxy d id) → (step (run init evs) (.packet d p)).slots[n]? = some (some c) := by
  intro h
  have := h two 1 2 ⟨2, .proxy 0 7, some 40, false, false⟩ (0 :: 97 :: be 4 40) (by decide +kernel) (by decide) (by simp)
  exact absurd this (by decide +kernel)

/-- Memory of a client that has been dropped is used for the next message to a channel of it. (channels.c:2448-2452, nchan.c:328-332) -/
theorem C130_defined_original_false :
    ¬ ∀ evs : List Event, (run init evs).status ≠ .undefined :=
  fun h => h (two ++ [.packet 0 [0, 80], .server 94 (be 4 2 ++ str b!"x")]) (by decide +kernel)

/-- A client that leaves before the server has answered ends the program, with all other clients. (nchan.c:219) -/
theorem C130_survives_original_false : ¬ ∀ evs : List Event, (run init evs).status ≠ .fatal :=
  fun h => h (two ++ [.client, asks 4 0, .eof 4, .collect 5]) (by decide +kernel)

/-- The answer to a request of a client is taken for that to a request of the program. (clientloop.c:468-485): the program has asked as number
5 after client 0 did, gets the refusal of what client 0 has asked for, and client 0 gets nothing. -/
theorem C130_answers_original_false :
    (run init (two ++ [wants 0, .ownAsk 5, .answer false])).answers = [(5, false)] ∧
    (run init (two ++ [wants 0, .ownAsk 5, .answer false])).down = (run init two).down ∧
    ∃ u, (run init (two ++ [wants 0, .ownAsk 5])).up.getLast? = some u ∧ u.src = some 0 ∧ Listens b!"localhost" 8080 u.orig := by
  refine ⟨by decide +kernel, by decide +kernel, ⟨some 0, 80, _, _⟩, rfl, rfl, ?_⟩
  exact .mk b!"tcpip-forward" b!"localhost" [] 1 ⟨.inl rfl, by decide⟩ ⟨.inl rfl, by decide⟩ (by decide) (by decide)

end Verif.Proxy
