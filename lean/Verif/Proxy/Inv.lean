/-
The invariant: numbers known to the server are those of the clients that have announced them.
-/
import Verif.Proxy.Lemmas

namespace Verif.Proxy
open Verif Wire

structure Inv (s : St) : Prop where
  uniq : ∀ (n m : Nat) (c e : Ch), s.slots[n]? = some (some c) → s.slots[m]? = some (some e) → c.uid = e.uid → n = m
  lt : ∀ (n : Nat) (c : Ch), s.slots[n]? = some (some c) → c.uid < s.next
  means : ∀ n d id, Has s n d id → Means s.up n d id

/-- Channels go, or change, but none are new. -/
def Sub (l l' : List (Option Ch)) : Prop :=
  l'.length = l.length ∧
  ∀ (n : Nat) (c' : Ch), l'[n]? = some (some c') → ∃ c, l[n]? = some (some c) ∧ c'.uid = c.uid ∧ (c'.kind = c.kind ∨ c'.kind = .detached)

theorem Sub.refl (l : List (Option Ch)) : Sub l l := ⟨rfl, fun _ c h => ⟨c, h, rfl, .inl rfl⟩⟩

theorem sub_set {l : List (Option Ch)} {n : Nat} {o : Option Ch} {c : Ch} (h : l[n]? = some (some c))
    (ho : ∀ c', o = some c' → c'.uid = c.uid ∧ c'.kind = c.kind) : Sub l (l.set n o) := by
  refine ⟨by simp, fun m c' h' => ?_⟩
  rcases set_cases h' with ⟨rfl, he⟩ | ⟨-, h'⟩
  · exact ⟨c, h, (ho c' he).1, .inl (ho c' he).2⟩
  · exact ⟨c', h', rfl, .inl rfl⟩

theorem sub_map {l : List (Option Ch)} {f : Option Ch → Option Ch}
    (hf : ∀ o c', f o = some c' → ∃ c, o = some c ∧ c'.uid = c.uid ∧ (c'.kind = c.kind ∨ c'.kind = .detached)) : Sub l (l.map f) := by
  refine ⟨by simp, fun n c' h => ?_⟩
  rw [List.getElem?_map, Option.map_eq_some_iff] at h
  obtain ⟨o, ho, h⟩ := h
  obtain ⟨c, rfl, hc⟩ := hf o c' h
  exact ⟨c, ho, hc⟩

theorem means_sends {log l : List Up} {n d id : Nat} (h : Means log n d id) (hl : ∀ u ∈ l, ¬ Announces n u.type u.body) :
    Means (log ++ l) n d id := by
  induction l generalizing log with
  | nil => simpa using h
  | cons u l ih =>
    have := ih (means_send h (hl u (List.mem_cons_self ..))) fun v hv => hl v (List.mem_cons_of_mem _ hv)
    simpa using this

theorem inv_sub {s s' : St} {l : List Up} (h : Inv s) (hs : Sub s.slots s'.slots) (hn : s'.next = s.next) (hu : s'.up = s.up ++ l)
    (hl : ∀ u ∈ l, ∀ n d id, Has s' n d id → ¬ Announces n u.type u.body) : Inv s' := by
  refine ⟨fun n m c e hc he heq => ?_, fun n c hc => ?_, fun n d id hh => ?_⟩
  · obtain ⟨c0, hc0, h1, -⟩ := hs.2 n c hc
    obtain ⟨e0, he0, h2, -⟩ := hs.2 m e he
    exact h.uniq n m c0 e0 hc0 he0 (by rw [← h1, ← h2, heq])
  · obtain ⟨c0, hc0, h1, -⟩ := hs.2 n c hc
    rw [h1, hn]
    exact h.lt n c0 hc0
  · have hm : Means s.up n d id := by
      obtain ⟨c, hc, hk⟩ := hh
      obtain ⟨c0, hc0, -, h1⟩ := hs.2 n c hc
      refine h.means n d id ⟨c0, hc0, ?_⟩
      rcases h1 with h1 | h1
      · rw [← h1, hk]
      · rw [hk] at h1
        cases h1
    rw [hu]
    exact means_sends hm fun u hu => hl u hu n d id hh


/-- A new channel, of which nothing or just its number is told to the server. -/
theorem inv_place {s s' : St} {c : Ch} {l : List Up} (h : Inv s) (hs : s'.slots = place c s.slots) (hn : s'.next = s.next + 1)
    (hc : c.uid = s.next) (hu : s'.up = s.up ++ l) (hl : ∀ u ∈ l, ∀ n, n ≠ free s.slots → ∀ d id, Has s n d id → ¬ Announces n u.type u.body)
    (hm : ∀ d id, c.kind = .proxy d id → Means s'.up (free s.slots) d id) : Inv s' := by
  refine ⟨fun n m a b ha hb heq => ?_, fun n a ha => ?_, fun n d id hh => ?_⟩
  · rw [hs] at ha hb
    rcases place_cases ha with ⟨hn1, ha1⟩ | ⟨-, ha'⟩ <;> rcases place_cases hb with ⟨hn2, hb1⟩ | ⟨-, hb'⟩
    · rw [hn1, hn2]
    · have := h.lt m b hb'
      rw [ha1] at heq
      omega
    · have := h.lt n a ha'
      rw [hb1] at heq
      omega
    · exact h.uniq n m a b ha' hb' heq
  · rw [hs] at ha
    rcases place_cases ha with ⟨rfl, rfl⟩ | ⟨-, ha⟩
    · omega
    · have := h.lt n a ha
      omega
  · obtain ⟨a, ha, hk⟩ := hh
    rw [hs] at ha
    rcases place_cases ha with ⟨rfl, rfl⟩ | ⟨hne, ha⟩
    · exact hm d id hk
    · rw [hu]
      exact means_sends (h.means n d id ⟨a, ha, hk⟩) fun u hu => hl u hu n hne d id ⟨a, ha, hk⟩

theorem closed_sub (l : List (Option Ch)) (b : Bytes) : Sub l (closed l b) := by
  unfold closed
  split
  · exact .refl l
  · split
    · exact .refl l
    · rename_i n _
      unfold closeAt
      split
      · exact .refl l
      · rename_i c hc
        have hc := at_some.1 hc
        split
        · exact sub_set hc fun c' h => (by cases h)
        · exact sub_set hc fun c' h => (by cases h; exact ⟨rfl, rfl⟩)

theorem drop_sub (s : St) (d : Nat) : Sub s.slots (s.drop d).slots := by
  refine sub_map fun o c' h => ?_
  split at h
  · cases h
  · exact ⟨c', h, rfl, .inl rfl⟩

theorem leave_sub (s : St) (d : Nat) : Sub s.slots (leave s d).slots := by
  refine sub_map fun o c' h => ?_
  split at h
  · cases h
  · obtain ⟨c, rfl, rfl⟩ := Option.map_eq_some_iff.1 h
    refine ⟨c, rfl, ?_⟩
    unfold detach
    split
    · split
      · exact ⟨rfl, .inr rfl⟩
      · exact ⟨rfl, .inl rfl⟩
    · exact ⟨rfl, .inl rfl⟩

theorem update_sub {l : List (Option Ch)} {n type : Nat} {c : Ch} (rest : Bytes) (h : l[n]? = some (some c)) :
    Sub l (update l n type c rest) := by
  unfold update
  split
  · split
    · exact sub_set h fun c' h => (by cases h; exact ⟨rfl, rfl⟩)
    · exact .refl l
  · split
    · split
      · exact sub_set h fun c' h => (by cases h)
      · exact sub_set h fun c' h => (by cases h; exact ⟨rfl, rfl⟩)
    · exact .refl l

/-! ### Steps -/

/-- What a message of the server changes: packets for clients and the channels, but nothing is sent to it. -/
theorem message_frame (s : St) (type : Nat) (b : Bytes) :
    Sub s.slots (message s type b).slots ∧ (message s type b).next = s.next ∧ (message s type b).up = s.up ∧
    (message s type b).perms = s.perms := by
  unfold message
  split
  · exact ⟨.refl _, rfl, rfl, rfl⟩
  split
  · exact ⟨.refl _, rfl, rfl, rfl⟩
  rename_i n rest _
  split
  · split
    · exact ⟨.refl _, rfl, rfl, rfl⟩
    · exact ⟨.refl _, rfl, rfl, rfl⟩
  rename_i c hc
  have hc := at_some.1 hc
  split
  · rename_i down id hk
    unfold upstream
    split
    · exact ⟨update_sub rest hc, rfl, rfl, rfl⟩
    · exact ⟨.refl _, rfl, rfl, rfl⟩
  · split
    · exact ⟨.refl _, rfl, rfl, rfl⟩
    · exact ⟨.refl _, rfl, rfl, rfl⟩
  · split
    · exact ⟨sub_set hc fun c' h => (by cases h; exact ⟨rfl, rfl⟩), rfl, rfl, rfl⟩
    · exact ⟨.refl _, rfl, rfl, rfl⟩
  · exact ⟨.refl _, rfl, rfl, rfl⟩

theorem forwarded_frame (s : St) (host : Bytes) (port rchan window max : Nat) (from_ : Bytes) (fromPort : Nat) :
    (forwarded s host port rchan window max from_ fromPort).slots = s.slots ∧
    (forwarded s host port rchan window max from_ fromPort).next = s.next ∧
    (forwarded s host port rchan window max from_ fromPort).up = s.up ∧
    (forwarded s host port rchan window max from_ fromPort).perms = s.perms := by
  unfold forwarded
  split
  · split
    · exact ⟨rfl, rfl, rfl, rfl⟩
    · exact ⟨rfl, rfl, rfl, rfl⟩
  · exact ⟨rfl, rfl, rfl, rfl⟩

theorem answer_frame (s : St) (ok : Bool) : (answer s ok).slots = s.slots ∧ (answer s ok).next = s.next ∧ (answer s ok).up = s.up ∧
    (answer s ok).perms = s.perms := by
  unfold answer
  split
  · exact ⟨rfl, rfl, rfl, rfl⟩
  · exact ⟨rfl, rfl, rfl, rfl⟩

theorem collect_frame (s : St) (n : Nat) :
    Sub s.slots (collect s n).slots ∧ (collect s n).next = s.next ∧ (collect s n).perms = s.perms ∧
    ((collect s n).up = s.up ∨ ∃ r, (collect s n).up = s.up ++ [⟨none, 97, [], be 4 r⟩]) := by
  unfold collect
  split
  · rename_i c hc
    have hc := at_some.1 hc
    split
    · split
      · split
        · exact ⟨sub_set hc fun c' h => (by cases h), rfl, rfl, .inl rfl⟩
        · exact ⟨.refl _, rfl, rfl, .inl rfl⟩
      · split
        · exact ⟨.refl _, rfl, rfl, .inl rfl⟩
        · rename_i r _
          refine ⟨sub_set hc fun c' h => ?_, rfl, rfl, .inr ⟨r, rfl⟩⟩
          split at h
          · cases h
          · cases h
            exact ⟨rfl, rfl⟩
    · exact ⟨.refl _, rfl, rfl, .inl rfl⟩
  · exact ⟨.refl _, rfl, rfl, .inl rfl⟩

theorem request_length (s : St) (d type : Nat) (b : Bytes) : s.slots.length ≤ (request s d type b).slots.length := by
  unfold request
  split
  · split
    · exact Nat.le_of_eq (drop_sub s d).1.symm
    · exact (place_length _ _).1
  split
  · split
    · exact Nat.le_of_eq (drop_sub s d).1.symm
    · exact (place_length _ _).1
  split
  · split
    · exact Nat.le_of_eq (drop_sub s d).1.symm
    · exact Nat.le_refl _
  split
  · exact Nat.le_of_eq (closed_sub _ _).1.symm
  · exact Nat.le_refl _

theorem step_length (s : St) (e : Event) : s.slots.length ≤ (step s e).slots.length := by
  unfold step
  split
  · exact Nat.le_refl _
  cases e with
  | client => exact (place_length _ _).1
  | packet d p =>
    dsimp only
    split
    · unfold downstream
      split
      · exact request_length _ _ _ _
      · exact Nat.le_of_eq (drop_sub s d).1.symm
    · exact Nat.le_refl _
  | eof d =>
    dsimp only
    split
    · exact Nat.le_of_eq (leave_sub s d).1.symm
    · exact Nat.le_refl _
  | lost d =>
    dsimp only
    split
    · exact Nat.le_of_eq (drop_sub s d).1.symm
    · exact Nat.le_refl _
  | server type b => exact Nat.le_of_eq (message_frame s type b).1.1.symm
  | forwarded host port rchan window max from_ fromPort =>
    exact Nat.le_of_eq (congrArg List.length (forwarded_frame s host port rchan window max from_ fromPort).1.symm)
  | answer ok => exact Nat.le_of_eq (congrArg List.length (answer_frame s ok).1.symm)
  | collect n => exact Nat.le_of_eq (collect_frame s n).1.1.symm
  | own => exact (place_length _ _).1
  | ownSend n type before after =>
    dsimp only
    split
    · split
      · exact Nat.le_refl _
      · exact Nat.le_refl _
    · exact Nat.le_refl _
  | ownRemote n r =>
    dsimp only
    split
    · split
      · simp
      · exact Nat.le_refl _
    · exact Nat.le_refl _
  | ownFree n =>
    dsimp only
    split
    · split
      · simp
      · exact Nat.le_refl _
    · exact Nat.le_refl _
  | ownAsk q => exact Nat.le_refl _
  | ownListen host port => exact Nat.le_refl _

theorem inv_request {s : St} {d type : Nat} {b : Bytes} (h : Inv s) (hf : Few (request s d type b)) : Inv (request s d type b) := by
  have hdrop : Inv (s.drop d) := inv_sub (l := []) h (drop_sub s d) rfl (by simp [St.drop]) (by simp)
  have hlt : ∀ {n a i}, Has s n a i → s.slots.length ≤ 2147483648 → n < 2 ^ 32 := by
    rintro n a i ⟨c, hc, -⟩ hl
    have := (List.getElem?_eq_some_iff.1 hc).1
    omega
  have hlen := request_length s d type b
  unfold request at hf hlen ⊢
  split
  · rename_i ht
    rw [if_pos ht] at hf hlen
    split
    · exact hdrop
    · rename_i ctype id rest hp
      rw [hp] at hf hlen
      obtain ⟨hid, v, hv, hl, rfl⟩ := openParts_iff.1 hp
      obtain ⟨ha, hr⟩ := renumbered_open (rest := rest) (id := id) (n := free s.slots) hv hl
      have hfr : free s.slots < 2 ^ 32 := by
        have := (place_length ⟨s.next, .proxy d id, none, false, false⟩ s.slots).2
        have hf : (place ⟨s.next, .proxy d id, none, false, false⟩ s.slots).length ≤ 2147483648 := hf
        omega
      refine inv_place (c := ⟨s.next, .proxy d id, none, false, false⟩) (l := [⟨some d, type, _, _⟩]) h rfl rfl rfl rfl ?_ ?_
      · intro u hu n hn a i hh hann
        rw [List.mem_singleton.1 hu, ht] at hann
        exact hn (announces_inj (hlt hh (Nat.le_trans hlen hf)) hfr hann ha)
      · intro a i hk
        cases hk
        subst ht
        exact means_new ha rfl hr
  split
  · rename_i ht0 ht
    rw [if_neg ht0, if_pos ht] at hf hlen
    split
    · exact hdrop
    · rename_i r id rest hp
      rw [hp] at hf hlen
      obtain ⟨hr, hid, rfl⟩ := confirmParts_iff.1 hp
      have ha : Announces (free s.slots) 91 (be 4 r ++ be 4 (free s.slots) ++ rest) := .confirms r rest hr
      have hfr : free s.slots < 2 ^ 32 := by
        have := (place_length ⟨s.next, .proxy d id, some r, false, false⟩ s.slots).2
        have hf : (place ⟨s.next, .proxy d id, some r, false, false⟩ s.slots).length ≤ 2147483648 := hf
        omega
      refine inv_place (c := ⟨s.next, .proxy d id, some r, false, false⟩) (l := [⟨some d, type, _, _⟩]) h rfl rfl rfl rfl ?_ ?_
      · intro u hu n hn a i hh hann
        rw [List.mem_singleton.1 hu, ht] at hann
        exact hn (announces_inj (hlt hh (Nat.le_trans hlen hf)) hfr hann ha)
      · intro a i hk
        cases hk
        subst ht
        exact means_new ha rfl (.confirms r rest hr)
  split
  · split
    · exact hdrop
    · rename_i ht0 ht1 ht _ host port hp
      refine inv_sub (l := [⟨some d, type, b, b⟩]) h (.refl _) rfl rfl fun u hu n a i _ hann => ?_
      rw [List.mem_singleton.1 hu] at hann
      rcases announces_type hann with h | h
      · exact ht0 h
      · exact ht1 h
  rename_i ht0 ht1 _
  split
  · refine inv_sub (l := [⟨some d, type, b, b⟩]) h (closed_sub _ _) rfl rfl fun u hu n a i _ hann => ?_
    rw [List.mem_singleton.1 hu] at hann
    rcases announces_type hann with h | h
    · exact ht0 h
    · exact ht1 h
  · refine inv_sub (l := [⟨some d, type, b, b⟩]) h (.refl _) rfl rfl fun u hu n a i _ hann => ?_
    rw [List.mem_singleton.1 hu] at hann
    rcases announces_type hann with h | h
    · exact ht0 h
    · exact ht1 h

theorem inv_same {s s' : St} (h : Inv s) (hs : s'.slots = s.slots) (hn : s'.next = s.next) (hu : s'.up = s.up) : Inv s' :=
  inv_sub (l := []) h (by rw [hs]; exact .refl _) hn (by simp [hu]) (by simp)

/-- What the program itself announces is its own number. -/
theorem ownBody_announces {type n : Nat} {before after : Bytes} (ht : type = mOpen ∨ type = mConfirm) (hb : before.length ≤ 134217724) :
    Announces n type (ownBody type n before after) := by
  unfold ownBody
  rcases ht with rfl | rfl
  · rw [if_pos rfl]
    exact .opens _ _ hb
  · rw [if_neg (by decide)]
    refine .confirms _ _ ?_
    have := ofBE_lt (before.take 4)
    have h4 : (before.take 4).length ≤ 4 := by simp; omega
    exact Nat.lt_of_lt_of_le this (Nat.pow_le_pow_right (by decide) h4)

theorem inv_step {s : St} {e : Event} (h : Inv s) (hf : Few (step s e)) : Inv (step s e) := by
  have hlen := step_length s e
  unfold step at hf hlen ⊢
  split
  · exact h
  rename_i hrun
  rw [if_neg hrun] at hf hlen
  cases e with
  | client => exact inv_place (l := []) h rfl rfl rfl (by simp) (by simp) fun d id hk => (by cases hk)
  | packet d p =>
    dsimp only at hf ⊢
    split
    · rename_i hc
      rw [if_pos hc] at hf
      unfold downstream at hf ⊢
      split
      · exact inv_request h hf
      · exact inv_sub (l := []) h (drop_sub s d) rfl (by simp [St.drop]) (by simp)
    · exact h
  | eof d =>
    dsimp only
    split
    · refine inv_sub h (leave_sub s d) rfl rfl fun u hu n a i _ hann => ?_
      obtain ⟨p, -, rfl⟩ := List.mem_map.1 hu
      rcases announces_type hann with h | h
      · exact absurd (show (80 : Nat) = 90 from h) (by decide)
      · exact absurd (show (80 : Nat) = 91 from h) (by decide)
    · exact h
  | lost d =>
    dsimp only
    split
    · exact inv_sub (l := []) h (drop_sub s d) rfl (by simp [St.drop]) (by simp)
    · exact h
  | server type b =>
    have := message_frame s type b
    exact inv_sub (l := []) h this.1 this.2.1 (by simp [this.2.2.1]) (by simp)
  | forwarded host port rchan window max from_ fromPort =>
    have := forwarded_frame s host port rchan window max from_ fromPort
    exact inv_same h this.1 this.2.1 this.2.2.1
  | answer ok =>
    have := answer_frame s ok
    exact inv_same h this.1 this.2.1 this.2.2.1
  | collect n =>
    obtain ⟨h1, h2, -, h3⟩ := collect_frame s n
    rcases h3 with h3 | ⟨r, h3⟩
    · exact inv_sub (l := []) h h1 h2 (by simp [h3]) (by simp)
    · refine inv_sub h h1 h2 h3 fun u hu n a i _ hann => ?_
      rw [List.mem_singleton.1 hu] at hann
      rcases announces_type hann with h | h
      · exact absurd (show (97 : Nat) = 90 from h) (by decide)
      · exact absurd (show (97 : Nat) = 91 from h) (by decide)
  | own => exact inv_place (l := []) h rfl rfl rfl (by simp) (by simp) fun d id hk => (by cases hk)
  | ownSend n type before after =>
    dsimp only at hf hlen ⊢
    split
    · rename_i c hc
      have hc' := at_some.1 hc
      simp only [hc] at hf
      split
      · rename_i hk
        rw [if_pos hk] at hf
        have hf : s.slots.length ≤ 2147483648 := hf
        refine inv_sub (s' := s.send none type [] (ownBody type n before after)) (l := [⟨none, type, [], _⟩]) h (.refl _) rfl rfl
          fun u hu m a i hh hann => ?_
        rw [List.mem_singleton.1 hu] at hann
        obtain ⟨c', hm, hk'⟩ := hh
        have hm' : s.slots[m]? = some (some c') := hm
        have h1 := (List.getElem?_eq_some_iff.1 hm').1
        have h2 := (List.getElem?_eq_some_iff.1 hc').1
        have := announces_inj (by omega) (by omega) hann (ownBody_announces hk.2.2 (Nat.le_trans hk.2.1 (by decide)))
        subst this
        rw [hc'] at hm'
        cases hm'
        rw [hk.1] at hk'
        cases hk'
      · exact h
    · exact h
  | ownRemote n r =>
    dsimp only
    split
    · rename_i c hc
      split
      · exact inv_sub (l := []) h (sub_set (at_some.1 hc) fun c' h => (by cases h; exact ⟨rfl, rfl⟩)) rfl (by simp) (by simp)
      · exact h
    · exact h
  | ownFree n =>
    dsimp only
    split
    · rename_i c hc
      split
      · exact inv_sub (l := []) h (sub_set (at_some.1 hc) fun c' h => (by cases h)) rfl (by simp) (by simp)
      · exact h
    · exact h
  | ownAsk q => exact inv_same h rfl rfl rfl
  | ownListen host port => exact inv_same h rfl rfl rfl

theorem run_length (s : St) (l : List Event) : s.slots.length ≤ (run s l).slots.length := by
  induction l generalizing s with
  | nil => exact Nat.le_refl _
  | cons e l ih => exact Nat.le_trans (step_length s e) (ih _)

theorem run_append (s : St) (l r : List Event) : run s (l ++ r) = run (run s l) r := by
  induction l generalizing s with
  | nil => rfl
  | cons e l ih => exact ih _

theorem inv_run {s : St} {l : List Event} (h : Inv s) (hf : Few (run s l)) : Inv (run s l) := by
  induction l generalizing s with
  | nil => exact h
  | cons e l ih => exact ih (inv_step h (Nat.le_trans (run_length _ l) hf)) hf

theorem inv_init : Inv init :=
  ⟨fun n m c e h => (by simp [init] at h), fun n c h => (by simp [init] at h), fun n d id h => (by obtain ⟨c, h, -⟩ := h; simp [init] at h)⟩

end Verif.Proxy
