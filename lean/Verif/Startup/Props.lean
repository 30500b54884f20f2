/-
C29 (MaxStartups), C30 (the per-source limit in the listener), C61 (the listener's bookkeeping), and
concrete runs for these and for C31.
-/
import Verif.Startup.Listener

namespace Verif.Startup
open Verif Text
open Verif.Addr (XAddr Family Known width bit)

/-! ### C29 -/

/-- How many of the hundred random values lead to a drop. -/
def percent (c : Cfg) (n : Nat) : Nat := (List.range 100).countP fun r => shouldDrop c n r = some true

theorem countP_range_lt (p : Nat) : ∀ n, (List.range n).countP (fun r => decide (r < p)) = min n p
  | 0 => by simp
  | n + 1 => by
    rw [List.range_succ, List.countP_append, countP_range_lt p n]
    simp only [List.countP_cons, List.countP_nil, decide_eq_true_eq]
    split <;> omega

/-- C29.  With `n` connections waiting, a new one is never dropped below the first threshold and always at or
above the last; in between it is dropped with the percentage found by linear interpolation from the
configured rate to 100, rounded down. -/
theorem C29_percent (c : Cfg) (hc : c.Startups) (n : Nat) :
    (n < c.start → percent c n = 0) ∧
    (c.full ≤ n → percent c n = 100) ∧
    (c.start ≤ n → n < c.full →
      percent c n * (c.full - c.start) ≤ c.rate * (c.full - c.start) + (100 - c.rate) * (n - c.start) ∧
      c.rate * (c.full - c.start) + (100 - c.rate) * (n - c.start) < (percent c n + 1) * (c.full - c.start)) := by
  have hle := hc.le
  refine ⟨fun h => ?_, fun h => ?_, fun h1 h2 => ?_⟩
  · unfold percent
    rw [List.countP_eq_zero]
    intro r _
    simp [shouldDrop, h]
  · unfold percent
    have : (List.range 100).countP (fun r => shouldDrop c n r = some true) = (List.range 100).length := by
      rw [List.countP_eq_length]
      intro r _
      have h1 : ¬ n < c.start := by omega
      simp [shouldDrop, h1, h]
    rw [this]; simp
  · have e1 : ¬ n < c.start := by omega
    have e2 : ¬ n ≥ c.full := by omega
    have hd : 0 < c.full - c.start := by omega
    by_cases hr : c.rate = 100
    · have : percent c n = 100 := by
        unfold percent
        have : (List.range 100).countP (fun r => shouldDrop c n r = some true) = (List.range 100).length := by
          rw [List.countP_eq_length]
          intro r _
          simp [shouldDrop, e1, e2, hr]
        rw [this]; simp
      rw [this, hr]
      omega
    · have hov : ¬ (100 - c.rate) * (n - c.start) ≥ 2147483648 := by
        have hs := hc.small
        unfold Small at hs
        have : (100 - c.rate) * (n - c.start) ≤ 99 * c.full := by
          have := hc.rate1
          exact Nat.mul_le_mul (by omega) (by omega)
        omega
      have hq : (100 - c.rate) * (n - c.start) / (c.full - c.start) ≤ 100 - c.rate :=
        (Nat.div_le_iff_le_mul_add_pred hd).2 (by
          have : (100 - c.rate) * (n - c.start) ≤ (100 - c.rate) * (c.full - c.start) := Nat.mul_le_mul_left _ (by omega)
          rw [Nat.mul_comm (c.full - c.start)]
          omega)
      have hp : percent c n = (100 - c.rate) * (n - c.start) / (c.full - c.start) + c.rate := by
        unfold percent
        have : (fun r => decide (shouldDrop c n r = some true)) =
            fun r => decide (r < (100 - c.rate) * (n - c.start) / (c.full - c.start) + c.rate) := by
          funext r
          simp [shouldDrop, e1, e2, hr, hov]
        rw [this, countP_range_lt]
        have := hc.rate2
        omega
      rw [hp]
      have := Nat.div_add_mod ((100 - c.rate) * (n - c.start)) (c.full - c.start)
      have hlt := Nat.mod_lt ((100 - c.rate) * (n - c.start)) hd
      generalize (100 - c.rate) * (n - c.start) / (c.full - c.start) = q at *
      generalize (100 - c.rate) * (n - c.start) % (c.full - c.start) = m at *
      generalize (100 - c.rate) * (n - c.start) = v at *
      generalize c.full - c.start = d at *
      have h3 : (q + c.rate) * d = d * q + c.rate * d := by rw [Nat.add_mul, Nat.mul_comm q d]
      have h4 : (q + c.rate + 1) * d = d * q + c.rate * d + d := by rw [Nat.add_mul, h3]; omega
      rw [h3, h4]
      omega

/-- C29.  The more connections wait, the more are dropped. -/
theorem C29_monotone (c : Cfg) (hc : c.Startups) (n m : Nat) (h : n ≤ m) : percent c n ≤ percent c m := by
  have h1 := C29_percent c hc n
  have h2 := C29_percent c hc m
  have hmax : ∀ k, percent c k ≤ 100 := by
    intro k
    unfold percent
    refine Nat.le_trans List.countP_le_length ?_
    simp
  by_cases a : n < c.start
  · rw [h1.1 a]; omega
  · by_cases b : c.full ≤ m
    · rw [h2.2.1 b]; exact hmax n
    · have e1 := (h1.2.2 (by omega) (by omega)).1
      have e2 := (h2.2.2 (by omega) (by omega)).2
      have e3 : (100 - c.rate) * (n - c.start) ≤ (100 - c.rate) * (m - c.start) := Nat.mul_le_mul_left _ (by omega)
      have e4 : percent c n * (c.full - c.start) < (percent c m + 1) * (c.full - c.start) := by omega
      have := Nat.lt_of_mul_lt_mul_right e4
      omega

/-! ### C30 in the listener -/

theorem finish_slots {i : Nat} {s s' : State} (h : finish i s = some s') : s'.slots = s.slots := by
  unfold finish at h
  split at h
  · cases h
  · cases h; rfl

theorem close_slots {i : Nat} {k : Child} {f : Bool} {s s' : State} (h : close i k f s = some s') : s'.slots = s.slots := by
  unfold close at h
  split at h
  · exact finish_slots h
  · cases h; rfl

theorem lost_slots {c : Cfg} {i : Nat} {k : Child} {fd : Nat} {s s' : State} (h : lost c i k fd s = some s') :
    s'.slots = slotDone c fd s.slots := close_slots h

theorem reapFrom_slots {c : Cfg} {t : Int} : ∀ (n i : Nat) (s s' : State), reapFrom c t n i s = some s' → s'.slots = s.slots
  | 0, i, s, s', h => by cases h; rfl
  | n + 1, i, s, s', h => by
    unfold reapFrom at h
    cases hi : s.children[i]? with
    | none => rw [hi] at h; exact reapFrom_slots n _ _ _ h
    | some k =>
      rw [hi] at h
      simp only at h
      cases he : k.status with
      | none => rw [he] at h; exact reapFrom_slots n _ _ _ h
      | some e =>
        rw [he] at h
        simp only at h
        obtain ⟨s1, h1, h2⟩ := Option.bind_eq_some_iff.1 h
        rw [reapFrom_slots n _ _ _ h2]
        unfold reap at h1
        cases hp : penaliseChild c t k e s.penal with
        | none => rw [hp] at h1; cases h1
        | some p =>
          rw [hp] at h1
          simp only at h1
          split at h1
          · have := finish_slots h1; exact this
          · cases h1; rfl

/-- The only ways the slots change. -/
theorem step_slots {c : Cfg} {s s' : State} {ev : Ev} {o : Out} (h : step c s ev = some (s', o)) :
    s'.slots = s.slots ∨ (∃ peer fd, s'.slots = (checkAllow c peer fd s.slots).1) ∨ ∃ fd, s'.slots = slotDone c fd s.slots := by
  cases ev with
  | accept now peer fd r pid =>
    simp only [step, onAccept] at h
    have hreg : ∀ s1 s2 : State, register peer fd pid s1 = some s2 → s2.slots = s1.slots := by
      intro s1 s2 hr
      unfold register at hr
      split at hr
      · cases hr
      · split at hr
        · cases hr
        · cases hr; rfl
    unfold dropConn at h
    cases hp : penaltyCheck c now peer s.penal with
    | none => rw [hp] at h; cases h
    | some pa =>
      obtain ⟨p, a⟩ := pa
      rw [hp] at h
      cases a with
      | tooMany => cases h; exact Or.inl rfl
      | penalised k => cases h; exact Or.inl rfl
      | allow =>
        simp only at h
        cases hd : shouldDrop c s.active r with
        | none => rw [hd] at h; cases h
        | some b =>
          rw [hd] at h
          cases b with
          | true => cases h; exact Or.inl rfl
          | false =>
            simp only at h
            cases hok : (checkAllow c peer fd s.slots).2 with
            | false =>
              rw [hok] at h
              cases h
              exact Or.inr (Or.inl ⟨peer, fd, rfl⟩)
            | true =>
              rw [hok] at h
              simp only [if_true, Option.map_eq_some_iff, Prod.mk.injEq] at h
              obtain ⟨s2, h1, rfl, _⟩ := h
              exact Or.inr (Or.inl ⟨peer, fd, by rw [hreg _ _ h1]⟩)
  | writable i w =>
    simp only [step, quiet, Option.map_eq_some_iff, Prod.mk.injEq] at h
    obtain ⟨s2, h1, rfl, _⟩ := h
    unfold onWritable at h1
    repeat' split at h1
    all_goals first
      | exact Or.inr (Or.inr ⟨_, lost_slots h1⟩)
      | (cases h1; exact Or.inl rfl)
  | readable i g =>
    simp only [step] at h
    unfold onReadable at h
    have hq : ∀ k fd, quiet (lost c i k fd s) = some (s', o) → ∃ fd, s'.slots = slotDone c fd s.slots := by
      intro k fd hq
      simp only [quiet, Option.map_eq_some_iff, Prod.mk.injEq] at hq
      obtain ⟨s2, h1, rfl, _⟩ := hq
      exact ⟨fd, lost_slots h1⟩
    split at h
    · cases h; exact Or.inl rfl
    · split at h
      · cases h; exact Or.inl rfl
      · split at h
        · cases h; exact Or.inl rfl
        · exact Or.inr (Or.inr (hq _ _ h))
        · unfold onByte at h
          split at h
          · exact Or.inr (Or.inr (hq _ _ h))
          · split at h
            · cases h; exact Or.inl rfl
            · split at h
              · simp only [Option.map_eq_some_iff, Prod.mk.injEq] at h
                obtain ⟨s2, h1, rfl, _⟩ := h
                exact Or.inl (close_slots h1)
              · cases h; exact Or.inl rfl
  | exits now l =>
    simp only [step, quiet, Option.map_eq_some_iff, Prod.mk.injEq] at h
    obtain ⟨s2, h1, rfl, _⟩ := h
    unfold reapAll at h1
    have := reapFrom_slots _ _ _ _ h1
    exact Or.inl this

/-- Slots hold masked addresses, at most `limit` of one network. -/
structure SBound (c : Cfg) (limit : Nat) (s : Slots) : Prop where
  masked : ∀ x ∈ usedSlots s, Masked c x.2
  bound : ∀ a, (usedSlots s).countP (fun x => SameNet c a x.2) ≤ limit

theorem sbound_check {c : Cfg} (hc : c.Ok) {limit : Nat} (hl : c.perSource = some limit) {s : Slots} (h : SBound c limit s)
    (peer : Option XAddr) (fd : Nat) : SBound c limit (checkAllow c peer fd s).1 := by
  rcases checkAllow_spec c hc peer fd s with ⟨_, he⟩ | ⟨a, limit', m, rfl, hca, hl', hm, he⟩
  · rw [he]; exact h
  · rw [hl] at hl'; cases hl'
    rw [he]
    unfold checkMasked
    cases hst : store (fd, m) s with
    | none => exact h
    | some s2 =>
      simp only
      split
      · exact h
      · rename_i hlt
        obtain ⟨p1, p2⟩ := store_some _ _ _ hst
        have hmm : Masked c m := ⟨a, known_of_mask hm, hm⟩
        constructor
        · intro x hx
          rcases List.mem_cons.1 (p1.mem_iff.1 hx) with rfl | hx
          · exact hmm
          · exact h.masked x hx
        · intro b
          simp only
          rw [p1.countP_eq, List.countP_cons]
          simp only [decide_eq_true_eq]
          split
          · rename_i hs
            have : (usedSlots s).countP (fun x => SameNet c b x.2) = countSame m s := by
              rw [countSame_eq]
              apply List.countP_congr
              intro x hx
              simp only [decide_eq_true_eq]
              rw [cmp_masked c hc (h.masked x hx) hmm]
              exact ⟨fun h1 => h1.symm.trans hs, fun h1 => hs.trans h1.symm⟩
            omega
          · exact h.bound b

theorem sbound_done {c : Cfg} {limit : Nat} {s : Slots} (h : SBound c limit s) (fd : Nat) : SBound c limit (slotDone c fd s) := by
  unfold slotDone
  split
  · exact h
  · constructor
    · intro x hx
      rw [clear_used] at hx
      exact h.masked x (List.mem_of_mem_eraseP hx)
    · intro a
      rw [clear_used]
      exact Nat.le_trans (List.Sublist.countP_le List.eraseP_sublist) (h.bound a)

theorem hist_sbound {c : Cfg} (hc : c.Ok) {limit : Nat} (hl : c.perSource = some limit) {h : List (Ev × Out)} {s : State} {t : Int}
    (hh : Hist c h s t) : SBound c limit s.slots := by
  induction hh with
  | init t => exact ⟨by simp only [init]; rw [usedSlots_init]; simp, by intro a; simp only [init]; rw [usedSlots_init]; simp⟩
  | step _ _ _ hst ih =>
    rcases step_slots hst with e | ⟨peer, fd, e⟩ | ⟨fd, e⟩ <;> rw [e]
    · exact ih
    · exact sbound_check hc hl ih peer fd
    · exact sbound_done ih fd

theorem nodup_le_countP {p : Nat × XAddr → Bool} : ∀ (F : List Nat) (U : List (Nat × XAddr)), F.Nodup →
    (∀ fd ∈ F, ∃ m, (fd, m) ∈ U ∧ p (fd, m) = true) → F.length ≤ U.countP p
  | [], _, _, _ => by simp
  | fd :: F, U, hn, h => by
    obtain ⟨m, hm, hp⟩ := h fd (by simp)
    have hn' := List.nodup_cons.1 hn
    have := nodup_le_countP F (U.erase (fd, m)) hn'.2 (by
      intro x hx
      obtain ⟨m', hm', hp'⟩ := h x (by simp [hx])
      refine ⟨m', (List.mem_erase_of_ne ?_).2 hm', hp'⟩
      intro e
      cases e
      exact hn'.1 hx)
    rw [(List.perm_cons_erase hm).countP_eq, List.countP_cons, hp]
    simp
    omega

/-- Waiting connections that count for `a`'s network, as a test on a child. -/
def fromNet (c : Cfg) (a : XAddr) (k : Child) : Bool :=
  match k.addr with
  | none => false
  | some b => Counted c b ∧ SameNet c a b

theorem waitingFrom_le {c : Cfg} {a : XAddr} : ∀ (l : List Child),
    (l.filter fun k => k.pipe.isSome).countP (fromNet c a) =
      (l.filterMap fun k => if fromNet c a k then k.pipe else none).length
  | [] => rfl
  | k :: l => by
    have ih := waitingFrom_le (c := c) (a := a) l
    cases hp : k.pipe with
    | none => simp [List.filter_cons, List.filterMap_cons, hp, ih]
    | some fd =>
      cases hf : fromNet c a k with
      | true => simp [List.filter_cons, List.filterMap_cons, hp, hf, ih]
      | false => simp [List.filter_cons, List.filterMap_cons, hp, hf, ih]

/-- C30.  In the listener, the waiting connections from one network never exceed the limit. -/
theorem C30_limit (c : Cfg) (hc : c.Ok) (hm : c.Startups) (h : List (Ev × Out)) (s : State) (t : Int) (hh : Hist c h s t)
    (limit : Nat) (hl : c.perSource = some limit) (a : XAddr) : waitingFrom c s a ≤ limit := by
  have hi := (lhist_inv hc hm hh).1
  have hb := hist_sbound hc hl hh
  have e : waitingFrom c s a = (s.children.filter fun k => k.pipe.isSome).countP (fromNet c a) := rfl
  rw [e, waitingFrom_le]
  refine Nat.le_trans (nodup_le_countP (p := fun x => SameNet c a x.2) _ (usedSlots s.slots) ?_ ?_) (hb.bound a)
  · refine List.Nodup.sublist ?_ hi.fds
    have : ∀ l : List Child, (l.filterMap fun k => if fromNet c a k then k.pipe else none).Sublist (l.filterMap (·.pipe)) := by
      intro l
      induction l with
      | nil => exact List.Sublist.refl _
      | cons k l ih =>
        simp only [List.filterMap_cons]
        cases hf : fromNet c a k with
        | true =>
          cases hp : k.pipe with
          | none => simpa using ih
          | some v => simpa using ih
        | false =>
          cases hp : k.pipe with
          | none => simpa using ih
          | some v => simpa using ih.cons v
    exact this _
  · intro fd hfd
    obtain ⟨k, hk, hkf⟩ := List.mem_filterMap.1 hfd
    split at hkf
    · rename_i hf
      unfold fromNet at hf
      cases ha : k.addr with
      | none => rw [ha] at hf; cases hf
      | some b =>
        rw [ha] at hf
        simp only [decide_eq_true_eq] at hf
        obtain ⟨m, hm', _⟩ := mask_spec c hc b hf.1.2.1
        exact ⟨m, hi.slot k hk fd b m hkf ha hf.1 hm', by simpa using hf.2.trans (sameNet_mask c hc hm')⟩
    · cases hkf

/-- C30, the other half, fails.  A login does not give its slot back: with a limit set, and all connections
from addresses it applies to, once as many logins as MaxStartups have succeeded every further connection is
refused, whether or not any connection is waiting. -/
theorem C30_exhausted (c : Cfg) (hc : c.Ok) (hm : c.Startups) (h : List (Ev × Out)) (s : State) (t : Int) (hh : Hist c h s t)
    (hl : c.perSource.isSome = true) (hall : AllCounted c h) (hlog : c.full ≤ logins h)
    (now : Int) (a : XAddr) (ha : Counted c a) (fd r : Nat) (pid : Option Nat) (hev : EvOk s (.accept now (some a) fd r pid))
    (ht : t ≤ now) : ∃ s' d, step c s (.accept now (some a) fd r pid) = some (s', .refused d) := by
  have hi := lhist_inv hc hm hh
  have hb := hi.2 hl hall
  obtain ⟨s', o, h1, _⟩ := step_inv hc hm hi.1 (.accept now (some a) fd r pid) hev ht
  cases o with
  | refused d => exact ⟨s', d, h1⟩
  | quiet =>
    exfalso
    simp only [step, onAccept] at h1
    split at h1
    · cases h1
    · cases h1
    · simp at h1
  | loggedIn p =>
    exfalso
    simp only [step, onAccept] at h1
    split at h1
    · cases h1
    · cases h1
    · simp at h1
  | started =>
    exfalso
    have hnot : (checkAllow c (some a) fd s.slots).2 = false := by
      rcases checkAllow_spec c hc (some a) fd s.slots with ⟨hn, _⟩ | ⟨a', limit, m, ha', _, _, _, he⟩
      · exact absurd ⟨a, rfl, ha⟩ hn
      · rw [he]
        unfold checkMasked
        have : store (fd, m) s.slots = none := by
          rw [store_none]
          have := used_le s.slots
          have := hi.1.slen hl
          have := hb.eq
          omega
        rw [this]
    simp only [step, onAccept] at h1
    unfold dropConn at h1
    cases hp : penaltyCheck c now (some a) s.penal with
    | none => rw [hp] at h1; cases h1
    | some pa =>
      obtain ⟨p, ans⟩ := pa
      rw [hp] at h1
      cases ans with
      | tooMany => cases h1
      | penalised k => cases h1
      | allow =>
        simp only at h1
        cases hd : shouldDrop c s.active r with
        | none => rw [hd] at h1; cases h1
        | some b =>
          rw [hd] at h1
          cases b with
          | true => cases h1
          | false =>
            simp only [hnot, Bool.false_eq_true, if_false] at h1
            cases h1

/-! ### C61 -/

/-- C61.  The listener's counters are right: it tracks at most MaxStartups children, counts exactly those
whose pipe is open or whose process has not been waited for, and the number of children it waits for before a
restart is the number that have not received their configuration. -/
theorem C61_counts (c : Cfg) (hc : c.Ok) (hm : c.Startups) (h : List (Ev × Out)) (s : State) (t : Int) (hh : Hist c h s t) :
    s.active = (tracked s).length ∧ s.active ≤ c.full ∧
      s.listening = ((waiting s).countP fun k => k.early) := by
  have hi := (lhist_inv hc hm hh).1
  have e1 : (tracked s).length = s.children.countP tr := by
    unfold tracked; rw [List.countP_eq_length_filter]; rfl
  refine ⟨by rw [e1]; exact hi.active, ?_, ?_⟩
  · rw [hi.active, ← hi.len]; exact List.countP_le_length
  · rw [hi.listen]
    unfold waiting
    rw [List.countP_filter]
    rfl

/-- C61.  None of the listener's internal errors can occur: every event is handled. -/
theorem C61_total (c : Cfg) (hc : c.Ok) (hm : c.Startups) (h : List (Ev × Out)) (s : State) (t : Int) (hh : Hist c h s t)
    (ev : Ev) (hev : EvOk s ev) (ht : t ≤ ev.time.getD t) : ∃ r, step c s ev = some r := by
  obtain ⟨s', o, h1, _⟩ := step_inv hc hm (lhist_inv hc hm hh).1 ev hev ht
  exact ⟨_, h1⟩

/-- C61.  Entries that are not tracked are free for new connections. -/
theorem C61_free (c : Cfg) (hc : c.Ok) (hm : c.Startups) (h : List (Ev × Out)) (s : State) (t : Int) (hh : Hist c h s t)
    (hroom : (tracked s).length < c.full) : ∃ k ∈ s.children, k.used = false := by
  have hi := (lhist_inv hc hm hh).1
  apply Classical.byContradiction
  intro hn
  have hall : ∀ k ∈ s.children, tr k = true := by
    intro k hk
    apply hi.shape k hk
    cases hu : k.used with
    | true => rfl
    | false => exact absurd ⟨k, hk, hu⟩ hn
  have h1 := List.countP_eq_length.2 hall
  have h2 := (C61_counts c hc hm h s t hh).1
  have h3 := hi.active
  have h4 := hi.len
  omega

/-! ### Concrete runs -/

instance (s : State) (ev : Ev) : Decidable (EvOk s ev) := by
  cases ev <;> unfold EvOk <;> infer_instance

/-- Run a list of events, checking what the histories require. -/
def play (c : Cfg) : List Ev → List (Ev × Out) → State → Int → Option (List (Ev × Out) × State × Int)
  | [], h, s, t => some (h, s, t)
  | ev :: evs, h, s, t =>
    if EvOk s ev ∧ t ≤ ev.time.getD t then
      match step c s ev with
      | none => none
      | some r => play c evs (h ++ [(ev, r.2)]) r.1 (ev.time.getD t)
    else none

theorem play_hist {c : Cfg} : ∀ (evs : List Ev) (h : List (Ev × Out)) (s : State) (t : Int) (r), Hist c h s t →
    play c evs h s t = some r → Hist c r.1 r.2.1 r.2.2
  | [], h, s, t, r, hh, hp => by cases hp; exact hh
  | ev :: evs, h, s, t, r, hh, hp => by
    unfold play at hp
    split at hp
    · rename_i hok
      cases hs : step c s ev with
      | none => rw [hs] at hp; cases hp
      | some q =>
        rw [hs] at hp
        exact play_hist evs _ _ _ r (Hist.step hh hok.1 hok.2 hs) hp
    · cases hp

namespace Toy

/-- MaxStartups 2:30:3, PerSourceMaxStartups 1, networks /24; crash 90 s, failed login 5 s; minimum 15,
maximum 60; two IPv4 sources, the soonest to expire gives way. -/
def cfg : Cfg where
  start := 2
  rate := 30
  full := 3
  perSource := some 1
  len4 := 24
  len6 := 64
  enabled := true
  secs := fun
    | .crash => 90
    | .authfail => 5
    | .noauth => 1
    | .refuse => 10
    | .grace => 10
    | .none => 0
  pmin := 15
  pmax := 60
  max4 := 2
  max6 := 2
  deny4 := false
  deny6 := true
  exempt := none
  ntop := fun _ => some b!"x"
  pton := fun _ => none

theorem ok : cfg.Ok := ⟨by decide, by decide, by intro k; cases k <;> decide, by decide⟩
theorem startups : cfg.Startups := ⟨by decide, by decide, by decide, by unfold Small; decide⟩

/-- 10.0.x.y -/
def ip (x y : Nat) : XAddr := ⟨.inet, UInt32.ofNat (10 * 16777216 + x * 256 + y), 0, 0, 0, 0⟩

/-- A login: connect, receive configuration and keys, say so, report success. -/
def login : List Ev :=
  [.accept 0 (some (ip 0 1)) 7 50 (some 100), .writable 0 .all, .writable 0 .all, .readable 0 (.byte 0), .readable 0 (.byte 1)]

/-- Between the thresholds. -/
example : percent cfg 1 = 0 ∧ percent cfg 2 = 30 ∧ percent cfg 3 = 100 := by decide +kernel

/-- After the login nothing is waiting and nothing tracked, yet a connection from the same network is refused by
the per-source limit, and one from elsewhere is admitted. -/
theorem login_leaks :
    ∃ h s t, Hist cfg h s t ∧ waiting s = [] ∧ tracked s = [] ∧ logins h = 1 ∧
      (∃ s', step cfg s (.accept t (some (ip 0 2)) 7 50 (some 101)) = some (s', .refused .perSource)) ∧
      (∃ s', step cfg s (.accept t (some (ip 1 2)) 7 50 (some 101)) = some (s', .started)) := by
  have hp : ∃ r, play cfg login [] (init cfg) 0 = some r ∧ waiting r.2.1 = [] ∧ tracked r.2.1 = [] ∧ logins r.1 = 1 ∧
      (∃ s', step cfg r.2.1 (.accept r.2.2 (some (ip 0 2)) 7 50 (some 101)) = some (s', .refused .perSource)) ∧
      (∃ s', step cfg r.2.1 (.accept r.2.2 (some (ip 1 2)) 7 50 (some 101)) = some (s', .started)) := by
    refine ⟨_, rfl, by decide +kernel, by decide +kernel, by decide +kernel, ⟨_, rfl⟩, ⟨_, rfl⟩⟩
  obtain ⟨r, hr, h1, h2, h3, h4, h5⟩ := hp
  exact ⟨r.1, r.2.1, r.2.2, play_hist _ _ _ _ r (Hist.init 0) hr, h1, h2, h3, h4, h5⟩

/-- A connection that ends without a login does free its slot. -/
example : ∃ h s t, Hist cfg h s t ∧ waiting s = [] ∧
    (∃ s', step cfg s (.accept t (some (ip 0 2)) 7 50 (some 101)) = some (s', .started)) := by
  have hp : ∃ r, play cfg [.accept 0 (some (ip 0 1)) 7 50 (some 100), .writable 0 .all, .writable 0 .all,
      .readable 0 (.byte 0), .readable 0 .ended, .exits 5 [(100, .code 5)]] [] (init cfg) 0 = some r ∧ waiting r.2.1 = [] ∧
      (∃ s', step cfg r.2.1 (.accept r.2.2 (some (ip 0 2)) 7 50 (some 101)) = some (s', .started)) := by
    exact ⟨_, rfl, by decide +kernel, _, rfl⟩
  obtain ⟨r, hr, h1, h2⟩ := hp
  exact ⟨r.1, r.2.1, r.2.2, play_hist _ _ _ _ r (Hist.init 0) hr, h1, h2⟩

/-- The history of one offence. -/
theorem one (a : XAddr) (k : Kind) (p' : Penal) (e : Effect) (h : penalise cfg 0 a k penalInit = some (p', e)) :
    PHist cfg [.offence 0 a k e] p' 0 := PHist.offence (PHist.init 0) (Int.le_refl 0) h

end Toy

/-- C30 is false of the listener as it stands: see `Toy.login_leaks`. -/
theorem C30_login_keeps_slot : ∃ (c : Cfg) (h : List (Ev × Out)) (s : State) (t : Int), c.Ok ∧ c.Startups ∧ Hist c h s t ∧
    waiting s = [] ∧ ∃ a fd r pid s', step c s (.accept t (some a) fd r pid) = some (s', .refused .perSource) := by
  obtain ⟨h, s, t, h1, h2, _, _, ⟨s', h4⟩, _⟩ := Toy.login_leaks
  exact ⟨Toy.cfg, h, s, t, Toy.ok, Toy.startups, h1, h2, _, _, _, _, s', h4⟩

/-- C31.  A single penalty longer than the maximum is not limited by it: one crash earns 90 seconds although
the maximum is 60, and the source is still refused after 61. -/
theorem C31_first_uncapped : ∃ (c : Cfg) (log : List Act) (p p' : Penal) (a : XAddr), c.Ok ∧ c.pmax = 60 ∧ PHist c log p 0 ∧
    (∃ k e, log = [.offence 0 a k e]) ∧ penaltyCheck c 61 (some a) p = some (p', .penalised .crash) :=
  ⟨Toy.cfg, [.offence 0 (Toy.ip 0 1) .crash (.fresh [])], _, _, Toy.ip 0 1, Toy.ok, rfl,
    Toy.one _ _ _ _ rfl, ⟨_, _, rfl⟩, rfl⟩

/-- A penalty of exactly the minimum is not enforced; one second more is. -/
example : (first { Toy.cfg with pmin := 90 } 0 .crash).active = false ∧ (first { Toy.cfg with pmin := 89 } 0 .crash).active = true := by
  decide

/-- Four failed logins within a moment add up to more than the minimum and are refused. -/
example : ∃ log p p', PHist Toy.cfg log p 3 ∧ penaltyCheck Toy.cfg 4 (some (Toy.ip 0 9)) p = some (p', .penalised .authfail) := by
  have h0 := PHist.init (c := Toy.cfg) 0
  have h1 := PHist.offence (a := Toy.ip 0 1) (k := .authfail) h0 (show (0 : Int) ≤ 0 by decide) rfl
  have h2 := PHist.offence (a := Toy.ip 0 2) (k := .authfail) h1 (show (0 : Int) ≤ 1 by decide) rfl
  have h3 := PHist.offence (a := Toy.ip 0 3) (k := .authfail) h2 (show (1 : Int) ≤ 2 by decide) rfl
  have h4 := PHist.offence (a := Toy.ip 0 4) (k := .authfail) h3 (show (2 : Int) ≤ 3 by decide) rfl
  exact ⟨_, _, _, h4, rfl⟩

/-- A third network makes the one that expires first give way. -/
example : ∃ p, penalise Toy.cfg 2 (Toy.ip 3 1) .crash
    ⟨⟨[⟨Toy.ip 1 0, 5, false, .authfail⟩, ⟨Toy.ip 2 0, 9, false, .grace⟩], 2⟩, ⟨[], 0⟩⟩ =
      some (p, .fresh [Toy.ip 1 0]) ∧ p.t4.list.map (·.addr) = [Toy.ip 2 0, Toy.ip 3 0] := ⟨_, rfl, by decide⟩

/-- C30_exact's hypotheses: one connection held, the next from the same network refused, and admitted again
once the first is over. -/
example : ∃ s1 s2, checkAllow Toy.cfg (some (Toy.ip 0 1)) 7 (slotsInit Toy.cfg) = (s1, true) ∧
    (checkAllow Toy.cfg (some (Toy.ip 0 2)) 8 s1).2 = false ∧
    s2 = slotDone Toy.cfg 7 s1 ∧ (checkAllow Toy.cfg (some (Toy.ip 0 2)) 8 s2).2 = true := ⟨_, _, rfl, by decide +kernel, rfl, by decide +kernel⟩

end Verif.Startup
