/-
The listener's bookkeeping: one entry per tracked child, right counters, one slot per waiting connection.
-/
import Verif.Startup.Penalties
import Verif.Startup.Slots

namespace Verif.Startup
open Verif Text
open Verif.Addr (XAddr Family Known width bit)

def tr (k : Child) : Bool := k.pipe.isSome || k.pid.isSome
def el (k : Child) : Bool := k.early && k.pipe.isSome
def op (k : Child) : Bool := k.pipe.isSome

theorem countP_set' {α : Type} (p : α → Bool) : ∀ (l : List α) (i : Nat) (k k' : α), l[i]? = some k →
    (l.set i k').countP p + (if p k = true then 1 else 0) = l.countP p + (if p k' = true then 1 else 0)
  | [], i, k, k', h => by simp at h
  | x :: l, 0, k, k', h => by
    simp only [List.length_cons, Nat.zero_lt_succ, List.getElem?_eq_getElem, List.getElem_cons_zero, Option.some.injEq] at h
    subst h
    simp only [List.set_cons_zero, List.countP_cons]
    omega
  | x :: l, i + 1, k, k', h => by
    have := countP_set' p l i k k' (by simpa using h)
    simp only [List.set_cons_succ, List.countP_cons]
    omega

theorem mem_set' {α : Type} {l : List α} {i : Nat} {x y : α} (h : y ∈ l.set i x) : y = x ∨ y ∈ l :=
  (List.mem_or_eq_of_mem_set h).symm

structure LInv (c : Cfg) (s : State) (t : Int) : Prop where
  len : s.children.length = c.full
  active : s.active = s.children.countP tr
  listen : s.listening = s.children.countP el
  shape : ∀ k ∈ s.children, k.used = true → tr k = true
  status : ∀ k ∈ s.children, k.status.isSome = true → k.pid.isSome = true
  fds : (s.children.filterMap (·.pipe)).Nodup
  penal : ∃ log u, u ≤ t ∧ PInv c log s.penal u
  slen : c.perSource.isSome = true → s.slots.length = c.full
  slot : ∀ k ∈ s.children, ∀ fd a m, k.pipe = some fd → k.addr = some a → Counted c a → mask a (bits c a) = some m →
    (fd, m) ∈ usedSlots s.slots

/-- Waiting connections and `b` more hold slots. -/
structure Bal (c : Cfg) (s : State) (b : Nat) : Prop where
  known : ∀ k ∈ s.children, k.pipe.isSome = true → ∃ a, k.addr = some a ∧ Counted c a
  eq : (usedSlots s.slots).length = s.children.countP op + b

theorem LInv.later {c : Cfg} {s : State} {t t' : Int} (h : LInv c s t) (ht : t ≤ t') : LInv c s t' := by
  obtain ⟨log, u, hu, hp⟩ := h.penal
  exact ⟨h.len, h.active, h.listen, h.shape, h.status, h.fds, ⟨log, u, Int.le_trans hu ht, hp⟩, h.slen, h.slot⟩

theorem LInv.withPenal {c : Cfg} {s : State} {t : Int} (h : LInv c s t) {p : Penal}
    (hp : ∃ log u, u ≤ t ∧ PInv c log p u) : LInv c { s with penal := p } t :=
  ⟨h.len, h.active, h.listen, h.shape, h.status, h.fds, hp, h.slen, h.slot⟩

/-- How many entries with this number: replacing a child by one with the same pipe, or none. -/
theorem filterMap_set {α : Type} (f : α → Option Nat) : ∀ (l : List α) (i : Nat) (k k' : α), l[i]? = some k →
    (f k' = f k ∨ f k' = none) → ((l.set i k').filterMap f).Sublist (l.filterMap f)
  | [], i, k, k', h, _ => by simp at h
  | x :: l, 0, k, k', h, hk => by
    simp only [List.length_cons, Nat.zero_lt_succ, List.getElem?_eq_getElem, List.getElem_cons_zero, Option.some.injEq] at h
    subst h
    simp only [List.set_cons_zero, List.filterMap_cons]
    rcases hk with e | e <;> rw [e]
    · exact List.Sublist.refl _
    · cases f x with
      | none => exact List.Sublist.refl _
      | some v => exact List.sublist_cons_self v _
  | x :: l, i + 1, k, k', h, hk => by
    have := filterMap_set f l i k k' (by simpa using h) hk
    simp only [List.set_cons_succ, List.filterMap_cons]
    cases f x with
    | none => exact this
    | some v => exact this.cons_cons v

/-- Two different places with the same pipe do not exist. -/
theorem fd_unique {α : Type} (f : α → Option Nat) : ∀ (l : List α) (i : Nat) (k k2 x : α) (fd : Nat), (l.filterMap f).Nodup →
    l[i]? = some k → f k = some fd → f k2 = none → x ∈ l.set i k2 → f x ≠ some fd
  | [], i, k, k2, x, fd, _, h, _, _, _ => by simp at h
  | y :: l, 0, k, k2, x, fd, hn, h, hk, hk2, hx => by
    simp only [List.length_cons, Nat.zero_lt_succ, List.getElem?_eq_getElem, List.getElem_cons_zero, Option.some.injEq] at h
    subst h
    rw [List.filterMap_cons, hk] at hn
    have hn := List.nodup_cons.1 hn
    simp only [List.set_cons_zero, List.mem_cons] at hx
    rcases hx with rfl | hx
    · rw [hk2]; simp
    · intro hf
      exact hn.1 (List.mem_filterMap.2 ⟨x, hx, hf⟩)
  | y :: l, i + 1, k, k2, x, fd, hn, h, hk, hk2, hx => by
    have hl : l[i]? = some k := by simpa using h
    have hn' : (l.filterMap f).Nodup := by
      rw [List.filterMap_cons] at hn
      cases hy : f y with
      | none => rw [hy] at hn; exact hn
      | some v => rw [hy] at hn; exact (List.nodup_cons.1 hn).2
    simp only [List.set_cons_succ, List.mem_cons] at hx
    rcases hx with rfl | hx
    · intro hf
      rw [List.filterMap_cons, hf] at hn
      exact (List.nodup_cons.1 hn).1 (List.mem_filterMap.2 ⟨k, List.mem_of_getElem? hl, hk⟩)
    · exact fd_unique f l i k k2 x fd hn' hl hk hk2 hx

/-- An entry changes, its pipe does not. -/
theorem upd_keep {c : Cfg} {s s' : State} {t : Int} (h : LInv c s t) {i : Nat} {k k' : Child} (hi : s.children[i]? = some k)
    (hch : s'.children = s.children.set i k')
    (hact : s'.active + (if tr k = true then 1 else 0) = s.active + (if tr k' = true then 1 else 0))
    (hlis : s'.listening + ((if el k = true then 1 else 0 : Nat) : Int) = s.listening + ((if el k' = true then 1 else 0 : Nat) : Int))
    (hsh : k'.used = true → tr k' = true) (hst : k'.status.isSome = true → k'.pid.isSome = true)
    (hpipe : k'.pipe = k.pipe) (haddr : k.pipe.isSome = true → k'.addr = k.addr)
    (hpen : ∃ log u, u ≤ t ∧ PInv c log s'.penal u) (hsl : s'.slots = s.slots) :
    LInv c s' t ∧ ∀ b, Bal c s b → Bal c s' b := by
  have hk : k ∈ s.children := List.mem_of_getElem? hi
  constructor
  · refine ⟨?_, ?_, ?_, ?_, ?_, ?_, hpen, ?_, ?_⟩
    · rw [hch, List.length_set]; exact h.len
    · have := countP_set' tr s.children i k k' hi
      rw [hch]; have := h.active; omega
    · have := countP_set' el s.children i k k' hi
      rw [hch]; have := h.listen; omega
    · rw [hch]; intro x hx
      rcases mem_set' hx with rfl | hx
      · exact hsh
      · exact h.shape x hx
    · rw [hch]; intro x hx
      rcases mem_set' hx with rfl | hx
      · exact hst
      · exact h.status x hx
    · rw [hch]
      exact List.Nodup.sublist (filterMap_set (·.pipe) _ i k k' hi (Or.inl hpipe)) h.fds
    · rw [hsl]; exact h.slen
    · rw [hch, hsl]; intro x hx fd a m h1 h2 h3 h4
      rcases mem_set' hx with rfl | hx
      · rw [hpipe] at h1
        rw [haddr (by simp [h1])] at h2
        exact h.slot k hk fd a m h1 h2 h3 h4
      · exact h.slot x hx fd a m h1 h2 h3 h4
  · intro b hb
    refine ⟨?_, ?_⟩
    · rw [hch]; intro x hx h1
      rcases mem_set' hx with rfl | hx
      · rw [hpipe] at h1
        rw [haddr h1]
        exact hb.known k hk h1
      · exact hb.known x hx h1
    · have := countP_set' op s.children i k k' hi
      have e : op k' = op k := by simp [op, hpipe]
      rw [e] at this
      rw [hsl, hch, hb.eq]; omega

theorem eraseP_length {l : List (Nat × XAddr)} {fd : Nat} {m : XAddr} (h : (fd, m) ∈ l) :
    (l.eraseP fun x => x.1 = fd).length + 1 = l.length := by
  have := List.length_eraseP_of_mem (p := fun x => decide (x.1 = fd)) h (by simp)
  have := List.length_pos_of_mem h
  omega

/-- An entry's pipe is closed; the slot is given back unless the child has logged in. -/
theorem upd_shut {c : Cfg} (hc : c.Ok) {s s' : State} {t : Int} (h : LInv c s t) {i : Nat} {k k' : Child} {fd : Nat}
    (hi : s.children[i]? = some k) (hfd : k.pipe = some fd)
    (hch : s'.children = s.children.set i k')
    (hact : s'.active + 1 = s.active + (if tr k' = true then 1 else 0))
    (hlis : s'.listening + ((if k.early = true then 1 else 0 : Nat) : Int) = s.listening)
    (hsh : k'.used = true → tr k' = true) (hst : k'.status.isSome = true → k'.pid.isSome = true)
    (hpipe : k'.pipe = none) (hpen : s'.penal = s.penal) (back : Bool)
    (hsl : s'.slots = if back then slotDone c fd s.slots else s.slots) :
    LInv c s' t ∧ ∀ b, c.perSource.isSome = true → Bal c s b → Bal c s' (b + if back then 0 else 1) := by
  have hk : k ∈ s.children := List.mem_of_getElem? hi
  have htr : tr k = true := by simp [tr, hfd]
  have hop : op k = true := by simp [op, hfd]
  have helk : el k = k.early := by simp [el, hfd]
  have hop' : op k' = false := by simp [op, hpipe]
  have hel' : el k' = false := by simp [el, hpipe]
  constructor
  · refine ⟨?_, ?_, ?_, ?_, ?_, ?_, ?_, ?_, ?_⟩
    · rw [hch, List.length_set]; exact h.len
    · have := countP_set' tr s.children i k k' hi
      rw [htr] at this
      simp only [if_true] at this
      rw [hch]; have := h.active; omega
    · have := countP_set' el s.children i k k' hi
      rw [helk, hel'] at this
      simp only [Bool.false_eq_true, if_false] at this
      rw [hch]; have := h.listen; omega
    · rw [hch]; intro x hx
      rcases mem_set' hx with rfl | hx
      · exact hsh
      · exact h.shape x hx
    · rw [hch]; intro x hx
      rcases mem_set' hx with rfl | hx
      · exact hst
      · exact h.status x hx
    · rw [hch]
      exact List.Nodup.sublist (filterMap_set (·.pipe) _ i k k' hi (Or.inr hpipe)) h.fds
    · rw [hpen]; exact h.penal
    · intro hp
      rw [hsl]; split
      · rw [slotDone_length]; exact h.slen hp
      · exact h.slen hp
    · rw [hch]; intro x hx fd2 a m h1 h2 h3 h4
      have hne : x.pipe ≠ some fd := fd_unique (·.pipe) s.children i k k' x fd h.fds hi hfd hpipe hx
      have hold : (fd2, m) ∈ usedSlots s.slots := by
        rcases mem_set' hx with rfl | hx
        · rw [hpipe] at h1; cases h1
        · exact h.slot x hx fd2 a m h1 h2 h3 h4
      rw [hsl]; split
      · unfold slotDone
        split
        · exact hold
        · rw [clear_used]
          refine (List.mem_eraseP_of_neg ?_).2 hold
          have : fd2 ≠ fd := fun e => hne (by rw [h1, e])
          simpa using this
      · exact hold
  · intro b hps hb
    refine ⟨?_, ?_⟩
    · rw [hch]; intro x hx h1
      rcases mem_set' hx with rfl | hx
      · rw [hpipe] at h1; simp at h1
      · exact hb.known x hx h1
    · have hcnt := countP_set' op s.children i k k' hi
      rw [hop, hop'] at hcnt
      simp only [if_true, Bool.false_eq_true, if_false] at hcnt
      rw [hsl, hch]
      cases back with
      | false => simp; have := hb.eq; omega
      | true =>
        simp only [if_true]
        obtain ⟨a, ha, hca⟩ := hb.known k hk (by simp [hfd])
        obtain ⟨m, hm, _⟩ := mask_spec c hc a hca.2.1
        have hmem := h.slot k hk fd a m hfd ha hca hm
        have hnn : ¬ c.perSource = none := by
          intro e; rw [e] at hps; simp at hps
        rw [slotDone, if_neg hnn, clear_used]
        have := eraseP_length hmem
        have := hb.eq
        omega

theorem active_pos {c : Cfg} {s : State} {t : Int} (h : LInv c s t) {i : Nat} {k : Child} (hi : s.children[i]? = some k)
    (htr : tr k = true) : s.active ≠ 0 := by
  rw [h.active]
  have : 0 < s.children.countP tr := List.countP_pos_iff.2 ⟨k, List.mem_of_getElem? hi, htr⟩
  omega

/-- Closing the pipe of a waiting child, giving the slot back. -/
theorem lost_inv {c : Cfg} (hc : c.Ok) {s : State} {t : Int} (h : LInv c s t) {i : Nat} {k : Child} {fd : Nat}
    (hi : s.children[i]? = some k) (hfd : k.pipe = some fd) :
    ∃ s', lost c i k fd s = some s' ∧ LInv c s' t ∧ ∀ b, c.perSource.isSome = true → Bal c s b → Bal c s' b := by
  have htr : tr k = true := by simp [tr, hfd]
  have hpos := active_pos h hi htr
  unfold lost close
  by_cases hp : k.pid = none
  · simp only [hp, true_or, if_true, finish, hpos, if_false]
    refine ⟨_, rfl, ?_⟩
    have := upd_shut hc h (k' := noChild) hi hfd (s' := { s with
      children := s.children.set i noChild
      active := s.active - 1
      listening := if k.early then s.listening - 1 else s.listening
      slots := slotDone c fd s.slots }) rfl (by simp [tr, noChild]; omega)
      (by cases k.early <;> simp) (by simp [noChild, Child.used]) (by simp [noChild]) rfl rfl true rfl
    simpa using this
  · simp only [hp, Bool.false_eq_true, or_self, if_false]
    refine ⟨_, rfl, ?_⟩
    have hpid : k.pid.isSome = true := by cases e : k.pid <;> simp_all
    have := upd_shut hc h (k' := { k with pipe := none }) hi hfd (s' := { s with
      children := s.children.set i { k with pipe := none }
      listening := if k.early then s.listening - 1 else s.listening
      slots := slotDone c fd s.slots }) rfl (by simp [tr, hpid])
      (by cases k.early <;> simp) (by simp [tr, hpid]) (fun _ => hpid) rfl rfl true rfl
    simpa using this

theorem writable_inv {c : Cfg} (hc : c.Ok) {s : State} {t : Int} (h : LInv c s t) (i : Nat) (w : Wrote) :
    ∃ s', onWritable c i w s = some s' ∧ LInv c s' t ∧ ∀ b, c.perSource.isSome = true → Bal c s b → Bal c s' b := by
  unfold onWritable
  cases hi : s.children[i]? with
  | none => exact ⟨s, rfl, h, fun _ _ hb => hb⟩
  | some k =>
    simp only
    cases hfd : k.pipe with
    | none => exact ⟨s, rfl, h, fun _ _ hb => hb⟩
    | some fd =>
      simp only
      split
      · exact ⟨s, rfl, h, fun _ _ hb => hb⟩
      · cases w with
        | again => exact ⟨s, rfl, h, fun _ _ hb => hb⟩
        | part => exact ⟨s, rfl, h, fun _ _ hb => hb⟩
        | failed => exact lost_inv hc h hi hfd
        | all =>
          simp only
          have hk := List.mem_of_getElem? hi
          split
          · refine ⟨_, rfl, ?_⟩
            rw [← hfd]
            have := upd_keep h (k' := { k with config := false, keys := true }) hi (s' := { s with
              children := s.children.set i { k with config := false, keys := true } }) rfl (by simp [tr]) (by simp [el])
              (by simp [tr, hfd]) (h.status k hk) rfl (fun _ => rfl) h.penal rfl
            exact ⟨this.1, fun b _ hb => this.2 b hb⟩
          · refine ⟨_, rfl, ?_⟩
            rw [← hfd]
            have := upd_keep h (k' := { k with keys := false }) hi (s' := { s with
              children := s.children.set i { k with keys := false } }) rfl (by simp [tr]) (by simp [el])
              (by simp [tr, hfd]) (h.status k hk) rfl (fun _ => rfl) h.penal rfl
            exact ⟨this.1, fun b _ hb => this.2 b hb⟩

/-- Does this outcome leave a slot behind? -/
def leaks : Out → Nat
  | .loggedIn _ => 1
  | _ => 0

theorem readable_inv {c : Cfg} (hc : c.Ok) {s : State} {t : Int} (h : LInv c s t) (i : Nat) (g : Got) :
    ∃ s' o, onReadable c i g s = some (s', o) ∧ LInv c s' t ∧
      ∀ b, c.perSource.isSome = true → Bal c s b → Bal c s' (b + leaks o) := by
  unfold onReadable
  cases hi : s.children[i]? with
  | none => exact ⟨s, .quiet, rfl, h, fun _ _ hb => hb⟩
  | some k =>
    simp only
    cases hfd : k.pipe with
    | none => exact ⟨s, .quiet, rfl, h, fun _ _ hb => hb⟩
    | some fd =>
      simp only
      have hk := List.mem_of_getElem? hi
      cases g with
      | again => exact ⟨s, .quiet, rfl, h, fun _ _ hb => hb⟩
      | ended =>
        obtain ⟨s', h1, h2⟩ := lost_inv hc h hi hfd
        exact ⟨s', .quiet, by simp [quiet, h1], h2⟩
      | byte b =>
        simp only [onByte]
        split
        · obtain ⟨s', h1, h2⟩ := lost_inv hc h hi hfd
          exact ⟨s', .quiet, by simp [quiet, h1], h2⟩
        · split
          · rename_i he
            refine ⟨_, .quiet, rfl, ?_⟩
            have := upd_keep h (k' := { k with early := false }) hi (s' := { s with
              listening := s.listening - 1
              children := s.children.set i { k with early := false } }) rfl (by simp [tr]) (by simp [el, he.1, hfd])
              (by simp [tr, hfd]) (h.status k hk) rfl (fun _ => rfl) h.penal rfl
            exact ⟨this.1, fun b _ hb => this.2 b hb⟩
          · split
            · rename_i he
              have hpos := active_pos h hi (by simp [tr, hfd])
              simp only [close, or_true, if_true, finish, hpos, if_false]
              refine ⟨_, .loggedIn k.addr, rfl, ?_⟩
              have := upd_shut hc h (k' := noChild) hi hfd (s' := { s with
                children := s.children.set i noChild
                active := s.active - 1 }) rfl (by simp [tr, noChild]; omega)
                (by simp [he.1]) (by simp [noChild, Child.used]) (by simp [noChild]) rfl rfl false (by simp)
              simpa [leaks] using this
            · exact ⟨s, .quiet, rfl, h, fun _ _ hb => hb⟩

theorem penaliseChild_ok {c : Cfg} (hc : c.Ok) {p : Penal} {t : Int} (h : ∃ log u, u ≤ t ∧ PInv c log p u) (k : Child) (e : Exit) :
    ∃ p', penaliseChild c t k e p = some p' ∧ ∃ log u, u ≤ t ∧ PInv c log p' u := by
  unfold penaliseChild
  cases k.addr with
  | none => exact ⟨p, rfl, h⟩
  | some a =>
    obtain ⟨log, u, hu, hp⟩ := h
    obtain ⟨p', e', h1, ⟨v, hv, h2⟩, _⟩ := penalise_inv hc hp hu a (kindOf e)
    exact ⟨p', by simp [h1], _, v, hv, h2⟩

theorem reap_inv {c : Cfg} (hc : c.Ok) {s : State} {t : Int} (h : LInv c s t) {i : Nat} {k : Child} {e : Exit}
    (hi : s.children[i]? = some k) (he : k.status = some e) :
    ∃ s', reap c t i k e s = some s' ∧ LInv c s' t ∧ ∀ b, Bal c s b → Bal c s' b := by
  obtain ⟨p, hp, hpi⟩ := penaliseChild_ok hc h.penal k e
  have hk := List.mem_of_getElem? hi
  have hpid := h.status k hk (by simp [he])
  unfold reap
  simp only [hp]
  split
  · rename_i hpipe
    have hpos := active_pos h hi (by simp [tr, hpid])
    simp only [finish, hpos, if_false]
    refine ⟨_, rfl, ?_⟩
    exact upd_keep h (k' := noChild) hi (s' := { s with
      penal := p
      children := s.children.set i noChild
      active := s.active - 1 }) rfl (by simp [tr, noChild, hpid]; omega) (by simp [el, noChild, hpipe])
      (by simp [noChild, Child.used]) (by simp [noChild]) (by simp [noChild, hpipe]) (by simp [hpipe]) hpi rfl
  · rename_i hpipe
    have hps : k.pipe.isSome = true := by cases e' : k.pipe <;> simp_all
    refine ⟨_, rfl, ?_⟩
    exact upd_keep h (k' := { k with pid := none, status := none }) hi (s' := { s with
      penal := p
      children := s.children.set i { k with pid := none, status := none } }) rfl
      (by simp [tr, hps]) (by simp [el])
      (by simp [tr, hps]) (by simp) rfl (fun _ => rfl) hpi rfl

theorem reapFrom_inv {c : Cfg} (hc : c.Ok) {t : Int} : ∀ (n i : Nat) (s : State), LInv c s t →
    ∃ s', reapFrom c t n i s = some s' ∧ LInv c s' t ∧ ∀ b, Bal c s b → Bal c s' b
  | 0, i, s, h => ⟨s, rfl, h, fun _ hb => hb⟩
  | n + 1, i, s, h => by
    unfold reapFrom
    cases hi : s.children[i]? with
    | none => exact reapFrom_inv hc n (i + 1) s h
    | some k =>
      simp only
      cases he : k.status with
      | none => exact reapFrom_inv hc n (i + 1) s h
      | some e =>
        simp only
        obtain ⟨s1, h1, h2, h3⟩ := reap_inv hc h hi he
        obtain ⟨s2, h4, h5, h6⟩ := reapFrom_inv hc n (i + 1) s1 h2
        exact ⟨s2, by simp [h1, h4], h5, fun b hb => h6 b (h3 b hb)⟩

theorem childExit_spec (pid : Nat) (e : Exit) : ∀ l : List Child,
    childExit pid e l = l ∨ ∃ (i : Nat) (k : Child), l[i]? = some k ∧ k.pid = some pid ∧ childExit pid e l = l.set i { k with status := some e }
  | [] => Or.inl rfl
  | k :: l => by
    unfold childExit
    split
    · rename_i h
      exact Or.inr ⟨0, k, rfl, h, rfl⟩
    · rcases childExit_spec pid e l with h | ⟨i, k', h1, h2, h3⟩
      · rw [h]; exact Or.inl rfl
      · exact Or.inr ⟨i + 1, k', by simpa using h1, h2, by rw [h3]; rfl⟩

theorem childExits_inv {c : Cfg} {t : Int} : ∀ (l : List (Nat × Exit)) (s : State), LInv c s t →
    LInv c { s with children := l.foldl (fun ch x => childExit x.1 x.2 ch) s.children } t ∧
      ∀ b, Bal c s b → Bal c { s with children := l.foldl (fun ch x => childExit x.1 x.2 ch) s.children } b
  | [], s, h => ⟨h, fun _ hb => hb⟩
  | x :: l, s, h => by
    have h1 : LInv c { s with children := childExit x.1 x.2 s.children } t ∧
        ∀ b, Bal c s b → Bal c { s with children := childExit x.1 x.2 s.children } b := by
      rcases childExit_spec x.1 x.2 s.children with e | ⟨i, k, hi, hp, e⟩
      · rw [e]; exact ⟨h, fun _ hb => hb⟩
      · have hk := List.mem_of_getElem? hi
        exact upd_keep h (k' := { k with status := some x.2 }) hi (s' := { s with children := childExit x.1 x.2 s.children })
          e (by simp [tr]) (by simp [el])
          (by simp [tr, hp]) (by simp [hp]) rfl (fun _ => rfl) h.penal rfl
    have h2 := childExits_inv l _ h1.1
    exact ⟨h2.1, fun b hb => h2.2 b (h1.2 b hb)⟩

theorem exits_inv {c : Cfg} (hc : c.Ok) {s : State} {t : Int} (h : LInv c s t) (l : List (Nat × Exit)) :
    ∃ s', reapAll c t l s = some s' ∧ LInv c s' t ∧ ∀ b, Bal c s b → Bal c s' b := by
  have h1 := childExits_inv l s h
  obtain ⟨s', h2, h3, h4⟩ := reapFrom_inv hc s.children.length 0 _ h1.1
  exact ⟨s', h2, h3, fun b hb => h4 b (h1.2 b hb)⟩

theorem place_spec (k : Child) : ∀ l : List Child, (∃ x ∈ l, x.used = false) →
    ∃ (i : Nat) (x : Child), l[i]? = some x ∧ x.used = false ∧ place k l = some (l.set i k)
  | [], h => by simp at h
  | x :: l, h => by
    unfold place
    by_cases hx : x.used = true
    · simp only [hx, if_true]
      obtain ⟨y, hy, hyu⟩ := h
      rcases List.mem_cons.1 hy with rfl | hy
      · rw [hx] at hyu; cases hyu
      · obtain ⟨i, z, h1, h2, h3⟩ := place_spec k l ⟨y, hy, hyu⟩
        exact ⟨i + 1, z, by simpa using h1, h2, by simp [h3]⟩
    · simp only [hx, Bool.false_eq_true, if_false]
      exact ⟨0, x, rfl, by simpa using hx, rfl⟩

theorem nodup_set {α : Type} (f : α → Option Nat) : ∀ (l : List α) (i : Nat) (k k' : α) (v : Nat), l[i]? = some k →
    f k = none → f k' = some v → (∀ x ∈ l, f x ≠ some v) → (l.filterMap f).Nodup → ((l.set i k').filterMap f).Nodup
  | [], i, k, k', v, h, _, _, _, _ => by simp at h
  | y :: l, 0, k, k', v, h, hk, hk', hne, hn => by
    simp only [List.length_cons, Nat.zero_lt_succ, List.getElem?_eq_getElem, List.getElem_cons_zero, Option.some.injEq] at h
    subst h
    rw [List.filterMap_cons, hk] at hn
    rw [List.set_cons_zero, List.filterMap_cons, hk']
    refine List.nodup_cons.2 ⟨fun hm => ?_, hn⟩
    obtain ⟨x, hx, hf⟩ := List.mem_filterMap.1 hm
    exact hne x (by simp [hx]) hf
  | y :: l, i + 1, k, k', v, h, hk, hk', hne, hn => by
    have hl : l[i]? = some k := by simpa using h
    have hn' : (l.filterMap f).Nodup := by
      rw [List.filterMap_cons] at hn
      cases hy : f y with
      | none => rw [hy] at hn; exact hn
      | some w => rw [hy] at hn; exact (List.nodup_cons.1 hn).2
    have ih := nodup_set f l i k k' v hl hk hk' (fun x hx => hne x (by simp [hx])) hn'
    rw [List.set_cons_succ, List.filterMap_cons]
    cases hy : f y with
    | none => exact ih
    | some w =>
      rw [List.filterMap_cons, hy] at hn
      refine List.nodup_cons.2 ⟨fun hm => ?_, ih⟩
      obtain ⟨x, hx, hf⟩ := List.mem_filterMap.1 hm
      rcases mem_set' hx with rfl | hx
      · rw [hk'] at hf; cases hf
        exact hne y (by simp) hy
      · exact (List.nodup_cons.1 hn).1 (List.mem_filterMap.2 ⟨x, hx, hf⟩)

/-- What the per-source check does to the entries. -/
theorem checkAllow_used {c : Cfg} (hc : c.Ok) (peer : Option XAddr) (fd : Nat) (s : Slots) :
    (checkAllow c peer fd s).1.length = s.length ∧
    ((checkAllow c peer fd s).2 = false → (checkAllow c peer fd s).1 = s) ∧
    (∀ x ∈ usedSlots s, x ∈ usedSlots (checkAllow c peer fd s).1) ∧
    ((checkAllow c peer fd s).2 = true → ∀ a m, peer = some a → Counted c a → mask a (bits c a) = some m →
      (fd, m) ∈ usedSlots (checkAllow c peer fd s).1 ∧
      (usedSlots (checkAllow c peer fd s).1).length = (usedSlots s).length + 1) := by
  rcases checkAllow_spec c hc peer fd s with ⟨hn, he⟩ | ⟨a, limit, m, rfl, hca, hl, hm, he⟩
  · rw [he]
    exact ⟨rfl, fun _ => rfl, fun _ h => h, fun _ a m h1 h2 _ => absurd ⟨a, h1, h2⟩ hn⟩
  · rw [he]
    unfold checkMasked
    cases hst : store (fd, m) s with
    | none => simp
    | some s2 =>
      simp only
      split
      · simp
      · obtain ⟨p1, p2⟩ := store_some _ _ _ hst
        refine ⟨p2, by simp, fun x hx => p1.mem_iff.2 (by simp [hx]), fun _ a' m' h1 _ h3 => ?_⟩
        cases h1
        rw [hm] at h3; cases h3
        exact ⟨p1.mem_iff.2 (by simp), by rw [p1.length_eq]; simp⟩

/-- A new child is entered. -/
theorem register_inv {c : Cfg} (hc : c.Ok) {s : State} {t : Int} (h : LInv c s t) (peer : Option XAddr) (fd : Nat)
    (pid : Option Nat) (hfd : ∀ k ∈ s.children, k.pipe ≠ some fd) (hroom : s.active < c.full)
    (hok : (checkAllow c peer fd s.slots).2 = true) :
    ∃ s', register peer fd pid { s with slots := (checkAllow c peer fd s.slots).1 } = some s' ∧ LInv c s' t ∧
      ∀ b, c.perSource.isSome = true → (∃ a, peer = some a ∧ Counted c a) → Bal c s b → Bal c s' b := by
  obtain ⟨u1, u2, u3, u4⟩ := checkAllow_used hc peer fd s.slots
  have hfree : ∃ x ∈ s.children, x.used = false := by
    apply Classical.byContradiction
    intro hn
    have hall : ∀ k ∈ s.children, tr k = true := by
      intro k hk
      apply h.shape k hk
      cases hu : k.used with
      | true => rfl
      | false => exact absurd ⟨k, hk, hu⟩ hn
    have := List.countP_eq_length.2 hall
    have := h.active
    have := h.len
    omega
  obtain ⟨i, x, hi, hxu, hpl⟩ := place_spec ⟨some fd, true, false, true, pid, none, peer⟩ s.children hfree
  have hxp : x.pipe = none := by
    cases e : x.pipe <;> simp_all [Child.used]
  have hxq : x.pid = none := by
    cases e : x.pid <;> simp_all [Child.used]
  have htr : tr x = false := by simp [tr, hxp, hxq]
  have hel : el x = false := by simp [el, hxp]
  have hop : op x = false := by simp [op, hxp]
  unfold register
  simp only [hpl, List.length_set]
  rw [if_neg (by have := h.len; omega)]
  refine ⟨_, rfl, ⟨?_, ?_, ?_, ?_, ?_, ?_, h.penal, ?_, ?_⟩, ?_⟩
  · simp only [List.length_set]; exact h.len
  · have := countP_set' tr s.children i x ⟨some fd, true, false, true, pid, none, peer⟩ hi
    rw [htr, show tr ⟨some fd, true, false, true, pid, none, peer⟩ = true by simp [tr]] at this
    simp only [Bool.false_eq_true, if_false, if_true] at this
    have := h.active
    simp only
    omega
  · have := countP_set' el s.children i x ⟨some fd, true, false, true, pid, none, peer⟩ hi
    rw [hel, show el ⟨some fd, true, false, true, pid, none, peer⟩ = true by simp [el]] at this
    simp only [Bool.false_eq_true, if_false, if_true] at this
    have := h.listen
    simp only
    omega
  · intro y hy
    rcases mem_set' hy with rfl | hy
    · intro _; simp [tr]
    · exact h.shape y hy
  · intro y hy
    rcases mem_set' hy with rfl | hy
    · simp
    · exact h.status y hy
  · exact nodup_set (·.pipe) s.children i x ⟨some fd, true, false, true, pid, none, peer⟩ fd hi hxp rfl hfd h.fds
  · intro hp; simp only; rw [u1]; exact h.slen hp
  · intro y hy fd2 a m h1 h2 h3 h4
    simp only
    rcases mem_set' hy with rfl | hy
    · cases h1
      exact (u4 hok a m h2 h3 h4).1
    · exact u3 _ (h.slot y hy fd2 a m h1 h2 h3 h4)
  · rintro b hps ⟨a, hp, hca⟩ hb
    refine ⟨?_, ?_⟩
    · intro y hy h1
      rcases mem_set' hy with rfl | hy
      · exact ⟨a, hp, hca⟩
      · exact hb.known y hy h1
    · obtain ⟨m, hm, _⟩ := mask_spec c hc a hca.2.1
      have hlen := (u4 hok a m hp hca hm).2
      have := countP_set' op s.children i x ⟨some fd, true, false, true, pid, none, peer⟩ hi
      rw [hop, show op ⟨some fd, true, false, true, pid, none, peer⟩ = true by simp [op]] at this
      simp only [Bool.false_eq_true, if_false, if_true] at this
      have := hb.eq
      simp only
      omega

/-- The interpolation does not overflow. -/
def Small (c : Cfg) : Prop := c.full * 99 < 2147483648

theorem shouldDrop_ok {c : Cfg} (hs : Small c) (hr : 1 ≤ c.rate) (n r : Nat) :
    ∃ b, shouldDrop c n r = some b ∧ (b = false → n < c.start ∨ n < c.full) := by
  unfold shouldDrop
  unfold Small at hs
  split
  · exact ⟨false, rfl, fun _ => by omega⟩
  · split
    · exact ⟨true, rfl, by simp⟩
    · split
      · exact ⟨true, rfl, by simp⟩
      · have : (100 - c.rate) * (n - c.start) ≤ 99 * c.full := Nat.mul_le_mul (by omega) (by omega)
        rw [if_neg (by omega)]
        exact ⟨_, rfl, fun _ => by omega⟩

/-- The configuration of MaxStartups, as the parser enforces (servconf.c:2009-2026). -/
structure Cfg.Startups (c : Cfg) : Prop where
  le : c.start ≤ c.full
  rate1 : 1 ≤ c.rate
  rate2 : c.rate ≤ 100
  small : Small c

theorem accept_inv {c : Cfg} (hc : c.Ok) (hm : c.Startups) {s : State} {t : Int} (h : LInv c s t) (peer : Option XAddr)
    (fd r : Nat) (pid : Option Nat) (hfd : ∀ k ∈ s.children, k.pipe ≠ some fd) :
    ∃ s' o, onAccept c t peer fd r pid s = some (s', o) ∧ leaks o = 0 ∧ LInv c s' t ∧
      ∀ b, c.perSource.isSome = true → (∃ a, peer = some a ∧ Counted c a) → Bal c s b → Bal c s' b := by
  obtain ⟨log, u, hu, hp⟩ := h.penal
  obtain ⟨p, ans, h1, v, hv, h2⟩ := query_inv hp hu peer
  have hpi : LInv c { s with penal := p } t := h.withPenal ⟨_, v, hv, h2⟩
  have hb : ∀ b, Bal c s b → Bal c { s with penal := p } b := fun b hb => ⟨hb.known, hb.eq⟩
  obtain ⟨d, hd, hdr⟩ := shouldDrop_ok hm.small hm.rate1 s.active r
  unfold onAccept dropConn
  rw [h1]
  cases ans with
  | tooMany => exact ⟨_, _, rfl, rfl, hpi, fun b _ _ hx => hb b hx⟩
  | penalised k => exact ⟨_, _, rfl, rfl, hpi, fun b _ _ hx => hb b hx⟩
  | allow =>
    simp only [hd]
    cases d with
    | true => exact ⟨_, _, rfl, rfl, hpi, fun b _ _ hx => hb b hx⟩
    | false =>
      simp only
      obtain ⟨_, u2, _, _⟩ := checkAllow_used hc peer fd s.slots
      cases hok : (checkAllow c peer fd s.slots).2 with
      | false =>
        simp only [Bool.false_eq_true, if_false]
        rw [u2 hok]
        exact ⟨_, _, rfl, rfl, hpi, fun b _ _ hx => hb b hx⟩
      | true =>
        simp only [if_true]
        have hroom : s.active < c.full := by
          have := hm.le
          rcases hdr rfl with h' | h' <;> omega
        obtain ⟨s', r1, r2, r3⟩ := register_inv hc hpi peer fd pid hfd hroom hok
        exact ⟨s', .started, by rw [show register peer fd pid { s with penal := p, slots := (checkAllow c peer fd s.slots).1 } = some s' from r1]; rfl, rfl, r2, fun b hps hk hx => r3 b hps hk (hb b hx)⟩

theorem step_inv {c : Cfg} (hc : c.Ok) (hm : c.Startups) {s : State} {t : Int} (h : LInv c s t) (ev : Ev) (hev : EvOk s ev)
    (ht : t ≤ ev.time.getD t) :
    ∃ s' o, step c s ev = some (s', o) ∧ LInv c s' (ev.time.getD t) ∧
      ∀ b, c.perSource.isSome = true → (∀ now peer fd r pid, ev = .accept now peer fd r pid → ∃ a, peer = some a ∧ Counted c a) →
        Bal c s b → Bal c s' (b + leaks o) := by
  cases ev with
  | accept now peer fd r pid =>
    obtain ⟨s', o, h1, h2, h3, h4⟩ := accept_inv hc hm (h.later ht) peer fd r pid hev.1
    exact ⟨s', o, h1, h3, fun b hps hk hb => by rw [h2]; exact h4 b hps (hk _ _ _ _ _ rfl) hb⟩
  | writable i w =>
    obtain ⟨s', h1, h2, h3⟩ := writable_inv hc h i w
    exact ⟨s', .quiet, by simp [step, quiet, h1], h2, fun b hps _ hb => h3 b hps hb⟩
  | readable i g =>
    obtain ⟨s', o, h1, h2, h3⟩ := readable_inv hc h i g
    exact ⟨s', o, h1, h2, fun b hps _ hb => h3 b hps hb⟩
  | exits now l =>
    obtain ⟨s', h1, h2, h3⟩ := exits_inv hc (h.later ht) l
    exact ⟨s', .quiet, by simp only [step, quiet]; rw [show reapAll c now l s = some s' from h1]; rfl, h2, fun b _ _ hb => h3 b hb⟩

theorem usedSlots_init (c : Cfg) : usedSlots (slotsInit c) = [] := by
  unfold slotsInit
  split
  · rfl
  · unfold usedSlots
    rw [List.filterMap_eq_nil_iff]
    intro x hx
    rw [List.eq_of_mem_replicate hx]; rfl

theorem init_inv (c : Cfg) (t : Int) : LInv c (init c) t ∧ Bal c (init c) 0 := by
  have hmem : ∀ k ∈ (init c).children, k = noChild := fun k hk => List.eq_of_mem_replicate hk
  have hz : ∀ p : Child → Bool, p noChild = false → (init c).children.countP p = 0 := by
    intro p hp
    rw [List.countP_eq_zero]
    intro k hk
    rw [hmem k hk, hp]; simp
  refine ⟨⟨by simp [init], (hz tr rfl).symm, by rw [hz el rfl]; rfl, ?_, ?_, ?_, ⟨[], t, Int.le_refl _, pinv_init c t⟩, ?_, ?_⟩, ?_, ?_⟩
  · intro k hk; rw [hmem k hk]; simp [noChild, Child.used]
  · intro k hk; rw [hmem k hk]; simp [noChild]
  · have : (init c).children.filterMap (·.pipe) = [] := by
      rw [List.filterMap_eq_nil_iff]
      intro k hk; rw [hmem k hk]; rfl
    rw [this]; exact List.Pairwise.nil
  · intro hp
    simp only [init, slotsInit]
    rw [if_neg (by intro e; rw [e] at hp; simp at hp)]
    simp
  · intro k hk fd a m h1; rw [hmem k hk] at h1; simp [noChild] at h1
  · intro k hk h1; rw [hmem k hk] at h1; simp [noChild] at h1
  · rw [hz op rfl]
    have := usedSlots_init c
    simp only [init, this]; rfl

theorem logins_append (h : List (Ev × Out)) (ev : Ev) (o : Out) : logins (h ++ [(ev, o)]) = logins h + leaks o := by
  unfold logins
  rw [List.countP_append]
  cases o <;> simp [leaks]

theorem lhist_inv {c : Cfg} (hc : c.Ok) (hm : c.Startups) {h : List (Ev × Out)} {s : State} {t : Int} (hh : Hist c h s t) :
    LInv c s t ∧ (c.perSource.isSome = true → AllCounted c h → Bal c s (logins h)) := by
  induction hh with
  | init t => exact ⟨(init_inv c t).1, fun _ _ => (init_inv c t).2⟩
  | @step h s t ev s' o _ hev ht hst ih =>
    obtain ⟨s2, o2, h1, h2, h3⟩ := step_inv hc hm ih.1 ev hev ht
    rw [hst] at h1; cases h1
    refine ⟨h2, fun hps hall => ?_⟩
    rw [logins_append]
    refine h3 _ hps ?_ (ih.2 hps fun now peer fd r pid o hmem => hall now peer fd r pid o (by simp [hmem]))
    rintro now peer fd r pid rfl
    exact hall now peer fd r pid o (by simp)

end Verif.Startup
