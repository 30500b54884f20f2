/-
The per-source limit: its table holds the connections that were admitted and are not over.
-/
import Verif.Startup.Net

namespace Verif.Startup
open Verif Text
open Verif.Addr (XAddr Family Known width bit)

/-- The used entries. -/
def usedSlots (s : Slots) : List (Nat × XAddr) := s.filterMap id

theorem countSame_eq (b : XAddr) : ∀ s : Slots, countSame b s = (usedSlots s).countP fun x => Addr.cmp x.2 b = 0
  | [] => rfl
  | none :: l => by simpa [countSame, usedSlots] using countSame_eq b l
  | some e :: l => by
    have := countSame_eq b l
    simp only [usedSlots] at this
    simp only [countSame, usedSlots, List.filterMap_cons, id, List.countP_cons, this, decide_eq_true_eq]
    omega

theorem used_le : ∀ s : Slots, (usedSlots s).length ≤ s.length
  | [] => by simp [usedSlots]
  | none :: l => by have := used_le l; simp [usedSlots] at this ⊢; omega
  | some e :: l => by have := used_le l; simp [usedSlots] at this ⊢; omega

theorem store_none (v : Nat × XAddr) : ∀ s : Slots, store v s = none ↔ (usedSlots s).length = s.length
  | [] => by simp [store, usedSlots]
  | none :: l => by
    have := used_le l
    simp [usedSlots] at this
    simp [store, usedSlots]
    omega
  | some e :: l => by
    have := store_none v l
    simp [usedSlots] at this
    simp [store, usedSlots, this]

theorem store_some (v : Nat × XAddr) : ∀ s s' : Slots, store v s = some s' →
    (usedSlots s').Perm (v :: usedSlots s) ∧ s'.length = s.length
  | [], s', h => by simp [store] at h
  | none :: l, s', h => by
    simp only [store, Option.some.injEq] at h
    subst h
    exact ⟨List.Perm.refl _, by simp⟩
  | some e :: l, s', h => by
    simp only [store, Option.map_eq_some_iff] at h
    obtain ⟨l', h1, rfl⟩ := h
    obtain ⟨h2, h3⟩ := store_some v l l' h1
    refine ⟨?_, by simp [h3]⟩
    simp only [usedSlots, List.filterMap_cons, id] at h2 ⊢
    exact (h2.cons e).trans (List.Perm.swap v e _)

theorem clear_used (i : Nat) : ∀ s : Slots, usedSlots (clear i s) = (usedSlots s).eraseP fun x => x.1 = i
  | [] => rfl
  | none :: l => by simpa [clear, usedSlots] using clear_used i l
  | some e :: l => by
    have := clear_used i l
    simp only [usedSlots] at this
    by_cases h : e.1 = i
    · simp [clear, usedSlots, h]
    · simp [clear, usedSlots, h, this]

theorem clear_length (i : Nat) : ∀ s : Slots, (clear i s).length = s.length
  | [] => rfl
  | none :: l => by simp [clear, clear_length i l]
  | some e :: l => by
    by_cases h : e.1 = i
    · simp [clear, h]
    · simp [clear, h, clear_length i l]

theorem slotDone_length (c : Cfg) (i : Nat) (s : Slots) : (slotDone c i s).length = s.length := by
  unfold slotDone; split
  · rfl
  · exact clear_length i s

/-- Does the limit see this address? -/
theorem checkAllow_spec (c : Cfg) (hc : c.Ok) (peer : Option XAddr) (id : Nat) (s : Slots) :
    (¬ (∃ a, peer = some a ∧ Counted c a) ∧ checkAllow c peer id s = (s, true)) ∨
    ∃ a limit m, peer = some a ∧ Counted c a ∧ c.perSource = some limit ∧ mask a (bits c a) = some m ∧
      checkAllow c peer id s = checkMasked limit m id s := by
  unfold checkAllow
  cases hp : c.perSource with
  | none => left; simp [Counted, hp]
  | some limit =>
    cases peer with
    | none => left; simp
    | some a =>
      by_cases hk : Known a
      · obtain ⟨m, hm, _⟩ := mask_spec c hc a hk
        simp only [hm]
        cases hn : c.ntop a with
        | none => left; simp [Counted, hn]
        | some x =>
          right
          exact ⟨a, limit, m, rfl, ⟨by simp [hp], hk, by simp [hn]⟩, rfl, hm, by simp⟩
      · left
        refine ⟨?_, by simp only [mask_unknown a _ hk]⟩
        rintro ⟨b, hb, hcb⟩
        cases hb
        exact hk hcb.2.1

/-- The entry for a connection. -/
def slotOf (c : Cfg) (x : Nat × XAddr) : Nat × XAddr := (x.1, (mask x.2 (bits c x.2)).getD x.2)

structure SInv (c : Cfg) (log : List SAct) (s : Slots) : Prop where
  perm : (usedSlots s).Perm ((held c log).map (slotOf c))
  ids : ((held c log).map (·.1)).Nodup
  counted : ∀ x ∈ held c log, Counted c x.2
  len : s.length = if c.perSource = none then 0 else c.full

theorem held_append (c : Cfg) (log : List SAct) (x : SAct) : held c (log ++ [x]) = heldStep c (held c log) x := by
  simp [held, List.foldl_append]

theorem countSame_held {c : Cfg} (hc : c.Ok) {log : List SAct} {s : Slots} (h : SInv c log s) {a m : XAddr}
    (hm : mask a (bits c a) = some m) : countSame m s = heldFrom c log a := by
  rw [countSame_eq, h.perm.countP_eq, heldFrom, List.countP_map]
  apply List.countP_congr
  intro x hx
  obtain ⟨_, hk, _⟩ := h.counted x hx
  obtain ⟨d, hd, _⟩ := mask_spec c hc x.2 hk
  simp only [Function.comp, slotOf, hd, Option.getD_some, decide_eq_true_eq]
  rw [cmp_mask c hc hd ⟨a, known_of_mask hm, hm⟩]
  have := sameNet_mask c hc hm
  exact ⟨fun hs => this.trans hs.symm, fun hs => hs.symm.trans this⟩

theorem eraseP_eq_filter {l : List (Nat × XAddr)} (i : Nat) (h : (l.map (·.1)).Nodup) :
    l.eraseP (fun x => x.1 = i) = l.filter fun x => x.1 ≠ i := by
  induction l with
  | nil => rfl
  | cons x l ih =>
    have h' := List.nodup_cons.1 h
    by_cases e : x.1 = i
    · simp only [List.eraseP_cons, e, decide_true, List.filter_cons]
      simp only [cond_true, ne_eq, not_true_eq_false, decide_false, Bool.false_eq_true, if_false]
      symm
      rw [List.filter_eq_self]
      intro y hy
      have : y.1 ≠ i := fun h2 => h'.1 (List.mem_map.2 ⟨y, hy, h2.trans e.symm⟩)
      simpa using this
    · simp only [List.eraseP_cons, e, decide_false, List.filter_cons, cond_false, ne_eq, not_false_eq_true, decide_true, if_true]
      rw [ih h'.2]

theorem shist_inv {c : Cfg} (hc : c.Ok) {log : List SAct} {s : Slots} (h : SHist c log s) : SInv c log s := by
  induction h with
  | init =>
    refine ⟨?_, by simp [held], by simp [held], ?_⟩
    · unfold slotsInit
      split
      · simp [usedSlots, held]
      · have : usedSlots (List.replicate c.full none) = [] := by
          unfold usedSlots
          rw [List.filterMap_eq_nil_iff]
          intro x hx
          rw [List.eq_of_mem_replicate hx]; rfl
        rw [this]; simp [held]
    · unfold slotsInit; split <;> simp
  | @ask log s s' peer id ok _ hid hq ih =>
    rcases checkAllow_spec c hc peer id s with ⟨hn, he⟩ | ⟨a, limit, m, rfl, hca, hl, hm, he⟩
    · rw [he] at hq; cases hq
      have : held c (log ++ [.ask peer id true]) = held c log := by
        rw [held_append]
        cases peer with
        | none => rfl
        | some a => simp [heldStep, show ¬ Counted c a from fun h' => hn ⟨a, rfl, h'⟩]
      exact ⟨by rw [this]; exact ih.perm, by rw [this]; exact ih.ids, by rw [this]; exact ih.counted, ih.len⟩
    · rw [he] at hq
      unfold checkMasked at hq
      have same : ∀ s2, (s, false) = (s2, ok) → SInv c (log ++ [.ask (some a) id ok]) s2 := by
        intro s2 h2; cases h2
        have : held c (log ++ [.ask (some a) id false]) = held c log := by rw [held_append]; rfl
        exact ⟨by rw [this]; exact ih.perm, by rw [this]; exact ih.ids, by rw [this]; exact ih.counted, ih.len⟩
      cases hst : store (id, m) s with
      | none => rw [hst] at hq; exact same _ hq
      | some s2 =>
        rw [hst] at hq
        simp only at hq
        split at hq
        · exact same _ hq
        · cases hq
          obtain ⟨p1, p2⟩ := store_some _ _ _ hst
          have hh : held c (log ++ [.ask (some a) id true]) = held c log ++ [(id, a)] := by
            rw [held_append]; simp [heldStep, hca]
          refine ⟨?_, ?_, ?_, by rw [p2]; exact ih.len⟩
          · rw [hh, List.map_append]
            refine p1.trans ((ih.perm.cons _).trans ?_)
            simp only [List.map_cons, List.map_nil, slotOf, hm, Option.getD_some]
            exact (List.perm_append_singleton _ _).symm
          · rw [hh, List.map_append, List.map_cons, List.map_nil, List.nodup_append]
            refine ⟨ih.ids, by simp, ?_⟩
            intro x hx y hy
            obtain ⟨z, hz, rfl⟩ := List.mem_map.1 hx
            rw [List.mem_singleton] at hy
            rw [hy]
            exact hid z hz
          · rw [hh]
            intro x hx
            rcases List.mem_append.1 hx with hx | hx
            · exact ih.counted x hx
            · rw [List.mem_singleton] at hx; subst hx; exact hca
  | @over log s id _ ih =>
    have hh : held c (log ++ [.over id]) = (held c log).filter fun x => x.1 ≠ id := by rw [held_append]; rfl
    refine ⟨?_, ?_, ?_, by rw [slotDone_length]; exact ih.len⟩
    · rw [hh]
      have hids : ((usedSlots s).map (·.1)).Nodup := by
        have := ih.perm.map (·.1)
        rw [this.nodup_iff, List.map_map]
        exact ih.ids
      have hused : usedSlots (slotDone c id s) = (usedSlots s).filter fun x => x.1 ≠ id := by
        unfold slotDone
        split
        · rename_i hp
          have : s = [] := by
            have := ih.len
            rw [if_pos hp] at this
            exact List.length_eq_zero_iff.1 this
          subst this; rfl
        · rw [clear_used, eraseP_eq_filter id hids]
      rw [hused]
      have := ih.perm.filter (fun x => decide (x.1 ≠ id))
      refine this.trans ?_
      rw [List.filter_map]
      exact List.Perm.refl _
    · rw [hh]
      exact List.Nodup.sublist (List.Sublist.map _ List.filter_sublist) ih.ids
    · rw [hh]
      intro x hx
      exact ih.counted x (List.mem_filter.1 hx).1

/-- C30.  The two functions are exact: a connection to which the limit applies is admitted exactly when
fewer connections from its network than the limit are open and fewer than MaxStartups in all; others are
always admitted.  So the limit is never exceeded. -/
theorem C30_exact (c : Cfg) (hc : c.Ok) (log : List SAct) (s s' : Slots) (h : SHist c log s) (peer : Option XAddr)
    (id : Nat) (ok : Bool) (hq : checkAllow c peer id s = (s', ok)) :
    (ok = true ↔ ∀ a limit, peer = some a → Counted c a → c.perSource = some limit →
      heldFrom c log a < limit ∧ (held c log).length < c.full) := by
  have hi := shist_inv hc h
  rcases checkAllow_spec c hc peer id s with ⟨hn, he⟩ | ⟨a, limit, m, rfl, hca, hl, hm, he⟩
  · rw [he] at hq; cases hq
    simp only [true_iff]
    intro a limit hp hca
    exact absurd ⟨a, hp, hca⟩ hn
  · rw [he] at hq
    have hcount := countSame_held hc hi hm
    have hlen : (held c log).length = (usedSlots s).length := by rw [hi.perm.length_eq]; simp
    have hfull : s.length = c.full := by have := hi.len; rw [hl] at this; simpa using this
    have huse := used_le s
    unfold checkMasked at hq
    rw [hcount] at hq
    have hst := store_none (id, m) s
    have goal : (∀ a' limit', some a = some a' → Counted c a' → c.perSource = some limit' →
      heldFrom c log a' < limit' ∧ (held c log).length < c.full) ↔ heldFrom c log a < limit ∧ (held c log).length < c.full := by
      constructor
      · intro hh; exact hh a limit rfl hca hl
      · intro hh a' limit' e1 _ e3
        cases e1
        rw [hl] at e3; cases e3
        exact hh
    rw [goal]
    cases hs : store (id, m) s with
    | none =>
      rw [hs] at hq; cases hq
      have := hst.1 hs
      simp only [Bool.false_eq_true, false_iff]
      omega
    | some s2 =>
      rw [hs] at hq
      have hne : (usedSlots s).length ≠ s.length := fun h' => by rw [hst.2 h'] at hs; cases hs
      simp only at hq
      split at hq
      · cases hq
        simp only [Bool.false_eq_true, false_iff]
        omega
      · cases hq
        simp only [true_iff]
        omega

/-- C30.  The limit is never exceeded. -/
theorem C30_never_more (c : Cfg) (hc : c.Ok) (log : List SAct) (s : Slots) (h : SHist c log s) (a : XAddr) (limit : Nat)
    (hl : c.perSource = some limit) : heldFrom c log a ≤ limit := by
  induction h with
  | init => simp [heldFrom, held]
  | @ask log s s' peer id ok hh hid hq ih =>
    unfold heldFrom at *
    rw [held_append]
    cases peer with
    | none => exact ih
    | some b =>
      cases ok with
      | false => exact ih
      | true =>
        simp only [heldStep]
        split
        · rename_i hcb
          rw [List.countP_append]
          simp only [List.countP_cons, List.countP_nil, decide_eq_true_eq]
          split
          · rename_i hs
            have := ((C30_exact c hc log s s' hh (some b) id true hq).1 rfl b limit rfl hcb hl).1
            have heq : heldFrom c log b = (held c log).countP fun x => SameNet c a x.2 := by
              apply List.countP_congr
              intro x _
              simp only [decide_eq_true_eq]
              exact ⟨fun h' => hs.trans h', fun h' => hs.symm.trans h'⟩
            omega
          · omega
        · exact ih
  | @over log s id hh ih =>
    unfold heldFrom at *
    rw [held_append]
    exact Nat.le_trans (List.Sublist.countP_le List.filter_sublist) ih

end Verif.Startup
