/-
Lemmas on the agent's table and checks.
-/
import Verif.Agent.Spec

namespace Verif.Agent
open Verif Wire Match

/-! ### The table -/

theorem lookup_some {k : Key} : ∀ {l : List Ident} {x : Ident}, lookup k l = some x → x ∈ l ∧ x.key = k
  | [], x, h => by cases h
  | y :: l, x, h => by
    unfold lookup at h
    split at h
    · rename_i hk
      cases h
      exact ⟨by simp, hk.symm⟩
    · have := lookup_some h
      exact ⟨by simp [this.1], this.2⟩

theorem lookup_none {k : Key} : ∀ {l : List Ident}, lookup k l = none ↔ k ∉ l.map (·.key)
  | [] => by simp [lookup]
  | y :: l => by
    unfold lookup
    split
    · rename_i hk; simp [hk]
    · rename_i hk
      rw [lookup_none]
      simp [hk]

theorem lookup_append (k : Key) (l m : List Ident) : lookup k (l ++ m) = (lookup k l).or (lookup k m) := by
  induction l with
  | nil => simp [lookup]
  | cons y l ih =>
    simp only [List.cons_append, lookup]
    split
    · simp
    · exact ih

/-- With distinct keys, an entry is found by its key. -/
theorem lookup_mem {l : List Ident} (hn : (l.map (·.key)).Nodup) {x : Ident} (hx : x ∈ l) : lookup x.key l = some x := by
  induction l with
  | nil => simp at hx
  | cons y l ih =>
    simp only [List.map_cons, List.nodup_cons] at hn
    unfold lookup
    rcases List.mem_cons.1 hx with rfl | hx
    · simp
    · have : x.key ≠ y.key := fun e => hn.1 (by rw [← e]; exact List.mem_map_of_mem hx)
      simp [this, ih hn.2 hx]

theorem lookup_filter {p : Ident → Bool} {l : List Ident} (hn : (l.map (·.key)).Nodup) (k : Key) :
    lookup k (l.filter p) = (lookup k l).filter p := by
  induction l with
  | nil => rfl
  | cons y l ih =>
    simp only [List.map_cons, List.nodup_cons] at hn
    by_cases hp : p y = true
    · rw [List.filter_cons_of_pos hp]
      simp only [lookup]
      split
      · rw [Option.filter_some, if_pos hp]
      · exact ih hn.2
    · rw [List.filter_cons_of_neg hp]
      simp only [lookup]
      split
      · rename_i hk
        rw [ih hn.2]
        have : lookup k l = none := lookup_none.2 (by rw [hk]; exact hn.1)
        rw [this, Option.filter_none, Option.filter_some, if_neg hp]
      · exact ih hn.2

theorem reap_eq (now : Nat) (l : List Ident) : reap now l = l.filter fun x => x.death = 0 ∨ now < x.death := by
  induction l with
  | nil => rfl
  | cons y l ih =>
    unfold reap
    split
    · rename_i h
      rw [List.filter_cons_of_neg (by simp; omega), ih]
    · rename_i h
      rw [List.filter_cons_of_pos (by simp; omega), ih]

theorem removeKey_keys (k : Key) (l : List Ident) : (removeKey k l).map (·.key) = (l.map (·.key)).erase k := by
  induction l with
  | nil => rfl
  | cons y l ih =>
    unfold removeKey
    simp only [List.map_cons, List.erase_cons]
    split
    · rename_i h; simp [h]
    · rename_i h
      have : (y.key == k) = false := by simp; exact fun e => h e.symm
      simp [this, ih]

theorem removeKey_lookup {l : List Ident} (hn : (l.map (·.key)).Nodup) (k k' : Key) :
    lookup k' (removeKey k l) = if k' = k then none else lookup k' l := by
  induction l with
  | nil => simp [removeKey, lookup]
  | cons y l ih =>
    simp only [List.map_cons, List.nodup_cons] at hn
    unfold removeKey
    split
    · rename_i h
      by_cases e : k' = k
      · rw [if_pos e, lookup_none, e, h]; exact hn.1
      · rw [if_neg e]
        have : k' ≠ y.key := fun e' => e (by rw [e', h])
        simp [lookup, this]
    · rename_i h
      simp only [lookup]
      by_cases e : k' = y.key
      · have : k' ≠ k := fun e' => h (by rw [← e', e])
        simp [e]
        intro e'; exact absurd e'.symm h
      · simp [e, ih hn.2]

theorem removeKey_length {l : List Ident} {k : Key} {x : Ident} (h : lookup k l = some x) : (removeKey k l).length + 1 = l.length := by
  induction l with
  | nil => cases h
  | cons y l ih =>
    unfold removeKey
    simp only [lookup] at h
    split
    · simp
    · rename_i hk
      rw [if_neg hk] at h
      simp [ih h]

theorem update_keys (x : Ident) (l : List Ident) : (update x l).map (·.key) = l.map (·.key) := by
  induction l with
  | nil => rfl
  | cons y l ih =>
    unfold update
    split
    · rename_i h; simp [h]
    · simp [ih]

theorem update_lookup (x : Ident) (l : List Ident) (k : Key) :
    lookup k (update x l) = if k = x.key then (lookup k l).map (fun y => { x with provider := y.provider }) else lookup k l := by
  induction l with
  | nil => simp [update, lookup]
  | cons y l ih =>
    unfold update
    by_cases h : x.key = y.key
    · rw [if_pos h]
      simp only [lookup]
      by_cases e : k = x.key
      · have : k = y.key := e.trans h
        simp [e, h]
      · have : k ≠ y.key := fun e' => e (e'.trans h.symm)
        simp [e, this]
    · rw [if_neg h]
      simp only [lookup]
      by_cases e : k = y.key
      · have : k ≠ x.key := fun e' => h (e'.symm.trans e)
        simp [e]
        intro e'; exact absurd e'.symm h
      · rw [if_neg e, if_neg e, ih]

/-! ### Destination constraints -/

theorem hopKeys_iff (w : World) (key : Key) (host : Bytes) (l : List (Key × Bool)) :
    hopKeys w key host l = true ↔
      (w.isCert key = false ∧ (key, false) ∈ l) ∨
      (w.isCert key = true ∧ ∃ ca, (ca, true) ∈ l ∧ w.sigKey key = some ca ∧ w.certHost key host = true) := by
  induction l with
  | nil => simp [hopKeys]
  | cons x l ih =>
    obtain ⟨k, ca⟩ := x
    unfold hopKeys
    cases hc : w.isCert key with
    | false =>
      simp only [hc, if_true, true_and, Bool.false_eq_true, false_and, or_false] at ih ⊢
      by_cases h : ca = true ∨ key ≠ k
      · rw [if_pos h, ih]
        simp only [List.mem_cons, Prod.mk.injEq]
        constructor
        · exact Or.inr
        · rintro (⟨rfl, rfl⟩ | h1)
          · simp at h
          · exact h1
      · rw [if_neg h]
        have h1 : ca = false ∧ key = k := by
          constructor
          · cases ca with
            | false => rfl
            | true => simp at h
          · exact Classical.byContradiction fun e => h (Or.inr e)
        simp [h1.1, h1.2]
    | true =>
      simp only [hc, Bool.true_eq_false, if_false, false_and, false_or, true_and] at ih ⊢
      by_cases hca : ca = false
      · rw [if_pos hca, ih]
        subst hca
        simp
      · rw [if_neg hca]
        have hca : ca = true := by cases ca with | false => simp at hca | true => rfl
        subst hca
        cases hs : w.sigKey key with
        | none => simp
        | some s =>
          rw [hs] at ih
          simp only
          by_cases hk : s = k
          · subst hk
            simp only [ne_eq, not_true_eq_false, if_false]
            cases hh : w.certHost key host with
            | true => simp
            | false =>
              rw [hh] at ih
              simp only [Bool.false_eq_true, if_false, and_false, exists_false, iff_false] at ih ⊢
              exact ih
          · simp only [ne_eq, hk, not_false_eq_true, if_true]
            rw [ih]
            simp only [List.mem_cons, Prod.mk.injEq, and_true, Option.some.injEq]
            constructor
            · rintro ⟨c, h1, h2, h3⟩; exact ⟨c, Or.inr h1, h2, h3⟩
            · rintro ⟨c, h1 | h1, h2, h3⟩
              · exact absurd (h2.trans h1) hk
              · exact ⟨c, h1, h2, h3⟩

theorem matchHop_iff (w : World) (key : Key) (h : Hop) : matchHop w key h = true ↔ Fits w key h := hopKeys_iff w key _ _

theorem fromFits_iff (w : World) (d : Dest) (frm : Option Key) : fromFits w d frm = true ↔ Starts w frm d.frm := by
  cases frm with
  | none => simp [fromFits, Starts]
  | some k => exact matchHop_iff w k d.frm

theorem userFits_iff (d : Dest) (u : Bytes) : userFits d (some u) = true ↔ ForUser d u := by
  unfold userFits ForUser
  cases d.to.user with
  | none => simp
  | some p => simp

theorem userFits_none (d : Dest) : userFits d none = true := by
  unfold userFits
  cases d.to.user <;> rfl

theorem permitted_none {w : World} {ds : List Dest} {frm : Option Key} {k : Key} :
    permittedBy w frm (some k) none ds = true ↔ ∃ d ∈ ds, Lets w d frm k := by
  unfold permittedBy Lets
  simp only [List.any_eq_true, Bool.and_eq_true, fromFits_iff, toFits, matchHop_iff, userFits_none, and_true]

theorem permitted_user {w : World} {ds : List Dest} {frm : Option Key} {k : Key} {u : Bytes} :
    permittedBy w frm (some k) (some u) ds = true ↔ ∃ d ∈ ds, Lets w d frm k ∧ ForUser d u := by
  unfold permittedBy Lets
  simp only [List.any_eq_true, Bool.and_eq_true, fromFits_iff, toFits, matchHop_iff, userFits_iff]

theorem permitted_onward {w : World} {ds : List Dest} {frm : Option Key} :
    permittedBy w frm none none ds = true ↔ ∃ d ∈ ds, Starts w frm d.frm := by
  unfold permittedBy
  simp only [List.any_eq_true, Bool.and_eq_true, fromFits_iff, toFits, userFits_none, and_true]

theorem endOf_cons (frm : Option Key) (k : Key) (l : List Key) : endOf frm (k :: l) = endOf (some k) l := by
  unfold endOf
  cases l with
  | nil => rfl
  | cons x l => simp

/-- The walk over the bindings when nobody is named. -/
theorem hops_list {w : World} {ds : List Dest} : ∀ (l : List Bind) (last : Bind) (frm : Option Key),
    hops w ds none frm (l ++ [last]) = true ↔
      (∀ b ∈ l, b.fwd = true) ∧ Path w ds frm ((l ++ [last]).map (·.key))
  | [], last, frm => by
    simp [hops, Path, permitted_none]
  | b :: l, last, frm => by
    have ih := hops_list (w := w) (ds := ds) l last (some b.key)
    obtain ⟨b2, l2, e⟩ : ∃ b2 l2, l ++ [last] = b2 :: l2 := by
      cases l with
      | nil => exact ⟨_, _, rfl⟩
      | cons x l => exact ⟨_, _, rfl⟩
    rw [List.cons_append, e, hops, ← e]
    simp only [Bool.and_eq_true, ih, permitted_none, List.map_cons, Path, List.mem_cons, forall_eq_or_imp]
    constructor
    · rintro ⟨⟨h1, h2⟩, h3, h4⟩; exact ⟨⟨h1, h3⟩, h2, h4⟩
    · rintro ⟨⟨h1, h3⟩, h2, h4⟩; exact ⟨⟨h1, h2⟩, h3, h4⟩

/-- The walk over the bindings for a signature. -/
theorem hops_sign {w : World} {ds : List Dest} {u : Bytes} : ∀ (l : List Bind) (last : Bind) (frm : Option Key),
    hops w ds (some u) frm (l ++ [last]) = true ↔
      (∀ b ∈ l, b.fwd = true) ∧ last.fwd = false ∧ Path w ds frm (l.map (·.key)) ∧
        ∃ d ∈ ds, Lets w d (endOf frm (l.map (·.key))) last.key ∧ ForUser d u
  | [], last, frm => by
    simp [hops, Path, permitted_user, endOf]
  | b :: l, last, frm => by
    have ih := hops_sign (w := w) (ds := ds) (u := u) l last (some b.key)
    obtain ⟨b2, l2, e⟩ : ∃ b2 l2, l ++ [last] = b2 :: l2 := by
      cases l with
      | nil => exact ⟨_, _, rfl⟩
      | cons x l => exact ⟨_, _, rfl⟩
    rw [List.cons_append, e, hops, ← e]
    simp only [Bool.and_eq_true, ih, permitted_none, List.map_cons, Path, List.mem_cons, forall_eq_or_imp, endOf_cons]
    constructor
    · rintro ⟨⟨h1, h2⟩, h3, h4, h5, h6⟩; exact ⟨⟨h1, h3⟩, h4, ⟨h2, h5⟩, h6⟩
    · rintro ⟨⟨h1, h3⟩, h4, ⟨h2, h5⟩, h6⟩; exact ⟨⟨h1, h2⟩, h3, h4, h5, h6⟩

/-! ### Signed requests -/

theorem readKey_some {w : World} {l r : Bytes} {k : Key} (h : readKey w l = some (k, r)) :
    ∃ blob, l = str blob ++ r ∧ w.readPub blob = some k ∧ blob.length ≤ maxString := by
  unfold readKey at h
  simp only [Option.bind_eq_bind, Option.bind_eq_some_iff] at h
  obtain ⟨x, h1, y, h2, h3⟩ := h
  cases h3
  have := getStr_some h1
  exact ⟨x.1, this.1, h2, this.2⟩

theorem readKey_str {w : World} {blob : Bytes} {k : Key} (h : w.readPub blob = some k) (hl : blob.length ≤ maxString) (r : Bytes) :
    readKey w (str blob ++ r) = some (k, r) := by
  unfold readKey
  rw [getStr_append _ _ hl]
  simp [h]

theorem readMethod_some {w : World} {m method b : Bytes} {h : Option Key} (hm : readMethod w method b = some (h, []))
    (hn : Named m method) : Method w m b h := by
  unfold readMethod at hm
  split at hm
  · rename_i e
    simp only [Option.map_eq_some_iff, Prod.mk.injEq] at hm
    obtain ⟨x, h1, rfl, h2⟩ := hm
    obtain ⟨blob, e1, e2, _⟩ := readKey_some (r := x.2) (k := x.1) h1
    rw [h2, List.append_nil] at e1
    exact ⟨e ▸ hn, blob, e1, e2⟩
  · split at hm
    · rename_i e
      cases hm
      exact ⟨e ▸ hn, rfl⟩
    · cases hm

/-- What `parse_userauth_request` accepts is an authentication request with this key. -/
theorem parseUserauth_request {w : World} {data : Bytes} {key : Key} {u : UserAuth} (h : parseUserauth w data key = some u) :
    Request w data key u.sid u.user u.hostkey := by
  unfold parseUserauth at h
  simp only [Option.bind_eq_bind, Option.bind_eq_some_iff] at h
  obtain ⟨sid, h1, h⟩ := h
  split at h
  · cases h
  · rename_i hsid
    simp only [Option.bind_eq_some_iff] at h
    obtain ⟨t, h2, user, h3, service, h4, method, h5, follows, h6, alg, h7, mkey, h8, h⟩ := h
    split at h
    · cases h
    · rename_i hc
      simp only [not_or, Decidable.not_not, Bool.not_eq_false] at hc
      obtain ⟨c1, c2, c3, c4, c5⟩ := hc
      simp only [Option.bind_eq_some_iff] at h
      obtain ⟨m, h9, h⟩ := h
      split at h
      · cases h
      · rename_i hm
        simp only [ne_eq, Decidable.not_not] at hm
        cases h
        obtain ⟨e1, _⟩ := getStr_some (v := sid.1) (rest := sid.2) h1
        obtain ⟨x2, e2, v2⟩ := getInt_one (v := t.1) (r := t.2) h2
        obtain ⟨n3, m3, e3, _⟩ := getCstr_named (s := user.1) (r := user.2) h3
        obtain ⟨n4, m4, e4, _⟩ := getCstr_named (s := service.1) (r := service.2) h4
        obtain ⟨n5, m5, e5, _⟩ := getCstr_named (s := method.1) (r := method.2) h5
        obtain ⟨x6, e6, v6⟩ := getInt_one (v := follows.1) (r := follows.2) h6
        obtain ⟨n7, m7, e7, _⟩ := getCstr_named (s := alg.1) (r := alg.2) h7
        obtain ⟨n8, e8, m8, _⟩ := readKey_some (k := mkey.1) (r := mkey.2) h8
        have hx2 : x2 = 50 := UInt8.toNat_inj.1 (by rw [← v2]; exact c1)
        have hx6 : x6 = 1 := UInt8.toNat_inj.1 (by rw [← v6]; exact c2)
        have h9' : readMethod w method.1 mkey.2 = some (m.1, []) := by rw [h9, ← hm]
        refine ⟨n3, n4, n5, n7, n8, mkey.2, ?_, hsid, m3, c3 ▸ m4, ⟨alg.1, m7, c5⟩, c4 ▸ m8, readMethod_some h9' m5⟩
        rw [e1, e2, e3, e4, e5, e6, e7, e8, hx2, hx6]
        simp

end Verif.Agent
