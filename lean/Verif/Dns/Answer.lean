/-
C119: reading the answer of a name server.
-/
import Verif.Dns.Spec

namespace Verif.Dns
open Verif Verif.Wire

theorem andThen_ok {α β : Type} {a : Out α} {f : α → Out β} {b : β} : a.andThen f = .ok b ↔ ∃ x, a = .ok x ∧ f x = .ok b := by
  cases a <;> simp [Out.andThen]

theorem need_ok {α : Type} {m : Bytes} {cp n : Nat} {f : Out α} {b : α} :
    need m cp n f = .ok b ↔ cp + n ≤ m.length ∧ f = .ok b := by
  unfold need
  split
  · exact ⟨fun h => (by cases h), fun h => absurd h.1 (by omega)⟩
  · exact ⟨fun h => ⟨by omega, h⟩, fun h => h.2⟩

theorem at_iff {m b : Bytes} {cp : Nat} : At m cp b ↔ cp + b.length ≤ m.length ∧ (m.drop cp).take b.length = b := by
  constructor
  · rintro ⟨p, s, rfl, rfl⟩
    simp
  · rintro ⟨h1, h2⟩
    refine ⟨m.take cp, m.drop (cp + b.length), ?_, by simp; omega⟩
    conv => rhs; arg 1; arg 2; rw [← h2]
    rw [List.append_assoc, ← List.drop_drop, List.take_append_drop, List.take_append_drop]

theorem at_append {m a b : Bytes} {cp : Nat} : At m cp (a ++ b) ↔ At m cp a ∧ At m (cp + a.length) b := by
  constructor
  · rintro ⟨p, s, rfl, rfl⟩
    exact ⟨⟨p, b ++ s, by simp, rfl⟩, ⟨p ++ a, s, by simp, by simp⟩⟩
  · rintro ⟨⟨p, s, rfl, rfl⟩, ⟨q, t, e, hq⟩⟩
    obtain ⟨e1, e2⟩ := List.append_inj (s₁ := p ++ a) (t₁ := s) (s₂ := q) (t₂ := b ++ t) (by simpa using e)
      (by simp [hq])
    exact ⟨p, t, by rw [e2]; simp, rfl⟩

theorem int_ok {m : Bytes} {cp v k : Nat} : (cp + k ≤ m.length ∧ ofBE ((m.drop cp).take k) = v) ↔
    At m cp (be k v) ∧ v < 256 ^ k := by
  rw [at_iff, be_length]
  constructor
  · rintro ⟨h, rfl⟩
    have hl : ((m.drop cp).take k).length = k := by simp; omega
    have h1 := be_ofBE ((m.drop cp).take k)
    have h2 := ofBE_lt ((m.drop cp).take k)
    rw [hl] at h1 h2
    exact ⟨⟨h, h1.symm⟩, h2⟩
  · rintro ⟨⟨h1, h2⟩, h3⟩
    exact ⟨h1, by rw [h2, ofBE_be_of_lt h3]⟩

theorem short_ok {m : Bytes} {cp v : Nat} : short m cp = .ok v ↔ At m cp (be 2 v) ∧ v < 65536 := by
  rw [← int_ok (k := 2)]
  unfold short
  split
  · simp_all
  · exact ⟨fun h => (by cases h), fun h => absurd h.1 (by assumption)⟩

theorem long_ok {m : Bytes} {cp v : Nat} : long m cp = .ok v ↔ At m cp (be 4 v) ∧ v < 4294967296 := by
  rw [← int_ok (k := 4)]
  unfold long
  split
  · simp_all
  · exact ⟨fun h => (by cases h), fun h => absurd h.1 (by assumption)⟩

theorem copy_ok {m d : Bytes} {cp n : Nat} : copy m cp n = .ok d ↔ At m cp d ∧ d.length = n := by
  rw [at_iff]
  unfold copy
  split
  · simp only [Out.ok.injEq]
    constructor
    · rintro rfl
      have hl : ((m.drop cp).take n).length = n := by simp; omega
      rw [hl]
      exact ⟨⟨by omega, rfl⟩, rfl⟩
    · rintro ⟨⟨_, h⟩, rfl⟩
      exact h
  · constructor
    · intro h; cases h
    · rintro ⟨⟨h, _⟩, rfl⟩; omega

theorem query_iff (x : Expand) (m : Bytes) (cp : Nat) (q : Query) (e : Nat) :
    query x m cp = .ok (q, e) ↔ QuestionAt x m cp q e := by
  unfold query
  split
  · rename_i h
    refine ⟨fun h => (by cases h), ?_⟩
    rintro ⟨n, _, h1, _⟩
    have := (at_iff.1 h1).1
    simp at this
    omega
  · cases hx : x cp with
    | none => exact ⟨fun h => (by cases h), fun ⟨n, h, _⟩ => (by rw [hx] at h; cases h)⟩
    | some n =>
      simp only [need_ok, andThen_ok, short_ok, Out.ok.injEq, Prod.mk.injEq]
      constructor
      · rintro ⟨_, _, t, ⟨h1, h2⟩, _, c, ⟨h3, h4⟩, rfl, rfl⟩
        exact ⟨n, hx, at_append.2 ⟨h1, by simpa using h3⟩, h2, h4, rfl⟩
      · rintro ⟨n', h1, h2, h3, h4, rfl⟩
        rw [hx] at h1
        cases h1
        obtain ⟨h5, h6⟩ := at_append.1 h2
        have h7 := (at_iff.1 h6).1
        simp only [be_length] at h6 h7
        exact ⟨by omega, by omega, q.1, ⟨h5, h3⟩, by omega, q.2, ⟨h6, h4⟩, rfl, rfl⟩

theorem record_iff (x : Expand) (m : Bytes) (cp : Nat) (r : RR) (e : Nat) :
    record x m cp = .ok (r, e) ↔ RecordAt x m cp r e := by
  unfold record
  split
  · rename_i h
    refine ⟨fun h => (by cases h), ?_⟩
    rintro ⟨n, ttl, _, _, _, _, _, h1, _⟩
    have := (at_iff.1 h1).1
    simp at this
    omega
  · cases hx : x cp with
    | none => exact ⟨fun h => (by cases h), fun ⟨n, _, h, _⟩ => (by rw [hx] at h; cases h)⟩
    | some n =>
      simp only [need_ok, andThen_ok, short_ok, long_ok, copy_ok, Out.ok.injEq, Prod.mk.injEq]
      constructor
      · rintro ⟨_, _, t, ⟨h1, h2⟩, _, c, ⟨h3, h4⟩, _, l, ⟨h5, h6⟩, _, z, ⟨h7, h8⟩, _, d, ⟨h9, rfl⟩, rfl, rfl⟩
        refine ⟨n, l, hx, h2, h4, h6, h8, ?_, rfl⟩
        simp only [at_append, List.length_append, be_length, ← Nat.add_assoc]
        exact ⟨⟨⟨⟨h1, h3⟩, h5⟩, h7⟩, h9⟩
      · rintro ⟨n', l, h1, h2, h3, h4, h5, h6, rfl⟩
        rw [hx] at h1
        cases h1
        simp only [at_append, List.length_append, be_length, ← Nat.add_assoc] at h6
        obtain ⟨⟨⟨⟨g1, g2⟩, g3⟩, g4⟩, g5⟩ := h6
        have h7 := (at_iff.1 g5).1
        exact ⟨by omega, by omega, r.type, ⟨g1, h2⟩, by omega, r.class_, ⟨g2, h3⟩, by omega, l, ⟨g3, h4⟩, by omega,
          r.rdata.length, ⟨g4, h5⟩, by omega, r.rdata, ⟨g5, rfl⟩, rfl, rfl⟩

theorem items_iff {α : Type} {one : Nat → Out (α × Nat)} {P : Nat → α → Nat → Prop}
    (h : ∀ cp a e, one cp = .ok (a, e) ↔ P cp a e) : ∀ (count cp : Nat) (l : List α) (e : Nat),
    items one count cp = .ok (l, e) ↔ Seq P cp l e ∧ l.length = count := by
  intro count
  induction count with
  | zero =>
    intro cp l e
    simp only [items, Out.ok.injEq, Prod.mk.injEq]
    constructor
    · rintro ⟨rfl, rfl⟩; exact ⟨.nil _, rfl⟩
    · rintro ⟨h1, h2⟩
      cases h1 with
      | nil => exact ⟨rfl, rfl⟩
      | cons => simp at h2
  | succ count ih =>
    intro cp l e
    simp only [items, andThen_ok, Out.ok.injEq, Prod.mk.injEq, Prod.exists]
    constructor
    · rintro ⟨a, e1, h1, l', e2, h2, rfl, rfl⟩
      obtain ⟨h3, h4⟩ := (ih _ _ _).1 h2
      exact ⟨.cons ((h _ _ _).1 h1) h3, by simp [h4]⟩
    · rintro ⟨h1, h2⟩
      cases h1 with
      | nil => simp at h2
      | cons g1 g2 => exact ⟨_, _, (h _ _ _).2 g1, _, _, (ih _ _ _).2 ⟨g2, by simpa using h2⟩, rfl, rfl⟩

/-- C119: a message is read exactly if it is one, and then what is read is what is in it. -/
theorem C119_read (x : Expand) (m : Bytes) (r : Response) : parse x m = .ok r ↔ Message x m r ∧ r.queries ≠ [] := by
  unfold parse
  by_cases hm : m.length < 12
  · rw [if_pos hm]
    refine ⟨fun h => (by cases h), ?_⟩
    rintro ⟨⟨i, j, f, g, h, _⟩, _⟩
    have := (at_iff.1 h).1
    simp at this
    omega
  · rw [if_neg hm]
    obtain ⟨i, j, f, g, rest, rfl⟩ : ∃ i j f g rest, m = i :: j :: f :: g :: rest := by
      match m, hm with
      | i :: j :: f :: g :: rest, _ => exact ⟨i, j, f, g, rest, rfl⟩
      | [], h => simp at h
      | [_], h => simp at h
      | [_, _], h => simp at h
      | [_, _, _], h => simp at h
    have h0 : At (i :: j :: f :: g :: rest) 0 [i, j, f, g] := ⟨[], rest, rfl, rfl⟩
    simp only [andThen_ok, short_ok]
    constructor
    · rintro ⟨qd, ⟨a1, a2⟩, an, ⟨b1, b2⟩, ns, ⟨c1, c2⟩, ar, ⟨d1, d2⟩, h⟩
      split at h
      · cases h
      rename_i hq
      simp only [andThen_ok, Prod.exists, items_iff (query_iff x _), items_iff (record_iff x _), Out.ok.injEq] at h
      obtain ⟨q, e1, ⟨s1, rfl⟩, a, e2, ⟨s2, rfl⟩, u, e3, ⟨s3, rfl⟩, v, e4, ⟨s4, rfl⟩, rfl⟩ := h
      refine ⟨⟨i, j, f, g, ?_, a2, b2, c2, d2, by simp, e1, e2, e3, e4, s1, s2, s3, s4⟩, ?_⟩
      · simp only [at_append, List.length_append, be_length]
        exact ⟨⟨⟨⟨h0, a1⟩, b1⟩, c1⟩, d1⟩
      · rintro e
        simp only at e
        rw [e] at hq
        simp at hq
    · rintro ⟨⟨i', j', f', g', h, a2, b2, c2, d2, had, e1, e2, e3, e4, s1, s2, s3, s4⟩, hq⟩
      simp only [at_append, List.length_append, be_length] at h
      obtain ⟨⟨⟨⟨h', a1⟩, b1⟩, c1⟩, d1⟩ := h
      have eg : g' = g := by
        have := (at_iff.1 h').2
        simp at this
        exact this.2.2.2.symm
      subst eg
      refine ⟨_, ⟨a1, a2⟩, _, ⟨b1, b2⟩, _, ⟨c1, c2⟩, _, ⟨d1, d2⟩, ?_⟩
      rw [if_neg (by cases hr : r.queries with | nil => exact absurd hr hq | cons => simp)]
      simp only [andThen_ok, Prod.exists, items_iff (query_iff x _), items_iff (record_iff x _), Out.ok.injEq]
      refine ⟨_, _, ⟨s1, rfl⟩, _, _, ⟨s2, rfl⟩, _, _, ⟨s3, rfl⟩, _, _, ⟨s4, rfl⟩, ?_⟩
      cases r
      simp only [List.getD_cons_succ, List.getD_cons_zero, Response.mk.injEq, and_true, and_self] at had ⊢
      rw [Bool.eq_iff_iff, had]
      simp

/-! ### Reads stay inside -/

theorem andThen_ub {α β : Type} {a : Out α} {f : α → Out β} (ha : a ≠ .ub) (hf : ∀ x, a = .ok x → f x ≠ .ub) :
    a.andThen f ≠ .ub := by
  cases a with
  | ub => exact absurd rfl ha
  | fail => intro h; cases h
  | ok x => exact hf x rfl

theorem need_ub {α : Type} {m : Bytes} {cp n : Nat} {f : Out α} (h : cp + n ≤ m.length → f ≠ .ub) : need m cp n f ≠ .ub := by
  unfold need
  split
  · intro h; cases h
  · exact h (by omega)

theorem short_ub {m : Bytes} {cp : Nat} (h : cp + 2 ≤ m.length) : short m cp ≠ .ub := by
  unfold short; rw [if_pos h]; intro h; cases h

theorem query_ub (x : Expand) (m : Bytes) (cp : Nat) : query x m cp ≠ .ub := by
  unfold query
  split
  · intro h; cases h
  · cases x cp with
    | none => intro h; cases h
    | some n =>
      exact need_ub fun _ => need_ub fun h => andThen_ub (short_ub h) fun _ _ => need_ub fun h =>
        andThen_ub (short_ub h) fun _ _ h => (by cases h)

theorem record_ub (x : Expand) (m : Bytes) (cp : Nat) : record x m cp ≠ .ub := by
  unfold record
  split
  · intro h; cases h
  · cases x cp with
    | none => intro h; cases h
    | some n =>
      exact need_ub fun _ => need_ub fun h => andThen_ub (short_ub h) fun _ _ => need_ub fun h =>
        andThen_ub (short_ub h) fun _ _ => need_ub fun h =>
          andThen_ub (by unfold long; rw [if_pos h]; intro h; cases h) fun _ _ => need_ub fun h =>
            andThen_ub (short_ub h) fun _ _ => need_ub fun h =>
              andThen_ub (by unfold copy; rw [if_pos h]; intro h; cases h) fun _ _ h => (by cases h)

theorem items_ub {α : Type} {one : Nat → Out (α × Nat)} (h : ∀ cp, one cp ≠ .ub) : ∀ count cp : Nat,
    items one count cp ≠ .ub := by
  intro count
  induction count with
  | zero => intro cp h; cases h
  | succ count ih => exact fun cp => andThen_ub (h cp) fun _ _ => andThen_ub (ih _) fun _ _ h => (by cases h)

/-- C119: whatever the server sends, and whatever lengths `dn_expand` reports, no byte outside of the message is read. -/
theorem C119_inside (x : Expand) (m : Bytes) : parse x m ≠ .ub := by
  unfold parse
  split
  · intro h; cases h
  · refine andThen_ub (short_ub (by omega)) fun _ _ => andThen_ub (short_ub (by omega)) fun _ _ =>
      andThen_ub (short_ub (by omega)) fun _ _ => andThen_ub (short_ub (by omega)) fun _ _ => ?_
    split
    · intro h; cases h
    · exact andThen_ub (items_ub (query_ub x m) _ _) fun _ _ => andThen_ub (items_ub (record_ub x m) _ _) fun _ _ =>
        andThen_ub (items_ub (record_ub x m) _ _) fun _ _ => andThen_ub (items_ub (record_ub x m) _ _) fun _ _ h => (by cases h)

theorem rrset_ub (r : Response) : rrset r = .ub ↔ r.queries.length = 1 ∧ r.answers = [] := by
  unfold rrset
  split
  · rename_i h
    rw [h]
    by_cases ha : r.answers = []
    · simp [ha]
    · simp [ha]
  · rename_i h
    refine ⟨fun h => (by cases h), ?_⟩
    rintro ⟨h1, _⟩
    match hq : r.queries, h1 with
    | [(t, c)], _ => exact absurd hq (h t c)

/-- C119: the null pointer is followed exactly for a message with one question and no answer. -/
theorem C119_null (x : Expand) (m : Bytes) : answer x m = .ub ↔ ∃ r, Message x m r ∧ r.queries.length = 1 ∧ r.answers = [] := by
  unfold answer
  cases hp : parse x m with
  | ub => exact absurd hp (C119_inside x m)
  | fail =>
    refine ⟨fun h => (by cases h), ?_⟩
    rintro ⟨r, h1, h2, _⟩
    have : parse x m = .ok r := (C119_read x m r).2 ⟨h1, fun e => by rw [e] at h2; simp at h2⟩
    rw [hp] at this
    cases this
  | ok r =>
    show rrset r = .ub ↔ _
    rw [rrset_ub]
    constructor
    · exact fun h => ⟨r, ((C119_read x m r).1 hp).1, h⟩
    · rintro ⟨r', h1, h2, h3⟩
      have : parse x m = .ok r' := (C119_read x m r').2 ⟨h1, fun e => by rw [e] at h2; simp at h2⟩
      rw [hp] at this
      cases this
      exact ⟨h2, h3⟩

/-- C119: what the caller gets: the message has exactly one question; the records are those of the answer section with the
class and type of that question, in their order; the answer counts as validated by the bit AD. -/
theorem C119_records (x : Expand) (m : Bytes) (valid : Bool) (l : List Bytes) : answer x m = .ok (valid, l) ↔
    ∃ r t c, Message x m r ∧ r.queries = [(t, c)] ∧ r.answers ≠ [] ∧ valid = r.ad ∧
      (t ≠ 46 → l = (r.answers.filter fun a => decide (a.class_ = c ∧ a.type = t)).map (·.rdata)) ∧
      (t = 46 → l = (r.answers.filter fun a => decide (a.class_ = c ∧ a.type = t)).map fun _ => []) := by
  unfold answer
  rw [andThen_ok]
  constructor
  · rintro ⟨r, h1, h2⟩
    obtain ⟨hm, _⟩ := (C119_read x m r).1 h1
    unfold rrset at h2
    split at h2
    · rename_i t c hq
      split at h2
      · cases h2
      · rename_i ha
        simp only [Out.ok.injEq, Prod.mk.injEq] at h2
        obtain ⟨rfl, rfl⟩ := h2
        exact ⟨r, t, c, hm, hq, ha, rfl, fun h => by simp only [h, if_false], fun h => by simp only [h, if_true]⟩
    · cases h2
  · rintro ⟨r, t, c, h1, h2, h3, rfl, h4, h5⟩
    refine ⟨r, (C119_read x m r).2 ⟨h1, by rw [h2]; simp⟩, ?_⟩
    unfold rrset
    rw [h2]
    simp only [h3, if_false]
    by_cases ht : t = 46
    · rw [h5 ht]; simp only [ht, if_true]
    · rw [h4 ht]; simp only [ht, if_false]

/-- C119: every record handed to the caller is in the answer section with the type that was asked for, provided that the
response repeats the question. -/
theorem C119_asked {x : Expand} {m : Bytes} {valid : Bool} {l : List Bytes} (h : answer x m = .ok (valid, l)) {d : Bytes}
    (hd : d ∈ l) (hq : ∀ r, Message x m r → ∀ q ∈ r.queries, q = (44, 1)) :
    ∃ r, Message x m r ∧ ⟨44, 1, d⟩ ∈ r.answers := by
  obtain ⟨r, t, c, h1, h2, h3, _, h4, _⟩ := (C119_records x m valid l).1 h
  have := hq r h1 (t, c) (by rw [h2]; simp)
  cases this
  rw [h4 (by decide)] at hd
  obtain ⟨a, ha, rfl⟩ := List.mem_map.1 hd
  obtain ⟨ha1, ha2⟩ := List.mem_filter.1 ha
  simp only [decide_eq_true_eq] at ha2
  refine ⟨r, h1, ?_⟩
  rw [← ha2.1, ← ha2.2]
  exact ha1

end Verif.Dns
