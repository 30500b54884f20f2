import Verif.HostKey.Spec

namespace Verif.HostKey
open Verif Verif.Hostfile

theorem findLoop_keyLoop (k : Key) (es : List Ent) (st : HostStatus) (f : Option Ent) :
    (findLoop k es (st, f)).1 = (keyLoop k (es.map Ent.entry) (st, f.map Ent.entry)).1 ∧
    (findLoop k es (st, f)).2.map Ent.entry = (keyLoop k (es.map Ent.entry) (st, f.map Ent.entry)).2 := by
  induction es generalizing st f with
  | nil => exact ⟨rfl, rfl⟩
  | cons e es ih =>
    rw [List.map_cons]
    unfold findLoop keyLoop
    by_cases h1 : e.entry.marker ≠ (if k.isCert then Marker.ca else Marker.none)
    · rw [if_pos h1, if_pos h1]; exact ih st f
    rw [if_neg h1, if_neg h1]
    by_cases h2 : k.isCert = true
    · rw [if_pos h2, if_pos h2]
      by_cases h3 : (k.cert.any fun c => c.2 = e.entry.key.pub) = true
      · rw [if_pos h3, if_pos h3]; exact ⟨rfl, rfl⟩
      · rw [if_neg h3, if_neg h3]; exact ih st f
    rw [if_neg h2, if_neg h2]
    by_cases h3 : equal k e.entry.key = true
    · rw [if_pos h3, if_pos h3]; exact ⟨rfl, rfl⟩
    · rw [if_neg h3, if_neg h3]; exact ih .changed (some e)

theorem findKey_checkKey (es : List Ent) (k : Key) :
    (findKey es k).1 = (checkKey (es.map Ent.entry) k).1 ∧
    (findKey es k).2.map Ent.entry = (checkKey (es.map Ent.entry) k).2 := by
  unfold findKey checkKey
  split
  · exact ⟨rfl, rfl⟩
  · exact findLoop_keyLoop k es .new none

theorem ex_map (es : List Ent) (p : Entry → Prop) : (∃ e ∈ es.map Ent.entry, p e) ↔ ∃ e ∈ es, p e.entry := by
  constructor
  · rintro ⟨e, he, h⟩
    obtain ⟨x, hx, rfl⟩ := List.mem_map.mp he
    exact ⟨x, hx, h⟩
  · rintro ⟨x, hx, h⟩; exact ⟨_, List.mem_map_of_mem hx, h⟩

theorem status_revoked {es : List Ent} {k : Key} : (findKey es k).1 = .revoked ↔ Revoked es k := by
  rw [(findKey_checkKey es k).1, C38_revoked, ex_map]; rfl

theorem status_rest {es : List Ent} {k : Key} (h : ¬ Revoked es k) :
    ((findKey es k).1 = .ok ↔ Listed es k) ∧ ((findKey es k).1 = .changed ↔ Changed es k) ∧
    ((findKey es k).1 = .new ↔ Unknown es k) := by
  have h' : ¬ isRevoked (es.map Ent.entry) (some k) = true := by
    rw [revoked_iff, ex_map]; exact h
  have e : (findKey es k).1 = (keyLoop k (es.map Ent.entry) (.new, none)).1 := by
    rw [(findKey_checkKey es k).1]; unfold checkKey; rw [if_neg h']
  have ks := keyLoop_spec k (es.map Ent.entry) (.new, none) (.inl rfl)
  obtain ⟨h1, h2, h3, _⟩ := ks
  rw [ex_map] at h1
  rw [ex_map, ex_map] at h2
  rw [e]
  refine ⟨h1, ?_, ?_⟩
  · rw [h2]; unfold Changed Listed Some_
    constructor
    · rintro ⟨a, b | ⟨b, c⟩⟩
      · cases b
      · exact ⟨b, a, c⟩
    · rintro ⟨a, b, c⟩; exact ⟨b, .inr ⟨a, c⟩⟩
  · unfold Unknown Listed Some_
    constructor
    · intro hn
      refine ⟨h, ?_, ?_⟩
      · intro hl; rw [h1.mpr hl] at hn; cases hn
      · intro hc hs
        by_cases hl : ∃ e ∈ es, Vouches e.entry k
        · rw [h1.mpr hl] at hn; cases hn
        · rw [h2.mpr ⟨hl, .inr ⟨hc, hs⟩⟩] at hn; cases hn
    · rintro ⟨_, hl, hs⟩
      rcases h3 with h3 | h3 | h3
      · exact absurd (h1.mp h3) hl
      · exact h3
      · obtain ⟨_, h4 | ⟨a, b⟩⟩ := h2.mp h3
        · cases h4
        · exact absurd b (hs a)

theorem status_found {es : List Ent} {k : Key} : (findKey es k).1 ≠ .found := by
  intro h
  have h0 : ¬ Revoked es k := by intro hr; rw [status_revoked.mpr hr] at h; cases h
  have h' : ¬ isRevoked (es.map Ent.entry) (some k) = true := by
    rw [revoked_iff, ex_map]; exact h0
  have e : (findKey es k).1 = (keyLoop k (es.map Ent.entry) (.new, none)).1 := by
    rw [(findKey_checkKey es k).1]; unfold checkKey; rw [if_neg h']
  have ks := (keyLoop_spec k (es.map Ent.entry) (.new, none) (.inl rfl)).2.2.1
  rw [← e, h] at ks
  rcases ks with h | h | h <;> cases h

/-- A key that is accepted comes from a line that vouches for it. -/
theorem findKey_ent {es : List Ent} {k : Key} (h : (findKey es k).1 = .ok) :
    ∃ e ∈ es, (findKey es k).2 = some e ∧ Vouches e.entry k := by
  unfold findKey at h ⊢
  split at h
  · cases h
  · rename_i hr
    rw [if_neg hr]
    clear hr
    have key : ∀ (es : List Ent) (acc : HostStatus × Option Ent), acc.1 ≠ .ok → (findLoop k es acc).1 = .ok →
        ∃ e ∈ es, (findLoop k es acc).2 = some e ∧ Vouches e.entry k := by
      intro es
      induction es with
      | nil => intro acc ha h; exact absurd h ha
      | cons e es ih =>
        intro acc ha h
        unfold findLoop at h ⊢
        by_cases c : e.entry.marker ≠ (if k.isCert then Marker.ca else Marker.none)
        · rw [if_pos c] at h ⊢
          obtain ⟨x, hx, r⟩ := ih acc ha h
          exact ⟨x, List.mem_cons_of_mem _ hx, r⟩
        rw [if_neg c] at h ⊢
        have c' : e.entry.marker = (if k.isCert then Marker.ca else Marker.none) := Classical.not_not.mp c
        by_cases c1 : k.isCert = true
        · rw [if_pos c1] at h c' ⊢
          by_cases c2 : (k.cert.any fun c => c.2 = e.entry.key.pub) = true
          · rw [if_pos c2]
            refine ⟨e, List.mem_cons_self, rfl, .inr ?_⟩
            cases hc : k.cert with
            | none => rw [hc] at c2; simp at c2
            | some p => rw [hc] at c2; simp at c2; exact ⟨p.1, p.2, rfl, c', c2.symm⟩
          · rw [if_neg c2] at h ⊢
            obtain ⟨x, hx, r⟩ := ih acc ha h
            exact ⟨x, List.mem_cons_of_mem _ hx, r⟩
        rw [if_neg c1] at h c' ⊢
        have hk : k.cert = none := by
          unfold Key.isCert at c1
          cases hc : k.cert with
          | none => rfl
          | some p => rw [hc] at c1; simp at c1
        by_cases c2 : equal k e.entry.key = true
        · rw [if_pos c2]
          exact ⟨e, List.mem_cons_self, rfl, .inl ⟨hk, c', (equal_plain hk).mp c2⟩⟩
        · rw [if_neg c2] at h ⊢
          obtain ⟨x, hx, r⟩ := ih (.changed, some e) (fun h => by cases h) h
          exact ⟨x, List.mem_cons_of_mem _ hx, r⟩
    exact key es (.new, none) (by decide) h

theorem isCert_iff {k : Key} : k.isCert = true ↔ k.cert ≠ none := by
  unfold Key.isCert; cases k.cert <;> simp

theorem isCert_false {k : Key} : k.isCert = false ↔ k.cert = none := by
  unfold Key.isCert; cases k.cert <;> simp

theorem dropCert_plain {k raw : Key} (h : dropCert k = some raw) : raw.cert = none ∧ k.cert ≠ none ∧ raw.pub = k.pub := by
  unfold dropCert at h
  split at h
  · rename_i c; cases h; exact ⟨rfl, isCert_iff.mp c, rfl⟩
  · cases h

/-! ## The question -/

theorem judge_true {fp : Option Bytes} {w : Bytes} : judge fp w = some true ↔
    w ≠ [] ∧ w.map lower ≠ b!"no" ∧ (w.map lower = b!"yes" ∨ fp = some w) := by
  unfold judge
  by_cases h1 : w = []
  · simp [h1]
  by_cases h2 : w.map lower = b!"no"
  · simp [h2]
  by_cases h3 : w.map lower = b!"yes"
  · simp [h1, h3]
  by_cases h4 : fp = some w
  · simp [h1, h2, h4]
  · simp [h1, h2, h3, h4]

theorem judge_none {fp : Option Bytes} {w : Bytes} : judge fp w = none ↔
    w ≠ [] ∧ w.map lower ≠ b!"no" ∧ w.map lower ≠ b!"yes" ∧ fp ≠ some w := by
  unfold judge
  by_cases h1 : w = []
  · simp [h1]
  by_cases h2 : w.map lower = b!"no"
  · simp [h2]
  by_cases h3 : w.map lower = b!"yes"
  · simp [h1, h3]
  by_cases h4 : fp = some w
  · simp [h1, h2, h4]
  · simp [h1, h2, h3, h4]

theorem confirmLoop_suffix (fp : Option Bytes) (rs : List Bytes) : ∃ used, rs = used ++ (confirmLoop fp rs).2 := by
  induction rs with
  | nil => exact ⟨[], rfl⟩
  | cons r rs ih =>
    unfold confirmLoop
    split
    · exact ⟨[r], rfl⟩
    · obtain ⟨u, h⟩ := ih; exact ⟨r :: u, by rw [List.cons_append, ← h]⟩

theorem confirm_suffix (b : Bool) (fp : Option Bytes) (rs : List Bytes) : ∃ used, rs = used ++ (confirm b fp rs).2 := by
  unfold confirm
  split
  · exact ⟨[], rfl⟩
  · exact confirmLoop_suffix fp rs

end Verif.HostKey
