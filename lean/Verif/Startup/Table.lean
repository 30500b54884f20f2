/-
One penalty table: it stays ordered, with one entry per network, and its operations do what their names say.
-/
import Verif.Startup.Net

namespace Verif.Startup
open Verif Text
open Verif.Addr (XAddr Family Known width bit)

/-- A good table for the family `f`. -/
structure TInv (c : Cfg) (f : Family) (l : List Entry) : Prop where
  fam : ∀ e ∈ l, e.addr.af = f
  masked : ∀ e ∈ l, Masked c e.addr
  apart : l.Pairwise (fun a b => ¬ SameNet c a.addr b.addr)
  ord : l.Pairwise (fun a b => a.expiry ≤ b.expiry)

theorem TInv.tail {c : Cfg} {f : Family} {e : Entry} {l : List Entry} (h : TInv c f (e :: l)) : TInv c f l :=
  ⟨fun x hx => h.fam x (List.mem_cons_of_mem _ hx), fun x hx => h.masked x (List.mem_cons_of_mem _ hx),
    (List.pairwise_cons.1 h.apart).2, (List.pairwise_cons.1 h.ord).2⟩

theorem TInv.nil (c : Cfg) (f : Family) : TInv c f [] :=
  ⟨by simp, by simp, List.Pairwise.nil, List.Pairwise.nil⟩

/-- Looking up the network of `a`, given its masked form. -/
theorem findAddr_spec {c : Cfg} (hc : c.Ok) {f : Family} {a m : XAddr} (ha : mask a (bits c a) = some m) :
    ∀ {l : List Entry}, TInv c f l →
      (∀ e, findAddr m l = some e ↔ e ∈ l ∧ SameNet c a e.addr) := by
  intro l
  induction l with
  | nil => intro _ e; simp [findAddr]
  | cons x l ih =>
    intro h e
    have hx : Addr.cmp m x.addr = 0 ↔ SameNet c a x.addr := cmp_mask c hc ha (h.masked x (by simp))
    unfold findAddr
    split
    · rename_i h0
      rw [hx] at h0
      simp only [Option.some.injEq, List.mem_cons]
      constructor
      · rintro rfl; exact ⟨Or.inl rfl, h0⟩
      · rintro ⟨rfl | hm, hs⟩
        · rfl
        · exact absurd (h0.symm.trans hs) ((List.pairwise_cons.1 h.apart).1 e hm)
    · rename_i h0
      rw [hx] at h0
      rw [ih h.tail e]
      constructor
      · rintro ⟨hm, hs⟩; exact ⟨List.mem_cons_of_mem _ hm, hs⟩
      · rintro ⟨hm, hs⟩
        rcases List.mem_cons.1 hm with rfl | hm
        · exact absurd hs h0
        · exact ⟨hm, hs⟩

theorem findAddr_none {c : Cfg} (hc : c.Ok) {f : Family} {a m : XAddr} (ha : mask a (bits c a) = some m)
    {l : List Entry} (h : TInv c f l) : findAddr m l = none ↔ ∀ e ∈ l, ¬ SameNet c a e.addr := by
  constructor
  · intro hn e he hs
    rw [(findAddr_spec hc ha h e).2 ⟨he, hs⟩] at hn
    cases hn
  · intro hn
    cases hf : findAddr m l with
    | none => rfl
    | some e =>
      have := (findAddr_spec hc ha h e).1 hf
      exact absurd this.2 (hn e this.1)

theorem cmpExpiry_neg {e x : Entry} (h : cmpExpiry e x < 0) : e.expiry ≤ x.expiry := by
  unfold cmpExpiry at h
  split at h
  · split at h <;> omega
  · omega

theorem cmpExpiry_pos {e x : Entry} (h0 : ¬ cmpExpiry e x = 0) (h : ¬ cmpExpiry e x < 0) :
    x.expiry ≤ e.expiry := by
  unfold cmpExpiry at h
  split at h
  · split at h <;> omega
  · omega

theorem cmpExpiry_zero {c : Cfg} (hc : c.Ok) {e x : Entry} (he : Masked c e.addr) (hx : Masked c x.addr) :
    cmpExpiry e x = 0 ↔ e.expiry = x.expiry ∧ SameNet c e.addr x.addr := by
  unfold cmpExpiry
  split
  · rename_i h
    constructor
    · intro h'; split at h' <;> simp at h'
    · intro h'; exact absurd h'.1 h
  · rename_i h
    rw [cmp_masked c hc he hx]
    simp at h
    simp [h]

/-- A new network can always be inserted. -/
theorem insertExpiry_spec {c : Cfg} (hc : c.Ok) {f : Family} (e : Entry) (hf : e.addr.af = f)
    (hm : Masked c e.addr) : ∀ {l : List Entry}, TInv c f l → (∀ x ∈ l, ¬ SameNet c e.addr x.addr) →
      ∃ l', insertExpiry e l = some l' ∧ TInv c f l' ∧ (∀ x, x ∈ l' ↔ x = e ∨ x ∈ l) ∧ l'.length = l.length + 1 := by
  intro l
  induction l with
  | nil =>
    intro _ _
    exact ⟨[e], rfl, ⟨by simpa using hf, by simpa using hm, by simp, by simp⟩, by simp, rfl⟩
  | cons x l ih =>
    intro h hn
    have hx0 : ¬ cmpExpiry e x = 0 := by
      rw [cmpExpiry_zero hc hm (h.masked x (by simp))]
      exact fun h' => hn x (by simp) h'.2
    have ho := List.pairwise_cons.1 h.ord
    unfold insertExpiry
    rw [if_neg hx0]
    split
    · rename_i hlt
      have hle := cmpExpiry_neg hlt
      refine ⟨_, rfl, ⟨?_, ?_, ?_, ?_⟩, by simp, by simp⟩
      · intro y hy
        rcases List.mem_cons.1 hy with rfl | hy
        · exact hf
        · exact h.fam y hy
      · intro y hy
        rcases List.mem_cons.1 hy with rfl | hy
        · exact hm
        · exact h.masked y hy
      · exact List.pairwise_cons.2 ⟨fun y hy => hn y hy, h.apart⟩
      · refine List.pairwise_cons.2 ⟨fun y hy => ?_, h.ord⟩
        rcases List.mem_cons.1 hy with rfl | hy
        · exact hle
        · exact Int.le_trans hle (ho.1 y hy)
    · rename_i hge
      have hle := cmpExpiry_pos hx0 hge
      obtain ⟨l', h1, h2, h3, h4⟩ := ih h.tail (fun y hy => hn y (List.mem_cons_of_mem _ hy))
      refine ⟨x :: l', by simp [h1], ⟨?_, ?_, ?_, ?_⟩, ?_, by simp [h4]⟩
      · intro y hy
        rcases List.mem_cons.1 hy with rfl | hy
        · exact h.fam y (by simp)
        · exact h2.fam y hy
      · intro y hy
        rcases List.mem_cons.1 hy with rfl | hy
        · exact h.masked y (by simp)
        · exact h2.masked y hy
      · refine List.pairwise_cons.2 ⟨fun y hy => ?_, h2.apart⟩
        rcases (h3 y).1 hy with rfl | hy
        · exact fun hs => hn x (by simp) hs.symm
        · exact (List.pairwise_cons.1 h.apart).1 y hy
      · refine List.pairwise_cons.2 ⟨fun y hy => ?_, h2.ord⟩
        rcases (h3 y).1 hy with rfl | hy
        · exact hle
        · exact ho.1 y hy
      · intro y
        simp only [List.mem_cons, h3]
        constructor
        · rintro (h | h | h) <;> simp [h]
        · rintro (h | h | h) <;> simp [h]

/-- Removing an entry leaves the others. -/
theorem removeExpiry_spec {c : Cfg} (hc : c.Ok) {f : Family} (e : Entry) :
    ∀ {l : List Entry}, TInv c f l → e ∈ l →
      TInv c f (removeExpiry e l) ∧ (∀ x, x ∈ removeExpiry e l ↔ x ∈ l ∧ ¬ SameNet c e.addr x.addr) ∧
      (removeExpiry e l).length + 1 = l.length := by
  intro l
  induction l with
  | nil => intro _ h; simp at h
  | cons x l ih =>
    intro h he
    have hap := List.pairwise_cons.1 h.apart
    have hx0 := cmpExpiry_zero hc (h.masked e he) (h.masked x (by simp))
    unfold removeExpiry
    rcases List.mem_cons.1 he with rfl | hel
    · rw [if_pos (hx0.2 ⟨rfl, SameNet.refl c _⟩)]
      refine ⟨h.tail, fun y => ?_, by simp⟩
      constructor
      · intro hy; exact ⟨List.mem_cons_of_mem _ hy, hap.1 y hy⟩
      · rintro ⟨hy, hs⟩
        rcases List.mem_cons.1 hy with rfl | hy
        · exact absurd (SameNet.refl c _) hs
        · exact hy
    · have hne : ¬ SameNet c x.addr e.addr := hap.1 e hel
      have hne' : ¬ SameNet c e.addr x.addr := fun hs => hne hs.symm
      rw [if_neg (fun h0 => hne' (hx0.1 h0).2)]
      obtain ⟨h1, h2, h3⟩ := ih h.tail hel
      have ho := List.pairwise_cons.1 h.ord
      refine ⟨⟨?_, ?_, ?_, ?_⟩, fun y => ?_, by simp [← h3]⟩
      · intro y hy
        rcases List.mem_cons.1 hy with rfl | hy
        · exact h.fam y (by simp)
        · exact h1.fam y hy
      · intro y hy
        rcases List.mem_cons.1 hy with rfl | hy
        · exact h.masked y (by simp)
        · exact h1.masked y hy
      · exact List.pairwise_cons.2 ⟨fun y hy => hap.1 y ((h2 y).1 hy).1, h1.apart⟩
      · exact List.pairwise_cons.2 ⟨fun y hy => ho.1 y ((h2 y).1 hy).1, h1.ord⟩
      · simp only [List.mem_cons, h2]
        constructor
        · rintro (rfl | ⟨hy, hs⟩)
          · exact ⟨Or.inl rfl, hne'⟩
          · exact ⟨Or.inr hy, hs⟩
        · rintro ⟨rfl | hy, hs⟩
          · exact Or.inl rfl
          · exact Or.inr ⟨hy, hs⟩

/-- Purging removes exactly what has expired. -/
theorem expireList_spec {c : Cfg} {f : Family} (now : Int) :
    ∀ {l : List Entry}, TInv c f l →
      ∃ l', expireList now l l.length = some ⟨l', l'.length⟩ ∧ TInv c f l' ∧
        (∀ x, x ∈ l' ↔ x ∈ l ∧ now ≤ x.expiry) ∧ l'.length ≤ l.length := by
  intro l
  induction l with
  | nil => intro h; exact ⟨[], rfl, h, by simp, by simp⟩
  | cons x l ih =>
    intro h
    have ho := List.pairwise_cons.1 h.ord
    unfold expireList
    split
    · rename_i hge
      refine ⟨x :: l, rfl, h, fun y => ?_, by simp⟩
      constructor
      · intro hy
        refine ⟨hy, ?_⟩
        rcases List.mem_cons.1 hy with rfl | hy
        · exact hge
        · exact Int.le_trans hge (ho.1 y hy)
      · exact fun hy => hy.1
    · rename_i hlt
      obtain ⟨l', h1, h2, h3, h4⟩ := ih h.tail
      refine ⟨l', by simpa using h1, h2, fun y => ?_, by simp; omega⟩
      rw [h3]
      constructor
      · rintro ⟨hy, ht⟩; exact ⟨List.mem_cons_of_mem _ hy, ht⟩
      · rintro ⟨hy, ht⟩
        rcases List.mem_cons.1 hy with rfl | hy
        · exact absurd ht hlt
        · exact ⟨hy, ht⟩

/-- Cutting down to `max` entries removes the ones that would expire first. -/
theorem earlyList_spec {c : Cfg} {f : Family} (max : Nat) :
    ∀ {l : List Entry}, TInv c f l →
      ∃ l' d, earlyList max l l.length = some (⟨l', l'.length⟩, d) ∧ l = d ++ l' ∧
        l'.length = min l.length max := by
  intro l
  induction l with
  | nil =>
    intro _
    refine ⟨[], [], ?_, rfl, by simp⟩
    simp [earlyList]
  | cons x l ih =>
    intro h
    unfold earlyList
    split
    · rename_i hgt
      obtain ⟨l', d, h1, h2, h3⟩ := ih h.tail
      refine ⟨l', x :: d, ?_, by simp [h2], ?_⟩
      · simp [h1]
      · simp at hgt ⊢; omega
    · rename_i hle
      exact ⟨x :: l, [], rfl, rfl, by simp at hle ⊢; omega⟩

theorem TInv.drop {c : Cfg} {f : Family} {d l : List Entry} (h : TInv c f (d ++ l)) : TInv c f l :=
  ⟨fun e he => h.fam e (by simp [he]), fun e he => h.masked e (by simp [he]),
    (List.pairwise_append.1 h.apart).2.1, (List.pairwise_append.1 h.ord).2.1⟩

end Verif.Startup
