/-
Inserting serial ranges keeps the list canonical and adds exactly the range.
-/
import Verif.Krl.Spec

namespace Verif.Krl
open Verif Wire RB

/-- Canonical list: increasing, disjoint, not even adjacent, 64-bit, no serial 0. -/
structure WFS (l : List Range) : Prop where
  gap : l.Pairwise (fun a b => a.hi + 1 < b.lo)
  each : ∀ r ∈ l, 1 ≤ r.lo ∧ r.lo ≤ r.hi ∧ r.hi < U64

theorem Cov_nil (n : Nat) : ¬ Cov [] n := by rintro ⟨_, h, _⟩; simp at h

theorem Cov_cons (r : Range) (l : List Range) (n : Nat) : Cov (r :: l) n ↔ (r.lo ≤ n ∧ n ≤ r.hi) ∨ Cov l n := by
  simp [Cov]

theorem Cov_append (a b : List Range) (n : Nat) : Cov (a ++ b) n ↔ Cov a n ∨ Cov b n := by
  simp only [Cov, List.mem_append]
  constructor
  · rintro ⟨r, h | h, h2⟩
    · exact .inl ⟨r, h, h2⟩
    · exact .inr ⟨r, h, h2⟩
  · rintro (⟨r, h, h2⟩ | ⟨r, h, h2⟩)
    · exact ⟨r, .inl h, h2⟩
    · exact ⟨r, .inr h, h2⟩

theorem Cov_reverse (l : List Range) (n : Nat) : Cov l.reverse n ↔ Cov l n := by simp [Cov]

/-- Predecessors, nearest first. -/
theorem absorbPre_spec (pre : List Range) : ∀ (e : Range),
    pre.Pairwise (fun a b => b.hi + 1 < a.lo) → (∀ r ∈ pre, 1 ≤ r.lo ∧ r.lo ≤ r.hi ∧ r.hi < e.hi) →
    1 ≤ e.lo → e.lo ≤ e.hi →
    (absorbPre pre e).2.hi = e.hi ∧ (absorbPre pre e).2.lo ≤ e.lo ∧ 1 ≤ (absorbPre pre e).2.lo ∧
    (∃ k, (absorbPre pre e).1 = pre.drop k) ∧
    (∀ r ∈ (absorbPre pre e).1, r.hi + 1 < (absorbPre pre e).2.lo) ∧
    (∀ n, (Cov (absorbPre pre e).1 n ∨ ((absorbPre pre e).2.lo ≤ n ∧ n ≤ e.hi)) ↔
      (Cov pre n ∨ (e.lo ≤ n ∧ n ≤ e.hi))) := by
  induction pre with
  | nil => intro e _ _ h1 h2; simp [absorbPre, h1]
  | cons c pre ih =>
    intro e hp hr h1 h2
    have hc := hr c (by simp)
    rw [List.pairwise_cons] at hp
    unfold absorbPre
    split
    · rename_i hb
      refine ⟨rfl, Nat.le_refl _, h1, ⟨0, rfl⟩, fun r hm => ?_, fun n => Iff.rfl⟩
      show r.hi + 1 < e.lo
      rcases List.mem_cons.1 hm with rfl | hm
      · omega
      · have := hp.1 r hm; omega
    · rename_i hb
      have hpre : ∀ r ∈ pre, 1 ≤ r.lo ∧ r.lo ≤ r.hi ∧ r.hi < e.hi := fun r h => hr r (by simp [h])
      split
      · rename_i hlt
        obtain ⟨i1, i2, i3, ⟨k, i4⟩, i5, i6⟩ := ih { e with lo := c.lo } hp.2 hpre hc.1 (by simp only; omega)
        simp only at i1 i2 i3 i4 i5 i6
        refine ⟨i1, by omega, i3, ⟨k + 1, by simpa using i4⟩, i5, fun n => ?_⟩
        rw [i6, Cov_cons]
        constructor
        · rintro (h | h)
          · exact .inl (.inr h)
          · by_cases hn : n ≤ c.hi
            · exact .inl (.inl ⟨h.1, hn⟩)
            · exact .inr ⟨by omega, h.2⟩
        · rintro ((h | h) | h)
          · exact .inr ⟨h.1, by omega⟩
          · exact .inl h
          · exact .inr ⟨by omega, h.2⟩
      · rename_i hlt
        obtain ⟨i1, i2, i3, ⟨k, i4⟩, i5, i6⟩ := ih e hp.2 hpre h1 h2
        refine ⟨i1, i2, i3, ⟨k + 1, by simpa using i4⟩, i5, fun n => ?_⟩
        rw [i6, Cov_cons]
        constructor
        · rintro (h | h)
          · exact .inl (.inr h)
          · exact .inr h
        · rintro ((h | h) | h)
          · exact .inr ⟨by omega, by omega⟩
          · exact .inl h
          · exact .inr h

theorem absorbPost_spec (post : List Range) : ∀ (e : Range),
    post.Pairwise (fun a b => a.hi + 1 < b.lo) → (∀ r ∈ post, e.lo < r.lo ∧ r.lo ≤ r.hi ∧ r.hi < U64) →
    e.lo ≤ e.hi → e.hi < U64 →
    (absorbPost post e).1.lo = e.lo ∧ e.hi ≤ (absorbPost post e).1.hi ∧ (absorbPost post e).1.hi < U64 ∧
    (∃ k, (absorbPost post e).2 = post.drop k) ∧
    (∀ r ∈ (absorbPost post e).2, (absorbPost post e).1.hi + 1 < r.lo) ∧
    (∀ n, (Cov (absorbPost post e).2 n ∨ (e.lo ≤ n ∧ n ≤ (absorbPost post e).1.hi)) ↔
      (Cov post n ∨ (e.lo ≤ n ∧ n ≤ e.hi))) := by
  induction post with
  | nil => intro e _ _ h1 h2; simp [absorbPost, h2]
  | cons c post ih =>
    intro e hp hr h1 h2
    have hc := hr c (by simp)
    rw [List.pairwise_cons] at hp
    unfold absorbPost
    split
    · rename_i hb
      refine ⟨rfl, Nat.le_refl _, h2, ⟨0, rfl⟩, fun r hm => ?_, fun n => Iff.rfl⟩
      show e.hi + 1 < r.lo
      rcases List.mem_cons.1 hm with rfl | hm
      · omega
      · have := hp.1 r hm; omega
    · rename_i hb
      have hpost : ∀ r ∈ post, e.lo < r.lo ∧ r.lo ≤ r.hi ∧ r.hi < U64 := fun r h => hr r (by simp [h])
      split
      · rename_i hlt
        obtain ⟨i1, i2, i3, ⟨k, i4⟩, i5, i6⟩ := ih { e with hi := c.hi } hp.2 hpost (by simp only; omega) (by simp only; omega)
        simp only at i1 i2 i3 i4 i5 i6
        refine ⟨i1, by omega, i3, ⟨k + 1, by simpa using i4⟩, i5, fun n => ?_⟩
        rw [i6, Cov_cons]
        constructor
        · rintro (h | h)
          · exact .inl (.inr h)
          · by_cases hn : n < c.lo
            · exact .inr ⟨h.1, by omega⟩
            · exact .inl (.inl ⟨by omega, h.2⟩)
        · rintro ((h | h) | h)
          · exact .inr ⟨by omega, h.2⟩
          · exact .inl h
          · exact .inr ⟨h.1, by omega⟩
      · rename_i hlt
        obtain ⟨i1, i2, i3, ⟨k, i4⟩, i5, i6⟩ := ih e hp.2 hpost h1 h2
        refine ⟨i1, i2, i3, ⟨k + 1, by simpa using i4⟩, i5, fun n => ?_⟩
        rw [i6, Cov_cons]
        constructor
        · rintro (h | h)
          · exact .inl (.inr h)
          · exact .inr h
        · rintro ((h | h) | h)
          · exact .inr ⟨by omega, by omega⟩
          · exact .inl h
          · exact .inr h

theorem coalesce_spec (pre : List Range) (e : Range) (post : List Range) (h1 : WFS pre) (h2 : WFS post)
    (he : 1 ≤ e.lo ∧ e.lo ≤ e.hi ∧ e.hi < U64) (hpre : ∀ r ∈ pre, r.hi < e.hi) (hpost : ∀ r ∈ post, e.lo < r.lo)
    (hpp : ∀ a ∈ pre, ∀ b ∈ post, a.hi + 1 < b.lo) :
    WFS (coalesce pre e post) ∧
    ∀ n, Cov (coalesce pre e post) n ↔ Cov pre n ∨ Cov post n ∨ (e.lo ≤ n ∧ n ≤ e.hi) := by
  obtain ⟨a1, a2, a3, ⟨k, a4⟩, a5, a6⟩ := absorbPre_spec pre.reverse e (List.pairwise_reverse.2 h1.gap)
    (fun r hr => by have hr := List.mem_reverse.1 hr; have := h1.each r hr; exact ⟨this.1, this.2.1, hpre r hr⟩)
    he.1 he.2.1
  have hsub : ∀ r ∈ (absorbPre pre.reverse e).1, r ∈ pre := by
    intro r hr; rw [a4] at hr; exact List.mem_reverse.1 (List.mem_of_mem_drop hr)
  obtain ⟨b1, b2, b3, ⟨m, b4⟩, b5, b6⟩ := absorbPost_spec post (absorbPre pre.reverse e).2 h2.gap
    (fun r hr => by have := h2.each r hr; have := hpost r hr; omega) (by omega) (by omega)
  have hsub2 : ∀ r ∈ (absorbPost post (absorbPre pre.reverse e).2).2, r ∈ post := by
    intro r hr; rw [b4] at hr; exact List.mem_of_mem_drop hr
  have heq : coalesce pre e post = (absorbPre pre.reverse e).1.reverse ++
      (absorbPost post (absorbPre pre.reverse e).2).1 :: (absorbPost post (absorbPre pre.reverse e).2).2 := rfl
  rw [heq]
  refine ⟨⟨?_, ?_⟩, fun n => ?_⟩
  · rw [List.pairwise_append]
    refine ⟨?_, List.pairwise_cons.2 ⟨b5, ?_⟩, fun a ha b hb => ?_⟩
    · rw [a4]
      exact List.pairwise_reverse.2 ((List.pairwise_reverse.2 h1.gap).sublist (List.drop_sublist k _))
    · rw [b4]; exact h2.gap.sublist (List.drop_sublist m _)
    · have ha := List.mem_reverse.1 ha
      have h3 := a5 a ha
      rcases List.mem_cons.1 hb with rfl | hb
      · omega
      · exact hpp a (hsub a ha) b (hsub2 b hb)
  · intro r hr
    rw [List.mem_append, List.mem_reverse, List.mem_cons] at hr
    rcases hr with hr | rfl | hr
    · exact h1.each r (hsub r hr)
    · omega
    · exact h2.each r (hsub2 r hr)
  · rw [Cov_append, Cov_reverse, Cov_cons, b1]
    have h6 := a6 n
    have h7 := b6 n
    rw [Cov_reverse] at h6
    rw [a1] at h7
    have e1 : (Cov (absorbPre pre.reverse e).1 n ∨
        ((absorbPre pre.reverse e).2.lo ≤ n ∧ n ≤ (absorbPost post (absorbPre pre.reverse e).2).1.hi) ∨
        Cov (absorbPost post (absorbPre pre.reverse e).2).2 n) ↔
        Cov (absorbPre pre.reverse e).1 n ∨ (Cov post n ∨ ((absorbPre pre.reverse e).2.lo ≤ n ∧ n ≤ e.hi)) := by
      rw [← h7]
      constructor <;> rintro (h | h | h) <;> simp [h]
    rw [e1]
    constructor
    · rintro (h | h | h)
      · rcases h6.1 (.inl h) with h | h
        · exact .inl h
        · exact .inr (.inr h)
      · exact .inr (.inl h)
      · rcases h6.1 (.inr h) with h | h
        · exact .inl h
        · exact .inr (.inr h)
    · rintro (h | h | h)
      · rcases h6.2 (.inl h) with h | h
        · exact .inl h
        · exact .inr (.inr h)
      · exact .inr (.inl h)
      · rcases h6.2 (.inr h) with h | h
        · exact .inl h
        · exact .inr (.inr h)

theorem WFS.mono {l : List Range} (h : WFS l) (k : Range) (hk : k.lo ≤ k.hi) : Mono (serialCmp k) l := by
  intro u x v hl
  have hg := h.gap
  have he := h.each
  rw [hl, List.pairwise_append] at hg
  obtain ⟨-, h2, h3⟩ := hg
  rw [List.pairwise_cons] at h2
  have hx := he x (by rw [hl]; simp)
  unfold serialCmp
  constructor
  · intro hc y hy
    have h4 := h2.1 y hy
    have h5 := he y (by rw [hl]; simp [hy])
    split at hc
    · omega
    · rename_i hn
      split at hc
      · rw [if_neg (by omega), if_pos (by omega)]; decide
      · omega
  · intro hc y hy
    have h4 := h3 y hy x (by simp)
    have h5 := he y (by rw [hl]; simp [hy])
    split at hc
    · omega
    · rename_i hn
      split at hc
      · omega
      · rw [if_neg (by omega), if_neg (by omega)]; decide

theorem serialCmp_zero (a b : Range) : serialCmp a b = 0 ↔ b.lo ≤ a.hi ∧ a.lo ≤ b.hi := by
  unfold serialCmp; split
  · simp; omega
  · rename_i h; split <;> simp <;> omega

/-- `insert_serial_range`: canonical again, and exactly the range is added. -/
theorem insertRange_spec (s : Shape Range) {l : List Range} (h : WFS l) (lo hi : Nat) (h1 : 1 ≤ lo) (h2 : lo ≤ hi)
    (h3 : hi < U64) :
    WFS (insertRange s l lo hi) ∧ ∀ n, Cov (insertRange s l lo hi) n ↔ Cov l n ∨ (lo ≤ n ∧ n ≤ hi) := by
  have hs := s.search_spec (serialCmp ⟨lo, hi⟩) l (h.mono _ h2)
  unfold insertRange
  cases hc : s.search (serialCmp ⟨lo, hi⟩) l with
  | miss pre post =>
    rw [hc] at hs
    obtain ⟨rfl, hp, hq⟩ := hs
    have hg := h.gap
    rw [List.pairwise_append] at hg
    have hW1 : WFS pre := ⟨hg.1, fun r hr => h.each r (by simp [hr])⟩
    have hW2 : WFS post := ⟨hg.2.1, fun r hr => h.each r (by simp [hr])⟩
    have := coalesce_spec pre ⟨lo, hi⟩ post hW1 hW2 ⟨h1, h2, h3⟩
      (fun r hr => by
        have h4 := hp r hr
        have h5 := hW1.each r hr
        unfold serialCmp at h4
        split at h4
        · omega
        · split at h4 <;> simp only at * <;> omega)
      (fun r hr => by
        have h4 := hq r hr
        have h5 := hW2.each r hr
        unfold serialCmp at h4
        split at h4
        · omega
        · split at h4 <;> simp only at * <;> omega)
      (fun a ha b hb => hg.2.2 a ha b hb)
    refine ⟨this.1, fun n => ?_⟩
    rw [this.2, Cov_append, or_assoc]
  | hit pre e post =>
    rw [hc] at hs
    obtain ⟨rfl, h0⟩ := hs
    rw [serialCmp_zero] at h0
    simp only at h0
    have hg := h.gap
    rw [List.pairwise_append, List.pairwise_cons] at hg
    obtain ⟨g1, ⟨g2, g3⟩, g4⟩ := hg
    have he := h.each e (by simp)
    have hW1 : WFS pre := ⟨g1, fun r hr => h.each r (by simp [hr])⟩
    have hW2 : WFS post := ⟨g3, fun r hr => h.each r (by simp [hr])⟩
    have := coalesce_spec pre ⟨if e.lo > lo then lo else e.lo, if e.hi < hi then hi else e.hi⟩ post hW1 hW2
      (by simp only; split <;> split <;> omega)
      (fun r hr => by have := g4 r hr e (by simp); simp only; split <;> omega)
      (fun r hr => by have := g2 r hr; simp only; split <;> omega)
      (fun a ha b hb => by
        have h5 := g4 a ha e (by simp)
        have h6 := g2 b hb
        omega)
    refine ⟨this.1, fun n => ?_⟩
    rw [this.2, Cov_append, Cov_cons]
    simp only
    constructor
    · rintro (h | h | h)
      · exact .inl (.inl h)
      · exact .inl (.inr (.inr h))
      · by_cases c1 : e.lo ≤ n ∧ n ≤ e.hi
        · exact .inl (.inr (.inl c1))
        · refine .inr ?_
          split at h <;> split at h <;> omega
    · rintro ((h | h | h) | h)
      · exact .inl h
      · refine .inr (.inr ?_)
        split <;> split <;> omega
      · exact .inr (.inl h)
      · refine .inr (.inr ?_)
        split <;> split <;> omega

/-- Looking a serial up finds it iff it is covered. -/
theorem serial_mem (s : Shape Range) {l : List Range} (h : WFS l) (n : Nat) :
    s.mem (serialCmp ⟨n, n⟩) l = true ↔ Cov l n := by
  rw [s.mem_iff _ _ (h.mono _ (Nat.le_refl _))]
  simp only [serialCmp_zero, Cov]

end Verif.Krl
