/-
C145: when a certificate is valid.
-/
import Verif.Issue.Times
import Verif.Misc.TimeProps
import Verif.KeyOpts.Model

namespace Verif.Issue
open Verif
open _root_.Verif.KeyOpts (World Cert certCheckNow certCheck nameOk)
open _root_.Verif.Misc.Time (convtime Duration C40_iff C40_rejected)

/-! ### What is meant -/

/-- A number in base 16, from its digits -/
def value16 (l : List Nat) : Nat := l.foldl (fun n d => 16 * n + d) 0

/-- A digit of base 16 and its value: 0 to 9, a to f or A to F -/
def Digit16 (c : UInt8) (d : Nat) : Prop := (d < 10 ∧ c.toNat = 48 + d) ∨ (10 ≤ d ∧ d < 16 ∧ (c.toNat = 97 + (d - 10) ∨ c.toNat = 65 + (d - 10)))

/-- digits and their values -/
inductive Digits16 : Bytes → List Nat → Prop where
  | nil : Digits16 [] []
  | cons {c d s ds} : Digit16 c d → Digits16 s ds → Digits16 (c :: s) (d :: ds)

/-- A point in time, in words: later or earlier by a duration, a fixed word, a number in base 16, or a date -/
inductive Point (w : World) (now : Nat) (word : Bytes) (value : Nat) : Bytes → Nat → Prop where
  | later {s n} : Duration s n → (n : Int) ≤ 2147483647 → Point w now word value (43 :: s) (now + n)
  | earlier {s n} : Duration s n → (n : Int) ≤ 2147483647 → n ≤ now → Point w now word value (45 :: s) (now - n)
  | word : Point w now word value word value
  | hex {s ds} : s ≠ [] → Digits16 s ds → value16 ds < 18446744073709551616 → Point w now word value (b!"0x" ++ s) (value16 ds)
  | date {s t} : w.time s = some t → s.head? ≠ some 45 → s.head? ≠ some 43 → s ≠ word → s.take 2 ≠ b!"0x" → Point w now word value s t

/-- What is accepted as a time of validity, and what it means -/
inductive Validity (w : World) (now : Nat) : Bytes → Nat → Nat → Prop where
  | lasts {s n} : (58 : UInt8) ∉ s → Duration s n → (n : Int) ≤ 2147483647 → Validity w now (43 :: s) ((now - 59) / 60 * 60) (now + n)
  | between {a b f t} : (58 : UInt8) ∉ a → a ≠ [] → b ≠ [] → Point w now b!"always" 0 a f → Point w now b!"forever" 18446744073709551615 b t → f < t →
      Validity w now (a ++ 58 :: b) f t

/-! ### Proofs -/

theorem conv_cases (s : Bytes) : convtime s = -1 ∨ ∃ n : Nat, convtime s = n ∧ Duration s n ∧ (n : Int) ≤ 2147483647 := by
  by_cases h : ∃ n : Nat, Duration s n ∧ (n : Int) ≤ 2147483647
  · obtain ⟨n, hn⟩ := h
    exact .inr ⟨n, (C40_iff s n).2 hn, hn⟩
  · exact .inl ((C40_rejected s).2 h)

theorem digit16_iff (c : UInt8) (d : Nat) : digit16 c = some d ↔ Digit16 c d := by
  unfold digit16 Digit16
  have h1 : (48 ≤ c ∧ c ≤ 57) ↔ (48 ≤ c.toNat ∧ c.toNat ≤ 57) := by simp [UInt8.le_iff_toNat_le]
  have h2 : (97 ≤ c ∧ c ≤ 102) ↔ (97 ≤ c.toNat ∧ c.toNat ≤ 102) := by simp [UInt8.le_iff_toNat_le]
  have h3 : (65 ≤ c ∧ c ≤ 70) ↔ (65 ≤ c.toNat ∧ c.toNat ≤ 70) := by simp [UInt8.le_iff_toNat_le]
  simp only [h1, h2, h3]
  split
  · simp only [Option.some.injEq]; omega
  split
  · simp only [Option.some.injEq]; omega
  split
  · simp only [Option.some.injEq]; omega
  · constructor
    · intro h; cases h
    · intro h; omega

theorem digits16_iff {l : Bytes} {n m : Nat} : digits16 n l = some m ↔ ∃ ds : List Nat, Digits16 l ds ∧ ds.foldl (fun n d => 16 * n + d) n = m := by
  induction l generalizing n with
  | nil =>
    constructor
    · intro h; exact ⟨[], .nil, by injection h⟩
    · rintro ⟨ds, h1, h2⟩
      cases h1
      exact congrArg some h2
  | cons c l ih =>
    rw [digits16]
    constructor
    · intro h
      obtain ⟨d, h1, h2⟩ := Option.bind_eq_some_iff.1 h
      obtain ⟨ds, h3, h4⟩ := ih.1 h2
      exact ⟨d :: ds, .cons ((digit16_iff c d).1 h1) h3, h4⟩
    · rintro ⟨ds, h1, h2⟩
      cases h1 with
      | cons h3 h4 =>
        rw [(digit16_iff c _).2 h3]
        exact ih.2 ⟨_, h4, h2⟩

theorem hexTime_iff {s : Bytes} {t : Nat} : hexTime (b!"0x" ++ s) = some t ↔
    s ≠ [] ∧ ∃ ds : List Nat, Digits16 s ds ∧ value16 ds < 18446744073709551616 ∧ value16 ds = t := by
  have hd : (b!"0x" ++ s).drop 2 = s := rfl
  rw [hexTime, hd]
  by_cases hs : s = []
  · simp [hs]
  · rw [if_neg hs]
    constructor
    · intro h
      obtain ⟨n, h1, h2⟩ := Option.bind_eq_some_iff.1 h
      obtain ⟨ds, h3, h4⟩ := digits16_iff.1 h1
      split at h2
      · cases h2
      · injection h2 with h2
        subst h2
        exact ⟨hs, ds, h3, by rw [value16, h4]; omega, h4⟩
    · rintro ⟨_, ds, h1, h2, h3⟩
      rw [digits16_iff.2 ⟨ds, h1, h3⟩]
      simp only [Option.bind_some]
      rw [if_neg (by omega)]

/-- C145: an end is accepted exactly if it is one of the five, and then is the time it says. -/
theorem C145_point {w : World} {now : Nat} {word : Bytes} {value : Nat} (hw : word.head? ≠ some 45 ∧ word.head? ≠ some 43)
    (hw2 : word.take 2 ≠ b!"0x") (hn : now + 2147483647 < 18446744073709551616) {s : Bytes} {t : Nat} :
    point w now word value s = some t ↔ Point w now word value s t := by
  constructor
  · intro h
    unfold point at h
    split at h
    · rename_i hs
      unfold relTime at h
      cases s with
      | nil => simp at hs
      | cons c s =>
        simp only [List.head?_cons, Option.some.injEq, List.drop_succ_cons, List.drop_zero] at h hs
        rcases conv_cases s with hc | ⟨n, hc, hd, hm⟩
        · rw [if_pos hc] at h; cases h
        · rw [if_neg (by omega)] at h
          rw [hc] at h
          by_cases h45 : c = 45
          · rw [if_pos h45] at h
            subst h45
            split at h
            · cases h
            · injection h with h
              subst h
              simp only [Int.toNat_natCast]
              exact .earlier hd hm (by omega)
          · rw [if_neg h45] at h
            have : c = 43 := hs.resolve_left h45
            subst this
            injection h with h
            subst h
            simp only [Int.toNat_natCast]
            rw [Nat.mod_eq_of_lt (by omega)]
            exact .later hd hm
    · rename_i hs
      simp only [not_or] at hs
      split at h
      · rename_i he
        injection h with h
        subst h he
        exact .word
      · rename_i he
        split at h
        · rename_i hx
          have e : s = b!"0x" ++ s.drop 2 := by rw [← hx]; exact (List.take_append_drop 2 s).symm
          rw [e] at h ⊢
          obtain ⟨h1, ds, h2, h3, h4⟩ := hexTime_iff.1 h
          subst h4
          exact .hex h1 h2 h3
        · rename_i hx
          exact .date h hs.1 hs.2 he hx
  · intro h
    cases h with
    | @later s n hd hm =>
      have hc := (C40_iff s n).2 ⟨hd, hm⟩
      simp only [point, relTime, List.head?_cons, List.drop_succ_cons, List.drop_zero, hc]
      rw [if_pos (.inr trivial), if_neg (by omega), if_neg (by decide), Int.toNat_natCast, Nat.mod_eq_of_lt (by omega)]
    | @earlier s n hd hm hle =>
      have hc := (C40_iff s n).2 ⟨hd, hm⟩
      simp only [point, relTime, List.head?_cons, List.drop_succ_cons, List.drop_zero, hc]
      rw [if_pos (.inl trivial), if_neg (by omega), if_pos trivial, if_neg (by omega), Int.toNat_natCast]
    | word => rw [point, if_neg (by simp [hw.1, hw.2]), if_pos rfl]
    | @hex s ds h1 h2 h3 =>
      have hne : b!"0x" ++ s ≠ word := by
        intro h
        rw [← h] at hw2
        exact hw2 rfl
      rw [point, if_neg (by simp), if_neg hne, if_pos (by simp)]
      exact hexTime_iff.2 ⟨h1, ds, h2, h3, rfl⟩
    | date h1 h2 h3 h4 h5 => rw [point, if_neg (by simp [h2, h3]), if_neg h4, if_neg h5, h1]

theorem split_at (a b : Bytes) (h : (58 : UInt8) ∉ a) :
    (a ++ 58 :: b).takeWhile (· ≠ 58) = a ∧ (a ++ 58 :: b).dropWhile (· ≠ 58) = 58 :: b := by
  induction a with
  | nil => simp
  | cons x a ih =>
    simp only [List.mem_cons, not_or] at h
    have hx : x ≠ 58 := fun e => h.1 e.symm
    obtain ⟨h1, h2⟩ := ih h.2
    constructor
    · rw [List.cons_append, List.takeWhile_cons_of_pos (by simpa using hx), h1]
    · rw [List.cons_append, List.dropWhile_cons_of_pos (by simpa using hx), h2]

theorem split_of {s : Bytes} (h : (58 : UInt8) ∈ s) : ∃ a b, s = a ++ 58 :: b ∧ (58 : UInt8) ∉ a := by
  induction s with
  | nil => cases h
  | cons x s ih =>
    by_cases hx : x = 58
    · exact ⟨[], s, by simp [hx], by simp⟩
    · rcases List.mem_cons.1 h with h | h
      · exact absurd h.symm hx
      · obtain ⟨a, b, rfl, ha⟩ := ih h
        exact ⟨x :: a, b, rfl, by simp [ha, Ne.symm hx]⟩

/-- C145: what is accepted as a time of validity, and what it means. -/
theorem C145_times {w : World} {now : Nat} (hn : now + 2147483647 < 18446744073709551616) {spec : Bytes} {f t : Nat} :
    times w now spec = some (f, t) ↔ Validity w now spec f t := by
  have p1 := fun {s t} => C145_point (w := w) (now := now) (word := b!"always") (value := 0) (by decide) (by decide) hn (s := s) (t := t)
  have p2 := fun {s t} => C145_point (w := w) (now := now) (word := b!"forever") (value := 18446744073709551615) (by decide) (by decide) hn (s := s) (t := t)
  constructor
  · intro h
    unfold times at h
    split at h
    · rename_i hs
      cases spec with
      | nil => cases hs.1
      | cons c s =>
        simp only [List.head?_cons, Option.some.injEq, List.mem_cons, not_or] at hs
        obtain ⟨rfl, hs⟩ := hs
        simp only [List.drop_succ_cons, List.drop_zero] at h
        rcases conv_cases s with hc | ⟨n, hc, hd, hm⟩
        · rw [if_pos hc] at h; cases h
        · rw [if_neg (by omega), hc] at h
          simp only [Option.some.injEq, Prod.mk.injEq, Int.toNat_natCast] at h
          obtain ⟨rfl, rfl⟩ := h
          exact .lasts hs.2 hd hm
    · split at h
      · cases h
      · rename_i hs
        simp only [not_or, Decidable.not_not] at hs
        obtain ⟨a, b, rfl, ha⟩ := split_of hs.1
        obtain ⟨e1, e2⟩ := split_at a b ha
        rw [e1, e2] at hs h
        simp only [List.drop_succ_cons, List.drop_zero] at hs h
        split at h
        · cases h
        · rename_i f' hf
          split at h
          · cases h
          · rename_i t' ht
            split at h
            · cases h
            · simp only [Option.some.injEq, Prod.mk.injEq] at h
              obtain ⟨rfl, rfl⟩ := h
              exact .between ha hs.2.1 hs.2.2 (p1.1 hf) (p2.1 ht) (by omega)
  · intro h
    cases h with
    | @lasts s n h1 hd hm =>
      have hc := (C40_iff s n).2 ⟨hd, hm⟩
      rw [times, if_pos ⟨rfl, by simp [h1]⟩]
      simp only [List.drop_succ_cons, List.drop_zero, hc]
      rw [if_neg (by omega), Int.toNat_natCast]
    | @between a b _ _ ha h1 h2 hf ht hlt =>
      obtain ⟨e1, e2⟩ := split_at a b ha
      have hm : (58 : UInt8) ∈ a ++ 58 :: b := by simp
      rw [times, if_neg (fun h => h.2 hm), e1, e2]
      simp only [List.drop_succ_cons, List.drop_zero]
      rw [if_neg (by simp [h1, h2]), p1.2 hf, p2.2 ht]
      simp only
      rw [if_neg (by omega)]

/-- C145: there is always a time at which the certificate is valid; where it was to last for some time it is valid from one minute ago, for clocks that
are behind, but for not much longer. -/
theorem C145_not_empty {w : World} {now : Nat} {spec : Bytes} {f t : Nat} (hn : 59 ≤ now) (h : Validity w now spec f t) :
    f < t ∧ ((58 : UInt8) ∉ spec → f + 59 ≤ now ∧ now < f + 119) := by
  cases h with
  | lasts h1 _ _ =>
    refine ⟨?_, fun _ => ?_⟩ <;> omega
  | between _ _ _ _ _ h => exact ⟨h, fun hh => absurd (by simp) hh⟩

/-- C145: the certificate is accepted at exactly the times from the first on and before the second, by everyone it names. -/
theorem C145_accepted {c : Cert} {f t : Nat} (hf : c.validAfter = f) (ht : c.validBefore = t) (x : Int) (name : Option Bytes) (rp wc : Bool)
    (hc : c.type = .user) : certCheckNow c false rp wc x name = true ↔ ((f : Int) ≤ x ∧ x < t ∧ nameOk rp wc c.principals name = true) := by
  subst hf ht
  unfold certCheckNow certCheck
  by_cases h0 : x < 0
  · rw [if_pos h0]
    constructor
    · intro h; cases h
    · intro h; omega
  · rw [if_neg h0, if_neg (by simp [hc])]
    by_cases h1 : x.toNat < c.validAfter
    · rw [if_pos h1]
      constructor
      · intro h; cases h
      · intro h; omega
    · rw [if_neg h1]
      by_cases h2 : x.toNat ≥ c.validBefore
      · rw [if_pos h2]
        constructor
        · intro h; cases h
        · intro h; omega
      · rw [if_neg h2]
        constructor
        · intro h; exact ⟨by omega, by omega, h⟩
        · intro h; exact h.2.2

end Verif.Issue
