/-
C40: time specifications parse exactly or are rejected.
-/
import Verif.Misc.Time

namespace Verif.Misc.Time
open Verif Verif.Num

/-! ## Specification -/

/-- Seconds per unit. -/
inductive Unit : UInt8 → Nat → Prop where
  | s : Unit 115 1
  | S : Unit 83 1
  | m : Unit 109 60
  | M : Unit 77 60
  | h : Unit 104 3600
  | H : Unit 72 3600
  | d : Unit 100 86400
  | D : Unit 68 86400
  | w : Unit 119 604800
  | W : Unit 87 604800

/-- A decimal digit string and its value. -/
inductive Decimal : Bytes → Nat → Prop where
  | one {d : Nat} (h : d < 10) : Decimal [UInt8.ofNat (48 + d)] d
  | snoc {ds : Bytes} {n d : Nat} (h : d < 10) (hs : Decimal ds n) :
      Decimal (ds ++ [UInt8.ofNat (48 + d)]) (n * 10 + d)

/-- `Duration s n`: `s` is a sequence of numbers with units, of `n` seconds in all; only the last number
may lack a unit (it is seconds then). -/
inductive Duration : Bytes → Nat → Prop where
  | last {ds : Bytes} {n : Nat} (h : Decimal ds n) : Duration ds n
  | lastUnit {ds : Bytes} {n u : Nat} {c : UInt8} (h : Decimal ds n) (hu : Unit c u) : Duration (ds ++ [c]) (n * u)
  | cons {ds s : Bytes} {n u m : Nat} {c : UInt8} (h : Decimal ds n) (hu : Unit c u) (hs : Duration s m) :
      Duration (ds ++ c :: s) (n * u + m)

/-! ## Lemmas -/

theorem digit_of {d : Nat} (h : d < 10) :
    isDigit (UInt8.ofNat (48 + d)) = true ∧ (UInt8.ofNat (48 + d)).toNat - 48 = d := by
  have : d = 0 ∨ d = 1 ∨ d = 2 ∨ d = 3 ∨ d = 4 ∨ d = 5 ∨ d = 6 ∨ d = 7 ∨ d = 8 ∨ d = 9 := by omega
  rcases this with rfl | rfl | rfl | rfl | rfl | rfl | rfl | rfl | rfl | rfl <;> decide

theorem of_digit {c : UInt8} (h : isDigit c = true) :
    c.toNat - 48 < 10 ∧ c = UInt8.ofNat (48 + (c.toNat - 48)) := by
  simp only [isDigit, Bool.and_eq_true, decide_eq_true_eq, UInt8.le_iff_toNat_le] at h
  have h1 : 48 ≤ c.toNat := h.1
  have h2 : c.toNat ≤ 57 := h.2
  refine ⟨by omega, ?_⟩
  rw [show 48 + (c.toNat - 48) = c.toNat by omega]
  exact (UInt8.ofNat_toNat).symm

theorem digitsVal_append (ds : Bytes) (c : UInt8) (acc : Nat) :
    digitsVal acc (ds ++ [c]) = digitsVal acc ds * 10 + (c.toNat - 48) := by
  induction ds generalizing acc with
  | nil => rfl
  | cons x xs ih => exact ih _

theorem decimal_iff (ds : Bytes) (n : Nat) :
    Decimal ds n ↔ ds ≠ [] ∧ (∀ c ∈ ds, isDigit c = true) ∧ digitsVal 0 ds = n := by
  constructor
  · intro h
    induction h with
    | one h =>
      refine ⟨by simp, fun c hc => ?_, ?_⟩
      · rw [List.mem_singleton.1 hc]; exact (digit_of h).1
      · show 0 * 10 + ((UInt8.ofNat (48 + _)).toNat - 48) = _
        rw [(digit_of h).2]; omega
    | snoc h _ ih =>
      refine ⟨by simp, fun c hc => ?_, ?_⟩
      · rcases List.mem_append.1 hc with hc | hc
        · exact ih.2.1 c hc
        · rw [List.mem_singleton.1 hc]; exact (digit_of h).1
      · rw [digitsVal_append, ih.2.2, (digit_of h).2]
  · intro ⟨h1, h2, h3⟩
    have key : ∀ (k : Nat) (ds : Bytes), ds.length = k → ds ≠ [] → (∀ c ∈ ds, isDigit c = true) →
        Decimal ds (digitsVal 0 ds) := by
      intro k
      induction k with
      | zero => intro ds hl hne; exact absurd (List.length_eq_zero_iff.1 hl) hne
      | succ k ih =>
        intro ds hl hne hd
        obtain ⟨i, l, rfl⟩ : ∃ i l, ds = i ++ [l] := ⟨_, _, (List.dropLast_concat_getLast hne).symm⟩
        obtain ⟨hlt, heq⟩ := of_digit (hd l (by simp))
        cases i with
        | nil =>
          have := Decimal.one hlt
          rw [← heq] at this
          have hv : digitsVal 0 ([] ++ [l]) = l.toNat - 48 := by
            show 0 * 10 + (l.toNat - 48) = _; omega
          rw [hv]; exact this
        | cons x i =>
          have ih := ih (x :: i) (by simp at hl ⊢; omega) (by simp) (fun c hc => hd c (List.mem_append_left _ hc))
          have := Decimal.snoc hlt ih
          rw [← heq] at this
          rw [digitsVal_append]
          exact this
    exact h3 ▸ key _ ds rfl h1 h2

theorem span_append {ds s : Bytes} (h : ∀ c ∈ ds, isDigit c = true)
    (hs : ∀ c, s.head? = some c → isDigit c = false) : spanDigits (ds ++ s) = (ds, s) := by
  induction ds with
  | nil =>
    cases s with
    | nil => rfl
    | cons c r => simp [spanDigits, hs c rfl]
  | cons x xs ih =>
    rw [List.cons_append, spanDigits, if_pos (h x (by simp)), ih (fun c hc => h c (by simp [hc]))]

theorem span_spec (s : Bytes) : s = (spanDigits s).1 ++ (spanDigits s).2 ∧
    (∀ c ∈ (spanDigits s).1, isDigit c = true) := by
  induction s with
  | nil => simp [spanDigits]
  | cons x xs ih =>
    unfold spanDigits
    split
    · rename_i h
      refine ⟨by rw [List.cons_append, ← ih.1], fun c hc => ?_⟩
      rcases List.mem_cons.1 hc with rfl | hc
      · exact h
      · exact ih.2 c hc
    · simp

theorem strtonum_digits {ds : Bytes} (h : ∀ c ∈ ds, isDigit c = true) :
    strtonum ds 0 intMax = if ds = [] then none else
      if (digitsVal 0 ds : Int) > intMax then none else some (digitsVal 0 ds : Int) := by
  cases ds with
  | nil => rfl
  | cons x xs =>
    have hx := h x (by simp)
    have h1 : isSpace x = false := by
      obtain ⟨hlt, e⟩ := of_digit hx
      generalize x.toNat - 48 = d at hlt e
      have : d = 0 ∨ d = 1 ∨ d = 2 ∨ d = 3 ∨ d = 4 ∨ d = 5 ∨ d = 6 ∨ d = 7 ∨ d = 8 ∨ d = 9 := by omega
      rcases this with rfl | rfl | rfl | rfl | rfl | rfl | rfl | rfl | rfl | rfl <;> subst e <;> decide
    have h2 : x ≠ 45 := by rintro rfl; exact absurd hx (by decide)
    have h3 : x ≠ 43 := by rintro rfl; exact absurd hx (by decide)
    have hsp := span_append (ds := x :: xs) (s := []) h (by simp)
    rw [List.append_nil] at hsp
    have hd : (x :: xs).dropWhile isSpace = x :: xs := by simp [h1]
    have hl : strtoll (x :: xs) = some ((digitsVal 0 (x :: xs) : Int), []) := by
      unfold strtoll
      simp only [hd, if_neg h2, if_neg h3, hsp, Bool.false_eq_true, if_false]
    unfold strtonum
    rw [if_neg (by decide), hl]
    simp only [ne_eq, not_true_eq_false, if_false, reduceCtorEq]
    have h0 : ¬ ((digitsVal 0 (x :: xs) : Int) < 0) := by omega
    by_cases hb : (digitsVal 0 (x :: xs) : Int) > intMax
    · rw [if_pos (.inr hb), if_pos hb]
    · rw [if_neg (by omega), if_neg hb]

theorem unit_iff (c : UInt8) (m : Int) : multiplier (some c) = some m ↔ ∃ u : Nat, Unit c u ∧ (u : Int) = m := by
  constructor
  · intro h
    unfold multiplier at h
    simp only [Bool.or_eq_true, decide_eq_true_eq] at h
    split at h
    · rename_i hc; cases h
      rcases hc with rfl | rfl
      · exact ⟨_, .s, rfl⟩
      · exact ⟨_, .S, rfl⟩
    · split at h
      · rename_i hc; cases h
        rcases hc with rfl | rfl
        · exact ⟨_, .m, rfl⟩
        · exact ⟨_, .M, rfl⟩
      · split at h
        · rename_i hc; cases h
          rcases hc with rfl | rfl
          · exact ⟨_, .h, rfl⟩
          · exact ⟨_, .H, rfl⟩
        · split at h
          · rename_i hc; cases h
            rcases hc with rfl | rfl
            · exact ⟨_, .d, rfl⟩
            · exact ⟨_, .D, rfl⟩
          · split at h
            · rename_i hc; cases h
              rcases hc with rfl | rfl
              · exact ⟨_, .w, rfl⟩
              · exact ⟨_, .W, rfl⟩
            · cases h
  · rintro ⟨u, hu, rfl⟩
    cases hu <;> decide

theorem Unit.not_digit {c : UInt8} {u : Nat} (h : Unit c u) : isDigit c = false := by cases h <;> decide
theorem Unit.pos {c : UInt8} {u : Nat} (h : Unit c u) : 0 < u := by cases h <;> decide

theorem Duration.ne_nil {s : Bytes} {n : Nat} (h : Duration s n) : s ≠ [] := by
  cases h with
  | last h => exact ((decimal_iff _ _).1 h).1
  | lastUnit h _ => simp
  | cons h _ _ => simp

/-- One round of the loop on digits followed by `s`. -/
theorem round {ds s : Bytes} {n : Nat} (hd : Decimal ds n) (hs : ∀ c, s.head? = some c → isDigit c = false)
    (fuel : Nat) (total : Int) :
    convLoop (fuel + 1) (ds ++ s) total =
      if (n : Int) > intMax then none else
      match multiplier s.head? with
      | none => none
      | some m =>
        if (n : Int) > intMax / m then none
        else if total > intMax - n * m then none
        else if total + n * m < 0 then none
        else convLoop fuel s.tail (total + n * m) := by
  obtain ⟨h1, h2, h3⟩ := (decimal_iff _ _).1 hd
  cases e : ds ++ s with
  | nil => simp at e; exact absurd e.1 h1
  | cons c r =>
    rw [convLoop]
    rw [← e, span_append h2 hs]
    simp only
    rw [strtonum_digits h2, if_neg h1, h3]
    by_cases hb : (n : Int) > intMax
    · rw [if_pos hb, if_pos hb]
    · rw [if_neg hb, if_neg hb]
      cases multiplier s.head? <;> rfl

theorem div_bound {n m : Nat} (hm : 0 < m) : (n : Int) > intMax / (m : Int) ↔ (n * m : Int) > intMax := by
  have : (intMax / (m : Int)) < n ↔ intMax < n * m := Int.ediv_lt_iff_lt_mul (by omega)
  exact this

theorem Duration.conv {s : Bytes} {n : Nat} (h : Duration s n) (fuel : Nat) (total : Int) (h0 : 0 ≤ total)
    (hf : s.length < fuel) :
    convLoop fuel s total = if total + n > intMax then none else some (total + n) := by
  induction h generalizing fuel total with
  | @last ds n h =>
    cases fuel with
    | zero => omega
    | succ f =>
      have := round h (s := []) (by simp) f total
      rw [List.append_nil] at this
      rw [this]
      simp only [List.head?_nil, multiplier, List.tail_nil]
      rw [show convLoop f [] (total + ↑n * 1) = some (total + n * 1) by cases f <;> rfl]
      by_cases hb : total + n > intMax
      · rw [if_pos hb]
        by_cases h1 : (n : Int) > intMax
        · rw [if_pos h1]
        · rw [if_neg h1, if_neg (by omega), if_pos (by omega)]
      · rw [if_neg hb, if_neg (by omega), if_neg (by omega), if_neg (by omega), if_neg (by omega)]
        simp
  | @lastUnit ds n u c h hu =>
    cases fuel with
    | zero => omega
    | succ f =>
      rw [round h (s := [c]) (by intro x hx; simp at hx; rw [← hx]; exact hu.not_digit) f total]
      have hm : multiplier (some c) = some (u : Int) := (unit_iff c u).2 ⟨u, hu, rfl⟩
      simp only [List.head?_cons, hm, List.tail_cons]
      rw [show convLoop f [] (total + ↑n * ↑u) = some (total + n * u) by cases f <;> rfl]
      have hup := hu.pos
      have hle : n ≤ n * u := Nat.le_mul_of_pos_right n hup
      have hcast : ((n * u : Nat) : Int) = (n : Int) * u := Int.natCast_mul n u
      rw [hcast]
      have hle' : (n : Int) ≤ (n : Int) * u := by rw [← hcast]; omega
      have hdb := div_bound (n := n) hup
      generalize (n : Int) * u = k at *
      by_cases hb : total + k > intMax
      · rw [if_pos hb]
        by_cases h1 : (n : Int) > intMax
        · rw [if_pos h1]
        · rw [if_neg h1]
          by_cases h2 : k > intMax
          · rw [if_pos (hdb.2 h2)]
          · rw [if_neg (fun h => h2 (hdb.1 h)), if_pos (by omega)]
      · rw [if_neg hb, if_neg (by omega), if_neg (fun h => by have := hdb.1 h; omega), if_neg (by omega),
          if_neg (by omega)]
  | @cons ds s n u m c h hu _ ih =>
    cases fuel with
    | zero => omega
    | succ f =>
      rw [round h (s := c :: s) (by intro x hx; simp at hx; rw [← hx]; exact hu.not_digit) f total]
      have hm : multiplier (some c) = some (u : Int) := (unit_iff c u).2 ⟨u, hu, rfl⟩
      simp only [List.head?_cons, hm, List.tail_cons]
      simp only [List.length_append, List.length_cons] at hf
      have hup := hu.pos
      have hle : n ≤ n * u := Nat.le_mul_of_pos_right n hup
      have hcast : ((n * u : Nat) : Int) = (n : Int) * u := Int.natCast_mul n u
      rw [Int.natCast_add, hcast]
      have hle' : (n : Int) ≤ (n : Int) * u := by rw [← hcast]; omega
      have hdb := div_bound (n := n) hup
      have ih := fun t h0 => ih f t h0 (by omega)
      generalize (n : Int) * u = k at *
      by_cases hk : total + k > intMax
      · rw [if_pos (show total + (k + m) > intMax by omega)]
        by_cases h1 : (n : Int) > intMax
        · rw [if_pos h1]
        · rw [if_neg h1]
          by_cases h2 : k > intMax
          · rw [if_pos (hdb.2 h2)]
          · rw [if_neg (fun h => h2 (hdb.1 h)), if_pos (by omega)]
      · rw [if_neg (by omega), if_neg (fun h => by have := hdb.1 h; omega), if_neg (by omega),
          if_neg (by omega), ih _ (by omega)]
        rw [show total + (k + (m : Int)) = total + k + m by omega]

theorem conv_duration (fuel : Nat) (s : Bytes) (total t : Int) (hne : s ≠ []) (hf : s.length < fuel)
    (h : convLoop fuel s total = some t) : ∃ n, Duration s n := by
  induction fuel generalizing s total with
  | zero => omega
  | succ f ih =>
    cases s with
    | nil => exact absurd rfl hne
    | cons c r =>
      unfold convLoop at h
      obtain ⟨hs, hd⟩ := span_spec (c :: r)
      generalize spanDigits (c :: r) = p at h hs hd
      obtain ⟨ds, rest⟩ := p
      simp only at h hs hd
      rw [strtonum_digits hd] at h
      by_cases hds : ds = []
      · rw [if_pos hds] at h; cases h
      · have hdec : Decimal ds (digitsVal 0 ds) := (decimal_iff _ _).2 ⟨hds, hd, rfl⟩
        rw [if_neg hds] at h
        by_cases hb : (digitsVal 0 ds : Int) > intMax
        · rw [if_pos hb] at h; cases h
        · rw [if_neg hb] at h
          simp only at h
          rw [hs]
          cases rest with
          | nil => rw [List.append_nil]; exact ⟨_, .last hdec⟩
          | cons x xs =>
            simp only [List.head?_cons] at h
            cases hm : multiplier (some x) with
            | none => rw [hm] at h; cases h
            | some m =>
              obtain ⟨u, hu, rfl⟩ := (unit_iff x m).1 hm
              rw [hm] at h
              simp only [List.tail_cons] at h
              by_cases hx : xs = []
              · subst hx; exact ⟨_, .lastUnit hdec hu⟩
              · by_cases c1 : (digitsVal 0 ds : Int) > intMax / u
                · rw [if_pos c1] at h; cases h
                · rw [if_neg c1] at h
                  by_cases c2 : total > intMax - (digitsVal 0 ds : Int) * u
                  · rw [if_pos c2] at h; cases h
                  · rw [if_neg c2] at h
                    by_cases c3 : total + (digitsVal 0 ds : Int) * u < 0
                    · rw [if_pos c3] at h; cases h
                    · rw [if_neg c3] at h
                      have hl := congrArg List.length hs
                      simp only [List.length_cons, List.length_append] at hl hf
                      obtain ⟨k, hk⟩ := ih xs _ hx (by omega) h
                      exact ⟨_, .cons hdec hu hk⟩

/-! ## Theorems -/

/-- **C40.**  A string is accepted if and only if it is a duration whose total fits an `int`, and the value
is that total. -/
theorem C40_iff (s : Bytes) (n : Nat) : convtime s = n ↔ (Duration s n ∧ (n : Int) ≤ intMax) := by
  constructor
  · intro h
    unfold convtime at h
    by_cases hs : s = []
    · rw [if_pos hs] at h; omega
    · rw [if_neg hs] at h
      cases hc : convLoop (s.length + 1) s 0 with
      | none => rw [hc] at h; simp only at h; omega
      | some t =>
        rw [hc] at h; simp only at h
        obtain ⟨k, hk⟩ := conv_duration _ s 0 t hs (by omega) hc
        rw [hk.conv _ 0 (by omega) (by omega)] at hc
        by_cases hb : (0 : Int) + k > intMax
        · rw [if_pos hb] at hc; cases hc
        · rw [if_neg hb] at hc
          injection hc with hc
          have : k = n := by omega
          subst this
          exact ⟨hk, by omega⟩
  · rintro ⟨h, hb⟩
    unfold convtime
    rw [if_neg h.ne_nil, h.conv _ 0 (by omega) (by omega), if_neg (by omega)]
    simp

/-- **C40 (everything else is an error).**  In particular a duration that does not fit: there is no
wrapping. -/
theorem C40_rejected (s : Bytes) :
    convtime s = -1 ↔ ¬ ∃ n : Nat, Duration s n ∧ (n : Int) ≤ intMax := by
  constructor
  · rintro h ⟨n, hn⟩
    have := (C40_iff s n).2 hn
    omega
  · intro h
    unfold convtime
    by_cases hs : s = []
    · rw [if_pos hs]
    · rw [if_neg hs]
      cases hc : convLoop (s.length + 1) s 0 with
      | none => rfl
      | some t =>
        exfalso
        obtain ⟨k, hk⟩ := conv_duration _ s 0 t hs (by omega) hc
        rw [hk.conv _ 0 (by omega) (by omega)] at hc
        by_cases hb : (0 : Int) + k > intMax
        · rw [if_pos hb] at hc; cases hc
        · exact h ⟨k, hk, by omega⟩

/-- The grammar assigns at most one value to a string. -/
theorem C40_unique {s : Bytes} {n m : Nat} (h1 : Duration s n) (h2 : Duration s m)
    (hn : (n : Int) ≤ intMax) : n = m := by
  have a := h1.conv (s.length + 1) 0 (by omega) (by omega)
  have b := h2.conv (s.length + 1) 0 (by omega) (by omega)
  rw [a, if_neg (by omega)] at b
  by_cases hb : (0 : Int) + m > intMax
  · rw [if_pos hb] at b; cases b
  · rw [if_neg hb] at b; injection b with b; omega

example : convtime b!"1h30m" = 5400 ∧ convtime b!"90M" = 5400 ∧ convtime b!"2d5" = 172805 ∧ convtime b!"007" = 7 := by
  decide
/-- Largest value, and one second more in three spellings. -/
example : convtime b!"2147483647" = 2147483647 ∧ convtime b!"2147483648" = -1 ∧ convtime b!"2147483640s8" = -1 ∧
    convtime b!"3551w" = -1 ∧ convtime b!"3550w" = 2147040000 := by decide
example : convtime b!"" = -1 ∧ convtime b!"m" = -1 ∧ convtime b!"-1" = -1 ∧ convtime b!"1.5h" = -1 ∧ convtime b!"1hm" = -1 := by
  decide
example : Duration b!"1h30m" 5400 :=
  .cons (ds := b!"1") (n := 1) (.one (d := 1) (by decide)) .h
    (.lastUnit (ds := b!"30") (n := 30) (.snoc (ds := b!"3") (n := 3) (d := 0) (by decide) (.one (d := 3) (by decide))) .m)

end Verif.Misc.Time
