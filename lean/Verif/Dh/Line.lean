/-
C87: the lines of the moduli file, public values and the length of private values.
-/
import Verif.Dh.Props
import Verif.Exch.Props

namespace Verif.Dh
open Verif Text
open _root_.Verif.Exch (numBits)

/-! ### Sizes -/

theorem numBits_iff {n k : Nat} (hk : 0 < k) : numBits n = k ↔ 2 ^ (k - 1) ≤ n ∧ n < 2 ^ k := by
  unfold numBits
  by_cases h0 : n = 0
  · rw [if_pos h0]
    constructor
    · intro h; omega
    · intro h
      have : 0 < 2 ^ (k - 1) := Nat.two_pow_pos _
      omega
  · rw [if_neg h0]
    constructor
    · intro h
      subst h
      exact ⟨Nat.log2_self_le h0, Nat.lt_log2_self⟩
    · intro h
      have h1 : n.log2 < k := (Nat.log2_lt h0).mpr h.2
      have h2 : k - 1 ≤ n.log2 := (Nat.le_log2 h0).mpr h.1
      omega

/-! ### Fields -/

theorem field_some {s a r : Bytes} (h : field s = some (a, r)) : split 32 s = a :: split 32 r ∧ a ≠ [] := by
  unfold field at h
  rw [split_strsep]
  generalize hs : strsep 32 s = q at h
  obtain ⟨a', r'⟩ := q
  cases r' with
  | none => simp at h
  | some r' =>
    simp only at h
    by_cases h0 : a' = []
    · rw [if_pos h0] at h; cases h
    · rw [if_neg h0] at h; cases h; exact ⟨rfl, h0⟩

theorem strsep_none_split {s a : Bytes} (h : strsep 32 s = (a, none)) : split 32 s = [a] := by
  rw [split_strsep, h]

theorem field_append {a r : Bytes} (ha : 32 ∉ a) (h0 : a ≠ []) : field (a ++ 32 :: r) = some (a, r) := by
  have e : strsep 32 (a ++ 32 :: r) = (a, some r) := by
    clear h0
    induction a with
    | nil => rw [List.nil_append, strsep_cons, if_pos rfl]
    | cons x a ih =>
      have hx : x ≠ 32 := fun h => ha (by simp [h])
      rw [List.cons_append, strsep_cons, if_neg hx, ih fun h => ha (by simp [h])]
  unfold field
  rw [e]
  simp only
  rw [if_neg h0]

theorem strsep_none {a : Bytes} (ha : 32 ∉ a) : strsep 32 a = (a, none) := by
  induction a with
  | nil => rfl
  | cons x a ih =>
    have hx : x ≠ 32 := fun h => ha (by simp [h])
    rw [strsep_cons, if_neg hx, ih fun h => ha (by simp [h])]

theorem parseHead_some {s r : Bytes} (h : parseHead s = some r) :
    ∃ type tests tries, split 32 s = type :: tests :: tries :: split 32 r ∧
      Num.strtonum type 0 5 = some 2 ∧
      (∃ n : Int, Num.strtonum tests 0 31 = some n ∧ n ≠ 0 ∧ n % 2 = 0) ∧
      ∃ n : Int, Num.strtonum tries 0 1073741824 = some n ∧ n ≠ 0 := by
  unfold parseHead at h
  split at h
  · cases h
  rename_i type s1 h1
  by_cases ht : Num.strtonum type 0 5 ≠ some 2
  · rw [if_pos ht] at h; cases h
  rw [if_neg ht] at h
  split at h
  · cases h
  rename_i tests s2 h2
  split at h
  · cases h
  rename_i n hn
  by_cases hc : n % 2 = 1 ∨ n = 0
  · rw [if_pos hc] at h; cases h
  rw [if_neg hc] at h
  split at h
  · cases h
  rename_i tries s3 h3
  split at h
  · cases h
  rename_i m hm
  by_cases h0 : m = 0
  · rw [if_pos h0] at h; cases h
  rw [if_neg h0] at h
  cases h
  refine ⟨type, tests, tries, ?_, by simpa using ht, ⟨n, hn, by omega, by omega⟩, m, hm, h0⟩
  rw [(field_some h1).1, (field_some h2).1, (field_some h3).1]

theorem parseTail_some {s : Bytes} {g : Group} (h : parseTail s = some g) :
    ∃ size gen prime, split 32 s = [size, gen, prime] ∧
      (∃ n : Int, Num.strtonum size 0 65536 = some n ∧ n ≠ 0 ∧ g.size = n.toNat + 1) ∧
      hex2bn gen = some g.g ∧ hex2bn prime = some g.p ∧ numBits g.p.natAbs = g.size ∧ 1 < g.g := by
  unfold parseTail at h
  split at h
  · cases h
  rename_i size s1 h1
  split at h
  · cases h
  rename_i n hn
  by_cases h0 : n = 0
  · rw [if_pos h0] at h; cases h
  rw [if_neg h0] at h
  split at h
  · cases h
  rename_i gen s2 h2
  split at h
  · rename_i prime h3
    by_cases hp : prime = []
    · rw [if_pos hp] at h; cases h
    rw [if_neg hp] at h
    unfold parseNumbers at h
    split at h
    · rename_i g' p' hg hp'
      by_cases hc : numBits p'.natAbs = n.toNat + 1 ∧ 1 < g'
      · rw [if_pos hc] at h
        cases h
        refine ⟨size, gen, prime, ?_, ⟨n, hn, h0, rfl⟩, hg, hp', hc.1, hc.2⟩
        rw [(field_some h1).1, (field_some h2).1, strsep_none_split h3]
      · rw [if_neg hc] at h; cases h
    · cases h
  · cases h

/-- A usable line is no comment and ends in six fields separated by single spaces: a safe prime that was tested
and not found composite, tried at least once, of exactly the length stated, and a generator above one. -/
theorem C87_line {line : Bytes} {g : Group} (h : parsePrime line = some g) :
    ∃ time rest type tests tries size gen prime,
      firstWord line = some (time, some rest) ∧ time ≠ [] ∧ time.head? ≠ some 35 ∧
      rest = join 32 [type, tests, tries, size, gen, prime] ∧
      hex2bn gen = some g.g ∧ hex2bn prime = some g.p ∧ LineOk type tests tries size g.size g.g g.p := by
  unfold parsePrime at h
  split at h
  · cases h
  rename_i arg cp h0
  by_cases hc : arg = [] ∨ arg.head? = some 35
  · rw [if_pos hc] at h; cases h
  rw [if_neg hc] at h
  split at h
  · cases h
  rename_i rest
  split at h
  · cases h
  rename_i s1 h1
  obtain ⟨type, tests, tries, e1, hty, hte, htr⟩ := parseHead_some h1
  obtain ⟨size, gen, prime, e2, hsz, hg, hp, hnb, hg1⟩ := parseTail_some h
  refine ⟨arg, rest, type, tests, tries, size, gen, prime, h0, fun h => hc (.inl h), fun h => hc (.inr h), ?_, hg, hp,
    ⟨hty, hte, htr, hsz, ?_, hg1⟩⟩
  · rw [← e2, ← e1, join_split]
  · obtain ⟨n, _, _, e⟩ := hsz
    exact (numBits_iff (by omega)).mp hnb

/-- A byte at which the first word ends. -/
def ends (c : UInt8) : Bool := Misc.Delim.isWs c || c == 34 || c == 61

theorem firstWord_plain {time rest : Bytes} (ht : time.any ends = false) (h0 : time ≠ [])
    (hr : ∀ c, rest.head? = some c → ends c = false) : firstWord (time ++ 32 :: rest) = some (time, some rest) := by
  have hb : Misc.Delim.brk (fun c => Misc.Delim.isWs c || c == 34 || (true && c == 61)) (time ++ 32 :: rest) =
      (time, 32 :: rest) := by
    clear h0
    unfold Misc.Delim.brk
    induction time with
    | nil => rw [List.nil_append, List.takeWhile_cons_of_neg (by decide), List.dropWhile_cons_of_neg (by decide)]
    | cons x t ih =>
      rw [List.any_cons, Bool.or_eq_false_iff] at ht
      have hx : (!(Misc.Delim.isWs x || x == 34 || (true && x == 61))) = true := by
        rw [Bool.true_and]; exact congrArg not ht.1
      have := ih ht.2
      simp only [Prod.mk.injEq] at this
      rw [List.cons_append, List.takeWhile_cons, List.dropWhile_cons]
      simp only [hx, if_true]
      rw [this.1, this.2]
  have hd : rest.dropWhile Misc.Delim.isWs = rest ∧ (rest.head? == some (61 : UInt8)) = false := by
    cases rest with
    | nil => exact ⟨rfl, rfl⟩
    | cons x r =>
      have h := hr x rfl
      unfold ends at h
      rw [Bool.or_eq_false_iff, Bool.or_eq_false_iff] at h
      exact ⟨List.dropWhile_cons_of_neg (by rw [h.1.1]; decide), by rw [List.head?_cons]; simpa using h.2⟩
  unfold firstWord Misc.Delim.strdelim
  rw [hb]
  simp only
  rw [if_neg (by decide)]
  unfold Misc.Delim.delimRest
  rw [hd.1, hd.2]
  simp only [Bool.and_false]
  rw [if_pos h0]
  rfl

theorem parseNumbers_ok {bits : Nat} {gen prime : Bytes} {g p : Int} (hg : hex2bn gen = some g)
    (hp : hex2bn prime = some p) (hb : 0 < bits) (h : 2 ^ (bits - 1) ≤ p.natAbs ∧ p.natAbs < 2 ^ bits) (h2 : 2 ≤ g) :
    parseNumbers bits gen prime = some ⟨bits, g, p⟩ := by
  unfold parseNumbers
  rw [hg, hp]
  simp only
  rw [if_pos ⟨(numBits_iff hb).mpr h, by omega⟩]

/-- Every line written with single spaces that satisfies these conditions is used. -/
theorem C87_line_used {time type tests tries size gen prime : Bytes} {bits : Nat} {g p : Int}
    (ht : time.any ends = false) (h0 : time ≠ []) (hc : time.head? ≠ some 35)
    (hty : type.any ends = false) (hsep : ∀ f ∈ [type, tests, tries, size, gen, prime], 32 ∉ f ∧ f ≠ [])
    (hg : hex2bn gen = some g) (hp : hex2bn prime = some p) (h : LineOk type tests tries size bits g p) :
    parsePrime (time ++ 32 :: join 32 [type, tests, tries, size, gen, prime]) = some ⟨bits, g, p⟩ := by
  have hs : ∀ f ∈ [type, tests, tries, size, gen, prime], 32 ∉ f ∧ f ≠ [] := hsep
  have h1 := hs type (by simp)
  have h2 := hs tests (by simp)
  have h3 := hs tries (by simp)
  have h4 := hs size (by simp)
  have h5 := hs gen (by simp)
  have h6 := hs prime (by simp)
  have ej : join 32 [type, tests, tries, size, gen, prime] =
      type ++ 32 :: (tests ++ 32 :: (tries ++ 32 :: (size ++ 32 :: (gen ++ 32 :: prime)))) := rfl
  obtain ⟨n, hn, hn0, hn2⟩ := h.tested
  obtain ⟨m, hm, hm0⟩ := h.tried
  obtain ⟨k, hk, hk0, hkb⟩ := h.sized
  have hh : parseHead (type ++ 32 :: (tests ++ 32 :: (tries ++ 32 :: (size ++ 32 :: (gen ++ 32 :: prime))))) =
      some (size ++ 32 :: (gen ++ 32 :: prime)) := by
    unfold parseHead
    rw [field_append h1.1 h1.2]; simp only
    rw [if_neg (by rw [h.safe]; simp), field_append h2.1 h2.2]; simp only
    rw [hn]; simp only
    rw [if_neg (by omega), field_append h3.1 h3.2]; simp only
    rw [hm]; simp only
    rw [if_neg hm0]
  have htl : parseTail (size ++ 32 :: (gen ++ 32 :: prime)) = some ⟨bits, g, p⟩ := by
    unfold parseTail
    rw [field_append h4.1 h4.2]; simp only
    rw [hk]; simp only
    rw [if_neg hk0, field_append h5.1 h5.2]; simp only
    rw [strsep_none h6.1]; simp only
    rw [if_neg h6.2, ← hkb, parseNumbers_ok hg hp (by omega) h.prime h.generator]
  unfold parsePrime
  rw [firstWord_plain ht h0 ?_]
  · simp only
    rw [if_neg (by intro hcc; rcases hcc with hcc | hcc; exact h0 hcc; exact hc hcc), ej, hh]
    simp only
    rw [htl]
  · intro c hcc
    rw [ej] at hcc
    cases type with
    | nil => exact absurd rfl h1.2
    | cons x t =>
      rw [List.cons_append, List.head?_cons, Option.some.injEq] at hcc
      rw [List.any_cons, Bool.or_eq_false_iff] at hty
      rw [← hcc]; exact hty.1

theorem hexVal_digits (s : Bytes) (ds : List Nat) (acc : Nat) (any : Bool) (h : s.map hexDigit = ds.map some)
    (hne : any = true ∨ s ≠ []) : hexVal acc any s = some (ds.foldl (fun a d => a * 16 + d) acc) := by
  induction s generalizing ds acc any with
  | nil =>
    cases ds with
    | nil =>
      rcases hne with rfl | hne
      · rfl
      · exact absurd rfl hne
    | cons d ds => simp at h
  | cons c s ih =>
    cases ds with
    | nil => simp at h
    | cons d ds =>
      simp only [List.map_cons, List.cons.injEq] at h
      unfold hexVal
      rw [h.1]; simp only
      rw [List.foldl_cons]
      exact ih ds _ true h.2 (.inl rfl)

/-- Hexadecimal digits are read as the number they denote. -/
theorem C87_hex {s : Bytes} {ds : List Nat} (h : s.map hexDigit = ds.map some) (hne : s ≠ []) :
    hex2bn s = some (hexOf ds : Int) := by
  have hv := hexVal_digits s ds 0 false h (.inr hne)
  unfold hex2bn
  split
  · cases ds with
    | nil => simp at h
    | cons d ds =>
      simp only [List.map_cons, List.cons.injEq] at h
      exact absurd h.1 (by rw [show hexDigit 45 = none from by decide]; simp)
  · rw [hv]; rfl

/-! ### Public values -/

theorem ones_succ {n : Nat} (h : n ≠ 0) : ones n = n % 2 + ones (n / 2) := by
  cases n with
  | zero => exact absurd rfl h
  | succ n => rw [ones]

theorem bitsSet_eq (k y : Nat) (h : y < 2 ^ k) : ((List.range k).filter fun i => y.testBit i).length = ones y := by
  induction k generalizing y with
  | zero =>
    have : y = 0 := by simpa using h
    subst this; rw [ones]; rfl
  | succ k ih =>
    rw [List.range_succ_eq_map, List.filter_cons, List.filter_map, ]
    have hk := ih (y / 2) (by rw [Nat.pow_succ] at h; omega)
    have e : ((fun i => y.testBit i) ∘ Nat.succ) = fun i => (y / 2).testBit i := by
      funext i; simp [Nat.testBit_succ]
    rw [e]
    by_cases h0 : y = 0
    · subst h0; simp [ones]
    · rw [ones_succ h0, ← hk]
      by_cases hb : y % 2 = 1
      · rw [if_pos (by simp [Nat.testBit_zero, hb]), List.length_cons, List.length_map]; omega
      · rw [if_neg (by simp [Nat.testBit_zero]; omega), List.length_map]; omega

theorem lt_pow_numBits (n : Nat) : n < 2 ^ numBits n := by
  unfold numBits
  by_cases h0 : n = 0
  · rw [if_pos h0, h0]; decide
  · rw [if_neg h0]; exact Nat.lt_log2_self

/-- Exactly the values between 2 and p-2 with at least four one bits are accepted, from the peer and from
the library. -/
theorem C87_public (p y : Nat) : pubValid p y = true ↔ 2 ≤ y ∧ y + 2 ≤ p ∧ 4 ≤ ones y := by
  have hb : bitsSet y (numBits y) = ones y := by
    unfold bitsSet
    apply bitsSet_eq
    exact Nat.lt_of_lt_of_le (lt_pow_numBits y) (Nat.pow_le_pow_right (by decide) (Nat.le_succ _))
  unfold pubValid
  rw [hb]
  by_cases h1 : y ≤ 1
  · rw [if_pos h1]; simp; omega
  rw [if_neg h1]
  by_cases h2 : ¬ (y : Int) < (p : Int) - 1
  · rw [if_pos h2]; simp; omega
  rw [if_neg h2]
  by_cases h3 : ones y < 4
  · rw [if_pos h3]; simp; omega
  rw [if_neg h3]
  simp; omega

/-- The private value is refused if the group is shorter than twice the strength wanted; else it is as long as twice
that strength, but of at least 512 bits, or one bit short of the group. -/
theorem C87_private (p need : Nat) (hb : numBits p ≤ 2147483647) :
    keyLength p need =
      if 0 < p ∧ 2 * need ≤ numBits p then some (Nat.min (Nat.max (2 * need) 512) (numBits p - 1)) else none := by
  have hz : numBits p = 0 ↔ p = 0 := by
    unfold numBits
    by_cases h0 : p = 0
    · simp [h0]
    · rw [if_neg h0]; simp [h0]
  unfold keyLength
  by_cases hc : 0 < p ∧ 2 * need ≤ numBits p
  · rw [if_pos hc, if_neg (by omega)]
    have : (if need < 256 then 256 else need) * 2 = Nat.max (2 * need) 512 := by
      show _ = max (2 * need) 512
      split <;> omega
    rw [this]
  · rw [if_neg hc, if_pos (by omega)]

end Verif.Dh
