import Verif.Bitmap.Model
import Verif.Wire

namespace Verif.Bitmap
open Verif

/-- Bit `n` of a word array. -/
def wt (d : List UInt32) (n : Nat) : Bool := (d.getD (n / 32) 0).toBitVec.getLsbD (n % 32)

theorem shl_bit (w : UInt32) (k j : Nat) (hk : k < 32) (hj : j < 32) :
    (w <<< UInt32.ofNat k).toBitVec.getLsbD j = (decide (k ≤ j) && w.toBitVec.getLsbD (j - k)) := by
  have : (k % 4294967296) % 32 = k := by omega
  simp [this, hj]
  by_cases h : k ≤ j
  · simp [h, Nat.not_lt.2 h, BitVec.getLsbD_eq_getElem (show j - k < 32 by omega)]
  · simp [h, Nat.lt_of_not_le h]

theorem shr_bit (w : UInt32) (k j : Nat) (hk : k < 32) :
    (w >>> UInt32.ofNat k).toBitVec.getLsbD j = w.toBitVec.getLsbD (k + j) := by
  have : (k % 4294967296) % 32 = k := by omega
  simp [this]

theorem and_one_bit (w : UInt32) : w &&& 1 = 1 ↔ w.toBitVec.getLsbD 0 = true := by
  constructor
  · intro h
    have := congrArg (fun x : UInt32 => x.toBitVec.getLsbD 0) h
    simpa using this
  · intro h
    apply UInt32.eq_of_toBitVec_eq
    apply BitVec.eq_of_getLsbD_eq
    intro i hi
    by_cases h0 : i = 0
    · subst h0; simp [h]
    · simp [BitVec.getLsbD_one, h0]

theorem one_bit (j : Nat) : (1 : UInt32).toBitVec.getLsbD j = decide (j = 0) := by
  simp [BitVec.getLsbD_one]

theorem word_ext {x y : UInt32} (h : ∀ j < 32, x.toBitVec.getLsbD j = y.toBitVec.getLsbD j) : x = y := by
  apply UInt32.eq_of_toBitVec_eq
  apply BitVec.eq_of_getLsbD_eq
  intro i hi
  exact h i hi

theorem wt_word (d : List UInt32) (i j : Nat) (hj : j < 32) : (d.getD i 0).toBitVec.getLsbD j = wt d (32 * i + j) := by
  have e1 : (32 * i + j) / 32 = i := by omega
  have e2 : (32 * i + j) % 32 = j := by omega
  simp only [wt, e1, e2]

theorem wt_set (d : List UInt32) (i : Nat) (w : UInt32) (n : Nat) (hi : i < d.length) :
    wt (d.set i w) n = if n / 32 = i then w.toBitVec.getLsbD (n % 32) else wt d n := by
  unfold wt
  by_cases h : n / 32 = i
  · rw [if_pos h, h]; simp [List.getD_eq_getElem?_getD, hi]
  · rw [if_neg h]; simp [List.getD_eq_getElem?_getD, List.getElem?_set, Ne.symm h]

theorem wt_append_zeros (d : List UInt32) (k n : Nat) : wt (d ++ List.replicate k 0) n = wt d n := by
  unfold wt
  congr 2
  simp only [List.getD_eq_getElem?_getD]
  by_cases h : n / 32 < d.length
  · rw [List.getElem?_append_left h]
  · rw [List.getElem?_append_right (by omega), List.getElem?_replicate]
    rw [List.getElem?_eq_none (by omega)]
    split <;> rfl

theorem wt_zeros (k n : Nat) : wt (List.replicate k 0) n = false := by
  have := wt_append_zeros [] k n
  simp only [List.nil_append] at this
  rw [this]; simp [wt]

theorem wt_outside (d : List UInt32) (n : Nat) (h : d.length ≤ n / 32) : wt d n = false := by
  simp [wt, List.getD_eq_getElem?_getD, List.getElem?_eq_none h]

/-- What every reachable bitmap satisfies. -/
structure Inv (b : Bitmap) : Prop where
  top_lt : b.top < b.d.length
  above : ∀ n, b.top < n / 32 → wt b.d n = false
  max : ∀ n, wt b.d n = true → n ≤ BITMAP_MAX

theorem testBit_eq {b : Bitmap} (h : Inv b) (n : Nat) : testBit b n = wt b.d n := by
  have h1 := h.top_lt
  unfold testBit
  rw [if_neg (by omega)]
  split
  · rename_i h2
    rcases h2 with h2 | h2
    · omega
    · exact (h.above n h2).symm
  · rw [Bool.eq_iff_iff, decide_eq_true_eq, and_one_bit, shr_bit _ _ _ (by omega)]
    simp [wt]

theorem lowerTop_spec (d : List UInt32) (t : Nat) :
    lowerTop d t ≤ t ∧ (∀ i, lowerTop d t < i → i ≤ t → d.getD i 0 = 0) ∧
    (lowerTop d t ≠ 0 → d.getD (lowerTop d t) 0 ≠ 0) := by
  induction t with
  | zero => simp [lowerTop]; intro i h1 h2; omega
  | succ t ih =>
    unfold lowerTop
    split
    · rename_i h
      refine ⟨by omega, fun i h1 h2 => ?_, ih.2.2⟩
      by_cases he : i = t + 1
      · rw [he]; exact h
      · exact ih.2.1 i h1 (by omega)
    · rename_i h
      exact ⟨Nat.le_refl _, fun i h1 h2 => by omega, fun _ => h⟩

theorem retop_inv {b : Bitmap} (h : Inv b) : Inv (retop b) ∧ (retop b).d = b.d := by
  have h1 := h.top_lt
  have := lowerTop_spec b.d b.top
  unfold retop
  rw [if_neg (by omega)]
  refine ⟨⟨by simp only; omega, fun n hn => ?_, h.max⟩, rfl⟩
  simp only at hn ⊢
  by_cases h2 : n / 32 ≤ b.top
  · have := this.2.1 (n / 32) hn h2
    unfold wt
    rw [this]; simp
  · exact h.above n (by omega)

theorem reserve_some {b b' : Bitmap} {n : Nat} {mem : Bool} (hb : Inv b) (h : reserve b n mem = some b') :
    Inv b' ∧ (∀ m, wt b'.d m = wt b.d m) ∧ b'.top = b.top ∧ n ≤ BITMAP_MAX ∧ n / 32 < b'.d.length := by
  unfold reserve at h
  split at h
  · simp at h
  · rename_i h1
    split at h
    · split at h
      · simp only [Option.some.injEq] at h
        subst h
        have ht := hb.top_lt
        refine ⟨⟨?_, ?_, ?_⟩, fun m => wt_append_zeros _ _ _, rfl, by omega, ?_⟩
        · simp only [List.length_append]; omega
        · intro n hn; simp only at hn ⊢; rw [wt_append_zeros]; exact hb.above n hn
        · intro n hn; simp only at hn; rw [wt_append_zeros] at hn; exact hb.max n hn
        · simp only [List.length_append, List.length_replicate]; omega
      · simp at h
    · simp only [Option.some.injEq] at h
      subst h
      exact ⟨hb, fun _ => rfl, rfl, by omega, by omega⟩

theorem setBit_some {b b' : Bitmap} {n : Nat} {mem : Bool} (hb : Inv b) (h : setBit b n mem = some b') :
    Inv b' ∧ n ≤ BITMAP_MAX ∧ ∀ m, wt b'.d m = (decide (m = n) || wt b.d m) := by
  unfold setBit at h
  split at h
  · simp at h
  · rename_i b1 hr
    obtain ⟨hi, hw, ht, hmax, hlen⟩ := reserve_some hb hr
    simp only [Option.some.injEq] at h
    subst h
    have key : ∀ m, wt (b1.d.set (n / 32) ((b1.d.getD (n / 32) 0) ||| (1 <<< UInt32.ofNat (n % 32)))) m =
        (decide (m = n) || wt b.d m) := by
      intro m
      rw [wt_set _ _ _ _ hlen]
      split
      · rename_i he
        rw [UInt32.toBitVec_or, BitVec.getLsbD_or, shl_bit _ _ _ (by omega) (by omega), one_bit]
        rw [← he]
        have : (b1.d.getD (m / 32) 0).toBitVec.getLsbD (m % 32) = wt b.d m := by rw [← hw]; rfl
        rw [this]
        by_cases hmn : m = n
        · subst hmn; simp
        · have : ¬ (n % 32 ≤ m % 32 ∧ m % 32 - n % 32 = 0) := by omega
          by_cases h1 : n % 32 ≤ m % 32
          · have h2 : m % 32 - n % 32 ≠ 0 := by omega
            simp [hmn, h2]
          · simp [hmn, h1]
      · rename_i he
        have : m ≠ n := by rintro rfl; exact he rfl
        simp [this, hw]
    refine ⟨⟨?_, ?_, ?_⟩, hmax, key⟩
    · simp only [List.length_set]
      have := hi.top_lt
      split <;> omega
    · intro m hm
      simp only at hm ⊢
      rw [key]
      have h1 : m ≠ n := by rintro rfl; split at hm <;> omega
      have h2 : wt b.d m = false := by
        apply hb.above
        rw [ht] at hm
        split at hm <;> omega
      simp [h1, h2]
    · intro m hm
      simp only at hm
      rw [key] at hm
      simp only [Bool.or_eq_true, decide_eq_true_eq] at hm
      rcases hm with rfl | hm
      · exact hmax
      · exact hb.max m hm

theorem clearBit_spec {b : Bitmap} (n : Nat) (hb : Inv b) :
    Inv (clearBit b n) ∧ ∀ m, wt (clearBit b n).d m = (!decide (m = n) && wt b.d m) := by
  have ht := hb.top_lt
  have same : (∀ m, wt b.d m = (!decide (m = n) && wt b.d m)) ↔ wt b.d n = false := by
    constructor
    · intro h; have := h n; simpa using this
    · intro h m
      by_cases hm : m = n
      · subst hm; simp [h]
      · simp [hm]
  unfold clearBit
  split
  · rename_i h
    refine ⟨hb, same.2 ?_⟩
    rcases h with h | h
    · omega
    · cases hw : wt b.d n with
      | false => rfl
      | true => have := hb.max n hw; omega
  · rename_i h
    split
    · rename_i h2
      exact ⟨hb, same.2 (hb.above n h2)⟩
    · rename_i h2
      have key : ∀ m, wt (b.d.set (n / 32) ((b.d.getD (n / 32) 0) &&& ~~~(1 <<< UInt32.ofNat (n % 32)))) m =
          (!decide (m = n) && wt b.d m) := by
        intro m
        rw [wt_set _ _ _ _ (by omega)]
        split
        · rename_i he
          rw [UInt32.toBitVec_and, BitVec.getLsbD_and, UInt32.toBitVec_not, BitVec.getLsbD_not,
            shl_bit _ _ _ (by omega) (by omega), one_bit, ← he]
          have e : (b.d.getD (m / 32) 0).toBitVec.getLsbD (m % 32) = wt b.d m := rfl
          rw [e]
          have hlt : m % 32 < 32 := by omega
          by_cases hmn : m = n
          · subst hmn; simp
          · by_cases h1 : n % 32 ≤ m % 32
            · have h2 : m % 32 - n % 32 ≠ 0 := by omega
              simp [hmn, h2, hlt]
            · simp [hmn, h1, hlt]
        · rename_i he
          have : m ≠ n := by rintro rfl; exact he rfl
          simp [this]
      have hi : Inv ⟨b.d.set (n / 32) ((b.d.getD (n / 32) 0) &&& ~~~(1 <<< UInt32.ofNat (n % 32))), b.top⟩ := by
        refine ⟨by simpa using ht, fun m hm => ?_, fun m hm => ?_⟩
        · simp only at hm ⊢
          rw [key, hb.above m hm]; simp
        · simp only at hm
          rw [key] at hm
          simp only [Bool.and_eq_true] at hm
          exact hb.max m hm.2
      obtain ⟨r1, r2⟩ := retop_inv hi
      exact ⟨r1, fun m => by rw [r2]; exact key m⟩

theorem zero_spec {b : Bitmap} (hb : Inv b) : Inv (zero b) ∧ (∀ m, wt (zero b).d m = false) := by
  have := hb.top_lt
  refine ⟨⟨by simp [zero]; omega, fun n _ => wt_zeros _ _, fun n hn => ?_⟩, fun m => wt_zeros _ _⟩
  rw [zero] at hn; simp only [wt_zeros] at hn; simp at hn

theorem u8_bit (c : UInt8) (j : Nat) : c.toUInt32.toBitVec.getLsbD j = c.toNat.testBit j := by
  rw [BitVec.getLsbD]
  simp

theorem testBit_u8_ge (c : UInt8) (j : Nat) (h : 8 ≤ j) : c.toNat.testBit j = false := by
  apply Nat.testBit_lt_two_pow
  have := c.toNat_lt
  calc c.toNat < 2 ^ 8 := this
    _ ≤ 2 ^ j := Nat.pow_le_pow_right (by omega) h

theorem ofBE_testBit_cons (c : UInt8) (s : Bytes) (n : Nat) :
    (Wire.ofBE (c :: s)).testBit n =
      if n < 8 * s.length then (Wire.ofBE s).testBit n else c.toNat.testBit (n - 8 * s.length) := by
  rw [Wire.ofBE_cons, show 256 ^ s.length = 2 ^ (8 * s.length) by rw [Nat.pow_mul], Nat.mul_comm]
  apply Nat.testBit_two_pow_mul_add
  have := Wire.ofBE_lt s
  rwa [show 256 ^ s.length = 2 ^ (8 * s.length) by rw [Nat.pow_mul]] at this

theorem ofBE_testBit_ge (s : Bytes) (n : Nat) (h : 8 * s.length ≤ n) : (Wire.ofBE s).testBit n = false := by
  apply Nat.testBit_lt_two_pow
  have := Wire.ofBE_lt s
  rw [show 256 ^ s.length = 2 ^ (8 * s.length) by rw [Nat.pow_mul]] at this
  exact Nat.lt_of_lt_of_le this (Nat.pow_le_pow_right (by omega) h)

theorem fromLoop_spec (s : Bytes) : ∀ (d : List UInt32) (o sh : Nat),
    (s ≠ [] → 32 * o + sh = 8 * (s.length - 1) ∧ sh < 32 ∧ o < d.length) →
    (fromLoop s d o sh).length = d.length ∧
    ∀ n, wt (fromLoop s d o sh) n = (wt d n || (Wire.ofBE s).testBit n) := by
  induction s with
  | nil => intro d o sh _; simp [fromLoop]
  | cons c s ih =>
    intro d o sh h
    obtain ⟨h1, h2, h3⟩ := h (by simp)
    simp only [List.length_cons, Nat.add_sub_cancel] at h1
    have h8 : sh % 8 = 0 := by omega
    unfold fromLoop
    simp only
    have hset : ∀ n, wt (d.set o ((d.getD o 0) ||| (c.toUInt32 <<< UInt32.ofNat sh))) n =
        (wt d n || (decide (8 * s.length ≤ n) && c.toNat.testBit (n - 8 * s.length))) := by
      intro n
      rw [wt_set _ _ _ _ h3]
      split
      · rename_i he
        rw [UInt32.toBitVec_or, BitVec.getLsbD_or, shl_bit _ _ _ h2 (by omega), u8_bit, ← he]
        have e : (d.getD (n / 32) 0).toBitVec.getLsbD (n % 32) = wt d n := rfl
        rw [e]
        by_cases hn : sh ≤ n % 32
        · have e1 : 8 * s.length ≤ n := by omega
          have e2 : n - 8 * s.length = n % 32 - sh := by omega
          simp [hn, e1, e2]
        · have e1 : ¬ 8 * s.length ≤ n := by omega
          simp [hn, e1]
      · rename_i he
        by_cases e1 : 8 * s.length ≤ n
        · rw [testBit_u8_ge c (n - 8 * s.length) (by omega)]; simp
        · simp [e1]
    have fin : ∀ n (x : Bool), (x || (decide (8 * s.length ≤ n) && c.toNat.testBit (n - 8 * s.length)) ||
        (Wire.ofBE s).testBit n) = (x || (Wire.ofBE (c :: s)).testBit n) := by
      intro n x
      rw [ofBE_testBit_cons]
      split
      · rename_i hlt; simp [Nat.not_le.2 hlt]
      · rename_i hlt; rw [ofBE_testBit_ge s n (by omega)]; simp [Nat.not_lt.1 hlt]
    split
    · rename_i hs
      obtain ⟨i1, i2⟩ := ih (d.set o ((d.getD o 0) ||| (c.toUInt32 <<< UInt32.ofNat sh))) (o - 1) 24 (by
        intro hne
        have : 0 < s.length := List.length_pos_iff.2 hne
        refine ⟨by omega, by omega, by simp only [List.length_set]; omega⟩)
      refine ⟨by simpa using i1, fun n => ?_⟩
      rw [i2, hset, fin]
    · rename_i hs
      obtain ⟨i1, i2⟩ := ih (d.set o ((d.getD o 0) ||| (c.toUInt32 <<< UInt32.ofNat sh))) o (sh - 8) (by
        intro hne
        have : 0 < s.length := List.length_pos_iff.2 hne
        refine ⟨by omega, by omega, by simp only [List.length_set]; omega⟩)
      refine ⟨by simpa using i1, fun n => ?_⟩
      rw [i2, hset, fin]

theorem fromString_some {b b' : Bitmap} {s : Bytes} {mem : Bool} (hb : Inv b) (h : fromString b s mem = some b') :
    Inv b' ∧ s.length ≤ BITMAP_MAX / 8 ∧ ∀ n, wt b'.d n = (Wire.ofBE s).testBit n := by
  unfold fromString at h
  simp only at h
  split at h
  · simp at h
  · rename_i hl
    split at h
    · simp at h
    · rename_i b1 hr
      obtain ⟨hi, hw, ht, hmax, hlen⟩ := reserve_some hb hr
      obtain ⟨zi, zw⟩ := zero_spec hi
      split at h
      · rename_i h0
        simp only [Option.some.injEq] at h
        subst h
        refine ⟨zi, by omega, fun n => ?_⟩
        rw [zw, ofBE_testBit_ge s n (by omega)]
      · rename_i h0
        simp only [Option.some.injEq] at h
        subst h
        have hlen' : (zero b1).d.length = b1.d.length := by simp [zero]
        obtain ⟨f1, f2⟩ := fromLoop_spec s (zero b1).d ((s.length + 3) / 4 - 1) ((s.length + 3) % 4 * 8) (by
          intro _
          refine ⟨by omega, by omega, by rw [hlen']; omega⟩)
        have hw2 : ∀ n, wt (fromLoop s (zero b1).d ((s.length + 3) / 4 - 1) ((s.length + 3) % 4 * 8)) n =
            (Wire.ofBE s).testBit n := by
          intro n; rw [f2, zw]; simp
        have hi2 : Inv ⟨fromLoop s (zero b1).d ((s.length + 3) / 4 - 1) ((s.length + 3) % 4 * 8),
            (s.length + 3) / 4 - 1⟩ := by
          refine ⟨by simp only; rw [f1, hlen']; omega, fun n hn => ?_, fun n hn => ?_⟩
          · simp only at hn ⊢
            rw [hw2, ofBE_testBit_ge s n (by omega)]
          · simp only at hn
            rw [hw2] at hn
            by_cases hc : 8 * s.length ≤ n
            · rw [ofBE_testBit_ge s n hc] at hn; simp at hn
            · omega
        obtain ⟨r1, r2⟩ := retop_inv hi2
        exact ⟨r1, by omega, fun n => by rw [r2]; exact hw2 n⟩

/-! ### Number of bits -/

theorem exists_top (p : Nat → Bool) (N : Nat) (h : ∃ k < N, p k = true) :
    ∃ k < N, p k = true ∧ ∀ j, k < j → j < N → p j = false := by
  induction N with
  | zero => obtain ⟨k, hk, _⟩ := h; omega
  | succ N ih =>
    cases hp : p N with
    | true => exact ⟨N, by omega, hp, fun j h1 h2 => by omega⟩
    | false =>
      obtain ⟨k, hk, hpk⟩ := h
      have : k ≠ N := by rintro rfl; simp [hp] at hpk
      obtain ⟨k', h1, h2, h3⟩ := ih ⟨k, by omega, hpk⟩
      refine ⟨k', by omega, h2, fun j hj1 hj2 => ?_⟩
      by_cases hj : j = N
      · rw [hj]; exact hp
      · exact h3 j hj1 (by omega)

theorem and_top_bit (w : UInt32) : w &&& 0x80000000 = 0 ↔ w.toBitVec.getLsbD 31 = false := by
  constructor
  · intro h
    have := congrArg (fun x : UInt32 => x.toBitVec.getLsbD 31) h
    simpa [BitVec.getLsbD_ofNat] using this
  · intro h
    apply word_ext
    intro j hj
    have hm : ∀ j < 32, (0x80000000 : UInt32).toBitVec.getLsbD j = decide (j = 31) := by decide
    rw [UInt32.toBitVec_and, BitVec.getLsbD_and, hm j hj]
    by_cases hj : j = 31
    · subst hj; rw [h]; simp
    · simp [hj]

theorem shl_one_bit (w : UInt32) (j : Nat) (hj : j < 32) :
    (w <<< 1).toBitVec.getLsbD j = (decide (1 ≤ j) && w.toBitVec.getLsbD (j - 1)) :=
  shl_bit w 1 j (by omega) hj

theorem msbLoop_spec : ∀ (fuel : Nat) (w : UInt32) (bits k : Nat), k < 32 → w.toBitVec.getLsbD k = true →
    (∀ j, k < j → j < 32 → w.toBitVec.getLsbD j = false) → 31 - k < fuel → msbLoop fuel w bits = bits - (31 - k) := by
  intro fuel
  induction fuel with
  | zero => intro w bits k _ _ _ h; omega
  | succ fuel ih =>
    intro w bits k hk hw hab hf
    unfold msbLoop
    by_cases h31 : k = 31
    · subst h31
      rw [if_neg]
      · simp
      · rw [and_top_bit, hw]; simp
    · rw [if_pos ((and_top_bit w).2 (hab 31 (by omega) (by omega)))]
      rw [ih (w <<< 1) (bits - 1) (k + 1) (by omega) (by rw [shl_one_bit _ _ (by omega)]; simp [hw]) ?_ (by omega)]
      · omega
      · intro j h1 h2
        rw [shl_one_bit _ _ h2, hab (j - 1) (by omega) (by omega)]; simp

theorem word_ne_zero {w : UInt32} (h : w ≠ 0) : ∃ k < 32, w.toBitVec.getLsbD k = true := by
  apply Classical.byContradiction
  intro hc
  apply h
  apply word_ext
  intro j hj
  cases hb : w.toBitVec.getLsbD j with
  | true => exact absurd ⟨j, hj, hb⟩ hc
  | false => simp

theorem nbits_spec {b : Bitmap} (hb : Inv b) :
    (∀ n, wt b.d n = true → n < nbits b) ∧ (nbits b ≠ 0 → wt b.d (nbits b - 1) = true) := by
  obtain ⟨ri, rd⟩ := retop_inv hb
  have ht := ri.top_lt
  have hl := lowerTop_spec b.d b.top
  have htop : (retop b).top = lowerTop b.d b.top := by
    have := hb.top_lt
    unfold retop; rw [if_neg (by omega)]
  unfold nbits
  simp only
  rw [if_neg (by omega)]
  split
  · rename_i h
    refine ⟨fun n hn => ?_, fun h => absurd rfl h⟩
    exfalso
    rcases h with h | h
    · omega
    · by_cases hn0 : n / 32 = 0
      · have h2 := h.2
        rw [rd] at h2
        rw [wt, hn0, h2] at hn
        simp at hn
      · have := ri.above n (by omega)
        rw [rd, hn] at this; simp at this
  · rename_i h
    have hne : (retop b).d.getD (retop b).top 0 ≠ 0 := by
      by_cases h0 : (retop b).top = 0
      · rw [h0]
        intro hc
        exact h (.inr ⟨h0, hc⟩)
      · rw [htop] at h0 ⊢
        rw [rd]
        exact hl.2.2 h0
    obtain ⟨k, hk, hk1, hk2⟩ := exists_top _ 32 (word_ne_zero hne)
    rw [msbLoop_spec 32 _ _ k hk hk1 (fun j h1 h2 => hk2 j h1 h2) (by omega)]
    rw [rd, wt_word _ _ _ hk] at hk1
    refine ⟨fun n hn => ?_, fun _ => ?_⟩
    · apply Classical.byContradiction
      intro hc
      by_cases hq : n / 32 = (retop b).top
      · have := hk2 (n % 32) (by omega) (by omega)
        rw [rd, ← hq] at this
        have e : (b.d.getD (n / 32) 0).toBitVec.getLsbD (n % 32) = wt b.d n := rfl
        rw [e, hn] at this; simp at this
      · have := ri.above n (by omega)
        rw [rd, hn] at this; simp at this
    · have e : ((retop b).top + 1) * 32 - (31 - k) - 1 = 32 * (retop b).top + k := by omega
      rw [e]; exact hk1

/-! ### Byte strings -/

theorem ofBE_append_one (a : Bytes) (x : UInt8) : Wire.ofBE (a ++ [x]) = Wire.ofBE a * 256 + x.toNat := by
  simp [Wire.ofBE]

theorem ofBE_reverse_testBit (l : Bytes) (n : Nat) :
    (Wire.ofBE l.reverse).testBit n = (l.getD (n / 8) 0).toNat.testBit (n % 8) := by
  induction l generalizing n with
  | nil => simp
  | cons x l ih =>
    rw [List.reverse_cons, ofBE_append_one, Nat.mul_comm, show 256 = 2 ^ 8 by rfl,
      Nat.testBit_two_pow_mul_add _ (by have := x.toNat_lt; omega)]
    split
    · rename_i h
      have e1 : n / 8 = 0 := by omega
      have e2 : n % 8 = n := by omega
      simp [e1, e2]
    · rename_i h
      rw [ih]
      have e1 : n / 8 = (n - 8) / 8 + 1 := by omega
      have e2 : n % 8 = (n - 8) % 8 := by omega
      rw [e1, e2]; simp

theorem flat_length (d : List UInt32) : (d.flatMap wordBytes).length = 4 * d.length := by
  induction d with
  | nil => rfl
  | cons w d ih => simp [ih, wordBytes]; omega

theorem flat_getD (d : List UInt32) (m : Nat) :
    (d.flatMap wordBytes).getD m 0 = (wordBytes (d.getD (m / 4) 0)).getD (m % 4) 0 := by
  induction d generalizing m with
  | nil =>
    have : ∀ j < 4, (wordBytes 0).getD j 0 = 0 := by decide
    simp only [List.flatMap_nil, List.getD_nil]
    exact (this (m % 4) (by omega)).symm
  | cons w d ih =>
    rw [List.flatMap_cons]
    by_cases h : m < 4
    · have e1 : m / 4 = 0 := by omega
      have e2 : m % 4 = m := by omega
      rw [e1, e2]
      simp only [List.getD_eq_getElem?_getD]
      rw [List.getElem?_append_left (by simp [wordBytes]; omega)]
      simp
    · have e1 : m / 4 = (m - 4) / 4 + 1 := by omega
      have e2 : m % 4 = (m - 4) % 4 := by omega
      rw [e1, e2, List.getD_cons_succ, ← ih]
      simp only [List.getD_eq_getElem?_getD]
      rw [List.getElem?_append_right (by simp [wordBytes]; omega)]
      simp [wordBytes]

theorem u8_of_u32_bit (w : UInt32) (k t : Nat) (hk : k < 32) (ht : t < 8) :
    ((w >>> UInt32.ofNat k).toUInt8).toNat.testBit t = w.toBitVec.getLsbD (k + t) := by
  rw [← shr_bit w k t hk]
  have : ((w >>> UInt32.ofNat k).toUInt8).toNat = (w >>> UInt32.ofNat k).toNat % 2 ^ 8 := by
    simp [UInt32.toNat_toUInt8]
  rw [this, Nat.testBit_mod_two_pow, BitVec.getLsbD]
  simp [ht]

theorem wordBytes_bit (w : UInt32) (j t : Nat) (hj : j < 4) (ht : t < 8) :
    ((wordBytes w).getD j 0).toNat.testBit t = w.toBitVec.getLsbD (8 * j + t) := by
  have : j = 0 ∨ j = 1 ∨ j = 2 ∨ j = 3 := by omega
  rcases this with rfl | rfl | rfl | rfl
  · exact u8_of_u32_bit w 0 t (by omega) ht
  · exact u8_of_u32_bit w 8 t (by omega) ht
  · exact u8_of_u32_bit w 16 t (by omega) ht
  · exact u8_of_u32_bit w 24 t (by omega) ht

theorem wt_take (d : List UInt32) (k n : Nat) (h : n / 32 < k) : wt (d.take k) n = wt d n := by
  unfold wt
  simp [List.getD_eq_getElem?_getD, h]

theorem flat_bit (d : List UInt32) (n : Nat) :
    ((d.flatMap wordBytes).getD (n / 8) 0).toNat.testBit (n % 8) = wt d n := by
  rw [flat_getD, wordBytes_bit _ _ _ (by omega) (by omega), wt]
  have e1 : n / 8 / 4 = n / 32 := by omega
  have e2 : 8 * (n / 8 % 4) + n % 8 = n % 32 := by omega
  rw [e1, e2]

theorem toString_some {b : Bitmap} (hb : Inv b) (l : Nat) (h : nbytes b ≤ l) :
    ∃ s, toString b l = some s ∧ s.length = nbytes b ∧ ∀ n, (Wire.ofBE s).testBit n = wt b.d n := by
  obtain ⟨ri, rd⟩ := retop_inv hb
  have ht := ri.top_lt
  obtain ⟨n1, n2⟩ := nbits_spec hb
  have hneed : nbytes b ≤ 4 * ((retop b).top + 1) := by
    unfold nbytes
    by_cases h0 : nbits b = 0
    · omega
    · have h1 := n2 h0
      have h2 : (nbits b - 1) / 32 ≤ (retop b).top := by
        apply Classical.byContradiction
        intro hc
        have := ri.above (nbits b - 1) (by omega)
        rw [rd, h1] at this; simp at this
      omega
  refine ⟨_, by
    unfold toString
    simp only
    rw [if_neg (by omega)], ?_, ?_⟩
  · rw [List.length_reverse, List.length_take, flat_length, List.length_take]
    omega
  · intro n
    rw [ofBE_reverse_testBit]
    by_cases hn : n / 8 < nbytes b
    · have e : (((List.take ((retop b).top + 1) (retop b).d).flatMap wordBytes).take (nbytes b)).getD (n / 8) 0 =
          ((List.take ((retop b).top + 1) (retop b).d).flatMap wordBytes).getD (n / 8) 0 := by
        simp [List.getD_eq_getElem?_getD, hn]
      rw [e, flat_bit, wt_take _ _ _ (by omega), rd]
    · have e : (((List.take ((retop b).top + 1) (retop b).d).flatMap wordBytes).take (nbytes b)).getD (n / 8) 0 = 0 := by
        rw [List.getD_eq_getElem?_getD, List.getElem?_eq_none]
        · rfl
        · rw [List.length_take]; omega
      rw [e]
      cases hw : wt b.d n with
      | false => simp
      | true =>
        have := n1 n hw
        unfold nbytes at hn
        omega

theorem new_inv : Inv new := by
  have hz : ∀ n, wt new.d n = false := fun n => wt_zeros 1 n
  exact ⟨by decide, fun n _ => hz n, fun n h => by rw [hz] at h; simp at h⟩

end Verif.Bitmap
