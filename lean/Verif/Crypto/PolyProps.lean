/-
C43: the limb implementation computes Poly1305 as specified in RFC 8439.
-/
import Verif.Crypto.Poly
import Mathlib.Tactic.Ring

namespace Verif.Crypto.Poly
open Verif

/-! ## Specification (RFC 8439, section 2.5) -/

/-- A little-endian number. -/
def leNum : Bytes → Nat
  | [] => 0
  | c :: r => c.toNat + 256 * leNum r

/-- The prime. -/
def prime : Nat := 2 ^ 130 - 5

/-- Clamping: bytes 3, 7, 11, 15 lose their top four bits, bytes 4, 8, 12 their bottom two. -/
def clampByte (i : Nat) (c : UInt8) : UInt8 :=
  if i = 3 ∨ i = 7 ∨ i = 11 ∨ i = 15 then UInt8.ofNat (c.toNat % 16)
  else if i = 4 ∨ i = 8 ∨ i = 12 then UInt8.ofNat (c.toNat / 4 * 4)
  else c

/-- The number `r`. -/
def rOf (key : Bytes) : Nat := leNum ((key.take 16).mapIdx clampByte)

/-- The number `s`. -/
def sOf (key : Bytes) : Nat := leNum ((key.drop 16).take 16)

/-- `Acc r a m b`: starting from accumulator `a`, the message `m` leads to `b` (all modulo the prime).  Each
block of 16 bytes (the last may be shorter) gets a byte 1 appended, is added and multiplied by `r`. -/
inductive Acc (r : Nat) : Nat → Bytes → Nat → Prop where
  | nil (a : Nat) : Acc r a [] a
  | block {a b : Nat} {s m : Bytes} (hs : s.length = 16) (h : Acc r ((a + leNum (s ++ [1])) * r % prime) m b) :
      Acc r a (s ++ m) b
  | last {a : Nat} {s : Bytes} (hs : s.length < 16) (hn : s ≠ []) : Acc r a s ((a + leNum (s ++ [1])) * r % prime)

/-! ## Lemmas on words -/

theorem mask26 (x : Nat) : x &&& 0x3ffffff = x % 67108864 := Nat.and_two_pow_sub_one_eq_mod x 26
theorem shr (x i : Nat) : x >>> i = x / 2 ^ i := Nat.shiftRight_eq_div_pow x i
theorem shl (x i : Nat) : x <<< i = x * 2 ^ i := Nat.shiftLeft_eq x i

/-- `a | (b << i)` with disjoint bits. -/
theorem or_shift {a b i : Nat} (h : a < 2 ^ i) : a ||| (b * 2 ^ i) = a + b * 2 ^ i := by
  rw [Nat.or_comm, ← Nat.shiftLeft_eq, ← Nat.shiftLeft_add_eq_or_of_lt h, Nat.add_comm]

theorem leNum_append (a b : Bytes) : leNum (a ++ b) = leNum a + 256 ^ a.length * leNum b := by
  induction a with
  | nil => simp [leNum]
  | cons c r ih => simp only [List.cons_append, leNum, ih, List.length_cons, Nat.pow_succ]; ring

theorem le32_eq (s : Bytes) (i : Nat) :
    le32 s i = at_ s i + 256 * at_ s (i + 1) + 65536 * at_ s (i + 2) + 16777216 * at_ s (i + 3) ∧
    at_ s i < 256 ∧ at_ s (i + 1) < 256 ∧ at_ s (i + 2) < 256 ∧ at_ s (i + 3) < 256 := by
  have hb : ∀ j, at_ s j < 256 := fun j => UInt8.toNat_lt _
  have h0 := hb i; have h1 := hb (i + 1); have h2 := hb (i + 2); have h3 := hb (i + 3)
  refine ⟨?_, h0, h1, h2, h3⟩
  unfold le32
  rw [shl, shl, shl, or_shift (show at_ s i < 2 ^ 8 by omega),
    or_shift (show at_ s i + at_ s (i + 1) * 2 ^ 8 < 2 ^ 16 by omega),
    or_shift (show at_ s i + at_ s (i + 1) * 2 ^ 8 + at_ s (i + 2) * 2 ^ 16 < 2 ^ 24 by omega)]
  omega

theorem le32_lt (s : Bytes) (i : Nat) : le32 s i < 4294967296 := by
  obtain ⟨h, a, b, c, d⟩ := le32_eq s i
  omega

theorem leNum_step {s : Bytes} (h : 4 ≤ s.length) : leNum s = le32 s 0 + 2 ^ 32 * leNum (s.drop 4) := by
  match s, h with
  | c0 :: c1 :: c2 :: c3 :: r, _ =>
    rw [(le32_eq _ 0).1]
    simp only [leNum, at_, List.getD_cons_zero, List.getD_cons_succ, List.drop_succ_cons, List.drop_zero]
    omega

theorem le32_drop (s : Bytes) (k i : Nat) : le32 (s.drop k) i = le32 s (k + i) := by
  have h : ∀ j, at_ (s.drop k) j = at_ s (k + j) := by
    intro j
    simp [at_, List.getD_eq_getElem?_getD, List.getElem?_drop]
  unfold le32
  rw [h, h, h, h]
  simp only [Nat.add_assoc]

/-- The number of sixteen bytes from its four words. -/
theorem leNum_words {s : Bytes} (h : s.length = 16) :
    leNum s = le32 s 0 + 2 ^ 32 * le32 s 4 + 2 ^ 64 * le32 s 8 + 2 ^ 96 * le32 s 12 := by
  rw [leNum_step (s := s) (by omega), leNum_step (s := s.drop 4) (by rw [List.length_drop]; omega),
    leNum_step (s := (s.drop 4).drop 4) (by simp only [List.length_drop]; omega),
    leNum_step (s := ((s.drop 4).drop 4).drop 4) (by simp only [List.length_drop]; omega)]
  have e : (((s.drop 4).drop 4).drop 4).drop 4 = [] := by
    apply List.drop_eq_nil_of_le; simp only [List.length_drop]; omega
  rw [e]
  simp only [List.drop_drop, le32_drop, leNum]
  ring_nf

/-- The number five limbs stand for. -/
def val (h : Limbs) : Nat := h.l0 + 2 ^ 26 * h.l1 + 2 ^ 52 * h.l2 + 2 ^ 78 * h.l3 + 2 ^ 104 * h.l4

/-! ### The key -/

/-- Splitting an `and` at bit `i`. -/
theorem and_split (x a b i : Nat) (ha : a < 2 ^ i) :
    x &&& (a + b * 2 ^ i) = (x % 2 ^ i &&& a) + (x / 2 ^ i &&& b) * 2 ^ i := by
  have hl : (x % 2 ^ i &&& a) < 2 ^ i := Nat.lt_of_le_of_lt Nat.and_le_right ha
  rw [← or_shift ha, ← or_shift hl, ← Nat.shiftLeft_eq, ← Nat.shiftLeft_eq]
  apply Nat.eq_of_testBit_eq
  intro j
  simp only [Nat.testBit_and, Nat.testBit_or, Nat.testBit_shiftLeft, Nat.testBit_mod_two_pow,
    Nat.testBit_div_two_pow]
  by_cases hj : j < i
  · have : ¬ i ≤ j := by omega
    simp [hj, this]
  · have hij : i ≤ j := by omega
    have : a.testBit j = false := Nat.testBit_lt_two_pow (Nat.lt_of_lt_of_le ha (Nat.pow_le_pow_right (by omega) hij))
    simp [hj, hij, this, Nat.sub_add_cancel hij]

theorem mask_r1 (x : Nat) : x &&& 0x3ffff03 = x % 4 + x / 256 % 262144 * 256 := by
  have h := and_split x 3 0x3ffff 8 (by decide)
  rw [show 3 + 0x3ffff * 2 ^ 8 = 0x3ffff03 by decide] at h
  rw [h, Nat.and_two_pow_sub_one_eq_mod _ 2, Nat.and_two_pow_sub_one_eq_mod _ 18]
  omega

theorem mask_r2 (x : Nat) : x &&& 0x3ffc0ff = x % 256 + x / 16384 % 4096 * 16384 := by
  have h := and_split x 0xff 0xfff 14 (by decide)
  rw [show 0xff + 0xfff * 2 ^ 14 = 0x3ffc0ff by decide] at h
  rw [h, Nat.and_two_pow_sub_one_eq_mod _ 8, Nat.and_two_pow_sub_one_eq_mod _ 12]
  omega

theorem mask_r3 (x : Nat) : x &&& 0x3f03fff = x % 16384 + x / 1048576 % 64 * 1048576 := by
  have h := and_split x 0x3fff 0x3f 20 (by decide)
  rw [show 0x3fff + 0x3f * 2 ^ 20 = 0x3f03fff by decide] at h
  rw [h, Nat.and_two_pow_sub_one_eq_mod _ 14, Nat.and_two_pow_sub_one_eq_mod _ 6]
  omega

/-- `(a >> i) | (uint32)(b << j)` with `i + j = 32`. -/
theorem join32 {a b i j : Nat} (hij : i + j = 32) (ha : a < 2 ^ 32) :
    (a >>> i) ||| u32 (b <<< j) = a / 2 ^ i + b * 2 ^ j % 4294967296 := by
  have e : b * 2 ^ j % 4294967296 = b % 2 ^ i * 2 ^ j := by
    rw [show 4294967296 = 2 ^ i * 2 ^ j by rw [← Nat.pow_add, hij], Nat.mul_mod_mul_right]
  rw [shr, shl, u32, e]
  apply or_shift
  rw [Nat.div_lt_iff_lt_mul (Nat.two_pow_pos i), ← Nat.pow_add, Nat.add_comm j i, hij]
  exact ha

/-- The limbs of the key. -/
def keyBound (r : Limbs) : Prop :=
  r.l0 < 67108864 ∧ r.l1 < 67108864 ∧ r.l2 < 67108864 ∧ r.l3 < 67108864 ∧ r.l4 < 1048576

theorem clamp_val {t0 t1 t2 t3 : Nat} (h0 : t0 < 4294967296) (h1 : t1 < 4294967296) (h2 : t2 < 4294967296)
    (h3 : t3 < 4294967296) :
    val (clampLimbs t0 t1 t2 t3) = t0 % 2 ^ 28 + 2 ^ 32 * (t1 / 4 * 4 % 2 ^ 28) + 2 ^ 64 * (t2 / 4 * 4 % 2 ^ 28) +
      2 ^ 96 * (t3 / 4 * 4 % 2 ^ 28) ∧ keyBound (clampLimbs t0 t1 t2 t3) := by
  unfold val keyBound clampLimbs
  rw [join32 (by decide) h0, join32 (by decide) h1, join32 (by decide) h2, mask_r1, mask_r2, mask_r3, mask26,
    Nat.and_two_pow_sub_one_eq_mod _ 20, shr]
  have a1 : (t0 / 2 ^ 26 + t1 * 2 ^ 6 % 4294967296) % 4 = t0 / 67108864 % 4 := by omega
  have a2 : (t0 / 2 ^ 26 + t1 * 2 ^ 6 % 4294967296) / 256 % 262144 = t1 / 4 % 262144 := by omega
  have a3 : (t1 / 2 ^ 20 + t2 * 2 ^ 12 % 4294967296) % 256 = t1 / 1048576 % 256 := by omega
  have a4 : (t1 / 2 ^ 20 + t2 * 2 ^ 12 % 4294967296) / 16384 % 4096 = t2 / 4 % 4096 := by omega
  have a5 : (t2 / 2 ^ 14 + t3 * 2 ^ 18 % 4294967296) % 16384 = t2 / 16384 % 16384 := by omega
  have a6 : (t2 / 2 ^ 14 + t3 * 2 ^ 18 % 4294967296) / 1048576 % 64 = t3 / 4 % 64 := by omega
  simp only [a1, a2, a3, a4, a5, a6]
  clear a1 a2 a3 a4 a5 a6
  refine ⟨?_, ?_⟩
  · have b0 : t0 % 2 ^ 28 = t0 % 67108864 + 67108864 * (t0 / 67108864 % 4) := by omega
    have b1 : t1 / 4 * 4 % 2 ^ 28 = 4 * (t1 / 4 % 262144) + 1048576 * (t1 / 1048576 % 256) := by omega
    have b2 : t2 / 4 * 4 % 2 ^ 28 = 4 * (t2 / 4 % 4096) + 16384 * (t2 / 16384 % 16384) := by omega
    have b3 : t3 / 4 * 4 % 2 ^ 28 = 4 * (t3 / 4 % 64) + 256 * (t3 / 2 ^ 8 % 2 ^ 20) := by omega
    rw [b0, b1, b2, b3]
    ring
  · omega

theorem at_mapIdx (f : Nat → UInt8 → UInt8) (h0 : ∀ i, f i 0 = 0) (s : Bytes) (i : Nat) :
    at_ (s.mapIdx f) i = (f i (s.getD i 0)).toNat := by
  unfold at_
  rw [List.getD_eq_getElem?_getD, List.getElem?_mapIdx, List.getD_eq_getElem?_getD]
  cases s[i]? with
  | none => simp [h0]
  | some c => rfl

theorem clampByte_zero (i : Nat) : clampByte i 0 = 0 := by
  unfold clampByte
  split
  · rfl
  · split <;> rfl

theorem clampByte_top {i : Nat} (h : i = 3 ∨ i = 7 ∨ i = 11 ∨ i = 15) (c : UInt8) :
    (clampByte i c).toNat = c.toNat % 16 := by
  rw [clampByte, if_pos h, UInt8.toNat_ofNat']; omega

theorem clampByte_low {i : Nat} (h : i = 4 ∨ i = 8 ∨ i = 12) (c : UInt8) :
    (clampByte i c).toNat = c.toNat / 4 * 4 := by
  have := c.toNat_lt
  rw [clampByte, if_neg (by omega), if_pos h, UInt8.toNat_ofNat']; omega

theorem clampByte_mid {i : Nat} (h : ¬ (i = 3 ∨ i = 7 ∨ i = 11 ∨ i = 15)) (h' : ¬ (i = 4 ∨ i = 8 ∨ i = 12))
    (c : UInt8) : (clampByte i c).toNat = c.toNat := by
  rw [clampByte, if_neg h, if_neg h']

theorem at_take (s : Bytes) {n i : Nat} (h : i < n) : at_ (s.take n) i = at_ s i := by
  simp [at_, List.getD_eq_getElem?_getD, List.getElem?_take, h]

theorem key_val {key : Bytes} (hk : key.length = 32) : val (keyLimbs key) = rOf key ∧ keyBound (keyLimbs key) := by
  have h := clamp_val (le32_lt key 0) (le32_lt key 4) (le32_lt key 8) (le32_lt key 12)
  refine ⟨?_, h.2⟩
  refine h.1.trans ?_
  have hlen : ((key.take 16).mapIdx clampByte).length = 16 := by
    rw [List.length_mapIdx, List.length_take]; omega
  have ha : ∀ i, i < 16 → at_ ((key.take 16).mapIdx clampByte) i = (clampByte i (key.getD i 0)).toNat := by
    intro i hi
    rw [at_mapIdx _ clampByte_zero]
    simp [List.getD_eq_getElem?_getD, List.getElem?_take, hi]
  have hw : ∀ i, i = 0 → le32 ((key.take 16).mapIdx clampByte) i = le32 key i % 2 ^ 28 := by
    intro i hi
    obtain ⟨e, b0, b1, b2, b3⟩ := le32_eq key i
    rw [e, (le32_eq _ i).1, ha i (by omega), ha (i + 1) (by omega), ha (i + 2) (by omega), ha (i + 3) (by omega),
      clampByte_top (i := i + 3) (by omega), clampByte_mid (by omega) (by omega), clampByte_mid (by omega) (by omega),
      clampByte_mid (by omega) (by omega)]
    unfold at_ at *
    omega
  have hw' : ∀ i, i = 4 ∨ i = 8 ∨ i = 12 → le32 ((key.take 16).mapIdx clampByte) i = le32 key i / 4 * 4 % 2 ^ 28 := by
    intro i hi
    obtain ⟨e, b0, b1, b2, b3⟩ := le32_eq key i
    rw [e, (le32_eq _ i).1, ha i (by omega), ha (i + 1) (by omega), ha (i + 2) (by omega), ha (i + 3) (by omega),
      clampByte_low (by omega), clampByte_top (i := i + 3) (by omega), clampByte_mid (by omega) (by omega),
      clampByte_mid (by omega) (by omega)]
    unfold at_ at *
    omega
  unfold rOf
  rw [leNum_words hlen, hw 0 rfl, hw' 4 (by omega), hw' 8 (by omega), hw' 12 (by omega)]

/-! ### Adding -/

/-- Before a block is added. -/
def Small (h : Limbs) : Prop :=
  h.l0 ≤ 42 * 67108864 ∧ h.l1 < 67108864 ∧ h.l2 < 67108864 ∧ h.l3 < 67108864 ∧ h.l4 < 67108864

/-- After it was added. -/
def Medium (h : Limbs) : Prop :=
  h.l0 ≤ 43 * 67108864 ∧ h.l1 ≤ 2 * 67108864 ∧ h.l2 ≤ 2 * 67108864 ∧ h.l3 ≤ 2 * 67108864 ∧
    h.l4 ≤ 67108864 + 33554432

theorem or64 {a b : Nat} (h : a < 4294967296) : ((b <<< 32) ||| a) = a + b * 4294967296 := by
  rw [Nat.or_comm, shl]
  exact or_shift h

theorem add_val {h : Limbs} (hs : Small h) {t0 t1 t2 t3 hi : Nat} (h0 : t0 < 4294967296) (h1 : t1 < 4294967296)
    (h2 : t2 < 4294967296) (h3 : t3 < 4294967296) (hh : hi = 0 ∨ hi = 16777216) :
    val (addLimbs h t0 t1 t2 t3 hi) = val h + (t0 + 2 ^ 32 * t1 + 2 ^ 64 * t2 + 2 ^ 96 * t3 + 2 ^ 104 * hi) ∧
      Medium (addLimbs h t0 t1 t2 t3 hi) := by
  obtain ⟨s0, s1, s2, s3, s4⟩ := hs
  have e4 : (t3 / 2 ^ 8) ||| hi = t3 / 256 + hi := by
    cases hh with
    | inl e => subst e; simp
    | inr e =>
      subst e
      rw [show 16777216 = 1 * 2 ^ 24 by decide, or_shift (by omega)]
      rfl
  unfold val Medium addLimbs
  simp only [or64 h0, or64 h1, or64 h2, shr, mask26, e4, u32]
  have c1 : (t0 + t1 * 4294967296) / 2 ^ 26 % 67108864 = t0 / 67108864 + 64 * (t1 % 1048576) := by omega
  have c2 : (t1 + t2 * 4294967296) / 2 ^ 20 % 67108864 = t1 / 1048576 + 4096 * (t2 % 16384) := by omega
  have c3 : (t2 + t3 * 4294967296) / 2 ^ 14 % 67108864 = t2 / 16384 + 262144 * (t3 % 256) := by omega
  rw [c1, c2, c3]
  clear c1 c2 c3 e4
  rw [Nat.mod_eq_of_lt (show h.l0 + t0 % 67108864 < 4294967296 by omega),
    Nat.mod_eq_of_lt (show h.l1 + (t0 / 67108864 + 64 * (t1 % 1048576)) < 4294967296 by omega),
    Nat.mod_eq_of_lt (show h.l2 + (t1 / 1048576 + 4096 * (t2 % 16384)) < 4294967296 by omega),
    Nat.mod_eq_of_lt (show h.l3 + (t2 / 16384 + 262144 * (t3 % 256)) < 4294967296 by omega),
    Nat.mod_eq_of_lt (show h.l4 + (t3 / 256 + hi) < 4294967296 by omega)]
  omega

/-! ### Multiplying -/

/-- After the products. -/
def Large (t : Limbs) : Prop :=
  t.l0 < 128 * 4503599627370496 ∧ t.l1 < 63 * 4503599627370496 ∧ t.l2 < 63 * 4503599627370496 ∧
    t.l3 < 63 * 4503599627370496 ∧ t.l4 ≤ 15 * 2251799813685248 + 43 * 70368744177664

theorem five_eq {r : Nat} (h : r < 67108864) : five r = 5 * r := by
  unfold five u32; omega

theorem products_val {h r : Limbs} (hm : Medium h) (hk : keyBound r) :
    (∃ x, val (products h r) + prime * x = val h * val r) ∧ Large (products h r) := by
  obtain ⟨m0, m1, m2, m3, m4⟩ := hm
  obtain ⟨k0, k1, k2, k3, k4⟩ := hk
  have b : ∀ {a b c d : Nat}, a ≤ c → b ≤ d → a * b ≤ c * d := fun h h' => Nat.mul_le_mul h h'
  obtain ⟨h0, h1, h2, h3, h4⟩ := h
  obtain ⟨r0, r1, r2, r3, r4⟩ := r
  simp only at m0 m1 m2 m3 m4 k0 k1 k2 k3 k4
  unfold products
  simp only [five_eq k1, five_eq k2, five_eq k3, five_eq (show r4 < 67108864 by omega), u64]
  have a00 := b m0 (Nat.le_of_lt k0); have a01 := b m0 (Nat.le_of_lt k1); have a02 := b m0 (Nat.le_of_lt k2)
  have a03 := b m0 (Nat.le_of_lt k3); have a04 := b m0 (Nat.le_of_lt k4)
  have a10 := b m1 (Nat.le_of_lt k0); have a11 := b m1 (Nat.le_of_lt k1); have a12 := b m1 (Nat.le_of_lt k2)
  have a13 := b m1 (Nat.le_of_lt k3); have a14 := b m1 (Nat.le_of_lt k4)
  have a20 := b m2 (Nat.le_of_lt k0); have a21 := b m2 (Nat.le_of_lt k1); have a22 := b m2 (Nat.le_of_lt k2)
  have a23 := b m2 (Nat.le_of_lt k3); have a24 := b m2 (Nat.le_of_lt k4)
  have a30 := b m3 (Nat.le_of_lt k0); have a31 := b m3 (Nat.le_of_lt k1); have a32 := b m3 (Nat.le_of_lt k2)
  have a33 := b m3 (Nat.le_of_lt k3); have a34 := b m3 (Nat.le_of_lt k4)
  have a40 := b m4 (Nat.le_of_lt k0); have a41 := b m4 (Nat.le_of_lt k1); have a42 := b m4 (Nat.le_of_lt k2)
  have a43 := b m4 (Nat.le_of_lt k3); have a44 := b m4 (Nat.le_of_lt k4)
  have e : ∀ x y : Nat, x * (5 * y) = 5 * (x * y) := fun x y => by ring
  simp only [e]
  have v : ∀ a b c d e : Nat, val ⟨a, b, c, d, e⟩ = a + 2 ^ 26 * b + 2 ^ 52 * c + 2 ^ 78 * d + 2 ^ 104 * e :=
    fun _ _ _ _ _ => rfl
  simp only [v]
  rw [Nat.mod_eq_of_lt (a := h0 * r0 + _ + _ + _ + _) (by omega),
    Nat.mod_eq_of_lt (a := h0 * r1 + _ + _ + _ + _) (by omega),
    Nat.mod_eq_of_lt (a := h0 * r2 + _ + _ + _ + _) (by omega),
    Nat.mod_eq_of_lt (a := h0 * r3 + _ + _ + _ + _) (by omega),
    Nat.mod_eq_of_lt (a := h0 * r4 + _ + _ + _ + _) (by omega)]
  refine ⟨⟨(h1 * r4 + h2 * r3 + h3 * r2 + h4 * r1) + 2 ^ 26 * (h2 * r4 + h3 * r3 + h4 * r2) +
    2 ^ 52 * (h3 * r4 + h4 * r3) + 2 ^ 78 * (h4 * r4), ?_⟩, ?_⟩
  · rw [show prime = 1361129467683753853853498429727072845819 by decide]
    ring
  · unfold Large
    simp only
    omega

theorem carry_val {t : Limbs} (h : Large t) : (∃ x, val (carry t) + prime * x = val t) ∧ Small (carry t) := by
  obtain ⟨b0, b1, b2, b3, b4⟩ := h
  have e1 : t1 t = t.l1 + t.l0 / 67108864 := by
    unfold t1 u64; rw [shr]; omega
  have c1 : t1 t < 288230376151711744 := by rw [e1]; omega
  have e2 : t2 t = t.l2 + t1 t / 67108864 := by
    unfold t2 u64 u32; rw [shr]; omega
  have c2 : t2 t < 288230376151711744 := by rw [e2]; omega
  have e3 : t3 t = t.l3 + t2 t / 67108864 := by
    unfold t3 u64 u32; rw [shr]; omega
  have c3 : t3 t < 288230376151711744 := by rw [e3]; omega
  have e4 : t4 t = t.l4 + t3 t / 67108864 := by
    unfold t4 u64 u32; rw [shr]; omega
  have c4 : t4 t ≤ 15 * 2251799813685248 + 43 * 70368744177664 + 4294967296 := by rw [e4]; omega
  unfold val Small carry
  simp only [mask26, shr, u32]
  have d0 : (t.l0 % 4294967296 % 67108864 + t4 t / 2 ^ 26 % 4294967296 * 5 % 4294967296) % 4294967296 =
      t.l0 % 67108864 + 5 * (t4 t / 67108864) := by omega
  have d1 : t1 t % 4294967296 % 67108864 = t1 t % 67108864 := by omega
  have d2 : t2 t % 4294967296 % 67108864 = t2 t % 67108864 := by omega
  have d3 : t3 t % 4294967296 % 67108864 = t3 t % 67108864 := by omega
  have d4 : t4 t % 4294967296 % 67108864 = t4 t % 67108864 := by omega
  rw [d0, d1, d2, d3, d4]
  clear d0 d1 d2 d3 d4
  refine ⟨⟨t4 t / 67108864, ?_⟩, ?_⟩
  · rw [show prime = 1361129467683753853853498429727072845819 by decide]
    omega
  · omega

theorem mod_of_add {a b x : Nat} (h : a + prime * x = b) : a % prime = b % prime := by
  rw [← h, Nat.add_mul_mod_self_left]

theorem absorb_val {r h : Limbs} {s : Bytes} {hi : Nat} (hk : keyBound r) (hs : Small h) (hl : s.length = 16)
    (hh : hi = 0 ∨ hi = 16777216) :
    val (absorb r h s hi) % prime = (val h + (leNum s + 2 ^ 104 * hi)) * val r % prime ∧ Small (absorb r h s hi) := by
  obtain ⟨ev, hm⟩ := add_val hs (le32_lt s 0) (le32_lt s 4) (le32_lt s 8) (le32_lt s 12) hh
  obtain ⟨⟨x, ex⟩, hL⟩ := products_val hm hk
  obtain ⟨⟨y, ey⟩, hS⟩ := carry_val hL
  refine ⟨?_, hS⟩
  unfold absorb mulLimbs
  rw [mod_of_add ey, mod_of_add ex, ev, leNum_words hl]

/-! ### The message -/

theorem leNum_zeros (n : Nat) : leNum (List.replicate n 0) = 0 := by
  induction n with
  | zero => rfl
  | succ n ih => rw [List.replicate_succ, leNum, ih]; rfl

theorem leNum_one (s : Bytes) : leNum (s ++ [1]) = leNum s + 256 ^ s.length := by
  rw [leNum_append]
  simp [leNum]

theorem lastBlock_num (m : Bytes) : leNum (lastBlock m) = leNum (m ++ [1]) := by
  unfold lastBlock
  rw [leNum_append, leNum, leNum_zeros, leNum_one]
  simp

theorem lastBlock_length {m : Bytes} (h : m.length < 16) : (lastBlock m).length = 16 := by
  unfold lastBlock
  rw [List.length_append, List.length_cons, List.length_replicate]
  omega

theorem mul_mod_congr {a b r : Nat} (h : a % prime = b % prime) (n : Nat) :
    (a + n) * r % prime = (b + n) * r % prime := by
  rw [Nat.mul_mod, Nat.add_mod, h, ← Nat.add_mod, ← Nat.mul_mod]

theorem blocks_val {r : Limbs} (hk : keyBound r) (fuel : Nat) (h : Limbs) (m : Bytes) (a : Nat) (hf : m.length < fuel)
    (hs : Small h) (ha : val h % prime = a % prime) :
    ∃ b, Acc (val r) a m b ∧ val (blocks r fuel h m) % prime = b % prime ∧ Small (blocks r fuel h m) := by
  induction fuel generalizing h m a with
  | zero => omega
  | succ fuel ih =>
    rw [blocks]
    split
    · rename_i hl
      have hl' : m.length ≥ 16 := hl
      have ht : (m.take 16).length = 16 := by rw [List.length_take]; omega
      obtain ⟨hv, hS⟩ := absorb_val hk hs ht (hi := 1 <<< 24) (Or.inr (by decide))
      have e : leNum (m.take 16) + 2 ^ 104 * (1 <<< 24) = leNum (m.take 16 ++ [1]) := by
        rw [leNum_one, ht]
        rfl
      rw [e, mul_mod_congr ha] at hv
      obtain ⟨b, hb, hb'⟩ := ih _ (m.drop 16) ((a + leNum (m.take 16 ++ [1])) * val r % prime)
        (by rw [List.length_drop]; omega) hS (by rw [hv, Nat.mod_mod])
      refine ⟨b, ?_, hb'⟩
      have := Acc.block ht hb
      rwa [List.take_append_drop] at this
    · rename_i hl
      split
      · rename_i h0
        have : m = [] := List.length_eq_zero_iff.mp h0
        subst this
        exact ⟨a, .nil a, ha, hs⟩
      · rename_i h0
        have hl' : m.length < 16 := by omega
        obtain ⟨hv, hS⟩ := absorb_val hk hs (lastBlock_length hl') (hi := 0) (Or.inl rfl)
        rw [Nat.mul_zero, Nat.add_zero, lastBlock_num, mul_mod_congr ha] at hv
        refine ⟨_, .last hl' (fun e => h0 (by rw [e]; rfl)), ?_, hS⟩
        rw [hv, Nat.mod_mod]

/-! ### The end -/

/-- All limbs in range. -/
def Tight (h : Limbs) : Prop :=
  h.l0 < 67108864 ∧ h.l1 < 67108864 ∧ h.l2 < 67108864 ∧ h.l3 < 67108864 ∧ h.l4 < 67108864

theorem settle_val {h : Limbs} (hs : Small h) : val (settle h) % prime = val h % prime ∧ Tight (settle h) := by
  obtain ⟨s0, s1, s2, s3, s4⟩ := hs
  have e1 : p1 h = h.l1 + h.l0 / 67108864 := by unfold p1 u32; rw [shr]; omega
  have e2 : p2 h = h.l2 + p1 h / 67108864 := by unfold p2 u32; rw [shr]; omega
  have e3 : p3 h = h.l3 + p2 h / 67108864 := by unfold p3 u32; rw [shr]; omega
  have e4 : p4 h = h.l4 + p3 h / 67108864 := by unfold p4 u32; rw [shr]; omega
  have e0 : p0 h = h.l0 % 67108864 + 5 * (p4 h / 67108864) := by unfold p0 u32; rw [mask26, shr]; omega
  have el : u32 (p1 h % 67108864 + p0 h / 67108864) = p1 h % 67108864 + p0 h / 67108864 := by unfold u32; omega
  unfold settle Tight
  simp only [mask26, shr, val]
  rw [show (2 : Nat) ^ 26 = 67108864 by decide, el]
  clear el
  refine ⟨?_, ?_⟩
  · apply mod_of_add (x := p4 h / 67108864)
    rw [show prime = 1361129467683753853853498429727072845819 by decide]
    omega
  · omega

theorem and_all {x : Nat} (h : x < 4294967296) : x &&& 4294967295 = x := by
  rw [Nat.and_two_pow_sub_one_eq_mod x 32]
  omega

theorem select_val {h : Limbs} (ht : Tight h) : val (select h) = val h % prime ∧ Tight (select h) := by
  obtain ⟨s0, s1, s2, s3, s4⟩ := ht
  have e0 : g0 h = h.l0 + 5 := by unfold g0 u32; omega
  have e1 : g1 h = h.l1 + g0 h / 67108864 := by unfold g1 u32; rw [shr]; omega
  have e2 : g2 h = h.l2 + g1 h / 67108864 := by unfold g2 u32; rw [shr]; omega
  have e3 : g3 h = h.l3 + g2 h / 67108864 := by unfold g3 u32; rw [shr]; omega
  have ep : prime = 1361129467683753853853498429727072845819 := by decide
  by_cases hc : h.l4 + g3 h / 67108864 ≥ 67108864
  · have e4 : g4 h = h.l4 + g3 h / 67108864 - 67108864 := by unfold g4 u32; rw [shr]; omega
    have hk : keepMask h = 4294967295 := by unfold keepMask u32; rw [shr]; omega
    have hd : dropMask h = 0 := by unfold dropMask; omega
    unfold select Tight
    simp only [hk, hd, Nat.and_zero, Nat.zero_or, mask26, val]
    rw [and_all (by omega), and_all (by omega), and_all (by omega), and_all (by omega), and_all (by omega)]
    refine ⟨?_, by omega⟩
    have hm : h.l0 + 2 ^ 26 * h.l1 + 2 ^ 52 * h.l2 + 2 ^ 78 * h.l3 + 2 ^ 104 * h.l4 =
        (g0 h % 67108864 + 2 ^ 26 * (g1 h % 67108864) + 2 ^ 52 * (g2 h % 67108864) + 2 ^ 78 * (g3 h % 67108864) +
          2 ^ 104 * g4 h) + prime := by
      rw [ep]; omega
    rw [hm, Nat.add_mod_right, Nat.mod_eq_of_lt (b := prime)]
    rw [ep]; omega
  · have e4 : g4 h = h.l4 + g3 h / 67108864 + (4294967296 - 67108864) := by unfold g4 u32; rw [shr]; omega
    have hk : keepMask h = 0 := by unfold keepMask u32; rw [shr]; omega
    have hd : dropMask h = 4294967295 := by unfold dropMask; omega
    unfold select Tight
    simp only [hk, hd, Nat.and_zero, Nat.or_zero, val]
    rw [and_all (by omega), and_all (by omega), and_all (by omega), and_all (by omega), and_all (by omega)]
    refine ⟨?_, by omega⟩
    rw [Nat.mod_eq_of_lt]
    rw [ep]; omega

theorem toBytes_num (v : Nat) : leNum (toBytes v) = v % 4294967296 := by
  simp only [toBytes, leNum, UInt8.toNat_ofNat', shr]
  omega

theorem toBytes_length (v : Nat) : (toBytes v).length = 4 := rfl

theorem writeOut_num {a b c d : Nat} (ha : a < 8589934592) (hb : b < 8589934592) (hc : c < 8589934592)
    (hd : d < 8589934592) :
    (writeOut a b c d).length = 16 ∧
      leNum (writeOut a b c d) = (a + 2 ^ 32 * b + 2 ^ 64 * c + 2 ^ 96 * d) % 2 ^ 128 := by
  refine ⟨rfl, ?_⟩
  unfold writeOut
  rw [leNum_append, leNum_append, leNum_append, toBytes_num, toBytes_num, toBytes_num, toBytes_num]
  simp only [List.length_append, toBytes_length, shr, u64]
  rw [Nat.mod_eq_of_lt (a := b + a / 2 ^ 32) (by omega), Nat.mod_eq_of_lt (a := c + _) (by omega),
    Nat.mod_eq_of_lt (a := d + _) (by omega)]
  omega

theorem finish_num {h : Limbs} (hs : Small h) {key : Bytes} (hk : key.length = 32) :
    (finish h key).length = 16 ∧ leNum (finish h key) = (val h % prime + sOf key) % 2 ^ 128 := by
  obtain ⟨e1, t1⟩ := settle_val hs
  obtain ⟨e2, t2⟩ := select_val t1
  rw [e1] at e2
  obtain ⟨b0, b1, b2, b3, b4⟩ := t2
  have hS : sOf key = le32 key 16 + 2 ^ 32 * le32 key 20 + 2 ^ 64 * le32 key 24 + 2 ^ 96 * le32 key 28 := by
    unfold sOf
    have : (key.drop 16).take 16 = key.drop 16 := List.take_of_length_le (by rw [List.length_drop]; omega)
    rw [this, leNum_words (by rw [List.length_drop]; omega)]
    simp only [le32_drop]
  have k0 := le32_lt key 16; have k1 := le32_lt key 20; have k2 := le32_lt key 24; have k3 := le32_lt key 28
  rw [← e2, hS]
  unfold finish
  generalize select (settle h) = g at *
  generalize le32 key 16 = q0 at *
  generalize le32 key 20 = q1 at *
  generalize le32 key 24 = q2 at *
  generalize le32 key 28 = q3 at *
  have w0 : f0 g q0 = g.l0 + g.l1 % 64 * 67108864 + q0 := by
    have : u32 (g.l1 <<< 26) = g.l1 % 64 * 2 ^ 26 := by unfold u32; rw [shl]; omega
    unfold f0 u64; rw [this, or_shift (by omega)]; omega
  have w1 : f1 g q1 = g.l1 / 64 + g.l2 % 4096 * 1048576 + q1 := by
    have := join32 (a := g.l1) (b := g.l2) (i := 6) (j := 20)
    have : u32 (g.l2 <<< 20) = g.l2 % 4096 * 2 ^ 20 := by unfold u32; rw [shl]; omega
    unfold f1 u64; rw [this, shr, or_shift (by omega)]; omega
  have w2 : f2 g q2 = g.l2 / 4096 + g.l3 % 262144 * 16384 + q2 := by
    have : u32 (g.l3 <<< 14) = g.l3 % 262144 * 2 ^ 14 := by unfold u32; rw [shl]; omega
    unfold f2 u64; rw [this, shr, or_shift (by omega)]; omega
  have w3 : f3 g q3 = g.l3 / 262144 + g.l4 % 16777216 * 256 + q3 := by
    have : u32 (g.l4 <<< 8) = g.l4 % 16777216 * 2 ^ 8 := by unfold u32; rw [shl]; omega
    unfold f3 u64; rw [this, shr, or_shift (by omega)]; omega
  obtain ⟨hl, hn⟩ := writeOut_num (a := f0 g q0) (b := f1 g q1) (c := f2 g q2) (d := f3 g q3)
    (by rw [w0]; omega) (by rw [w1]; omega) (by rw [w2]; omega) (by rw [w3]; omega)
  refine ⟨hl, ?_⟩
  rw [hn, w0, w1, w2, w3, val]
  omega

/-! ## The property -/

/-- **C43.**  For every message and every 32-byte key the code's tag is the Poly1305 tag: sixteen bytes whose
number is the evaluated polynomial plus `s`, modulo 2^128. -/
theorem C43_poly1305 (m key : Bytes) (hk : key.length = 32) :
    ∃ a, Acc (rOf key) 0 m a ∧ (auth m key).length = 16 ∧
      leNum (auth m key) = (a % prime + sOf key) % 2 ^ 128 := by
  obtain ⟨ev, hb⟩ := key_val hk
  obtain ⟨a, ha, hv, hs⟩ := blocks_val hb (m.length + 1) ⟨0, 0, 0, 0, 0⟩ m 0 (by omega)
    (by unfold Small; decide) rfl
  rw [ev] at ha
  refine ⟨a, ha, ?_⟩
  unfold auth
  have := finish_num hs hk
  rw [hv] at this
  exact this

/-- The specification determines the accumulator. -/
theorem acc_unique {r a : Nat} {m : Bytes} {b c : Nat} (h : Acc r a m b) (h' : Acc r a m c) : b = c := by
  induction h generalizing c with
  | nil a =>
    generalize hm : ([] : Bytes) = m at h'
    cases h' with
    | nil => rfl
    | block hs => rw [List.nil_eq_append_iff] at hm; rw [hm.1] at hs; simp at hs
    | last hs hn => exact absurd hm.symm hn
  | @block a b s m hs _ ih =>
    generalize hm : s ++ m = m' at h'
    cases h' with
    | nil => have := congrArg List.length hm; simp [hs] at this
    | @block a b' s' m' hs' h' =>
      obtain ⟨rfl, rfl⟩ := List.append_inj hm (by rw [hs, hs'])
      exact ih h'
    | last hs' hn => have := congrArg List.length hm; rw [List.length_append] at this; omega
  | @last a s hs hn =>
    cases h' with
    | nil => exact absurd rfl hn
    | block hs' => rw [List.length_append] at hs; omega
    | last _ _ => rfl

theorem leNum_inj {a b : Bytes} (hl : a.length = b.length) (h : leNum a = leNum b) : a = b := by
  induction a generalizing b with
  | nil => exact (List.length_eq_zero_iff.mp hl.symm).symm
  | cons c r ih =>
    cases b with
    | nil => simp at hl
    | cons d r' =>
      have := c.toNat_lt; have := d.toNat_lt
      simp only [leNum] at h
      simp only [List.length_cons, Nat.add_right_cancel_iff] at hl
      rw [ih hl (by omega), UInt8.toNat_inj.mp (show c.toNat = d.toNat by omega)]

/-- **C43.**  Hence the tag is determined by the specification alone: sixteen bytes agree with it exactly if they
are what the code computes. -/
theorem C43_poly1305_iff (m key tag : Bytes) (hk : key.length = 32) :
    auth m key = tag ↔
      tag.length = 16 ∧ ∃ a, Acc (rOf key) 0 m a ∧ leNum tag = (a % prime + sOf key) % 2 ^ 128 := by
  obtain ⟨a, ha, hl, hn⟩ := C43_poly1305 m key hk
  constructor
  · rintro rfl
    exact ⟨hl, a, ha, hn⟩
  · rintro ⟨hl', a', ha', hn'⟩
    have := acc_unique ha ha'
    subst this
    exact leNum_inj (by rw [hl, hl']) (by rw [hn, hn'])

/-- RFC 8439, 2.5.2: the test vector. -/
def rfcKey : Bytes := [0x85, 0xd6, 0xbe, 0x78, 0x57, 0x55, 0x6d, 0x33, 0x7f, 0x44, 0x52, 0xfe, 0x42, 0xd5, 0x06, 0xa8,
  0x01, 0x03, 0x80, 0x8a, 0xfb, 0x0d, 0xb2, 0xfd, 0x4a, 0xbf, 0xf6, 0xaf, 0x41, 0x49, 0xf5, 0x1b]

example : rfcKey.length = 32 ∧ rOf rfcKey = 0x806d5400e52447c036d555408bed685 ∧
    sOf rfcKey = 0x1bf54941aff6bf4afdb20dfb8a800301 := by decide +kernel
/-- A message on which the accumulator wraps around the prime and the sum with `s` wraps around 2^128 (RFC 8439,
appendix A.3, vectors 7 and 8 have this shape). -/
example : auth (List.replicate 16 0xff) ([2] ++ List.replicate 15 0 ++ List.replicate 16 0) = 3 :: List.replicate 15 0 := by
  decide +kernel

example : auth b!"Cryptographic Forum Research Group" rfcKey =
    [0xa8, 0x06, 0x1d, 0xc1, 0x30, 0x51, 0x36, 0xc6, 0xc2, 0x2b, 0x8b, 0xaf, 0x0c, 0x01, 0x27, 0xa9] := by
  decide +kernel

end Verif.Crypto.Poly
