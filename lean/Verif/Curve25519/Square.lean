/-
Field operations, selection and freezing.
-/
import Verif.Curve25519.SquareRow

namespace Verif.Curve25519
open Verif

/-! ### Field operations -/

theorem fv_add {n m : Nat} {a b : Limbs} (ha : Bnd n a) (hb : Bnd m b) (hn : n + m ≤ 10000) :
    fv (add a b) = fv a + fv b := by
  unfold fv
  rw [(add_ok ha hb hn).2, Nat.cast_add]

theorem fv_sub {n m : Nat} {a b : Limbs} (ha : Bnd n a) (hb : Bnd m b) (hn : n ≤ 10000) (hm : m ≤ 250) :
    fv (sub a b) = fv a - fv b := by
  have h := congrArg (Nat.cast : Nat → F) (sub_ok ha hb hn hm).2
  rw [Nat.cast_add, Nat.cast_add, Nat.cast_mul, P_zero, mul_zero, add_zero] at h
  exact eq_sub_of_add_eq h

theorem fv_121665 {n : Nat} {a : Limbs} (ha : Bnd n a) (hn : n ≤ 10000) : fv (mult121665 a) = 121665 * fv a := by
  obtain ⟨_, k, h⟩ := mult121665_ok ha hn
  rw [fv_of h, Nat.cast_mul]
  rfl

/-! ### Selection -/

/-- A bit as a number. -/
def bit32 (b : Bool) : UInt32 := if b then 1 else 0

theorem allones (x : UInt32) : ((0 : UInt32) - 1) &&& x = x := by
  apply UInt32.toNat.inj
  rw [UInt32.toNat_and, Nat.and_comm]
  exact (Nat.and_two_pow_sub_one_eq_mod x.toNat 32).trans (Nat.mod_eq_of_lt x.toNat_lt)

theorem selectP_eq (b : Bool) {r s : Limbs} (h : r.length = s.length) : selectP r s (bit32 b) = if b then s else r := by
  unfold selectP
  induction r generalizing s with
  | nil => cases s with
    | nil => cases b <;> rfl
    | cons y s => simp at h
  | cons x r ih => cases s with
    | nil => simp at h
    | cons y s =>
      rw [List.zipWith_cons_cons, ih (by simpa using h)]
      cases b
      · have : bit32 false - 1 = 0 - 1 := rfl
        rw [this, allones]
        simp only [Bool.false_eq_true, if_false]
        congr 1
        rw [UInt32.xor_comm x y, ← UInt32.xor_assoc, UInt32.xor_self, UInt32.zero_xor]
      · have : bit32 true - 1 = 0 := rfl
        rw [this, UInt32.zero_and, UInt32.xor_zero]; rfl

theorem selectQ_eq (b : Bool) {r s : Limbs} (h : r.length = s.length) : selectQ r s (bit32 b) = if b then r else s := by
  unfold selectQ
  induction r generalizing s with
  | nil => cases s with
    | nil => cases b <;> rfl
    | cons y s => simp at h
  | cons x r ih => cases s with
    | nil => simp at h
    | cons y s =>
      rw [List.zipWith_cons_cons, ih (by simpa using h)]
      cases b
      · have : bit32 false - 1 = 0 - 1 := rfl
        rw [this, allones]
        simp only [Bool.false_eq_true, if_false]
        congr 1
        rw [← UInt32.xor_assoc, UInt32.xor_self, UInt32.zero_xor]
      · have : bit32 true - 1 = 0 := rfl
        rw [this, UInt32.zero_and, UInt32.xor_zero]; rfl

/-! ### The result as bytes -/

theorem toLE_add (n v : Nat) : toLE n (v + 256 ^ n) = toLE n v := by
  induction n generalizing v with
  | zero => rfl
  | succ n ih =>
    simp only [toLE]
    rw [pow_succ, Nat.add_mul_mod_self_right, Nat.add_mul_div_right _ _ (by decide), ih]

theorem toUInt8_mod (x : UInt32) : x.toUInt8 = UInt8.ofNat (x.toNat % 256) := by
  apply UInt8.toNat.inj
  rw [UInt32.toNat_toUInt8, UInt8.toNat_ofNat']
  simp

theorem map_bytes (l : List UInt32) (t : UInt32) (h : ∀ x ∈ l, x.toNat < 256) :
    (l ++ [t]).map UInt32.toUInt8 = toLE (l.length + 1) (val (l ++ [t])) := by
  induction l with
  | nil => simp [toLE, val, toUInt8_mod]
  | cons x l ih =>
    have hx := h x (by simp)
    simp only [List.cons_append, List.map_cons, List.length_cons, val]
    rw [ih fun y hy => h y (by simp [hy]), toUInt8_mod, toLE.eq_2 _ (l.length + 1)]
    rw [show (x.toNat + 256 * val (l ++ [t])) % 256 = x.toNat % 256 from by omega,
      show (x.toNat + 256 * val (l ++ [t])) / 256 = val (l ++ [t]) from by omega]

theorem Bnd.bytes {n : Nat} {a : Limbs} (h : Bnd n a) : a.map UInt32.toUInt8 = toLE 32 (val a) := by
  have e := take_top h.len
  have := map_bytes (a.take 31) (top a) h.low
  rw [← e, h.takelen] at this
  exact this

theorem zip_left (o x : List UInt32) (h : o.length = x.length) :
    List.zipWith (fun o x => x ^^^ (((0 : UInt32) - 1) &&& (o ^^^ x))) o x = o := by
  have := selectP_eq false h
  exact this

theorem zip_right (o x : List UInt32) (h : o.length = x.length) :
    List.zipWith (fun o x => x ^^^ (((0 : UInt32) - 0) &&& (o ^^^ x))) o x = x := by
  have := selectP_eq true h
  exact this

theorem minusp_ok : Bnd 128 minusp ∧ val minusp = 19 + 128 * 256 ^ 31 := by
  refine ⟨⟨by decide, by decide, by decide⟩, by simp [minusp, val, List.replicate]⟩

theorem P_eq : P = 57896044618658097711785492504343953926634992332820282019728792003956564819949 := by decide +kernel

theorem pow31 : (256 : Nat) ^ 31 = 452312848583266388373324160190187140051835877600158453279131187530910662656 := by decide +kernel

theorem freeze_small {v l t t' l' : Nat} (h1 : v = l + 256 ^ 31 * t) (hl : l < 256 ^ 31) (ht : t ≤ 128)
    (h2 : v + (19 + 128 * 256 ^ 31) = l' + 256 ^ 31 * t') (hl' : l' < 256 ^ 31) (hV : v < P) : t' / 128 % 2 = 1 := by
  rw [pow31] at *
  rw [P_eq] at hV
  omega

theorem freeze_big {v l t t' l' : Nat} (h1 : v = l + 256 ^ 31 * t) (hl : l < 256 ^ 31) (ht : t ≤ 128)
    (h2 : v + (19 + 128 * 256 ^ 31) = l' + 256 ^ 31 * t') (hl' : l' < 256 ^ 31) (hV : ¬ v < P) :
    t' / 128 % 2 = 0 ∧ v - P < P ∧ v + (19 + 128 * 256 ^ 31) = (v - P) + 256 ^ 32 := by
  rw [show (256 : Nat) ^ 32 = 256 ^ 31 * 256 from rfl, pow31] at *
  rw [P_eq] at *
  omega

theorem freeze_ok {a : Limbs} (ha : Bnd 128 a) : (freeze a).map UInt32.toUInt8 = toLE 32 (val a % P) := by
  obtain ⟨m1, m2⟩ := minusp_ok
  obtain ⟨b1, b2⟩ := add_ok ha m1 (by decide)
  rw [m2] at b2
  have hl : a.length = (add a minusp).length := by rw [ha.len, b1.len]
  have v1 := val_top ha.len
  have v2 := val_top b1.len
  have l1 := val_lt ha.low
  have l2 := val_lt b1.low
  rw [ha.takelen] at l1
  rw [b1.takelen] at l2
  have t1 := ha.high
  rw [b2] at v2
  have hbit : ((top (add a minusp) >>> 7) &&& 1).toNat = (top (add a minusp)).toNat / 128 % 2 := by
    rw [UInt32.toNat_and, shr7]
    exact Nat.and_two_pow_sub_one_eq_mod _ 1
  unfold freeze
  by_cases hV : val a < P
  · have hone : (top (add a minusp) >>> 7) &&& 1 = 1 := UInt32.toNat.inj (by
      rw [hbit]
      exact freeze_small v1 l1 t1 v2 l2 hV)
    rw [hone, zip_left _ _ hl, ha.bytes, Nat.mod_eq_of_lt hV]
  · obtain ⟨f1, f2, f3⟩ := freeze_big v1 l1 t1 v2 l2 hV
    have hzero : (top (add a minusp) >>> 7) &&& 1 = 0 := UInt32.toNat.inj (by
      rw [hbit]
      exact f1)
    rw [hzero, zip_right _ _ hl, b1.bytes, b2, f3, toLE_add, Nat.mod_eq_sub_mod (Nat.le_of_not_lt hV), Nat.mod_eq_of_lt f2]

end Verif.Curve25519
