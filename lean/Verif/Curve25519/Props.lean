/-
C89: the Curve25519 key agreement.
-/
import Verif.Curve25519.Order

namespace Verif.Curve25519
open Verif

/-! ### Bytes -/

theorem toLE_length (n v : Nat) : (toLE n v).length = n := by
  induction n generalizing v with
  | zero => rfl
  | succ n ih => simp [toLE, ih]

theorem ofLE_toLE (n v : Nat) (h : v < 256 ^ n) : ofLE (toLE n v) = v := by
  induction n generalizing v with
  | zero =>
    have : v = 0 := by simpa using h
    subst this; rfl
  | succ n ih =>
    have h2 : v / 256 < 256 ^ n := by rw [pow_succ] at h; omega
    rw [toLE, ofLE, ih _ h2, UInt8.toNat_ofNat']
    omega

theorem ofLE_append (a b : Bytes) : ofLE (a ++ b) = ofLE a + 256 ^ a.length * ofLE b := by
  induction a with
  | nil => simp [ofLE]
  | cons x a ih => simp only [List.cons_append, ofLE, ih, List.length_cons, pow_succ]; ring

theorem ofLE_lt (a : Bytes) : ofLE a < 256 ^ a.length := by
  induction a with
  | nil => simp [ofLE]
  | cons x a ih =>
    have := UInt8.toNat_lt x
    simp only [ofLE, List.length_cons, pow_succ]
    omega

theorem P_lt : P < 256 ^ 32 := by decide +kernel

/-- The scalar used: a multiple of 8 between 2^254 and 2^255. -/
theorem scalar_facts {n : Bytes} (h : n.length = 32) : 8 ∣ decodeScalar n ∧ 2 ^ 254 ≤ decodeScalar n ∧ decodeScalar n < 2 ^ 255 := by
  have low : ∀ m < 256, (m &&& 248) % 8 = 0 := by decide +kernel
  have high : ∀ m < 256, 64 ≤ ((m &&& 127) ||| 64) ∧ ((m &&& 127) ||| 64) < 128 := by decide +kernel
  unfold decodeScalar
  match n, h with
  | b :: t, h =>
    have ht : t.length = 31 := by simpa using h
    obtain ⟨mid, last, rfl⟩ : ∃ mid last, t = mid ++ [last] := ⟨t.dropLast, t.getLast (by rintro rfl; simp at ht), (List.dropLast_append_getLast _).symm⟩
    have hm : mid.length = 30 := by simpa using ht
    have e1 : (b :: (mid ++ [last])).getD 0 0 = b := rfl
    have e2 : (b :: (mid ++ [last])).getD 31 0 = last := by
      rw [List.getD_cons_succ, List.getD_eq_getElem?_getD, List.getElem?_append_right (by omega), hm]; rfl
    rw [e1, e2, List.set_cons_zero, List.set_cons_succ, List.set_append_right _ _ (by omega), hm]
    have e3 : [last].set (30 - 30) (last &&& 127 ||| 64) = [last &&& 127 ||| 64] := rfl
    rw [e3, ofLE, ofLE_append, hm]
    have l1 := low b.toNat (UInt8.toNat_lt b)
    have l2 := high last.toNat (UInt8.toNat_lt last)
    have t1 : (b &&& 248).toNat = b.toNat &&& 248 := UInt8.toNat_and b 248
    have t2 : (last &&& 127 ||| 64).toNat = (last.toNat &&& 127) ||| 64 := by rw [UInt8.toNat_or, UInt8.toNat_and]; rfl
    have hb : b.toNat &&& 248 < 256 := by rw [← t1]; exact UInt8.toNat_lt _
    have hmid := ofLE_lt mid
    rw [hm] at hmid
    simp only [ofLE, t1, t2]
    generalize b.toNat &&& 248 = x at *
    generalize last.toNat &&& 127 ||| 64 = z at *
    generalize ofLE mid = w at *
    norm_num at *
    omega

/-! ### The function -/

/-- What is computed, for every scalar and every point. -/
theorem C89_value (n p : Bytes) (hn : n.length = 32) (hp : p.length = 32) :
    scalarmult n p = toLE 32 (x25519 (decodeScalar n) (ofLE p)) := scalarmult_eq hn hp

/-- Points whose most significant bit is clear: the function is X25519 of RFC 7748. -/
theorem C89_rfc_partial (n p : Bytes) (hn : n.length = 32) (hp : p.length = 32) (ht : ofLE p < 2 ^ 255) :
    scalarmult n p = X25519 n p := by
  unfold X25519 decodeU
  rw [Nat.mod_eq_of_lt ht, scalarmult_eq hn hp]

theorem scalarmult_val {n p : Bytes} (hn : n.length = 32) (hp : p.length = 32) :
    ofLE (scalarmult n p) = x25519 (decodeScalar n) (ofLE p) := by
  rw [scalarmult_eq hn hp, ofLE_toLE _ _ (Nat.lt_trans (x25519_lt _ _) P_lt)]

/-- The result is 32 bytes and the least number for its residue class. -/
theorem C89_canonical (n p : Bytes) (hn : n.length = 32) (hp : p.length = 32) :
    (scalarmult n p).length = 32 ∧ ofLE (scalarmult n p) < P := by
  refine ⟨?_, ?_⟩
  · rw [scalarmult_eq hn hp, toLE_length]
  · rw [scalarmult_val hn hp]; exact x25519_lt _ _

/-- The result is the first coordinate of the multiple of the point, over every field that contains the integers modulo
2^255 - 19 and a point with the given first coordinate. -/
theorem C89_point {K : Type} [Field K] [DecidableEq K] [Algebra (ZMod P) K] (n p : Bytes) (hn : n.length = 32)
    (hp : p.length = 32) (x y : K) (h : (curve (486662 : K)).Nonsingular x y) (hx : x = (ofLE p : K)) :
    (ofLE (scalarmult n p) : K) = xOr0 (decodeScalar n • WeierstrassCurve.Affine.Point.some x y h) := by
  rw [scalarmult_val hn hp]
  exact x25519_point _ _ (scalar_facts hn).2.2 h hx

/-- For every first coordinate there is such a field and point. -/
theorem C89_point_exists (p : Bytes) : ∃ y : AlgebraicClosure (ZMod P), (curve (486662 : AlgebraicClosure (ZMod P))).Nonsingular (ofLE p : AlgebraicClosure (ZMod P)) y :=
  exists_point (ofLE p)

/-- Both orders of two multiplications give the same result, whatever the point. -/
theorem C89_commute (a b p : Bytes) (ha : a.length = 32) (hb : b.length = 32) (hp : p.length = 32) :
    scalarmult a (scalarmult b p) = scalarmult b (scalarmult a p) := by
  rw [scalarmult_eq ha (C89_canonical b p hb hp).1, scalarmult_eq hb (C89_canonical a p ha hp).1, scalarmult_val hb hp, scalarmult_val ha hp,
    x25519_comm _ _ _ (scalar_facts ha).2.2 (scalar_facts hb).2.2]

/-! ### The key agreement -/

theorem base_length : ((9 : UInt8) :: List.replicate 31 0).length = 32 := by decide

theorem base_value : ofLE ((9 : UInt8) :: List.replicate 31 0) = 9 := by simp [ofLE, List.replicate]

theorem ofLE_zeros (n : Nat) : ofLE (List.replicate n 0) = 0 := by
  induction n with
  | zero => rfl
  | succ n ih => simp [List.replicate_succ, ofLE, ih]

theorem toLE_zero (n : Nat) : toLE n 0 = List.replicate n 0 := by
  induction n with
  | zero => rfl
  | succ n ih => rw [toLE, List.replicate_succ, Nat.zero_div, ih]; rfl

/-- A shared key is refused exactly if the result is zero. -/
theorem refused_iff {k p : Bytes} (hk : k.length = 32) (hp : p.length = 32) :
    sharedKey k p = none ↔ x25519 (decodeScalar k) (ofLE p) = 0 := by
  unfold sharedKey
  constructor
  · intro h
    by_cases hz : scalarmult k p = List.replicate 32 0
    · rw [← scalarmult_val hk hp, hz, ofLE_zeros]
    · rw [if_neg hz] at h; cases h
  · intro h
    rw [if_pos]
    rw [scalarmult_eq hk hp, h, toLE_zero]

theorem base_point_mul {a b : Bytes} (ha : a.length = 32) (hb : b.length = 32) :
    x25519 (decodeScalar a) (x25519 (decodeScalar b) 9) ≠ 0 := by
  intro h0
  obtain ⟨y, hn⟩ := exists_point 9
  obtain ⟨⟨a', ea⟩, a2, a3⟩ := scalar_facts ha
  obtain ⟨⟨b', eb⟩, b2, b3⟩ := scalar_facts hb
  have hm := x25519_mul (decodeScalar a) (decodeScalar b) 9 a3 b3 hn
  rw [h0, Nat.cast_zero] at hm
  have e9 : ((9 : Nat) : Kbar) = 9 := Nat.cast_ofNat
  have hn' : (curve (486662 : Kbar)).Nonsingular (9 : Kbar) y := by rw [← e9]; exact hn
  have hsame : WeierstrassCurve.Affine.Point.some ((9 : Nat) : Kbar) y hn = .some 9 y hn' := by
    congr
  rw [hsame] at hm
  have hord := base_order hn'
  have key : (2 * (decodeScalar a * decodeScalar b)) • WeierstrassCurve.Affine.Point.some (9 : Kbar) y hn' = 0 := by
    rw [mul_smul, two_smul]
    generalize (decodeScalar a * decodeScalar b) • WeierstrassCurve.Affine.Point.some (9 : Kbar) y hn' = Q at *
    cases Q with
    | zero => exact add_zero _
    | some x' y' h' =>
      have hx' : x' = 0 := hm.symm
      subst hx'
      have := eq_curve h'
      exact double_zero h' (by simpa using this)
  have hdvd := addOrderOf_dvd_of_nsmul_eq_zero key
  rw [hord] at hdvd
  have hp := ell_prime
  have hbig : ∀ c : Nat, 0 < c → c < ell → ¬ ell ∣ c := fun c h0 h1 hd => absurd (Nat.le_of_dvd h0 hd) (by omega)
  have e252 : (2 : Nat) ^ 252 < ell := by rw [ell_eq]; decide
  have h8 : ¬ ell ∣ 8 := hbig 8 (by decide) (by rw [ell_eq]; decide)
  have h2 : ¬ ell ∣ 2 := hbig 2 (by decide) (by rw [ell_eq]; decide)
  have p255 : (2 : Nat) ^ 255 = 8 * 2 ^ 252 := by decide +kernel
  have p254 : 0 < (2 : Nat) ^ 254 := by decide +kernel
  have hA : ¬ ell ∣ a' := hbig a' (by omega) (by omega)
  have hB : ¬ ell ∣ b' := hbig b' (by omega) (by omega)
  rw [ea, eb] at hdvd
  rcases (Nat.Prime.dvd_mul hp).mp hdvd with h | h
  · exact h2 h
  · rcases (Nat.Prime.dvd_mul hp).mp h with h | h
    · rcases (Nat.Prime.dvd_mul hp).mp h with h | h
      · exact h8 h
      · exact hA h
    · rcases (Nat.Prime.dvd_mul hp).mp h with h | h
      · exact h8 h
      · exact hB h

/-- Two honest ends always obtain the same secret, and neither refuses. -/
theorem C89_agree (a b : Bytes) (ha : a.length = 32) (hb : b.length = 32) :
    ∃ s, sharedKey a (keygen b) = some s ∧ sharedKey b (keygen a) = some s := by
  have la := (C89_canonical a _ ha base_length).1
  have lb := (C89_canonical b _ hb base_length).1
  have hc : scalarmult b (keygen a) = scalarmult a (keygen b) := (C89_commute a b _ ha hb base_length).symm
  have hne : sharedKey a (keygen b) ≠ none := by
    intro h
    have h := (refused_iff ha lb).mp h
    unfold keygen at h
    rw [scalarmult_val hb base_length, base_value] at h
    exact base_point_mul ha hb h
  obtain ⟨s, hs⟩ := Option.ne_none_iff_exists'.mp hne
  refine ⟨s, hs, ?_⟩
  unfold sharedKey at hs ⊢
  rw [hc]
  exact hs

/-- A peer's value is refused exactly if the multiple of the point is the point at infinity or has first coordinate 0. -/
theorem C89_refused {K : Type} [Field K] [DecidableEq K] [Algebra (ZMod P) K] (k p : Bytes) (hk : k.length = 32)
    (hp : p.length = 32) (x y : K) (h : (curve (486662 : K)).Nonsingular x y) (hx : x = (ofLE p : K)) :
    sharedKey k p = none ↔ xOr0 (decodeScalar k • WeierstrassCurve.Affine.Point.some x y h) = 0 := by
  rw [refused_iff hk hp, ← x25519_point _ _ (scalar_facts hk).2.2 h hx]
  constructor
  · intro h0; rw [h0, Nat.cast_zero]
  · intro h0
    by_contra hne
    exact natCast_ne (K := K) (Nat.pos_of_ne_zero hne) (x25519_lt _ _) h0

/-- Points of small order are always refused: the secret depends on our private key. -/
theorem C89_small_order {K : Type} [Field K] [DecidableEq K] [Algebra (ZMod P) K] (k p : Bytes) (hk : k.length = 32)
    (hp : p.length = 32) (x y : K) (h : (curve (486662 : K)).Nonsingular x y) (hx : x = (ofLE p : K))
    (h8 : 8 • WeierstrassCurve.Affine.Point.some x y h = 0) : sharedKey k p = none := by
  rw [C89_refused k p hk hp x y h hx]
  obtain ⟨⟨k', ek⟩, _, _⟩ := scalar_facts hk
  rw [ek, Nat.mul_comm, mul_smul, h8, nsmul_zero]
  rfl

/-- A secret that is not refused is never zero, and is the one X25519 gives for the point as received. -/
theorem C89_secret (k p s : Bytes) (hk : k.length = 32) (hp : p.length = 32) (h : sharedKey k p = some s) :
    s = toLE 32 (x25519 (decodeScalar k) (ofLE p)) ∧ s ≠ List.replicate 32 0 := by
  unfold sharedKey at h
  by_cases hz : scalarmult k p = List.replicate 32 0
  · rw [if_pos hz] at h; cases h
  · rw [if_neg hz] at h
    cases h
    exact ⟨scalarmult_eq hk hp, hz⟩

/-! ### The most significant bit -/

/-- X25519 with a fast inverse. -/
def x25519Fast (k u : Nat) : Nat :=
  fmul (ladderLoop k u 255 false { x2 := 1, z2 := 0, x3 := u, z3 := 1 }).x2
    (powMod P 256 (ladderLoop k u 255 false { x2 := 1, z2 := 0, x3 := u, z3 := 1 }).z2 (P - 2))

theorem x25519_fast (k u : Nat) : x25519 k u = x25519Fast k u := by
  unfold x25519 x25519Fast
  rw [powMod_eq _ _ _ _ (by decide +kernel)]

/-- RFC 7748 demands that the most significant bit of the point be ignored; the function uses it. -/
theorem C89_mask_false : ∃ n p : Bytes, n.length = 32 ∧ p.length = 32 ∧ scalarmult n p ≠ X25519 n p := by
  refine ⟨List.replicate 32 0, List.replicate 31 0 ++ [128], by decide, by decide, ?_⟩
  intro h
  have h := congrArg ofLE h
  rw [scalarmult_val (by decide) (by decide)] at h
  unfold X25519 decodeU at h
  have e1 : ofLE (List.replicate 31 0 ++ [128]) = 2 ^ 255 := by
    rw [ofLE_append, ofLE_zeros, List.length_replicate]
    show 0 + 256 ^ 31 * (128 + 256 * 0) = 2 ^ 255
    decide +kernel
  have e2 : decodeScalar (List.replicate 32 0) = 2 ^ 254 := by decide +kernel
  rw [e1, e2, Nat.mod_self, x25519_zero, toLE_zero, ofLE_zeros, x25519_fast] at h
  have : x25519Fast (2 ^ 254) (2 ^ 255) ≠ 0 := by decide +kernel
  exact this h

end Verif.Curve25519
