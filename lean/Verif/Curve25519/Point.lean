/-
X25519 as multiplication of points on the curve.
-/
import Verif.Curve25519.Montgomery
import Verif.Curve25519.Prime
import Mathlib.FieldTheory.Finite.Basic
import Mathlib.FieldTheory.IsAlgClosed.AlgebraicClosure

namespace Verif.Curve25519
open Verif

instance : Fact P.Prime := ⟨P_prime⟩

theorem natCast_F_ne {n : Nat} (h0 : 0 < n) (h : n < P) : (n : F) ≠ 0 := by
  intro e
  rw [ZMod.natCast_eq_zero_iff] at e
  exact absurd (Nat.le_of_dvd h0 e) (by omega)

section
variable {K : Type} [Field K] [Algebra F K]

theorem natCast_ne {n : Nat} (h0 : 0 < n) (h : n < P) : (n : K) ≠ 0 := by
  rw [← map_natCast (algebraMap F K)]
  exact (map_ne_zero (algebraMap F K)).mpr (natCast_F_ne h0 h)

theorem two_ne : (2 : K) ≠ 0 := by
  have := natCast_ne (K := K) (n := 2) (by decide) (by rw [P_eq]; decide)
  simpa using this

theorem A_sq : (486662 : K) ^ 2 ≠ 4 := by
  have := natCast_ne (K := K) (n := 486662 ^ 2 - 4) (by decide) (by rw [P_eq]; decide)
  rw [Nat.cast_sub (by decide)] at this
  intro e
  apply this
  push_cast
  linear_combination e

theorem a24 : 4 * (121665 : K) = 486662 - 2 := by norm_num

/-! ### Ring homomorphisms -/

def Quad.map {R S : Type} (f : R → S) (s : Quad R) : Quad S := ⟨f s.x2, f s.z2, f s.x3, f s.z3⟩

theorem map_swap {R S : Type} (f : R → S) (b : Bool) (s : Quad R) : (s.swap b).map f = (s.map f).swap b := by
  cases b <;> rfl

theorem map_step {R S : Type} [CommRing R] [CommRing S] (f : R →+* S) (x : R) (s : Quad R) :
    (s.step x).map f = (s.map f).step (f x) := by
  have h : f 121665 = 121665 := map_ofNat f 121665
  unfold Quad.step Quad.map
  simp [h]

theorem map_loop {R S : Type} [CommRing R] [CommRing S] (f : R →+* S) (k : Nat) (x : R) (n : Nat) (s : Quad R) :
    (Quad.loop k x n s).map f = Quad.loop k (f x) n (s.map f) := by
  induction n generalizing s with
  | zero => rfl
  | succ n ih => rw [Quad.loop, Quad.loop, ih, map_swap, map_step, map_swap]

/-! ### The point (0, 0) -/

theorem loop_zero {R : Type} [CommRing R] (k n : Nat) (s : Quad R) (h2 : s.z2 = 0) (h3 : s.z3 = 0) :
    (Quad.loop k 0 n s).z2 = 0 := by
  induction n generalizing s with
  | zero => exact h2
  | succ n ih =>
    rw [Quad.loop]
    apply ih
    · cases k.testBit n
      · simp [Quad.swap, Quad.step, h2]
      · simp [Quad.swap, Quad.step]
    · cases k.testBit n
      · simp [Quad.swap, Quad.step]
      · simp [Quad.swap, Quad.step, h3]

theorem loop_zero_start {R : Type} [CommRing R] (k n : Nat) : (Quad.loop k (0 : R) n ⟨1, 0, 0, 1⟩).z2 = 0 := by
  cases n with
  | zero => rfl
  | succ n =>
    rw [Quad.loop]
    apply loop_zero
    · cases k.testBit n <;> simp [Quad.swap, Quad.step]
    · cases k.testBit n <;> simp [Quad.swap, Quad.step]

theorem inv_pow (z : F) : z ^ (P - 2) = z⁻¹ := by
  by_cases hz : z = 0
  · rw [hz, inv_zero, zero_pow]
    rw [P_eq]; decide
  · apply eq_inv_of_mul_eq_one_left
    rw [← pow_succ, show P - 2 + 1 = P - 1 from by rw [P_eq]]
    exact ZMod.pow_card_sub_one_eq_one hz

theorem x25519_div (k u : Nat) : ((x25519 k u : Nat) : F) =
    (Quad.loop k (u : F) 255 ⟨1, 0, u, 1⟩).x2 / (Quad.loop k (u : F) 255 ⟨1, 0, u, 1⟩).z2 := by
  rw [cast_x25519, inv_pow, div_eq_mul_inv]

variable [DecidableEq K]

theorem smul_torsion {y : K} (hn : (curve (486662 : K)).Nonsingular 0 y) (k : Nat) :
    k • WeierstrassCurve.Affine.Point.some 0 y hn = 0 ∨ k • WeierstrassCurve.Affine.Point.some 0 y hn = .some 0 y hn := by
  have hy : y = 0 := by
    have := eq_curve hn
    simpa using this
  induction k with
  | zero => left; exact zero_smul _ _
  | succ k ih =>
    rw [succ_nsmul]
    rcases ih with ih | ih
    · right; rw [ih, zero_add]
    · left; rw [ih]; exact double_zero hn hy

/-- X25519 gives the first coordinate of the multiple of any point with the given first coordinate. -/
theorem x25519_point (k u : Nat) (hk : k < 2 ^ 255) {x y : K} (hn : (curve (486662 : K)).Nonsingular x y) (hx : x = (u : K)) :
    ((x25519 k u : Nat) : K) = xOr0 (k • WeierstrassCurve.Affine.Point.some x y hn) := by
  have hm := map_loop (algebraMap F K) k (u : F) 255 ⟨1, 0, u, 1⟩
  have hu : algebraMap F K (u : F) = x := by rw [hx, map_natCast]
  have hs : Quad.map (algebraMap F K) ⟨1, 0, (u : F), 1⟩ = ⟨1, 0, x, 1⟩ := by simp [Quad.map, hu, hx]
  rw [hs, hu] at hm
  have hd := congrArg (algebraMap F K) (x25519_div k u)
  rw [map_natCast, map_div₀] at hd
  have e1 : algebraMap F K (Quad.loop k (u : F) 255 ⟨1, 0, u, 1⟩).x2 = (Quad.loop k x 255 ⟨1, 0, x, 1⟩).x2 := by rw [← hm]; rfl
  have e2 : algebraMap F K (Quad.loop k (u : F) 255 ⟨1, 0, u, 1⟩).z2 = (Quad.loop k x 255 ⟨1, 0, x, 1⟩).z2 := by rw [← hm]; rfl
  rw [hd, e1, e2]
  by_cases h0 : x = 0
  · subst h0
    rw [loop_zero_start, div_zero]
    rcases smul_torsion hn k with h | h
    · rw [h]; rfl
    · rw [h]; rfl
  · have hg := good_loop two_ne A_sq a24 hn h0 k 255 (good_start hn)
    rw [Nat.zero_mul, Nat.zero_add, Nat.mod_eq_of_lt hk] at hg
    exact rep_div hg.1

end

/-! ### Agreement -/

/-- The algebraic closure of the field. -/
abbrev Kbar := AlgebraicClosure F

noncomputable instance : DecidableEq Kbar := Classical.decEq _

theorem exists_point (u : Nat) : ∃ (y : Kbar), (curve (486662 : Kbar)).Nonsingular (u : Kbar) y := by
  obtain ⟨y, hy⟩ := IsAlgClosed.exists_pow_nat_eq ((u : Kbar) ^ 3 + 486662 * (u : Kbar) ^ 2 + (u : Kbar)) (n := 2) (by decide)
  exact ⟨y, nonsing two_ne A_sq hy⟩

theorem x25519_zero (k : Nat) : x25519 k 0 = 0 := by
  have h := x25519_div k 0
  rw [Nat.cast_zero, loop_zero_start, div_zero] at h
  have := (ZMod.natCast_eq_zero_iff _ _).mp h
  exact Nat.eq_zero_of_dvd_of_lt this (x25519_lt k 0)

/-- Numbers below the prime are told apart by their images. -/
theorem natCast_inj {a b : Nat} (ha : a < P) (hb : b < P) (h : (a : Kbar) = (b : Kbar)) : a = b := by
  have h1 : algebraMap F Kbar (a : F) = algebraMap F Kbar (b : F) := by rw [map_natCast, map_natCast]; exact h
  have h2 := (algebraMap F Kbar).injective h1
  rw [ZMod.natCast_eq_natCast_iff', Nat.mod_eq_of_lt ha, Nat.mod_eq_of_lt hb] at h2
  exact h2

theorem x25519_mul (a b u : Nat) (ha : a < 2 ^ 255) (hb : b < 2 ^ 255) {y : Kbar}
    (hn : (curve (486662 : Kbar)).Nonsingular (u : Kbar) y) :
    ((x25519 a (x25519 b u) : Nat) : Kbar) = xOr0 ((a * b) • WeierstrassCurve.Affine.Point.some (u : Kbar) y hn) := by
  have h := x25519_point b u hb hn rfl
  rw [mul_smul]
  generalize b • WeierstrassCurve.Affine.Point.some (u : Kbar) y hn = Q at *
  cases Q with
  | zero =>
    have h0 : x25519 b u = 0 := natCast_inj (x25519_lt _ _) P_pos (by rw [h, Nat.cast_zero]; rfl)
    rw [h0, x25519_zero, Nat.cast_zero]
    show _ = xOr0 (a • (0 : (curve (486662 : Kbar)).Point))
    rw [nsmul_zero]; rfl
  | some x' y' h' => exact x25519_point a _ ha h' h.symm

/-- The order of the two multiplications does not matter. -/
theorem x25519_comm (a b u : Nat) (ha : a < 2 ^ 255) (hb : b < 2 ^ 255) : x25519 a (x25519 b u) = x25519 b (x25519 a u) := by
  obtain ⟨y, hn⟩ := exists_point u
  apply natCast_inj (x25519_lt _ _) (x25519_lt _ _)
  rw [x25519_mul a b u ha hb hn, x25519_mul b a u hb ha hn, Nat.mul_comm]

end Verif.Curve25519
