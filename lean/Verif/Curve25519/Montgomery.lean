/-
The ladder computes multiples of a point on y² = x³ + A x² + x.
-/
import Verif.Curve25519.Ladder
import Verif.Curve25519.CurveSpec
import Mathlib.Tactic.FieldSimp

namespace Verif.Curve25519
open Verif

section
variable {K : Type} [Field K] [DecidableEq K] {A : K}

theorem eq_curve {x y : K} (h : (curve A).Nonsingular x y) : y ^ 2 = x ^ 3 + A * x ^ 2 + x := by
  have := ((curve A).equation_iff x y).mp h.1
  simp only [curve] at this
  linear_combination this

/-- A point with the given coordinates. -/
theorem nonsing (h2 : (2 : K) ≠ 0) (hA : A ^ 2 ≠ 4) {x y : K} (h : y ^ 2 = x ^ 3 + A * x ^ 2 + x) : (curve A).Nonsingular x y := by
  refine ((curve A).nonsingular_iff' x y).mpr ⟨((curve A).equation_iff x y).mpr ?_, ?_⟩
  · simp only [curve]; linear_combination h
  · simp only [curve]
    by_cases hy : y = 0
    · left
      subst hy
      intro hd
      apply hA
      have hx : x * (x ^ 2 + A * x + 1) = 0 := by linear_combination -h
      rcases mul_eq_zero.mp hx with hx | hx
      · subst hx; simp at hd
      · have h3 : 2 * x = -A - 0 * x := by
          have hne : x ≠ 0 := by rintro rfl; simp at hx
          apply mul_left_cancel₀ hne
          linear_combination -hd - hx
        have h4 : (2 * x) ^ 2 + 2 * A * (2 * x) + 4 = 0 := by linear_combination 4 * hx
        rw [h3] at h4
        linear_combination -h4
    · right
      intro hd
      apply hy
      have : 2 * y = 0 := by linear_combination hd
      exact (mul_eq_zero.mp this).resolve_left h2

/-- `X` and `Z` are the projective first coordinate of a point. -/
def Rep : (curve A).Point → K → K → Prop
  | .zero, X, Z => X ≠ 0 ∧ Z = 0
  | .some x _ _, X, Z => Z ≠ 0 ∧ X = x * Z

theorem rep_zero {X Z : K} : Rep (A := A) 0 X Z ↔ X ≠ 0 ∧ Z = 0 := Iff.rfl

/-- Twice an affine point that is not its own inverse. -/
theorem double_x {x y : K} (h : (curve A).Nonsingular x y) (hy : 2 * y ≠ 0) :
    ∃ x' y' h', WeierstrassCurve.Affine.Point.some x y h + .some x y h = (.some x' y' h' : (curve A).Point) ∧
      x' * (4 * y ^ 2) = (x ^ 2 - 1) ^ 2 := by
  have hn : (curve A).negY x y = -y := by simp [WeierstrassCurve.Affine.negY, curve]
  have hne : y ≠ (curve A).negY x y := by
    rw [hn]
    intro e
    apply hy
    linear_combination e
  refine ⟨_, _, _, WeierstrassCurve.Affine.Point.add_self_of_Y_ne hne, ?_⟩
  rw [WeierstrassCurve.Affine.slope_of_Y_ne rfl hne, hn]
  simp only [WeierstrassCurve.Affine.addX, curve]
  have e := eq_curve h
  have h2y : y - -y ≠ 0 := by rw [sub_neg_eq_add, ← two_mul]; exact hy
  have key : (3 * x ^ 2 + 2 * A * x + 1 - 0 * y) / (y - -y) * (y - -y) = 3 * x ^ 2 + 2 * A * x + 1 := by
    rw [div_mul_cancel₀ _ h2y]; ring
  generalize (3 * x ^ 2 + 2 * A * x + 1 - 0 * y) / (y - -y) = l at *
  have key2 : l ^ 2 * (4 * y ^ 2) = (3 * x ^ 2 + 2 * A * x + 1) ^ 2 := by rw [← key]; ring
  linear_combination key2 - (4 * A + 8 * x) * e

theorem double_zero {x y : K} (h : (curve A).Nonsingular x y) (hy : y = 0) :
    WeierstrassCurve.Affine.Point.some x y h + .some x y h = (0 : (curve A).Point) := by
  apply WeierstrassCurve.Affine.Point.add_self_of_Y_eq
  subst hy
  simp [WeierstrassCurve.Affine.negY, curve]

theorem one_not_torsion (hA : A ^ 2 ≠ 4) {x : K} (h : x ^ 3 + A * x ^ 2 + x = 0) : x ^ 2 - 1 ≠ 0 := by
  intro h1
  apply hA
  have hx : x ≠ 0 := by rintro rfl; simp at h1
  have h2 : A = -2 * x := by
    have : x ^ 2 * A = x ^ 2 * (-2 * x) := by linear_combination h + x * h1
    exact mul_left_cancel₀ (pow_ne_zero 2 hx) this
  rw [h2]
  linear_combination 4 * h1

theorem rep_double (h2 : (2 : K) ≠ 0) (hA : A ^ 2 ≠ 4) {Q : (curve A).Point} {X Z : K} (h : Rep Q X Z) :
    Rep (Q + Q) ((X ^ 2 - Z ^ 2) ^ 2) (4 * X * Z * (X ^ 2 + A * X * Z + Z ^ 2)) := by
  have h4 : (4 : K) ≠ 0 := by
    have : (4 : K) = 2 * 2 := by ring
    rw [this]; exact mul_ne_zero h2 h2
  cases Q with
  | zero =>
    obtain ⟨hX, hZ⟩ := h
    subst hZ
    show Rep (0 + 0) _ _
    rw [add_zero]
    exact ⟨pow_ne_zero _ (by simpa using hX), by ring⟩
  | some x y hn =>
    obtain ⟨hZ, hX⟩ := h
    subst hX
    have e := eq_curve hn
    by_cases hy : y = 0
    · rw [double_zero hn hy]
      subst hy
      have e' : x ^ 3 + A * x ^ 2 + x = 0 := by linear_combination -e
      refine ⟨?_, ?_⟩
      · have := mul_ne_zero (pow_ne_zero 2 (one_not_torsion hA e')) (pow_ne_zero 4 hZ)
        intro h0
        apply this
        linear_combination h0
      · linear_combination 4 * Z ^ 4 * e'
    · obtain ⟨x', y', h', e1, e2⟩ := double_x hn (mul_ne_zero h2 hy)
      rw [e1]
      have eZ : 4 * (x * Z) * Z * ((x * Z) ^ 2 + A * (x * Z) * Z + Z ^ 2) = 4 * y ^ 2 * Z ^ 4 := by
        linear_combination -4 * Z ^ 4 * e
      refine ⟨?_, ?_⟩
      · rw [eZ]
        exact mul_ne_zero (mul_ne_zero h4 (pow_ne_zero _ hy)) (pow_ne_zero _ hZ)
      · rw [eZ]
        linear_combination -Z ^ 4 * e2

/-- The first coordinates of the sum and of the difference. -/
theorem diff_add {x₁ y₁ x₂ y₂ : K} (h₁ : (curve A).Nonsingular x₁ y₁) (h₂ : (curve A).Nonsingular x₂ y₂) (hx : x₁ ≠ x₂)
    {x y : K} {h : (curve A).Nonsingular x y} (hd : WeierstrassCurve.Affine.Point.some x₂ y₂ h₂ = .some x₁ y₁ h₁ + .some x y h) :
    ∃ x' y' h', WeierstrassCurve.Affine.Point.some x₁ y₁ h₁ + .some x₂ y₂ h₂ = (.some x' y' h' : (curve A).Point) ∧
      x' * x * (x₂ - x₁) ^ 2 = (x₁ * x₂ - 1) ^ 2 := by
  have hn : (curve A).negY x₁ y₁ = -y₁ := by simp [WeierstrassCurve.Affine.negY, curve]
  have hd' : WeierstrassCurve.Affine.Point.some x y h = .some x₂ y₂ h₂ + -.some x₁ y₁ h₁ := by
    rw [hd]; abel
  rw [WeierstrassCurve.Affine.Point.neg_some, WeierstrassCurve.Affine.Point.add_of_X_ne (Ne.symm hx)] at hd'
  have hxx := (WeierstrassCurve.Affine.Point.some.inj hd').1
  rw [WeierstrassCurve.Affine.slope_of_X_ne (Ne.symm hx), hn] at hxx
  refine ⟨_, _, _, WeierstrassCurve.Affine.Point.add_of_X_ne hx, ?_⟩
  rw [WeierstrassCurve.Affine.slope_of_X_ne hx, hxx]
  simp only [WeierstrassCurve.Affine.addX, curve]
  have e1 := eq_curve h₁
  have e2 := eq_curve h₂
  have hd1 : x₁ - x₂ ≠ 0 := sub_ne_zero.mpr hx
  have hd2 : x₂ - x₁ ≠ 0 := sub_ne_zero.mpr (Ne.symm hx)
  have k1 : (y₁ - y₂) / (x₁ - x₂) * (x₁ - x₂) = y₁ - y₂ := div_mul_cancel₀ _ hd1
  have k2 : (y₂ - -y₁) / (x₂ - x₁) * (x₂ - x₁) = y₂ + y₁ := by rw [div_mul_cancel₀ _ hd2]; ring
  generalize (y₁ - y₂) / (x₁ - x₂) = l at *
  generalize (y₂ - -y₁) / (x₂ - x₁) = m at *
  have k3 : l ^ 2 * (x₂ - x₁) ^ 2 = (y₁ - y₂) ^ 2 := by rw [← k1]; ring
  have k4 : m ^ 2 * (x₂ - x₁) ^ 2 = (y₂ + y₁) ^ 2 := by rw [← k2]; ring
  apply mul_left_cancel₀ (pow_ne_zero 2 hd2)
  linear_combination (m ^ 2 * (x₂ - x₁) ^ 2 - (A + x₁ + x₂) * (x₂ - x₁) ^ 2) * k3 +
    ((y₁ - y₂) ^ 2 - (A + x₁ + x₂) * (x₂ - x₁) ^ 2) * k4 +
    ((y₂ ^ 2 - y₁ ^ 2 + (x₂ ^ 3 + A * x₂ ^ 2 + x₂) - (x₁ ^ 3 + A * x₁ ^ 2 + x₁)) - 2 * (A + x₁ + x₂) * (x₂ - x₁) ^ 2) * e2 +
    (-(y₂ ^ 2 - y₁ ^ 2 + (x₂ ^ 3 + A * x₂ ^ 2 + x₂) - (x₁ ^ 3 + A * x₁ ^ 2 + x₁)) - 2 * (A + x₁ + x₂) * (x₂ - x₁) ^ 2) * e1

theorem rep_add (h2 : (2 : K) ≠ 0) {x y : K} (hn : (curve A).Nonsingular x y) (hx : x ≠ 0)
    {Q : (curve A).Point} {X₂ Z₂ X₃ Z₃ : K} (hQ : Rep Q X₂ Z₂) (hR : Rep (Q + .some x y hn) X₃ Z₃) :
    Rep (Q + (Q + .some x y hn)) (4 * (X₂ * X₃ - Z₂ * Z₃) ^ 2) (x * (4 * (X₃ * Z₂ - X₂ * Z₃) ^ 2)) := by
  have h4 : (4 : K) ≠ 0 := by
    have : (4 : K) = 2 * 2 := by ring
    rw [this]; exact mul_ne_zero h2 h2
  generalize hRe : Q + .some x y hn = R at hR ⊢
  cases Q with
  | zero =>
    have : R = .some x y hn := by rw [← hRe]; exact zero_add _
    subst this
    obtain ⟨hX2, hZ2⟩ := hQ
    obtain ⟨hZ3, hX3⟩ := hR
    subst hZ2 hX3
    show Rep (0 + _) _ _
    rw [zero_add]
    refine ⟨?_, by ring⟩
    have := mul_ne_zero hx (mul_ne_zero h4 (pow_ne_zero 2 (mul_ne_zero hX2 hZ3)))
    intro h0
    apply this
    linear_combination h0
  | some x₁ y₁ h₁ =>
    obtain ⟨hZ2, hX2⟩ := hQ
    subst hX2
    cases R with
    | zero =>
      obtain ⟨hX3, hZ3⟩ := hR
      subst hZ3
      have hneg : WeierstrassCurve.Affine.Point.some x₁ y₁ h₁ = -.some x y hn := by
        have : WeierstrassCurve.Affine.Point.some x₁ y₁ h₁ + .some x y hn = 0 := hRe
        exact eq_neg_of_add_eq_zero_left this
      rw [WeierstrassCurve.Affine.Point.neg_some] at hneg
      have hxx := (WeierstrassCurve.Affine.Point.some.inj hneg).1
      subst hxx
      show Rep (_ + 0) _ _
      rw [add_zero]
      refine ⟨?_, by ring⟩
      have := mul_ne_zero hx (mul_ne_zero h4 (pow_ne_zero 2 (mul_ne_zero hX3 hZ2)))
      intro h0
      apply this
      linear_combination h0
    | some x₂ y₂ h₂ =>
      obtain ⟨hZ3, hX3⟩ := hR
      subst hX3
      by_cases hxx : x₁ = x₂
      · rcases (WeierstrassCurve.Affine.Point.X_eq_iff (h₁ := h₁) (h₂ := h₂)).mp hxx with he | he
        · rw [← he] at hRe
          exact absurd (add_eq_left.mp hRe) (WeierstrassCurve.Affine.Point.some_ne_zero hn)
        · have hsum : WeierstrassCurve.Affine.Point.some x₁ y₁ h₁ + .some x₂ y₂ h₂ = 0 := by rw [he]; abel
          rw [hsum]
          subst hxx
          have hPd : WeierstrassCurve.Affine.Point.some x y hn = -(.some x₁ y₁ h₁ + .some x₁ y₁ h₁) := by
            have e : WeierstrassCurve.Affine.Point.some x₁ y₂ h₂ = -.some x₁ y₁ h₁ := by rw [he, neg_neg]
            rw [e] at hRe
            rw [neg_add]; exact eq_neg_add_of_add_eq hRe
          have hy1 : y₁ ≠ 0 := by
            intro h0
            rw [double_zero h₁ h0, neg_zero] at hPd
            exact WeierstrassCurve.Affine.Point.some_ne_zero hn hPd
          obtain ⟨x', y', h', e1, e2⟩ := double_x h₁ (mul_ne_zero h2 hy1)
          rw [e1, WeierstrassCurve.Affine.Point.neg_some] at hPd
          have hx' := (WeierstrassCurve.Affine.Point.some.inj hPd).1
          subst hx'
          refine rep_zero.mpr ⟨?_, by ring⟩
          have hne : (x₁ ^ 2 - 1) ^ 2 ≠ 0 := by
            rw [← e2]
            exact mul_ne_zero hx (mul_ne_zero h4 (pow_ne_zero 2 hy1))
          have := mul_ne_zero h4 (mul_ne_zero hne (pow_ne_zero 2 (mul_ne_zero hZ2 hZ3)))
          intro h0
          apply this
          linear_combination h0
      · obtain ⟨x', y', h', e1, e2⟩ := diff_add h₁ h₂ hxx hRe.symm
        rw [e1]
        refine ⟨?_, ?_⟩
        · have := mul_ne_zero hx (mul_ne_zero h4 (mul_ne_zero (pow_ne_zero 2 (sub_ne_zero.mpr (Ne.symm hxx)))
            (pow_ne_zero 2 (mul_ne_zero hZ2 hZ3))))
          intro h0
          apply this
          linear_combination h0
        · linear_combination -4 * (Z₂ * Z₃) ^ 2 * e2

/-! ### The ladder -/

/-- The state stands for a multiple of the point and the next one. -/
def Good (Pt : (curve A).Point) (m : Nat) (s : Quad K) : Prop := Rep (m • Pt) s.x2 s.z2 ∧ Rep (m • Pt + Pt) s.x3 s.z3

theorem Good.fst {Pt : (curve A).Point} {m : Nat} {s : Quad K} (h : Good Pt m s) : Rep (m • Pt) s.x2 s.z2 := h.1

theorem good_step (h2 : (2 : K) ≠ 0) (hA : A ^ 2 ≠ 4) (h24 : 4 * (121665 : K) = A - 2) {x y : K}
    (hn : (curve A).Nonsingular x y) (hx : x ≠ 0) {m : Nat} {s : Quad K} (b : Bool) (h : Good (.some x y hn) m s) :
    Good (.some x y hn) (2 * m + b.toNat) (((s.swap b).step x).swap b) := by
  obtain ⟨r2, r3⟩ := h
  have hd := rep_double h2 hA r2
  have hd3 := rep_double h2 hA r3
  have ha := rep_add h2 hn hx r2 r3
  cases b
  · refine ⟨?_, ?_⟩
    · have e : (2 * m + false.toNat) • (WeierstrassCurve.Affine.Point.some x y hn) = m • .some x y hn + m • .some x y hn := by
        simp [two_mul, add_smul]
      rw [e]
      simp only [Quad.swap, Quad.step, Bool.false_eq_true, if_false]
      convert hd using 1
      · ring
      · linear_combination (4 * s.x2 ^ 2 * s.z2 ^ 2) * h24
    · have e : (2 * m + false.toNat) • (WeierstrassCurve.Affine.Point.some x y hn) + .some x y hn =
          m • .some x y hn + (m • .some x y hn + .some x y hn) := by
        simp [two_mul, add_smul, add_assoc]
      rw [e]
      simp only [Quad.swap, Quad.step, Bool.false_eq_true, if_false]
      convert ha using 1 <;> ring
  · refine ⟨?_, ?_⟩
    · have e : (2 * m + true.toNat) • (WeierstrassCurve.Affine.Point.some x y hn) =
          m • .some x y hn + (m • .some x y hn + .some x y hn) := by
        simp [two_mul, add_smul, add_assoc]
      rw [e]
      simp only [Quad.swap, Quad.step, if_true]
      convert ha using 1 <;> ring
    · have e : (2 * m + true.toNat) • (WeierstrassCurve.Affine.Point.some x y hn) + .some x y hn =
          (m • .some x y hn + .some x y hn) + (m • .some x y hn + .some x y hn) := by
        simp only [two_mul, add_smul, Bool.toNat_true, one_smul]
        abel
      rw [e]
      simp only [Quad.swap, Quad.step, if_true]
      convert hd3 using 1
      · ring
      · linear_combination (4 * s.x3 ^ 2 * s.z3 ^ 2) * h24

theorem good_loop (h2 : (2 : K) ≠ 0) (hA : A ^ 2 ≠ 4) (h24 : 4 * (121665 : K) = A - 2) {x y : K}
    (hn : (curve A).Nonsingular x y) (hx : x ≠ 0) (k n : Nat) {m : Nat} {s : Quad K} (h : Good (.some x y hn) m s) :
    Good (.some x y hn) (m * 2 ^ n + k % 2 ^ n) (Quad.loop k x n s) := by
  induction n generalizing m s with
  | zero => simpa [Quad.loop, Nat.mod_one] using h
  | succ n ih =>
    have := ih (good_step h2 hA h24 hn hx (k.testBit n) h)
    rw [Quad.loop]
    have e : m * 2 ^ (n + 1) + k % 2 ^ (n + 1) = (2 * m + (k.testBit n).toNat) * 2 ^ n + k % 2 ^ n := by
      have h1 : k % 2 ^ (n + 1) = k % 2 ^ n + 2 ^ n * (k.testBit n).toNat := by
        rw [Nat.mod_pow_succ, Nat.toNat_testBit]
      rw [h1, pow_succ]; ring
    rw [e]
    exact this

theorem good_start {x y : K} (hn : (curve A).Nonsingular x y) : Good (.some x y hn) 0 ⟨1, 0, x, 1⟩ := by
  refine ⟨?_, ?_⟩
  · rw [zero_smul]; exact rep_zero.mpr ⟨one_ne_zero, rfl⟩
  · rw [zero_smul, zero_add]; exact ⟨one_ne_zero, by ring⟩

theorem xOr0_zero : xOr0 (0 : (curve A).Point) = 0 := rfl

theorem rep_div {Q : (curve A).Point} {X Z : K} (h : Rep Q X Z) : X / Z = xOr0 Q := by
  cases Q with
  | zero => obtain ⟨_, hZ⟩ := h; rw [hZ, div_zero]; rfl
  | some x y hn => obtain ⟨hZ, hX⟩ := h; rw [hX, mul_div_assoc, div_self hZ, mul_one]; rfl

end

end Verif.Curve25519
