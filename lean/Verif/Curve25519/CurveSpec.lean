/-
The curve, in the terms of Mathlib: its points (with the point at infinity) are a commutative group.
-/
import Mathlib.AlgebraicGeometry.EllipticCurve.Affine.Point

namespace Verif.Curve25519

/-- The Montgomery curve y² = x³ + A x² + x. -/
def curve {K : Type} [Field K] (A : K) : WeierstrassCurve.Affine K := { a₁ := 0, a₂ := A, a₃ := 0, a₄ := 1, a₆ := 0 }

/-- The first coordinate of a point; 0 for the point at infinity. -/
def xOr0 {K : Type} [Field K] {A : K} : (curve A).Point → K
  | .zero => 0
  | .some x _ _ => x

end Verif.Curve25519
