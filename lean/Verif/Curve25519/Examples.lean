/-
Examples for C89: the values of RFC 7748, section 5.2 and 6.1.
-/
import Verif.Curve25519.Props

namespace Verif.Curve25519
open Verif

/-- Bytes given as one number in hexadecimal, first byte first. -/
def hex (n : Nat) : Bytes := (toLE 32 n).reverse

theorem hex_length (n : Nat) : (hex n).length = 32 := by simp [hex, toLE_length]

/-- The first vector of section 5.2 -/
example : scalarmult (hex 0xa546e36bf0527c9d3b16154b82465edd62144c0ac1fc5a18506a2244ba449ac4)
    (hex 0xe6db6867583030db3594c1a424b15f7c726624ec26b3353b10a903a6d0ab1c4c) =
    hex 0xc3da55379de9c6908e94ea4df28d084f32eccf03491c71f754b4075577a28552 := by
  rw [C89_rfc_partial _ _ (hex_length _) (hex_length _) (by decide +kernel)]
  unfold X25519
  rw [x25519_fast]
  decide +kernel

/-- The second vector has the most significant bit set: the RFC's result. -/
example : X25519 (hex 0x4b66e9d4d1b4673c5ad22691957d6af5c11b6421e0ea01d42ca4169e7918ba0d)
    (hex 0xe5210f12786811d3f4b7959d0538ae2c31dbe7106fc03c3efc4cd549c715a493) =
    hex 0x95cbde9476e8907d7aade45cb4b873f88b595a68799fa152e6f8f7647aac7957 := by
  unfold X25519
  rw [x25519_fast]
  decide +kernel

/-- … and the function's is a different one. -/
example : scalarmult (hex 0x4b66e9d4d1b4673c5ad22691957d6af5c11b6421e0ea01d42ca4169e7918ba0d)
    (hex 0xe5210f12786811d3f4b7959d0538ae2c31dbe7106fc03c3efc4cd549c715a493) ≠
    hex 0x95cbde9476e8907d7aade45cb4b873f88b595a68799fa152e6f8f7647aac7957 := by
  rw [C89_value _ _ (hex_length _) (hex_length _), x25519_fast]
  decide +kernel

/-- Bob's keys (section 6.1) -/
example : keygen (hex 0x5dab087e624a8a4b79e17f8b83800ee66f3bb1292618b6fd1c2f8b27ff88e0eb) =
    hex 0xde9edb7d7b7dc1b4d35b61c2ece435373f8343c85b78674dadfc7e146f882b4f := by
  unfold keygen
  rw [C89_value _ _ (hex_length _) base_length, x25519_fast]
  decide +kernel

/-- The point 0 (of order two), the point 1 (of order four) and a point of order eight are refused. -/
example : sharedKey (List.replicate 32 7) (toLE 32 0) = none := (refused_iff (by decide) (toLE_length _ _)).mpr (by
  rw [x25519_fast]; decide +kernel)

example : sharedKey (List.replicate 32 7) (toLE 32 1) = none := (refused_iff (by decide) (toLE_length _ _)).mpr (by
  rw [x25519_fast]; decide +kernel)

example : sharedKey (List.replicate 32 7) (toLE 32 325606250916557431795983626356110631294008115727848805560023387167927233504) = none :=
  (refused_iff (by decide) (toLE_length _ _)).mpr (by rw [x25519_fast]; decide +kernel)

/-- The hypotheses of `C89_point` can be met over the field itself: the base point. -/
example : (curve (486662 : ZMod P)).Nonsingular 9 14781619447589544791020593568409986887264606134616475288964881837755586237401 := by
  apply nonsing (two_ne (K := ZMod P)) (A_sq (K := ZMod P))
  have h : ((14781619447589544791020593568409986887264606134616475288964881837755586237401 ^ 2 : Nat) : ZMod P) =
      ((9 ^ 3 + 486662 * 9 ^ 2 + 9 : Nat) : ZMod P) := by
    rw [ZMod.natCast_eq_natCast_iff']
    decide +kernel
  push_cast at h
  linear_combination h

/-- … and those of `C89_small_order` by the point (0, 0). -/
example (h : (curve (486662 : ZMod P)).Nonsingular 0 0) : 8 • WeierstrassCurve.Affine.Point.some 0 0 h = 0 := by
  have h2 : 2 • WeierstrassCurve.Affine.Point.some 0 0 h = 0 := by rw [two_smul]; exact double_zero h rfl
  rw [show (8 : Nat) = 4 * 2 from rfl, mul_smul, h2, nsmul_zero]

example : (curve (486662 : ZMod P)).Nonsingular 0 0 := nonsing two_ne A_sq (by ring)

end Verif.Curve25519
