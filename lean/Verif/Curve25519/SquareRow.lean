/-
A row of a square is a row of a product.
-/
import Verif.Curve25519.Arith

namespace Verif.Curve25519
open Verif

open scoped UInt32.CommRing in
set_option maxHeartbeats 4000000 in
theorem squareRow_eq (a : Limbs) {i : Nat} (hi : i < 32) : squareRow a i = mulRow a a i := by
  unfold squareRow squareHalf mulRow
  interval_cases i <;>
    simp [List.range', List.range, List.range.loop, List.takeWhile] <;> ring

theorem square_eq (a : Limbs) : square a = mult a a := by
  unfold square mult
  congr 1
  apply List.map_congr_left
  intro i hi
  exact squareRow_eq a (List.mem_range.mp hi)

end Verif.Curve25519
