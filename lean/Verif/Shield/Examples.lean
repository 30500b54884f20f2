/-
Cases for C149.
-/
import Verif.Shield.Props

namespace Verif.Shield.Examples
open Verif Verif.Shield

/-- keys are numbers, written in unary with a stop; the cipher flips all bits -/
def read : Nat → Bytes → Option (Nat × Bytes)
  | n, 1 :: l => read (n + 1) l
  | n, 0 :: l => some (n, l)
  | _, _ => none

def toy : World Nat Unit where
  ser k := List.replicate k 1 ++ [0]
  deser := read 0
  pub _ := ()
  flags k := UInt8.ofNat k
  hash x := x
  enc _ _ x := x.map (· ^^^ 255)
  dec _ _ x := x.map (· ^^^ 255)

theorem flip_flip (c : UInt8) : c ^^^ 255 ^^^ 255 = c := by
  rw [UInt8.xor_assoc]
  simp

theorem toy_sound : Sound toy where
  back k r := by
    have : ∀ k n, read n (List.replicate k 1 ++ [0] ++ r) = some (n + k, r) := by
      intro k
      induction k with
      | zero => intro n; rfl
      | succ k ih =>
        intro n
        have := ih (n + 1)
        rw [List.replicate_succ, List.cons_append, List.cons_append, read, this]
        congr 2
        omega
    exact (this k 0).trans (by rw [Nat.zero_add])
  some k := by simp [toy]
  dec a b x := by
    simp only [toy, List.map_map]
    exact (List.map_congr_left fun c _ => flip_flip c).trans (List.map_id x)
  length a b x := by simp [toy]

example : ∃ h, run toy (.plain 5) [.shield b!"x", .shield b!"y", .unshield, .shield b!"z"] = some h ∧ unshield toy h = some (.plain 5) ∧
    Hidden toy 5 b!"z" h := C149_same toy_sound 5 [.shield b!"x", .shield b!"y", .unshield, .shield b!"z"]

-- a bit that has changed in the padding, and a part that is missing
example : unshield toy (.shielded () 0 (List.map (· ^^^ 255) (1 :: 0 :: [1, 2, 3, 4, 5, 6, 7, 8, 9, 10, 11, 12, 13, 14])) []) = some (.plain 1) := rfl
example : unshield toy (.shielded () 0 (List.map (· ^^^ 255) (1 :: 0 :: [1, 2, 3, 4, 5, 6, 7, 8, 9, 10, 11, 12, 13, 15])) []) = none := rfl
example : unshield toy (.shielded () 0 (List.map (· ^^^ 255) (1 :: 0 :: [1, 2, 3, 4, 5, 6, 7, 8, 9, 10, 11, 12, 13])) []) = none := rfl

end Verif.Shield.Examples
