/-
Cases for C148.
-/
import Verif.Kdf.Props

namespace Verif.Kdf.Examples
open Verif Verif.Kdf

/-- hashes that show where a byte comes from: all bytes of the hash are the last one of the salt, plus their place -/
def toy : Hashes := ⟨fun x => x, fun _ salt => (List.range 32).map fun i => UInt8.ofNat (4 * i) + salt.getLastD 0⟩

theorem toy_length (a b : Bytes) : (toy.bcrypt a b).length = 32 := by simp [toy]

/-! A key of 48 bytes, for a cipher with a key of 32 and an initial value of 16: two blocks, by turns -/

example : pbkdf toy b!"secret" b!"salt" (List.replicate 48 9) 1 =
    .key ((List.range 24).flatMap fun i => [UInt8.ofNat (4 * i) + 1, UInt8.ofNat (4 * i) + 2]) := by decide +kernel

/-! 33 bytes: the second block gives one byte fewer. -/

example : (match pbkdf toy b!"secret" b!"salt" (List.replicate 33 9) 1 with | .key k => k.drop 30 | _ => []) = [61, 62, 65] := by decide +kernel

example : ∃ k s, pbkdf toy b!"secret" b!"salt" (List.replicate 48 9) 16 = .key k ∧ k.length = 48 ∧ Blocks 48 s ∧
    ∀ d, d < 48 → d / s < 32 ∧ k[d]? = some (blockByte toy (toy.sha512 b!"secret") b!"salt" 16 (UInt8.ofNat (d % s + 1)) (d / s)) :=
  C148_key toy_length (by decide) (by decide) (by decide) (by decide) (by decide) (by decide)

example : pbkdf toy [] b!"salt" (List.replicate 48 9) 16 = .bad := C148_refused toy (.inr (.inl rfl))

end Verif.Kdf.Examples
