/-
Concrete cases for C87.
-/
import Verif.Dh.Line

namespace Verif.Dh
open Verif

/-- A line as the screening program writes it (with a toy prime, 11), the newline included. -/
def line11 : Bytes := b!"20240101000000 2 6 100 3 2 B\n"

/-- 23, which is a bit longer -/
def line23 : Bytes := b!"20240101000000 2 6 100 4 5 17\n"

def line23' : Bytes := b!"\t20240101000001 2 6 100 4 2 17\n"

example : parsePrime line11 = some ⟨4, 2, 11⟩ := by decide
example : parsePrime line23 = some ⟨5, 5, 23⟩ := by decide
example : parsePrime line23' = some ⟨5, 2, 23⟩ := by decide
-- comments, composite numbers, untested ones, other types, wrong lengths and wrong generators are passed over
example : parsePrime b!"# Time Type Tests Tries Size Generator Modulus\n" = none := by decide
example : parsePrime b!"20240101000000 2 7 100 3 2 B\n" = none := by decide
example : parsePrime b!"20240101000000 2 0 100 3 2 B\n" = none := by decide
example : parsePrime b!"20240101000000 4 6 100 3 2 B\n" = none := by decide
example : parsePrime b!"20240101000000 2 6 0 3 2 B\n" = none := by decide
example : parsePrime b!"20240101000000 2 6 100 4 2 B\n" = none := by decide
example : parsePrime b!"20240101000000 2 6 100 3 1 B\n" = none := by decide
example : parsePrime b!"20240101000000 2 6 100 3 2\n" = none := by decide
example : parsePrime b!"20240101000000 2 6 100 3 2 B junk\n" = none := by decide
-- a sign before the prime and rubbish after it are not noticed
example : parsePrime b!"20240101000000 2 6 100 3 2 -B\n" = some ⟨4, 2, -11⟩ := by decide
example : parsePrime b!"20240101000000 2 6 100 3 2 Bxyz\n" = some ⟨4, 2, 11⟩ := by decide

def moduli : List Bytes := [b!"# comment\n", line11, line23, b!"garbage\n", line23']

-- the hypotheses of `C87_choice_partial`, `C87_any` and `C87_refused` can be met
example : chooseDh 4 5 8 (some moduli) moduli (fun _ => 1) = .listed ⟨5, 2, 23⟩ := by decide
example : chooseDh 4 5 8 (some moduli) moduli (fun _ => 0) = .listed ⟨5, 5, 23⟩ := by decide
example : chooseDh 4 4 8 (some moduli) moduli (fun _ => 0) = .listed ⟨4, 2, 11⟩ := by decide
example : chooseDh 4 8 8 (some moduli) moduli (fun _ => 0) = .listed ⟨5, 5, 23⟩ := by decide
example : chooseDh 6 7 8 (some moduli) moduli (fun _ => 0) = .refused := by decide
example : chooseDh 4 5 8 (some moduli) [] (fun _ => 0) = .fixed 14 := by decide
-- those of `C87_exact` and `C87_ascending`
example : (best 4 5 8 ([⟨4, 2, 11⟩] ++ ⟨5, 5, 23⟩ :: [⟨6, 2, 47⟩, ⟨5, 2, 23⟩])) = (5, 2) := by decide
example : ([⟨4, 2, 11⟩, ⟨6, 5, 47⟩] : List Group).map Group.size |>.Pairwise (· ≤ ·) := by simp
example : (best 4 5 8 [⟨4, 2, 11⟩, ⟨6, 5, 47⟩]) = (6, 1) := by decide

-- those of `C87_line_used`
example : parsePrime (b!"20240101000000" ++ 32 :: Text.join 32 [b!"2", b!"6", b!"100", b!"3", b!"2", b!"B"]) =
    some ⟨4, 2, 11⟩ :=
  C87_line_used (by decide) (by decide) (by decide) (by decide) (by decide) (by decide) (by decide)
    ⟨by decide, ⟨6, by decide, by decide, by decide⟩, ⟨100, by decide, by decide⟩, ⟨3, by decide, by decide, by decide⟩,
      by decide, by decide⟩

example : hex2bn b!"fF" = some 255 := C87_hex (ds := [15, 15]) (by decide) (by decide)

-- public values
example : pubValid 47 15 = true := by decide
example : pubValid 47 46 = false := by decide
example : pubValid 47 45 = true := by decide
example : pubValid 47 1 = false := by decide
example : pubValid 47 32 = false := by decide
example : keyLength (2 ^ 2048 - 1) 256 = some 512 := by decide +kernel
example : keyLength (2 ^ 300 - 1) 128 = some 299 := by decide +kernel
example : keyLength (2 ^ 300 - 1) 151 = none := by decide +kernel

example : estimate 112 = 2048 ∧ estimate 113 = 3072 ∧ estimate 128 = 3072 ∧ estimate 129 = 7680 ∧ estimate 256 = 8192 := by decide

end Verif.Dh
