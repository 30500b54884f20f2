/-
Cases for C150.
-/
import Verif.Hmac.Props

namespace Verif.Hmac.Examples
open Verif Verif.Hmac

/-- a hash of two bytes, with blocks of four -/
def toy : Hash where
  f x := [x.foldl (fun a c => a * 3 + c) 7, x.foldl (fun a c => a * 5 + c) 11]
  len := 2
  block := 4

theorem toy_good : Good toy := ⟨fun _ => rfl, by decide, by decide⟩

example : keyed toy b!"ab" 0x36 = [0x57, 0x54, 0x36, 0x36] := by decide +kernel

def calls : List Op := [.update b!"a", .update b!"b", .final 64, .update b!"lost", .final 64, .restart, .final 1, .update b!"c", .final 2]

example : codes toy b!"key" (some []) calls = [hmac toy b!"key" b!"ab", hmac toy b!"key" b!"c"] := by decide +kernel
example : hmac toy b!"key" b!"ab" ≠ hmac toy b!"key" b!"c" := by decide +kernel
example : ∃ c, init toy (start toy) b!"key" = some c ∧ (run toy c calls).2 = codes toy b!"key" (some []) calls := C150_codes toy_good _ _
example := C150_packet toy_good b!"a long key" calls (macLen := 1) (by decide) 7 b!"data"

/-- Beyond C150: a second key cannot be given. What the first one left stays in both hashes; nothing in the code does this. -/
theorem C150_rekey_original_false : ¬ ∀ (H : Hash), Good H → ∀ (k1 k2 : Bytes) (c1 c2 : Ctx), init H (start H) k1 = some c1 → init H c1 k2 = some c2 →
    (run H c2 [.update b!"a", .final 64]).2 = [hmac H k2 b!"a"] := by
  intro h
  have := h toy toy_good b!"x" b!"y" _ _ rfl rfl
  exact absurd this (by decide +kernel)

end Verif.Hmac.Examples
