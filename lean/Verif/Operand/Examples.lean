/-
Cases for C147.
-/
import Verif.Operand.Props

namespace Verif.Operand.Examples
open Verif Verif.Operand

-- C147_split, both kinds of names
example : parse b!"u@h:x:y" = some ⟨some b!"u", b!"h", b!"x:y"⟩ := by decide +kernel
example : parse b!"u@v@[fe80::1]:" = some ⟨some b!"u@v", b!"fe80::1", b!"."⟩ := by decide +kernel
example : parse b!"@h:/x" = some ⟨none, b!"h", b!"/x"⟩ := by decide +kernel
example : parse b!"a:b@[c]:d" = some ⟨none, b!"a", b!"b@[c]:d"⟩ := by decide +kernel
example : Splits b!"h:x:y" b!"h" b!"x:y" := ⟨rfl, by simp, by decide, by decide, .inl ⟨by decide, not_open (by decide)⟩⟩

-- C147_local
example : parse b!"./u@h:x" = none := C147_local (.inr (.inr ⟨b!".", b!"u@h:x", rfl, by decide⟩))
example : parse b!":x" = none := C147_local (.inr (.inl rfl))
example : parse b!"[x/y]:z" = none ∧ parse b!"[x:y" = none := by decide +kernel

-- C147_plain, C147_brackets
example : parse b!"u@h:x y:z" = some ⟨some b!"u", b!"h", b!"x y:z"⟩ :=
  C147_plain (user := some b!"u") (host := b!"h") (path := b!"x y:z") (fun u h => by cases h; decide) (by decide) (by decide) (by decide) (by decide) (by decide)
example : parse b!"u@[::1]:" = some ⟨some b!"u", b!"::1", b!"."⟩ :=
  C147_brackets (user := some b!"u") (host := b!"::1") (path := []) (fun u h => by cases h; decide) (by decide) (by decide) (by decide)

end Verif.Operand.Examples
