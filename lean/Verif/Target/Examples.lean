/-
Cases for C120, C121 and C122.
-/
import Verif.Target.Jump

namespace Verif.Target
open Verif

/-- No service names -/
def noServ : Bytes → Option Nat := fun _ => none

/-! ### C121 -/

example : destination noServ b!"u@h@example.com" = some ⟨some b!"u@h", b!"example.com", none⟩ := by decide
example : destination noServ b!"example.com" = some ⟨none, b!"example.com", none⟩ := by decide
example : destination noServ b!"@example.com" = none := by decide
example : destination noServ b!"ssh://me%40x;fp=1@example.com.:2222/" = some ⟨some b!"me@x", b!"example.com", some 2222⟩ := by decide
example : destination noServ b!"ssh://example.com/path" = none := by decide
example : destination noServ b!"ssh://example.com:0" = none := by decide
example : destination noServ b!"ssh://[::1]:22" = none := by decide
-- a NUL cuts the user, even to nothing
example : destination noServ b!"ssh://root%00x@h" = some ⟨some b!"root", b!"h", none⟩ := by decide
example : destination noServ b!"ssh://%00@h" = some ⟨some [], b!"h", none⟩ := by decide
example : SshUri noServ b!"ssh://example.com:2222" ⟨none, b!"example.com", some 2222⟩ := by
  rcases (C121_destination noServ b!"ssh://example.com:2222" ⟨none, b!"example.com", some 2222⟩).1 (by decide) with h | ⟨h, _⟩
  · exact h
  · exact absurd ⟨b!"example.com:2222", by decide⟩ h

example : hop noServ b!"u@[::1]:2222" = some ⟨some b!"u", b!"::1", some 2222⟩ := by decide
example : hop noServ b!"h:" = some ⟨none, b!"h", none⟩ := by decide
example : hop noServ b!"h/22" = none := by decide
example : parseJump noServ b!"NONE" = .none := by decide
example : parseJump noServ b!"a,u@b:22,c" = .via ⟨none, b!"c", none⟩ (some b!"a,u@b:22") := by decide
example : parseJump noServ b!"a,,c" = .bad := by decide
example : Via noServ b!"a,u@b:22,c" [⟨none, b!"a", none⟩, ⟨some b!"u", b!"b", some 22⟩, ⟨none, b!"c", none⟩] :=
  (C121_order_partial noServ _ _ (by decide) (by decide) (by
    intro x h
    simp [Text.split] at h
    subst h
    simp [NoneWord])).2 (by decide)
-- a first hop called none is left out
example : parseJump noServ b!"none,b" = .via ⟨none, b!"b", none⟩ (some b!"none") ∧ parseJump noServ b!"none" = .none := by decide

/-! ### C120 -/

/-- A resolver that knows two names -/
def R : Resolver where
  numeric n := if n = b!"127.1" then some b!"127.0.0.1" else none
  single n := n = b!"127.1"
  look n := if n = b!"www.b.org." then some (some b!"web.c.org.") else if n = b!"www.a.org." then none
    else if n = b!"mail.b.org." then some none else if n = b!"bad.b.org." then some (some b!"x;y") else none

/-- Domains and a rule -/
def C : Cfg := ⟨.yes, true, 1, [b!"a.org", b!"b.org"], false, [(b!"*.b.org", b!"*.c.org")]⟩

example : target C R b!"WWW" = .host b!"web.c.org" true := by decide
example : target C R b!"mail" = .host b!"mail.b.org" true := by decide
example : target C R b!"bad" = .host b!"bad.b.org" true := by decide
example : target { C with rules := [(b!"*.b.org", b!"*.d.org")] } R b!"www" = .host b!"www.b.org" true := by decide
example : target { C with rules := [] } R b!"www" = .host b!"www.b.org" true := by decide
example : target C R b!"www.b.org." = .host b!"web.c.org" true := by decide
example : target C R b!"nowhere" = .exit := by decide
example : target { C with fallback := true, rules := [] } R b!"nowhere" = .host b!"nowhere" false := by decide
example : target { C with canon := .no, rules := [] } R b!"WWW" = .host b!"www" false := by decide
example : target { C with direct := false } R b!"WWW" = .host b!"www" false := by decide
example : target C R b!"127.1" = .host b!"127.0.0.1" true := by decide
example : target C R [] = .exit := by decide
example : Resolves C R b!"WWW" b!"web.c.org" true := (C120_name _ _ _ _ _).1 (by decide)
example : Missing C R b!"nowhere" := by
  refine Classical.byContradiction fun h => ?_
  rcases canonicalize_cases C R b!"nowhere" with ⟨_, _, h1, _⟩ | ⟨_, _, h1⟩ | ⟨_, _, _, _, _, _, _, h1⟩ | ⟨_, h1, _⟩
  · have : R.numeric b!"nowhere" = none := by decide
    rw [this] at h1; cases h1
  · revert h1; decide
  · have : canonicalize C R b!"nowhere" = .fatal := by decide
    rw [this] at h1; cases h1
  · exact h h1

/-! ### C122 -/

example : validHostname b!"example.com" = true := by decide
example : validHostname b!"-oProxyCommand=x" = false := by decide
example : validHostname b!"a`b`" = false := by decide
example : Inert b!"example.com" := (C122_host (by decide)).1
example : ¬ Inert b!"a b" := by
  intro h
  have := h .plain (by decide)
  revert this
  decide
example : reads .plain b!"nc 'x y' \"$z\"" = (.plain, [.lit 110, .lit 99, .op 32, .lit 120, .lit 32, .lit 121, .op 32, .op 36, .lit 122]) := by decide
example : validRuser b!"o'brien" = false := by decide
example : validRuser b!"DOMAIN\\user" = true := by decide
example : validRuser b!"a -b" = false := by decide
example : ∃ D, hop noServ b!"ssh://u@h:22" = some D ∧ IsUri b!"ssh://u@h:22" := ⟨⟨some b!"u", b!"h", some 22⟩, by decide, b!"u@h:22", by decide⟩
example : jumpCommand b!"ssh" ⟨some b!"u", b!"gate", some 2222⟩ none none 1 = b!"ssh -l u -p 2222 -v -W '[%h]:%p' gate" := by decide +kernel
example : jumpWords b!"ssh" ⟨some b!"u", b!"gate", some 2222⟩ none none 1 =
    [b!"ssh", b!"-l", b!"u", b!"-p", b!"2222", b!"-v", b!"-W", b!"[%h]:%p", b!"gate"] := by decide +kernel

end Verif.Target
