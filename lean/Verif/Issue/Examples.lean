/-
Concrete cases for C142.
-/
import Verif.Issue.Grant

namespace Verif.Issue.Examples
open Verif Verif.Issue
open _root_.Verif.KeyOpts (World Opts fromCert Cert)

/-- reads one address, 10.0.0.0 -/
def world : World := ⟨fun s => if s = b!"10.0.0.0" then some ⟨.inet, 0x0a000000, 0, 0, 0, 0⟩ else none, fun _ => none, fun _ => none⟩

/-- what the server makes of options given to ssh-keygen -/
def served (opts : List Bytes) : Option (Option Opts) :=
  (addAll world opts start).map fun a => fromCert world ⟨.user, [b!"root"], 0, 1, (issue a).1, (issue a).2, 0⟩

/-- each kind of option -/
def opts : List Bytes :=
  [b!"force-command=date", b!"clear", b!"Permit-PTY", b!"source-address=10.0.0.0/8", b!"extension:id@example.com=7", b!"verify-required", b!"no-touch-required",
   b!"permit-agent-forwarding", b!"no-agent-forwarding"]

example : (addAll world opts start).map (fun a => (a.command, a.source, a.exts)) =
    some (some b!"date", some b!"10.0.0.0/8", [⟨b!"id@example.com", some b!"7", false⟩]) := by decide +kernel
example : ∀ o ∈ opts, (0 : UInt8) ∉ o ∧ o.length + 4 ≤ maxString := by decide
example : served opts = some (some { pty := true, noPresence := true, verify := true, command := some b!"date", fromCert := some b!"10.0.0.0/8" }) := by
  decide +kernel
example : (lastSaid .pty opts true, lastSaid .agent opts true, lastSaid .x11 opts true, lastSaid .verify opts false) = (true, false, false, true) := by
  decide +kernel
/-- none given: all that is permitted by default -/
example : served [] = some (some { x11 := true, agentFwd := true, portFwd := true, pty := true, userRc := true }) := by decide +kernel
/-- refused on the command line -/
example : served [b!"force-command=a", b!"force-command=b"] = none ∧ served [b!"source-address=10.0.0.1/8"] = none ∧ served [b!"permit-tty"] = none := by
  decide +kernel
/-- refused by the server -/
example : served [b!"critical:id@example.com"] = some none := by decide +kernel
/-- in order -/
example : (addAll world [b!"extension:zz", b!"extension:aa=1", b!"clear"] start).map issue =
    some ([], [0, 0, 0, 2, 97, 97, 0, 0, 0, 5, 0, 0, 0, 1, 49, 0, 0, 0, 2, 122, 122, 0, 0, 0, 0]) := by decide +kernel

/-- C142: `clear`, which is there to clear permissions, also takes back a restriction that was asked for before it. -/
theorem C142_clear_restriction : (served [b!"verify-required", b!"clear"]).map (fun r => r.map (·.verify)) = some (some false) ∧
    (served [b!"clear", b!"verify-required"]).map (fun r => r.map (·.verify)) = some (some true) := by decide +kernel

/-- C142: what is given as an extension of one's own need not do what its name says. A command to force is not forced; a permission with a value makes
the server refuse all; so does a command to force that is given in both ways. None of this is reported when the certificate is issued. -/
theorem C142_own : (served [b!"extension:force-command=date"]).map (fun r => r.map (·.command)) = some (some none) ∧
    served [b!"extension:permit-pty=yes"] = some none ∧ served [b!"critical:force-command=a", b!"force-command=b"] = some none := by decide +kernel

end Verif.Issue.Examples
