/-
Concrete cases for C145.
-/
import Verif.Issue.TimesProps

namespace Verif.Issue.Examples
open Verif Verif.Issue
open _root_.Verif.KeyOpts (World Cert certCheckNow)

/-- knows one date -/
def clock : World := ⟨fun _ => none, fun _ => none, fun s => if s = b!"20250101" then some 1735689600 else none⟩

example : times clock 1000000 b!"+1h" = some (999900, 1003600) ∧ times clock 1000000 b!"-1m:+1h30m" = some (999940, 1005400) ∧
    times clock 1000000 b!"always:forever" = some (0, 18446744073709551615) ∧ times clock 1000000 b!"20250101:0x7FffFfff" = some (1735689600, 2147483647) ∧
    times clock 1000000 b!"+1d:+2d" = some (1086400, 1172800) := by decide +kernel
/-- refused: empty, the wrong word, no end, before the epoch, not a number, too large, no colon -/
example : times clock 1000000 b!"+1h:+1h" = none ∧ times clock 1000000 b!"forever:always" = none ∧ times clock 1000000 b!"always:" = none ∧
    times clock 1000000 b!"-2w:forever" = none ∧ times clock 1000000 b!"0x:forever" = none ∧ times clock 1000000 b!"0x1g:forever" = none ∧
    times clock 1000000 b!"always:0x10000000000000000" = none ∧ times clock 1000000 b!"-1h" = none ∧ times clock 1000000 b!"+1x" = none := by decide +kernel
/-- accepted from the first time on, no longer at the second -/
def cert : Cert := ⟨.user, [], 999900, 1003600, [], [], 0⟩
example : certCheckNow cert false false false 999900 none = true ∧ certCheckNow cert false false false 1003599 none = true ∧
    certCheckNow cert false false false 1003600 none = false ∧ certCheckNow cert false false false 999899 none = false := by decide +kernel

end Verif.Issue.Examples
