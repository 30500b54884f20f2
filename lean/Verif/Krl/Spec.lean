/-
What a history of revocation calls means, independent of trees, merging and encodings.
-/
import Verif.Krl.Model

namespace Verif.Krl
open Verif Wire RB

/-- Does the call revoke the key or certificate?  Serial 0 means "no serial"; revocations of
certificates apply to certificates of the named CA, or of any CA for the wildcard; revoking a plain key (by
value or hash) also covers every certificate for it and every certificate signed by it. -/
def Hits (E : Env K) (key : Key K) : Cmd K → Prop
  | .range ca lo hi => ∃ c, key.cert = some c ∧ (ca = none ∨ ca = some c.ca) ∧ 0 < lo ∧ 0 < c.serial ∧
      lo ≤ c.serial ∧ c.serial ≤ hi
  | .id ca i => ∃ c, key.cert = some c ∧ (ca = none ∨ ca = some c.ca) ∧ c.keyId = i
  | .key b => b = E.ser key.pub ∨ ∃ c, key.cert = some c ∧ b = E.ser c.ca
  | .sha1 h => h.length = 20 ∧ (h = E.sha1 (E.ser key.pub) ∨ ∃ c, key.cert = some c ∧ h = E.sha1 (E.ser c.ca))
  | .sha256 h => h.length = 32 ∧ (h = E.sha256 (E.ser key.pub) ∨ ∃ c, key.cert = some c ∧ h = E.sha256 (E.ser c.ca))

/-- Arguments are representable: 64-bit serials, key IDs are C strings. -/
def Cmd.valid : Cmd K → Prop
  | .range _ lo hi => lo < U64 ∧ hi < U64
  | .id _ i => 0 ∉ i
  | _ => True

/-- A serial covered by a list of ranges. -/
def Cov (l : List Range) (n : Nat) : Prop := ∃ r ∈ l, r.lo ≤ n ∧ n ≤ r.hi

end Verif.Krl
