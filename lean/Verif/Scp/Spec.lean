import Verif.Scp.Model

namespace Verif.Scp
open Verif

/-- A name that names an entry of the directory it is used in: not empty, no separator, not `.` or `..`. -/
structure Safe (n : Bytes) : Prop where
  nonempty : n ≠ []
  slash : (47 : UInt8) ∉ n
  dot : n ≠ [46]
  dotdot : n ≠ [46, 46]

/-- The entry reached from `targ` through the names `ns`. -/
def below (targ : Bytes) : List Bytes → Bytes
  | [] => targ
  | ns@(_ :: _) => (if targ = [47] then [] else targ) ++ ns.flatMap fun n => 47 :: n

/-- The path an event refers to. -/
def Event.path? : Event → Option Bytes
  | .mkdir p _ => some p
  | .chmod p _ => some p
  | .utimes p _ => some p
  | .open_ p _ => some p
  | _ => none

/-- The name was asked for. -/
def Asked (C : Conf) (E : Env) (n : Bytes) : Prop :=
  C.patterns = [] ∨ ∃ p ∈ C.patterns, p = n ∨ E.fnmatch p n = true

/-- All that may be touched on behalf of a peer: entries reached through at least `lo` safe names that were asked for, and
without `-r` through at most one, and no directory made and no mode changed by path. -/
def Confined (C : Conf) (E : Env) (targ : Bytes) (lo : Nat) (e : Event) : Prop :=
  ∀ p, e.path? = some p →
    ∃ ns, p = below targ ns ∧ lo ≤ ns.length ∧ (∀ n ∈ ns, Safe n ∧ Asked C E n) ∧ 
      (C.recursive = false → ns.length ≤ 1 ∧ ∀ q m, e ≠ .mkdir q m ∧ e ≠ .chmod q m)

end Verif.Scp
