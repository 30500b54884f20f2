/-
C111, concretely; and what does not hold.
-/
import Verif.Uid.Props

namespace Verif.Uid

def root : Creds := ⟨0, 0, 0, 0, 0, 0, [0]⟩
def alice : Pw := ⟨1, 1000, 100⟩
def bob : Pw := ⟨2, 1001, 101⟩
/-- another account with the uid of `alice` -/
def alice2 : Pw := ⟨3, 1000, 300⟩

/-- Linux, no call fails. -/
def calm : World := ⟨kernel, fun _ => false, fun p => [p.gid, 5000 + p.name]⟩

theorem calm_linux : Linux calm := rfl

example : (history calm (start root) [.temporarily alice]).map (·.creds) = some ⟨0, 1000, 0, 0, 100, 0, [100, 5001]⟩ := by decide
example : (history calm (start root) [.temporarily alice, .restore]).map (·.creds) = some root := by decide
example : (history calm (start root) [.temporarily alice, .restore, .temporarily bob]).map (·.creds)
    = some ⟨0, 1001, 0, 0, 101, 0, [101, 5002]⟩ := by decide
example : (permanently calm (start root) alice).map (·.creds) = some ⟨1000, 1000, 1000, 100, 100, 100, [0]⟩ := by decide
example : (permanently calm (start ⟨1000, 0, 0, 100, 100, 100, [100]⟩) alice).map (·.creds)
    = some ⟨1000, 1000, 1000, 100, 100, 100, [100]⟩ := by decide

/-- A kernel that leaves the saved user id alone when all three are to be set (seen on old systems). -/
def leaky : World :=
  ⟨fun c a => match a with
    | .setresuid r e _ => kernel { c with suid := 0 } (.setresuid r e 0)
    | a => kernel c a, fun _ => false, fun _ => []⟩

/-- The test of restoration notices it. -/
example : permanently leaky (start root) alice = none := by decide

/-- The supplementary groups are left to the caller: giving up privileges for good keeps those of root. -/
theorem C111_groups_stay : ∃ t, permanently calm (start root) alice = some t ∧ t.creds.groups = [0] := ⟨_, rfl, rfl⟩

/-- Groups are remembered by uid only: another account with the same uid gets the groups of the first. -/
theorem C111_groups_shared : ∃ t, history calm (start root) [.temporarily alice, .restore, .temporarily alice2] = some t ∧
    t.creds.euid = 1000 ∧ t.creds.egid = 300 ∧ t.creds.groups = calm.groupsOf alice ∧ calm.groupsOf alice ≠ calm.groupsOf alice2 :=
  ⟨_, rfl, rfl, rfl, rfl, by decide⟩

/-- Calls cannot be nested: the second user is not taken on, and afterwards the privileges are not brought back. -/
theorem C111_nested : ∃ t, history calm (start root) [.temporarily alice, .temporarily bob, .restore, .restore] = some t ∧
    t.creds.euid = 1000 ∧ t.creds.egid = 100 := ⟨_, rfl, rfl, rfl⟩

/-- For root taken on and another user inside, what is brought back is not what there was at first. -/
theorem C111_nested_root : ∃ t, history calm (start root) [.temporarily ⟨4, 0, 7⟩, .temporarily bob, .restore] = some t ∧
    t.effective = false ∧ t.creds.egid = 7 := ⟨_, rfl, rfl, rfl⟩

end Verif.Uid
