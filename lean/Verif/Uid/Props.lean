/-
C111: giving up privileges, for a while and for good.
-/
import Verif.Uid.Model

namespace Verif.Uid

/-- All ids are those of the user. -/
def Only (c : Creds) (pw : Pw) : Prop :=
  c.ruid = pw.uid ∧ c.euid = pw.uid ∧ c.suid = pw.uid ∧ c.rgid = pw.gid ∧ c.egid = pw.gid ∧ c.sgid = pw.gid

/-- Credentials that system calls can lead to. -/
inductive Leads : Creds → Creds → Prop
  | refl (c : Creds) : Leads c c
  | step {c k l : Creds} (call : Call) : Leads c k → kernel k call = some l → Leads c l

/-- The identity of a user taken on by a process with credentials `c`: the real and saved ids stay. -/
structure As (c : Creds) (pw : Pw) (groups : List Nat) (d : Creds) : Prop where
  euid : d.euid = pw.uid
  egid : d.egid = pw.gid
  groups : d.groups = groups
  rest : d.ruid = c.ruid ∧ d.suid = c.suid ∧ d.rgid = c.rgid ∧ d.sgid = c.sgid

/-- The system is Linux. -/
def Linux (W : World) : Prop := W.kernel = kernel

/-! ### System calls -/

theorem must_some {W : World} (hX : Linux W) {s t : St} {c : Call} (h : must W s c = some t) :
    ∃ k, kernel s.creds c = some k ∧ t = { s with creds := k, count := s.count + 1 } := by
  unfold must at h
  split at h
  · rename_i s' hs
    cases h
    unfold sys at hs
    split at hs
    · rename_i k hk
      cases hs
      split at hk
      · cases hk
      · exact ⟨k, hX ▸ hk, rfl⟩
    · cases hs
  · cases h

theorem sys_false {W : World} {s t : St} {c : Call} (h : sys W s c = (false, t)) : t = { s with count := s.count + 1 } := by
  unfold sys at h
  split at h
  · cases h
  · cases h; rfl

theorem wayBack_false {W : World} {s t : St} {a b : Call} (h : wayBack W s a b = (false, t)) : t.creds = s.creds := by
  unfold wayBack at h
  split at h
  · cases h
  · rename_i s' hs
    rw [sys_false h, sys_false hs]

/-! ### For good -/

/-- When `permanently_set_uid` returns, all six ids are those of the user; the supplementary groups are what they were. -/
theorem C111_permanent {W : World} (hX : Linux W) {s t : St} {pw : Pw} (h : permanently W s pw = some t) :
    Only t.creds pw ∧ t.creds.groups = s.creds.groups := by
  unfold permanently at h
  split at h
  · cases h
  split at h
  · cases h
  rename_i s' h1
  split at h
  · cases h
  rename_i s'' h2
  obtain ⟨k1, hk1, rfl⟩ := must_some hX h1
  obtain ⟨k2, hk2, rfl⟩ := must_some hX h2
  have e1 : k1 = { s.creds with rgid := pw.gid, egid := pw.gid, sgid := pw.gid } := by
    unfold kernel at hk1
    dsimp only at hk1
    split at hk1
    · cases hk1; rfl
    · cases hk1
  have e2 : k2 = { k1 with ruid := pw.uid, euid := pw.uid, suid := pw.uid } := by
    unfold kernel at hk2
    dsimp only at hk2
    split at hk2
    · cases hk2; rfl
    · cases hk2
  have hc : t.creds = k2 := by
    unfold checks at h
    split at h
    · cases h
    rename_i s1 hs1
    have c1 : s1.creds = k2 := by
      split at hs1
      · exact wayBack_false hs1
      · cases hs1; rfl
    split at h
    · cases h
    unfold uidChecks at h
    split at h
    · cases h
    rename_i s2 hs2
    have c2 : s2.creds = s1.creds := by
      split at hs2
      · exact wayBack_false hs2
      · cases hs2; rfl
    split at h
    · cases h
    · cases h; rw [c2, c1]
  rw [hc, e2, e1]
  exact ⟨⟨rfl, rfl, rfl, rfl, rfl, rfl⟩, rfl⟩

/-- A process with the ids of a user other than root keeps these ids and its groups, whatever system calls it makes. -/
theorem C111_forever {c d : Creds} {pw : Pw} (h : Only c pw) (hu : pw.uid ≠ 0) (hl : Leads c d) :
    Only d pw ∧ d.groups = c.groups := by
  induction hl with
  | refl => exact ⟨h, rfl⟩
  | step call _ hk ih =>
    rename_i k l _
    obtain ⟨⟨h1, h2, h3, h4, h5, h6⟩, hg⟩ := ih
    have he : ¬ k.euid = 0 := by rw [h2]; exact hu
    cases call with
    | seteuid u =>
      simp only [kernel, he, false_or] at hk
      split at hk
      · rename_i hx; cases hk
        exact ⟨⟨h1, by show u = pw.uid; omega, h3, h4, h5, h6⟩, hg⟩
      · cases hk
    | setuid u =>
      simp only [kernel, he, if_false] at hk
      split at hk
      · rename_i hx; cases hk
        exact ⟨⟨h1, by show u = pw.uid; omega, h3, h4, h5, h6⟩, hg⟩
      · cases hk
    | setresuid r e s =>
      simp only [kernel, he, false_or] at hk
      split at hk
      · rename_i hx; cases hk
        exact ⟨⟨by show r = pw.uid; omega, by show e = pw.uid; omega, by show s = pw.uid; omega, h4, h5, h6⟩, hg⟩
      · cases hk
    | setegid g =>
      simp only [kernel, he, false_or] at hk
      split at hk
      · rename_i hx; cases hk
        exact ⟨⟨h1, h2, h3, h4, by show g = pw.gid; omega, h6⟩, hg⟩
      · cases hk
    | setgid g =>
      simp only [kernel, he, if_false] at hk
      split at hk
      · rename_i hx; cases hk
        exact ⟨⟨h1, h2, h3, h4, by show g = pw.gid; omega, h6⟩, hg⟩
      · cases hk
    | setresgid r e s =>
      simp only [kernel, he, false_or] at hk
      split at hk
      · rename_i hx; cases hk
        exact ⟨⟨h1, h2, h3, by show r = pw.gid; omega, by show e = pw.gid; omega, by show s = pw.gid; omega⟩, hg⟩
      · cases hk
    | setgroups g =>
      simp only [kernel, he, if_false] at hk
      cases hk

/-- Whatever the kernel does: `permanently_set_uid` returns only if real and effective ids are the user's, and if the calls that
would bring back the ids from before are refused. -/
theorem C111_verified {W : World} (hW : ∀ n, W.refuses n = false) {s t : St} {pw : Pw} (h : permanently W s pw = some t) :
    t.creds.ruid = pw.uid ∧ t.creds.euid = pw.uid ∧ t.creds.rgid = pw.gid ∧ t.creds.egid = pw.gid ∧
      (s.creds.ruid ≠ pw.uid →
        W.kernel t.creds (.setuid s.creds.ruid) = none ∧ W.kernel t.creds (.seteuid s.creds.ruid) = none) ∧
      (s.creds.rgid ≠ pw.gid → pw.uid ≠ 0 →
        W.kernel t.creds (.setgid s.creds.rgid) = none ∧ W.kernel t.creds (.setegid s.creds.rgid) = none) := by
  have hn : ∀ {s t : St} {a : Call}, sys W s a = (false, t) → W.kernel s.creds a = none := by
    intro s t a h
    unfold sys at h
    rw [hW, if_neg (by simp)] at h
    split at h
    · cases h
    · assumption
  have hb : ∀ {s t : St} {a b : Call}, wayBack W s a b = (false, t) →
      W.kernel t.creds a = none ∧ W.kernel t.creds b = none := by
    intro s t a b h
    have hc := wayBack_false h
    unfold wayBack at h
    split at h
    · cases h
    · rename_i s' hs
      have := hn h
      rw [sys_false hs] at this
      rw [hc]
      exact ⟨hn hs, this⟩
  unfold permanently at h
  split at h
  · cases h
  split at h
  · cases h
  split at h
  · cases h
  unfold checks at h
  split at h
  · cases h
  rename_i s1 hs1
  split at h
  · cases h
  rename_i hg
  unfold uidChecks at h
  split at h
  · cases h
  rename_i s2 hs2
  split at h
  · cases h
  rename_i hu
  cases h
  have e : t.creds = s1.creds := by
    split at hs2
    · exact wayBack_false hs2
    · cases hs2; rfl
  refine ⟨Decidable.byContradiction fun h => hu (.inl h), Decidable.byContradiction fun h => hu (.inr h), ?_, ?_, fun h => ?_,
    fun h h' => ?_⟩
  · rw [e]; exact Decidable.byContradiction fun h => hg (.inl h)
  · rw [e]; exact Decidable.byContradiction fun h => hg (.inr h)
  · rw [if_pos h] at hs2
    exact hb hs2
  · rw [if_pos ⟨h, h'⟩] at hs1
    rw [e]
    exact hb hs1

/-- While another identity is taken on temporarily it cannot be given up for good. -/
theorem C111_effective {W : World} {s : St} {pw : Pw} (h : s.effective = true) : permanently W s pw = none := by
  unfold permanently
  rw [if_pos h]

/-- A privileged process can always give up its privileges if the kernel does not refuse. -/
theorem C111_possible {W : World} (hX : Linux W) {s : St} {pw : Pw} (hW : ∀ n, W.refuses n = false) (h0 : s.creds.euid = 0)
    (he : s.effective = false) (hu : pw.uid ≠ 0) : ∃ t, permanently W s pw = some t := by
  have hm : ∀ (s : St) (c : Call) (k : Creds), kernel s.creds c = some k → must W s c = some { s with creds := k, count := s.count + 1 } := by
    intro s c k hk
    unfold must sys
    rw [hW, if_neg (by simp), hX, hk]
  have hf : ∀ (s : St) (c : Call), kernel s.creds c = none → sys W s c = (false, { s with count := s.count + 1 }) := by
    intro s c hk
    unfold sys
    rw [hW, if_neg (by simp), hX, hk]
  unfold permanently
  rw [if_neg (by rw [he]; simp), hm s _ { s.creds with rgid := pw.gid, egid := pw.gid, sgid := pw.gid } (by simp [kernel, h0])]
  dsimp only
  rw [hm _ _ { s.creds with rgid := pw.gid, egid := pw.gid, sgid := pw.gid, ruid := pw.uid, euid := pw.uid, suid := pw.uid }
    (by simp [kernel, h0])]
  dsimp only
  have hback : ∀ (s : St) (a b : Call), kernel s.creds a = none → kernel s.creds b = none → ∃ t, wayBack W s a b = (false, t) ∧ t.creds = s.creds := by
    intro s a b ha hb
    unfold wayBack
    rw [hf s a ha]
    dsimp only
    rw [hf { s with count := s.count + 1 } b hb]
    exact ⟨_, rfl, rfl⟩
  have hu2 : ∀ s' : St, Only s'.creds pw → ∃ t, uidChecks W s' pw s.creds.ruid = some t := by
    intro s' ho
    obtain ⟨o1, o2, o3, -, -, -⟩ := ho
    unfold uidChecks
    by_cases hc : s.creds.ruid = pw.uid
    · rw [if_neg (by simpa using hc)]
      dsimp only
      rw [if_neg (by simp [o1, o2])]
      exact ⟨_, rfl⟩
    · rw [if_pos hc]
      obtain ⟨t, ht, htc⟩ := hback s' (.setuid s.creds.ruid) (.seteuid s.creds.ruid) (by simp [kernel, o1, o2, o3, hu, hc])
        (by simp [kernel, o1, o2, o3, hu, hc])
      rw [ht]
      dsimp only
      rw [htc, if_neg (by simp [o1, o2])]
      exact ⟨_, rfl⟩
  unfold checks
  by_cases hc : s.creds.rgid = pw.gid
  · rw [if_neg (by simp [hc])]
    dsimp only
    rw [if_neg (by simp)]
    exact hu2 _ ⟨rfl, rfl, rfl, rfl, rfl, rfl⟩
  · rw [if_pos ⟨hc, hu⟩]
    obtain ⟨t, ht, htc⟩ := hback
      { s with
        creds := { s.creds with rgid := pw.gid, egid := pw.gid, sgid := pw.gid, ruid := pw.uid, euid := pw.uid, suid := pw.uid }
        count := s.count + 1 + 1 } (.setgid s.creds.rgid) (.setegid s.creds.rgid) (by simp [kernel, hu, hc]) (by simp [kernel, hu, hc])
    rw [ht]
    dsimp only
    rw [htc, if_neg (by simp)]
    exact hu2 _ (by rw [htc]; exact ⟨rfl, rfl, rfl, rfl, rfl, rfl⟩)

/-! ### For a while -/

/-- What is known about the static variables after calls for the users `l`. -/
structure Known (W : World) (l : List Pw) (s : St) : Prop where
  groups : ∀ g, s.userGroups = some g → ∃ p ∈ l, p.uid = s.userGroupsUid ∧ g = W.groupsOf p

theorem userGroups_some {W : World} (hX : Linux W) {l : List Pw} {s t : St} {pw : Pw} (hk : Known W l s) (h : userGroups W s pw = some t) :
    (∃ p ∈ pw :: l, p.uid = pw.uid ∧ t.userGroups = some (W.groupsOf p)) ∧ t.userGroupsUid = pw.uid ∧
      (t.creds = s.creds ∨ t.creds = { s.creds with groups := t.creds.groups }) ∧ t.savedEuid = s.savedEuid ∧ t.savedEgid = s.savedEgid ∧
      t.privileged = s.privileged ∧ t.effective = s.effective ∧ t.savedGroups = s.savedGroups := by
  unfold userGroups at h
  split at h
  · split at h
    · cases h
    rename_i s' hs
    obtain ⟨k, hk', rfl⟩ := must_some hX hs
    cases h
    simp only [kernel] at hk'
    split at hk'
    · cases hk'
      exact ⟨⟨pw, by simp, rfl, rfl⟩, rfl, .inr rfl, rfl, rfl, rfl, rfl, rfl⟩
    · cases hk'
  · rename_i hc
    cases h
    have h1 : s.userGroups ≠ none := fun h => hc (.inl h)
    have h2 : s.userGroupsUid = pw.uid := Decidable.byContradiction fun h => hc (.inr h)
    obtain ⟨g, hg⟩ := Option.ne_none_iff_exists'.1 h1
    obtain ⟨p, hp, he, rfl⟩ := hk.groups g hg
    exact ⟨⟨p, List.mem_cons_of_mem _ hp, by rw [he, h2], hg⟩, h2, .inl rfl, rfl, rfl, rfl, rfl, rfl⟩

/-- A privileged process takes on the user's ids and groups; the groups are those found for the first user with this uid. -/
theorem temporarily_root {W : World} (hX : Linux W) {l : List Pw} {s t : St} {pw : Pw} (hk : Known W l s) (h0 : s.creds.euid = 0)
    (h : temporarily W s pw = some t) :
    (∃ p ∈ pw :: l, p.uid = pw.uid ∧ As s.creds pw (W.groupsOf p) t.creds) ∧ t.savedEuid = s.creds.euid ∧ t.savedEgid = s.creds.egid ∧
      t.savedGroups = s.creds.groups ∧ t.privileged = true ∧ t.effective = true ∧ Known W (pw :: l) t := by
  unfold temporarily at h
  rw [if_neg (by simp [h0])] at h
  split at h
  · cases h
  rename_i s1 h1
  have hk' : Known W l (remember s) := ⟨hk.groups⟩
  obtain ⟨⟨p, hp, hpu, hg⟩, hguid, hcr, a1, a2, a3, a4, a5⟩ := userGroups_some hX hk' h1
  split at h
  · cases h
  rename_i s2 h2
  split at h
  · cases h
  rename_i s3 h3
  obtain ⟨k2, hk2, rfl⟩ := must_some hX h2
  obtain ⟨k3, hk3, rfl⟩ := must_some hX h3
  obtain ⟨k4, hk4, rfl⟩ := must_some hX h
  have r1 : s1.creds.ruid = s.creds.ruid ∧ s1.creds.suid = s.creds.suid ∧ s1.creds.rgid = s.creds.rgid ∧ s1.creds.sgid = s.creds.sgid := by
    rcases hcr with hc | hc
    · rw [hc]; exact ⟨rfl, rfl, rfl, rfl⟩
    · rw [hc]; exact ⟨rfl, rfl, rfl, rfl⟩
  have e2 : k2 = { s1.creds with groups := W.groupsOf p } := by
    simp only [kernel, hg, Option.getD_some] at hk2
    split at hk2
    · cases hk2; rfl
    · cases hk2
  have e3 : k3 = { k2 with egid := pw.gid } := by
    simp only [kernel] at hk3
    split at hk3
    · cases hk3; rfl
    · cases hk3
  have e4 : k4 = { k3 with euid := pw.uid } := by
    simp only [kernel] at hk4
    split at hk4
    · cases hk4; rfl
    · cases hk4
  refine ⟨⟨p, hp, hpu, ?_⟩, a1, a2, a5, a3, a4, ⟨fun g hg' => ?_⟩⟩
  · show As s.creds pw (W.groupsOf p) k4
    rw [e4, e3, e2]
    exact ⟨rfl, rfl, rfl, r1⟩
  · have hg2 : s1.userGroups = some g := hg'
    rw [hg] at hg2
    cases hg2
    exact ⟨p, hp, by show p.uid = s1.userGroupsUid; rw [hguid, hpu], rfl⟩

/-- The credentials in a history of calls: those at the beginning, or those of a user who was asked for. -/
structure Fine (W : World) (c : Creds) (l : List Pw) (s : St) : Prop where
  known : Known W l s
  own : s.effective = false → s.creds = c
  other : s.effective = true → ∃ pw ∈ l, ∃ p ∈ l, p.uid = pw.uid ∧ As c pw (W.groupsOf p) s.creds
  saved : s.effective = true → s.privileged = true → s.savedEuid = c.euid ∧ s.savedEgid = c.egid ∧ s.savedGroups = c.groups

theorem Fine.cons {W : World} {c : Creds} {l : List Pw} {s : St} (h : Fine W c l s) (pw : Pw) : Fine W c (pw :: l) s where
  known := ⟨fun g hg => by
    obtain ⟨p, hp, h⟩ := h.known.groups g hg
    exact ⟨p, List.mem_cons_of_mem _ hp, h⟩⟩
  own := h.own
  other := fun he => by
    obtain ⟨q, hq, p, hp, h⟩ := h.other he
    exact ⟨q, List.mem_cons_of_mem _ hq, p, List.mem_cons_of_mem _ hp, h⟩
  saved := h.saved

theorem temporarily_fine {W : World} (hX : Linux W) {c : Creds} (hc : c.euid = 0) {l : List Pw} {s t : St} {pw : Pw} (hl : ∀ p ∈ l, p.uid ≠ 0)
    (hf : Fine W c l s) (h : temporarily W s pw = some t) : Fine W c (pw :: l) t := by
  by_cases h0 : s.creds.euid = 0
  · have he : s.effective = false := by
      cases he : s.effective with
      | false => rfl
      | true =>
        obtain ⟨q, hq, p, hp, -, ha⟩ := hf.other he
        rw [ha.euid] at h0
        exact absurd h0 (hl q hq)
    have hcr := hf.own he
    obtain ⟨⟨p, hp, hpu, ha⟩, h1, h2, h3, h4, h5, h6⟩ := temporarily_root hX hf.known h0 h
    rw [hcr] at ha h1 h2 h3
    exact ⟨h6, fun h => (by rw [h5] at h; cases h), fun _ => ⟨pw, by simp, p, hp, hpu, ha⟩, fun _ _ => ⟨h1, h2, h3⟩⟩
  · unfold temporarily at h
    rw [if_pos h0] at h
    cases h
    have h' := hf.cons pw
    exact ⟨⟨h'.known.groups⟩, h'.own, h'.other, fun _ h => (by cases h)⟩

theorem restore_fine {W : World} (hX : Linux W) {c : Creds} {l : List Pw} {s t : St} (hf : Fine W c l s) (h : restore W s = some t) :
    Fine W c l t ∧ (s.privileged = true → t.effective = false) := by
  unfold restore at h
  split at h
  · rename_i hp
    cases h
    exact ⟨hf, fun h => by rw [hp] at h; cases h⟩
  rename_i hp
  have hp : s.privileged = true := by simpa using hp
  split at h
  · cases h
  rename_i he
  have he : s.effective = true := by simpa using he
  split at h
  · cases h
  rename_i s1 h1
  split at h
  · cases h
  rename_i s2 h2
  split at h
  · cases h
  rename_i s3 h3
  cases h
  obtain ⟨k1, hk1, rfl⟩ := must_some hX h1
  obtain ⟨k2, hk2, rfl⟩ := must_some hX h2
  obtain ⟨k3, hk3, rfl⟩ := must_some hX h3
  obtain ⟨e1, e2, e3⟩ := hf.saved he hp
  obtain ⟨q, hq, p, hp', hpq, ha⟩ := hf.other he
  obtain ⟨r1, r2, r3, r4⟩ := ha.rest
  have c1 : k1 = { s.creds with euid := c.euid } := by
    simp only [kernel, e1] at hk1
    split at hk1
    · cases hk1; rfl
    · cases hk1
  have c2 : k2 = { k1 with egid := c.egid } := by
    simp only [kernel, e2] at hk2
    split at hk2
    · cases hk2; rfl
    · cases hk2
  have c3 : k3 = { k2 with groups := c.groups } := by
    simp only [kernel, e3] at hk3
    split at hk3
    · cases hk3; rfl
    · cases hk3
  refine ⟨⟨⟨hf.known.groups⟩, fun _ => ?_, fun h => (by cases h), fun h => (by cases h)⟩, fun _ => rfl⟩
  show k3 = c
  rw [c3, c2, c1]
  cases c
  simp only [Creds.mk.injEq]
  exact ⟨r1, trivial, r2, r3, trivial, r4, trivial⟩

/-- The users asked for in a history. -/
def users : List Op → List Pw
  | [] => []
  | .temporarily pw :: l => users l ++ [pw]
  | .restore :: l => users l

/-- Whatever the order of calls for users other than root: a process that began with credentials `c` of root either has exactly
these, or the effective ids of a user asked for, with the groups of a user with the same uid.  And it has its own credentials
whenever no identity is taken on. -/
theorem C111_history {W : World} (hX : Linux W) {c : Creds} (hc : c.euid = 0) {l : List Op} (hl : ∀ p ∈ users l, p.uid ≠ 0) {t : St}
    (h : history W (start c) l = some t) :
    (t.effective = false → t.creds = c) ∧
      (t.effective = true → ∃ pw ∈ users l, ∃ p ∈ users l, p.uid = pw.uid ∧ As c pw (W.groupsOf p) t.creds) := by
  have key : ∀ (l : List Op) (s : St) (k : List Pw), (∀ p ∈ k, p.uid ≠ 0) → (∀ p ∈ users l, p.uid ≠ 0) → Fine W c k s →
      history W s l = some t → Fine W c (users l ++ k) t := by
    intro l
    induction l with
    | nil => intro s k _ _ hf h; cases h; exact hf
    | cons o l ih =>
      intro s k hk hu hf h
      cases o with
      | temporarily pw =>
        rw [history] at h
        split at h
        · cases h
        rename_i s' hs
        have := ih s' (pw :: k) (fun p hp => ?_) (fun p hp => hu p (by simp [users, hp])) (temporarily_fine hX hc hk hf hs) h
        · simpa [users] using this
        · rcases List.mem_cons.1 hp with rfl | hp
          · exact hu _ (by simp [users])
          · exact hk p hp
      | restore =>
        rw [history] at h
        split at h
        · cases h
        rename_i s' hs
        exact ih s' k hk hu (restore_fine hX hf hs).1 h
  have hs : Fine W c [] (start c) := ⟨⟨fun g h => (by cases h)⟩, fun _ => rfl, fun h => (by cases h), fun h => (by cases h)⟩
  have := key l (start c) [] (by simp) hl hs h
  rw [List.append_nil] at this
  exact ⟨this.own, this.other⟩

/-- Taking on an identity and giving it back leaves the credentials as they were; in between they are the user's. -/
theorem C111_round {W : World} (hX : Linux W) {c : Creds} (hc : c.euid = 0) {l : List Op} (hl : ∀ p ∈ users l, p.uid ≠ 0) {s t u : St}
    (h : history W (start c) l = some s) (he : s.effective = false) {pw : Pw} (hu : pw.uid ≠ 0)
    (h1 : temporarily W s pw = some t) (h2 : restore W t = some u) :
    t.creds.euid = pw.uid ∧ t.creds.egid = pw.gid ∧ u.creds = c ∧ u.effective = false := by
  have hs : ∀ (l : List Op) (s0 : St) (k : List Pw), (∀ p ∈ k, p.uid ≠ 0) → (∀ p ∈ users l, p.uid ≠ 0) → Fine W c k s0 →
      history W s0 l = some s → Fine W c (users l ++ k) s := by
    intro l
    induction l with
    | nil => intro s _ _ _ hf h; cases h; exact hf
    | cons o l ih =>
      intro s k hk hu hf h
      cases o with
      | temporarily pw =>
        rw [history] at h
        split at h
        · cases h
        rename_i s' hs
        have := ih s' (pw :: k) (fun p hp => ?_) (fun p hp => hu p (by simp [users, hp])) (temporarily_fine hX hc hk hf hs) h
        · simpa [users] using this
        · rcases List.mem_cons.1 hp with rfl | hp
          · exact hu _ (by simp [users])
          · exact hk p hp
      | restore =>
        rw [history] at h
        split at h
        · cases h
        rename_i s' hs
        exact ih s' k hk hu (restore_fine hX hf hs).1 h
  have hf := hs l (start c) [] (by simp) hl ⟨⟨fun g h => (by cases h)⟩, fun _ => rfl, fun h => (by cases h), fun h => (by cases h)⟩ h
  rw [List.append_nil] at hf
  have h0 : s.creds.euid = 0 := by rw [hf.own he]; exact hc
  obtain ⟨⟨p, -, -, ha⟩, -, -, -, hp, -, -⟩ := temporarily_root hX hf.known h0 h1
  have hf2 := restore_fine hX (temporarily_fine hX hc hl hf h1) h2
  exact ⟨ha.euid, ha.egid, hf2.1.own (hf2.2 hp), hf2.2 hp⟩

/-- A process that is not privileged is not changed at all. -/
theorem C111_unprivileged {W : World} {s t : St} {pw : Pw} (h0 : s.creds.euid ≠ 0) (h : temporarily W s pw = some t) :
    t.creds = s.creds ∧ ∀ u, restore W t = some u → u.creds = s.creds := by
  unfold temporarily at h
  rw [if_pos h0] at h
  cases h
  refine ⟨rfl, fun u hu => ?_⟩
  unfold restore at hu
  rw [if_pos rfl] at hu
  cases hu
  rfl

end Verif.Uid
