/- What lines can set, and what becomes of it. -/
import Verif.SrvConf.Lemmas

namespace Verif.SrvConf
open Verif Match
open _root_.Verif.Conf (same multistate arg1 intValue algoOk noneAlone envNames)

/-- What a setting made from a line is like. -/
def Setting.Ok : Setting → Prop
  | .int k v => v ≠ -1 ∧ k ∉ lastKeys ∧ k ≠ .sourceMask6
  | .penalty k v => v ≠ -1 ∧ k ∉ lastKeys ∧ k ≠ .penaltyOn ∧ k ≠ .sourceMask6
  | .userEnv v _ => v ≠ -1
  | .last k v => (k ∈ lastKeys ∧ v ≠ -1) ∨ k = .sourceMask6 ∨ k = .unusedTimeout
  | .str k _ => k ≠ .userEnvList
  | .list k l => l ≠ [] ∧ k ∉ growing
  | .add k l _ => l ≠ [] ∧ k ∈ growing
  | .subsystem _ _ => True

/-- What a kind of keyword is like. -/
def Kind.Ok : Kind → Prop
  | .multi k t => k ∉ lastKeys ∧ k ≠ .sourceMask6 ∧ ∀ x ∈ t, x.2 ≠ -1
  | .time k => k ∉ lastKeys ∧ k ≠ .sourceMask6
  | .int k => k ∉ lastKeys ∧ k ≠ .sourceMask6
  | .file k => k ≠ .userEnvList
  | .word k => k ≠ .userEnvList
  | .algos k _ => k ≠ .userEnvList
  | .command k => k ≠ .userEnvList
  | .absCommand k => k ≠ .userEnvList
  | .words k f => k ∉ growing ∧ ∀ E a l, f E a = some l → l ≠ []
  | .adds k _ => k ∈ growing
  | .addFile k => k ∈ growing
  | _ => True

theorem nonEmpty_ne {E : Env} {a l : List Bytes} (h : nonEmpty E a = some l) : l ≠ [] := by
  simp only [nonEmpty] at h
  split at h
  · rename_i h1; simp only [Option.some.injEq] at h; subst h; simp at h1; exact h1.1
  · cases h

theorem verboseItems_ne {E : Env} {a l : List Bytes} (h : verboseItems E a = some l) : l ≠ [] := by
  simp only [verboseItems] at h
  split at h
  · rename_i h1; simp only [Option.some.injEq] at h; subst h; simp at h1; exact h1.1.1
  · cases h

theorem timeoutItems_ne {E : Env} {a l : List Bytes} (h : timeoutItems E a = some l) : l ≠ [] := by
  simp only [timeoutItems] at h
  split at h
  · rename_i h1; simp only [Option.some.injEq] at h; subst h; simp at h1; exact h1.1.1
  · cases h

theorem methodItems_ne {E : Env} {a l : List Bytes} (h : methodItems E a = some l) : l ≠ [] := by
  simp only [methodItems] at h
  split at h
  · cases h
  · rename_i h1
    split at h
    · simp only [Option.some.injEq] at h; subst h; exact h1
    · split at h
      · simp only [Option.some.injEq] at h; subst h; exact h1
      · cases h

theorem keysFileItems_ne {E : Env} {a l : List Bytes} (h : keysFileItems E a = some l) : l ≠ [] := by
  simp only [keysFileItems, Option.map_eq_some_iff] at h
  obtain ⟨b, h1, h2⟩ := h
  subst h2
  have := nonEmpty_ne h1
  simpa using this

theorem envNames_ne (a : Bytes) (l acc : List Bytes) (h : acc ≠ []) : envNames acc l ≠ [] := by
  induction l generalizing acc with
  | nil => exact h
  | cons b r ih =>
    rw [envNames]
    split
    · exact ih acc h
    · exact ih _ (by simp)

theorem setEnvItems_ne {E : Env} {a l : List Bytes} (h : setEnvItems E a = some l) : l ≠ [] := by
  simp only [setEnvItems] at h
  split at h
  · rename_i h1
    simp only [Option.some.injEq] at h; subst h; simp at h1
    cases a with
    | nil => simp at h1
    | cons b r =>
      rw [envNames]
      simp only [List.map_nil, List.contains_nil, Bool.false_eq_true, if_false]
      exact envNames_ne b r _ (by simp)
  · cases h

theorem permitWords_ne {b : Bool} {E : Env} {a l : List Bytes} (h : permitWords b E a = some l) : l ≠ [] := by
  simp only [permitWords] at h
  split at h
  · cases h
  · rename_i h1
    cases a with
    | nil => exact absurd rfl h1
    | cons x r =>
      rw [permitItems] at h
      split at h
      · simp only [if_true, Option.map_eq_some_iff] at h
        obtain ⟨y, _, h2⟩ := h
        subst h2; simp
      · cases hp : permitItem E b x with
        | none => rw [hp] at h; cases h
        | some z =>
          rw [hp] at h
          simp only [Option.bind_some, Option.map_eq_some_iff] at h
          obtain ⟨y, _, h2⟩ := h
          subst h2; simp

theorem table_ok : ∀ x ∈ keywords, x.2.1.Ok := by
  simp only [keywords, List.forall_mem_cons, List.not_mem_nil, false_implies, implies_true, and_true, flag, Kind.Ok]
  and_intros
  all_goals first
    | trivial
    | decide
    | exact fun _ _ _ h => verboseItems_ne h
    | exact fun _ _ _ h => timeoutItems_ne h
    | exact fun _ _ _ h => methodItems_ne h
    | exact fun _ _ _ h => keysFileItems_ne h
    | exact fun _ _ _ h => setEnvItems_ne h
    | exact fun _ _ _ h => permitWords_ne h

theorem intValue_ne {a : Bytes} {v : Int} (h : intValue a = some v) : v ≠ -1 := by
  have : 0 ≤ v := by
    simp only [intValue, Num.strtonum] at h
    split at h
    · cases h
    · split at h
      · cases h
      · split at h
        · cases h
        · split at h
          · cases h
          · simp only [Option.some.injEq] at h; omega
  omega

theorem timeValue_ne {a : Bytes} {v : Int} (h : timeValue a = some v) : v ≠ -1 := by
  simp only [timeValue] at h
  split at h
  · cases h
  · simp only [Option.some.injEq] at h; subst h; assumption

theorem ite_or {c : Prop} [Decidable c] {a b : Option α} {s : α} (h : (if c then a else b) = some s) : a = some s ∨ b = some s := by
  split at h
  · exact .inl h
  · exact .inr h

theorem penaltyItem_ok {more : Bool} {a : Bytes} {s : Setting} (h : penaltyItem more a = some s) : s.Ok := by
  have ht : ∀ {x : Bytes} {k : Key}, (timeValue x).map (Setting.penalty k) = some s → k ∉ lastKeys → k ≠ .penaltyOn → k ≠ .sourceMask6 → s.Ok := by
    intro x k h h1 h2 h3
    simp only [Option.map_eq_some_iff] at h
    obtain ⟨v, h4, h5⟩ := h
    subst h5
    exact ⟨timeValue_ne h4, h1, h2, h3⟩
  have hi : ∀ {x : Bytes} {k : Key}, (intValue x).map (Setting.penalty k) = some s → k ∉ lastKeys → k ≠ .penaltyOn → k ≠ .sourceMask6 → s.Ok := by
    intro x k h h1 h2 h3
    simp only [Option.map_eq_some_iff] at h
    obtain ⟨v, h4, h5⟩ := h
    subst h5
    exact ⟨intValue_ne h4, h1, h2, h3⟩
  rw [penaltyItem] at h
  rcases ite_or h with h | h
  · rcases ite_or h with h | h
    · cases h
    · simp only [Option.some.injEq] at h
      subst h
      refine ⟨?_, by decide, by decide⟩
      split <;> decide
  iterate 9
    rcases ite_or h with h | h
    · first
        | exact ht h (by decide) (by decide) (by decide)
        | exact hi h (by decide) (by decide) (by decide)
  iterate 4
    rcases ite_or h with h | h
    · cases h; exact ⟨by decide, by decide, by decide, by decide⟩
  cases h

theorem penaltyItems_ok {args : List Bytes} : ∀ {l : List Setting}, penaltyItems args = some l → ∀ s ∈ l, s.Ok := by
  induction args with
  | nil => intro l h; simp only [penaltyItems, Option.some.injEq] at h; subst h; intro s hs; cases hs
  | cons a r ih =>
    intro l h
    rw [penaltyItems] at h
    cases hp : penaltyItem (!r.isEmpty) a with
    | none => rw [hp] at h; cases h
    | some x =>
      rw [hp] at h
      simp only [Option.bind_some, Option.map_eq_some_iff] at h
      obtain ⟨y, h1, h2⟩ := h
      subst h2
      intro s hs
      cases hs with
      | head => exact penaltyItem_ok hp
      | tail _ hs => exact ih h1 s hs

theorem cut_eq {s l : List Setting} {r : List Bytes} (h : settings.cut s r = some l) : l = s ∧ r = [] := by
  cases r with
  | nil => simp only [settings.cut, Option.some.injEq] at h; exact ⟨h.symm, rfl⟩
  | cons _ _ => cases h

theorem startups_ok {l : List Int} {s : List Setting} (h : startupsValue l = some s) : ∀ x ∈ s, x.Ok := by
  unfold startupsValue at h
  split at h
  · split at h
    · cases h
    · rename_i h0
      cases h
      simp only [List.forall_mem_cons, List.not_mem_nil, false_implies, implies_true, and_true, Setting.Ok]
      refine ⟨.inl ⟨by decide, by omega⟩, .inl ⟨by decide, by omega⟩, .inl ⟨by decide, by omega⟩⟩
  · split at h
    · cases h
    · rename_i h0
      cases h
      simp only [List.forall_mem_cons, List.not_mem_nil, false_implies, implies_true, and_true, Setting.Ok]
      refine ⟨.inl ⟨by decide, by omega⟩, .inl ⟨by decide, by omega⟩⟩
  · cases h

theorem netblock_ok {j : Int} {l : List Int} {s : List Setting} (h : netblockValue j l = some s) : ∀ x ∈ s, x.Ok := by
  unfold netblockValue at h
  split at h
  · split at h
    · cases h
    · rename_i h0
      cases h
      simp only [List.forall_mem_cons, List.not_mem_nil, false_implies, implies_true, and_true, Setting.Ok]
      exact ⟨.inl ⟨by decide, by omega⟩, .inr (.inl trivial)⟩
  · split at h
    · cases h
    · rename_i h0
      cases h
      simp only [List.forall_mem_cons, List.not_mem_nil, false_implies, implies_true, and_true, Setting.Ok]
      exact ⟨.inl ⟨by decide, by omega⟩, .inr (.inl trivial)⟩
  · cases h

theorem arg1_bind {args : List Bytes} {f : Bytes × List Bytes → Option α} {l : α} (h : (arg1 args).bind f = some l) :
    ∃ a r, args = a :: r ∧ a ≠ [] ∧ f (a, r) = some l := by
  cases args with
  | nil => cases h
  | cons a r =>
    simp only [arg1] at h
    split at h
    · cases h
    · exact ⟨a, r, rfl, by assumption, h⟩

theorem bind_some' {x : Option α} {f : α → Option β} {l : β} (h : x.bind f = some l) : ∃ v, x = some v ∧ f v = some l := by
  cases x with
  | none => cases h
  | some v => exact ⟨v, rfl, h⟩

theorem forall_one {P : Setting → Prop} {s : Setting} (h : P s) : ∀ x ∈ [s], P x := by simpa using h

/-- What a line sets is as it should be. -/
theorem settings_ok {E : Env} (hE : Sane E) {k : Kind} (hk : k.Ok) {str : Bytes} {args : List Bytes} {l : List Setting}
    (h : settings E k str args = some l) : ∀ x ∈ l, x.Ok := by
  cases k with
  | ignore => simp only [settings, Option.some.injEq] at h; subst h; intro x hx; cases hx
  | multi k t =>
    obtain ⟨a, r, _, _, h⟩ := arg1_bind h
    obtain ⟨v, h1, h⟩ := bind_some' h
    obtain ⟨h, _⟩ := cut_eq h
    subst h
    simp only [multistate, Option.map_eq_some_iff] at h1
    obtain ⟨y, h2, h3⟩ := h1
    subst h3
    exact forall_one ⟨hk.2.2 y (List.mem_of_find?_eq_some h2), hk.1, hk.2.1⟩
  | time k =>
    obtain ⟨a, r, _, _, h⟩ := arg1_bind h
    obtain ⟨v, h1, h⟩ := bind_some' h
    obtain ⟨h, _⟩ := cut_eq h
    subst h
    exact forall_one ⟨timeValue_ne h1, hk⟩
  | int k =>
    obtain ⟨a, r, _, _, h⟩ := arg1_bind h
    obtain ⟨v, h1, h⟩ := bind_some' h
    obtain ⟨h, _⟩ := cut_eq h
    subst h
    exact forall_one ⟨intValue_ne h1, hk⟩
  | file k =>
    obtain ⟨a, r, _, _, h⟩ := arg1_bind h
    obtain ⟨h, _⟩ := cut_eq h
    subst h
    exact forall_one hk
  | word k =>
    obtain ⟨a, r, _, _, h⟩ := arg1_bind h
    obtain ⟨h, _⟩ := cut_eq h
    subst h
    exact forall_one hk
  | algos k c =>
    obtain ⟨a, r, _, _, h⟩ := arg1_bind h
    rcases ite_or h with h | h
    · obtain ⟨h, _⟩ := cut_eq h
      subst h
      exact forall_one hk
    · cases h
  | words k f =>
    simp only [settings, Option.map_eq_some_iff] at h
    obtain ⟨y, h1, h2⟩ := h
    subst h2
    exact forall_one ⟨hk.2 _ _ _ h1, hk.1⟩
  | adds k c =>
    simp only [settings] at h
    split at h
    · rename_i h1
      cases h
      simp at h1
      exact forall_one ⟨h1.1, hk⟩
    · cases h
  | addFile k =>
    obtain ⟨a, r, _, _, h⟩ := arg1_bind h
    obtain ⟨h, _⟩ := cut_eq h
    subst h
    exact forall_one ⟨by simp, hk⟩
  | command k =>
    simp only [settings, Option.some.injEq] at h
    subst h
    exact forall_one hk
  | absCommand k =>
    rcases ite_or h with h | h
    · cases h; exact forall_one hk
    · cases h
  | port =>
    obtain ⟨a, r, _, _, h⟩ := arg1_bind h
    rcases ite_or h with h | h
    · obtain ⟨h, _⟩ := cut_eq h
      subst h
      exact forall_one ⟨by simp, by decide⟩
    · cases h
  | listen =>
    simp only [settings, Option.map_eq_some_iff] at h
    obtain ⟨y, _, h2⟩ := h
    subst h2
    exact forall_one ⟨by simp, by decide⟩
  | hostKeyAgent =>
    obtain ⟨a, r, _, _, h⟩ := arg1_bind h
    obtain ⟨h, _⟩ := cut_eq h
    subst h
    exact forall_one (P := Setting.Ok) (by simp [Setting.Ok])
  | pubkeyOptions =>
    simp only [settings, Option.map_eq_some_iff] at h
    obtain ⟨y, _, h2⟩ := h
    subst h2
    exact forall_one (P := Setting.Ok) ⟨(by simp : Int.ofNat y ≠ -1), by decide⟩
  | userEnv =>
    obtain ⟨a, r, _, _, h⟩ := arg1_bind h
    obtain ⟨h, _⟩ := cut_eq h
    subst h
    refine forall_one (P := Setting.Ok) ?_
    simp only [Setting.Ok]
    split <;> decide
  | rekey =>
    obtain ⟨a, r, _, _, h⟩ := arg1_bind h
    obtain ⟨v, h1, h⟩ := bind_some' h
    have hv : v ≠ -1 := by
      rcases ite_or h1 with h1 | h1
      · cases h1; decide
      · obtain ⟨w, h2, h3⟩ := bind_some' h1
        rcases ite_or h3 with h3 | h3
        · cases h3
        · cases h3; exact hE.scaled _ _ h2
    cases r with
    | nil =>
      cases h
      exact forall_one ⟨hv, by decide⟩
    | cons b r' =>
      simp only at h
      rcases ite_or h with h | h
      · obtain ⟨h, _⟩ := cut_eq h
        subst h
        exact forall_one ⟨hv, by decide⟩
      · rcases ite_or h with h | h
        · cases h
        · obtain ⟨w, h2, h⟩ := bind_some' h
          obtain ⟨h, _⟩ := cut_eq h
          subst h
          intro x hx
          simp only [List.mem_cons, List.not_mem_nil, or_false] at hx
          rcases hx with hx | hx
          · subst hx; exact ⟨hv, by decide⟩
          · subst hx; exact ⟨timeValue_ne h2, by decide⟩
  | logFacility =>
    obtain ⟨v, h1, h⟩ := bind_some' h
    obtain ⟨h, _⟩ := cut_eq h
    subst h
    exact forall_one ⟨hE.facility _ _ h1, by decide⟩
  | logLevel =>
    obtain ⟨v, h1, h⟩ := bind_some' h
    obtain ⟨h, _⟩ := cut_eq h
    subst h
    exact forall_one ⟨hE.level _ _ h1, by decide⟩
  | subsystem =>
    simp only [settings, Option.map_eq_some_iff] at h
    obtain ⟨y, _, h2⟩ := h
    subst h2
    exact forall_one (P := Setting.Ok) trivial
  | maxStartups =>
    obtain ⟨a, r, _, _, h⟩ := arg1_bind h
    obtain ⟨v, h1, h⟩ := bind_some' h
    obtain ⟨h, _⟩ := cut_eq h
    subst h
    exact startups_ok h1
  | netblock =>
    obtain ⟨a, r, _, _, h⟩ := arg1_bind h
    obtain ⟨v, h1, h⟩ := bind_some' h
    obtain ⟨h, _⟩ := cut_eq h
    subst h
    exact netblock_ok h1
  | sourceMax =>
    obtain ⟨a, r, _, _, h⟩ := arg1_bind h
    obtain ⟨v, h1, h⟩ := bind_some' h
    obtain ⟨h, _⟩ := cut_eq h
    subst h
    refine forall_one ⟨?_, by decide⟩
    rcases ite_or h1 with h1 | h1
    · cases h1; decide
    · exact intValue_ne h1
  | exempt =>
    obtain ⟨a, r, _, _, h⟩ := arg1_bind h
    rcases ite_or h with h | h
    · cases h
    · obtain ⟨h, _⟩ := cut_eq h
      subst h
      exact forall_one (P := Setting.Ok) (by simp [Setting.Ok])
  | penalties =>
    rcases ite_or h with h | h
    · cases h
    · exact penaltyItems_ok h
  | principalsFile =>
    obtain ⟨a, r, _, _, h⟩ := arg1_bind h
    obtain ⟨h, _⟩ := cut_eq h
    subst h
    exact forall_one (P := Setting.Ok) (by simp [Setting.Ok])
  | tunnel =>
    obtain ⟨a, r, _, _, h⟩ := arg1_bind h
    obtain ⟨v, h1, h⟩ := bind_some' h
    obtain ⟨h, _⟩ := cut_eq h
    subst h
    have : ∀ x ∈ tunTable, x.2 ≠ -1 := by decide
    exact forall_one ⟨this v (List.mem_of_find?_eq_some h1), by decide⟩
  | skProvider =>
    obtain ⟨a, r, _, _, h⟩ := arg1_bind h
    obtain ⟨h, _⟩ := cut_eq h
    subst h
    exact forall_one (P := Setting.Ok) (by simp [Setting.Ok])
  | ipqos =>
    obtain ⟨a, r, _, _, h⟩ := arg1_bind h
    obtain ⟨v, h1, h⟩ := bind_some' h
    cases r with
    | nil =>
      cases h
      intro x hx
      simp only [List.mem_cons, List.not_mem_nil, or_false] at hx
      rcases hx with hx | hx <;> subst hx <;> exact .inl ⟨by decide, hE.ipqos _ _ h1⟩
    | cons b r' =>
      simp only at h
      obtain ⟨w, h2, h⟩ := bind_some' h
      obtain ⟨h, _⟩ := cut_eq h
      subst h
      intro x hx
      simp only [List.mem_cons, List.not_mem_nil, or_false] at hx
      rcases hx with hx | hx
      · subst hx; exact .inl ⟨by decide, hE.ipqos _ _ h1⟩
      · subst hx; exact .inl ⟨by decide, hE.ipqos _ _ h2⟩
  | versionAddendum =>
    rcases ite_or h with h | h
    · cases h
    · cases h
      exact forall_one (P := Setting.Ok) (by simp [Setting.Ok])
  | mask =>
    obtain ⟨a, r, _, _, h⟩ := arg1_bind h
    obtain ⟨v, h1, h⟩ := bind_some' h
    obtain ⟨h, _⟩ := cut_eq h
    subst h
    exact forall_one (P := Setting.Ok) (.inl ⟨by decide, hE.mask _ _ h1⟩)
  | fingerprint =>
    obtain ⟨a, r, _, _, h⟩ := arg1_bind h
    obtain ⟨v, h1, h⟩ := bind_some' h
    obtain ⟨h, _⟩ := cut_eq h
    subst h
    exact forall_one (P := Setting.Ok) (.inl ⟨by decide, hE.digest _ _ h1⟩)
  | rdomain => cases h
  | unusedTimeout =>
    cases args with
    | nil => cases h
    | cons a r =>
      simp only [settings] at h
      rcases ite_or h with h | h
      · obtain ⟨h, _⟩ := cut_eq h
        subst h
        exact forall_one (P := Setting.Ok) (.inr (.inr rfl))
      · rcases ite_or h with h | h
        · cases h
        · obtain ⟨v, h1, h⟩ := bind_some' h
          obtain ⟨h, _⟩ := cut_eq h
          subst h
          exact forall_one ⟨timeValue_ne h1, by decide⟩
  | match_ => cases h
  | incl => cases h

mutual
theorem Reads.ok {E : Env} (hE : Sane E) {W : World} {ci : Option Conn} {n : Nat} {p : Place} {lines : List Bytes} {g : List Setting}
    (h : Reads E W ci n p lines g) : ∀ s ∈ g, s.Ok :=
  match h with
  | .done _ _ => fun _ hs => by cases hs
  | .blank _ _ _ _ _ _ h => h.ok hE
  | .old _ _ _ _ _ _ _ _ _ _ _ _ h => h.ok hE
  | .says _ _ _ kw _ _ k _ _ _ _ h1 h2 _ h3 => fun x hx => by
    have hr := h3.ok hE
    obtain ⟨b, hb, _⟩ := h1
    have hk : k.Ok := table_ok _ (kindOf_mem hb)
    rcases List.mem_append.mp hx with hx | hx
    · split at hx
      · exact settings_ok hE hk h2 x hx
      · cases hx
    · exact hr x hx
  | .match_ _ _ _ _ _ _ _ _ _ _ h => h.ok hE
  | .incl _ _ _ _ _ _ _ _ _ _ _ _ h1 h2 => fun x hx => by
    have := h1.ok hE
    have := h2.ok hE
    rcases List.mem_append.mp hx with hx | hx
    · exact (by assumption : ∀ s ∈ _, Setting.Ok s) x hx
    · exact (by assumption : ∀ s ∈ _, Setting.Ok s) x hx
theorem ReadsAll.ok {E : Env} (hE : Sane E) {W : World} {ci : Option Conn} {n : Nat} {p : Place} {fs : List Bytes} {g : List Setting}
    (h : ReadsAll E W ci n p fs g) : ∀ s ∈ g, s.Ok :=
  match h with
  | .done _ _ => fun _ hs => by cases hs
  | .file _ _ _ _ _ _ h1 h2 => fun x hx => by
    have a1 := h1.ok hE
    have a2 := h2.ok hE
    rcases List.mem_append.mp hx with hx | hx
    · exact a1 x hx
    · exact a2 x hx
end

theorem Given.ok {E : Env} (hE : Sane E) {cmd : List Bytes} {g : List Setting} (h : Given E cmd g) : ∀ s ∈ g, s.Ok := by
  induction h with
  | done => intro s hs; cases hs
  | blank _ _ _ _ _ ih => exact ih
  | says line kw str args k s r g h1 h2 h3 h4 ih =>
    intro x hx
    obtain ⟨b, hb, _⟩ := h2
    rcases List.mem_append.mp hx with hx | hx
    · exact settings_ok hE (table_ok _ (kindOf_mem hb)) h3 x hx
    · exact ih x hx

end Verif.SrvConf
