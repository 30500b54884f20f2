/- What has been set, option by option. -/
import Verif.SrvConf.Values

namespace Verif.SrvConf
open Verif Match
open _root_.Verif.Conf (same)

theorem upd_same {f : Key → α} {k : Key} {v : α} : upd f k v k = v := if_pos rfl
theorem upd_ne {f : Key → α} {k j : Key} {v : α} (h : k ≠ j) : upd f j v k = f k := if_neg h

/-- What one setting does to numbers of which the first counts. -/
theorem apply_int {s : Setting} (hs : s.Ok) {k : Key} (h1 : k ∉ lastKeys) (h2 : k ≠ .sourceMask6) (h3 : k ≠ .penaltyOn)
    (h4 : k ≠ .unusedTimeout) {o o' : Opts} (h : apply true s o = some o') :
    o'.int k = if o.int k ≠ -1 then o.int k else (s.int? k).getD (-1) := by
  cases s with
  | int j v =>
    simp only [apply, Bool.true_and, decide_eq_true_eq, Option.some.injEq] at h
    subst h
    by_cases hj : j = k
    · subst hj
      by_cases h5 : o.int j = -1 <;> simp [h5, Setting.int?, upd]
    · by_cases h5 : o.int j = -1 <;> by_cases h6 : o.int k = -1 <;> simp [h5, h6, Setting.int?, hj, upd_ne (Ne.symm hj)]
  | str j v =>
    simp only [apply, Bool.true_and, Option.some.injEq] at h
    subst h
    split <;> by_cases h6 : o.int k = -1 <;> simp [h6, Setting.int?]
  | list j v =>
    simp only [apply, Bool.true_and, Option.some.injEq] at h
    subst h
    split <;> by_cases h6 : o.int k = -1 <;> simp [h6, Setting.int?]
  | add j v m =>
    simp only [apply, if_true] at h
    rcases ite_or h with h | h
    · cases h
    · simp only [Option.some.injEq] at h
      subst h
      by_cases h6 : o.int k = -1 <;> simp [h6, Setting.int?]
  | last j v =>
    simp only [apply, if_true, Option.some.injEq] at h
    subst h
    have : k ≠ j := by
      rintro rfl
      rcases hs with hs | hs | hs
      · exact h1 hs.1
      · exact h2 hs
      · exact h4 hs
    by_cases h6 : o.int k = -1 <;> simp [h6, Setting.int?, upd_ne this]
  | userEnv v p =>
    simp only [apply, Bool.true_and, decide_eq_true_eq, Option.some.injEq] at h
    subst h
    by_cases hj : k = .userEnv
    · subst hj
      by_cases h5 : o.int .userEnv = -1 <;> simp [h5, Setting.int?, upd]
    · by_cases h5 : o.int .userEnv = -1 <;> by_cases h6 : o.int k = -1 <;> simp [h5, h6, Setting.int?, hj, upd_ne hj]
  | penalty j v =>
    simp only [apply, Bool.true_and, decide_eq_true_eq, Option.some.injEq] at h
    subst h
    by_cases hj : j = k
    · subst hj
      by_cases h5 : o.int j = -1 <;> simp [h5, Setting.int?, upd, h3]
    · by_cases h5 : o.int j = -1 <;> by_cases h6 : o.int k = -1 <;> simp [h5, h6, Setting.int?, hj, upd_ne (Ne.symm hj), upd_ne h3]
  | subsystem n c =>
    simp only [apply, if_true, Option.map_eq_some_iff] at h
    obtain ⟨l, _, h⟩ := h
    subst h
    by_cases h6 : o.int k = -1 <;> simp [h6, Setting.int?]

theorem applyAll_int {k : Key} (h1 : k ∉ lastKeys) (h2 : k ≠ .sourceMask6) (h3 : k ≠ .penaltyOn) (h4 : k ≠ .unusedTimeout)
    (g : List Setting) : ∀ {o o' : Opts}, (∀ s ∈ g, s.Ok) → applyAll true g o = some o' →
    o'.int k = if o.int k ≠ -1 then o.int k else (firstInt k g).getD (-1) := by
  induction g with
  | nil => intro o o' _ h; cases h; simp only [firstInt, List.findSome?_nil, Option.getD_none]; split <;> simp_all
  | cons s r ih =>
    intro o o' hok h
    rw [applyAll_cons] at h
    obtain ⟨u, h5, h6⟩ := bind_some' h
    have a := apply_int (hok s (by simp)) h1 h2 h3 h4 h5
    have b := ih (fun x hx => hok x (List.mem_cons_of_mem _ hx)) h6
    rw [b]
    simp only [firstInt, List.findSome?_cons]
    cases hs : s.int? k with
    | none =>
      rw [hs] at a
      simp only [Option.getD_none] at a
      have : u.int k = o.int k := by rw [a]; split <;> simp_all
      rw [this]
    | some v =>
      have hv : v ≠ -1 := by
        have := hok s (by simp)
        cases s with
        | int j w => simp only [Setting.int?] at hs; split at hs <;> simp_all [Setting.Ok]
        | penalty j w => simp only [Setting.int?] at hs; split at hs <;> simp_all [Setting.Ok]
        | userEnv w p => simp only [Setting.int?] at hs; split at hs <;> simp_all [Setting.Ok]
        | _ => cases hs
      rw [hs] at a
      simp only [Option.getD_some] at a
      have : u.int k ≠ -1 := by rw [a]; split <;> assumption
      rw [if_pos this, a]
      rfl

/-- Numbers of which the last counts. -/
theorem apply_last {s : Setting} (hs : s.Ok) {k : Key} (h1 : k ∈ lastKeys) {o o' : Opts} (h : apply true s o = some o') :
    o'.int k = (s.last? k).getD (o.int k) := by
  cases s with
  | int j v =>
    simp only [apply, Bool.true_and, decide_eq_true_eq, Option.some.injEq] at h
    subst h
    have : k ≠ j := by rintro rfl; exact hs.2.1 h1
    split <;> simp [Setting.last?, upd_ne this]
  | str j v =>
    simp only [apply, Bool.true_and, Option.some.injEq] at h
    subst h
    split <;> simp [Setting.last?]
  | list j v =>
    simp only [apply, Bool.true_and, Option.some.injEq] at h
    subst h
    split <;> simp [Setting.last?]
  | add j v m =>
    simp only [apply, if_true] at h
    rcases ite_or h with h | h
    · cases h
    · simp only [Option.some.injEq] at h
      subst h
      simp [Setting.last?]
  | last j v =>
    simp only [apply, if_true, Option.some.injEq] at h
    subst h
    by_cases hj : j = k
    · subst hj; simp [Setting.last?, upd]
    · simp [Setting.last?, hj, upd_ne (Ne.symm hj)]
  | userEnv v p =>
    simp only [apply, Bool.true_and, decide_eq_true_eq, Option.some.injEq] at h
    subst h
    have : k ≠ .userEnv := by rintro rfl; exact absurd h1 (by decide)
    split <;> simp [Setting.last?, upd_ne this]
  | penalty j v =>
    simp only [apply, Bool.true_and, decide_eq_true_eq, Option.some.injEq] at h
    subst h
    have a : k ≠ j := by rintro rfl; exact hs.2.1 h1
    have b : k ≠ .penaltyOn := by rintro rfl; exact absurd h1 (by decide)
    split <;> simp [Setting.last?, upd_ne a, upd_ne b]
  | subsystem n c =>
    simp only [apply, if_true, Option.map_eq_some_iff] at h
    obtain ⟨l, _, h⟩ := h
    subst h
    simp [Setting.last?]

theorem applyAll_last {k : Key} (h1 : k ∈ lastKeys) (g : List Setting) : ∀ {o o' : Opts}, (∀ s ∈ g, s.Ok) →
    applyAll true g o = some o' → o'.int k = (lastInt k g).getD (o.int k) := by
  induction g with
  | nil => intro o o' _ h; cases h; rfl
  | cons s r ih =>
    intro o o' hok h
    rw [applyAll_cons] at h
    obtain ⟨u, h5, h6⟩ := bind_some' h
    have a := apply_last (hok s (by simp)) h1 h5
    have b := ih (fun x hx => hok x (List.mem_cons_of_mem _ hx)) h6
    rw [b, a]
    simp only [lastInt, List.reverse_cons, List.findSome?_append, List.findSome?_cons, List.findSome?_nil]
    cases List.findSome? (fun x => x.last? k) r.reverse with
    | some v => rfl
    | none => cases s.last? k <;> rfl

theorem lastInt_ne {k : Key} (h1 : k ∈ lastKeys) {g : List Setting} (hok : ∀ s ∈ g, s.Ok) {v : Int} (h : lastInt k g = some v) : v ≠ -1 := by
  simp only [lastInt] at h
  obtain ⟨s, h2, h3⟩ := List.exists_of_findSome?_eq_some h
  have := hok s (List.mem_reverse.mp h2)
  cases s with
  | last j w =>
    simp only [Setting.last?] at h3
    split at h3
    · rename_i hj
      subst hj
      cases h3
      rcases this with h | h | h
      · exact h.2
      · subst h; exact absurd h1 (by decide)
      · subst h; exact absurd h1 (by decide)
    · cases h3
  | _ => cases h3

/-- Texts. -/
theorem apply_str {s : Setting} (hs : s.Ok) {k : Key} (h1 : k ≠ .userEnvList) {o o' : Opts} (h : apply true s o = some o') :
    o'.str k = (o.str k).or (s.str? k) := by
  cases s with
  | str j v =>
    simp only [apply, Bool.true_and, decide_eq_true_eq, Option.some.injEq] at h
    subst h
    by_cases hj : j = k
    · subst hj
      cases h5 : o.str j <;> simp [h5, Setting.str?, upd]
    · split <;> simp [Setting.str?, hj, upd_ne (Ne.symm hj)]
  | int j v | list j v | penalty j v =>
    simp only [apply, Bool.true_and, Option.some.injEq] at h
    subst h
    split <;> simp [Setting.str?]
  | add j v m =>
    simp only [apply, if_true] at h
    rcases ite_or h with h | h
    · cases h
    · simp only [Option.some.injEq] at h
      subst h
      simp [Setting.str?]
  | last j v =>
    simp only [apply, if_true, Option.some.injEq] at h
    subst h
    simp [Setting.str?]
  | userEnv v p =>
    simp only [apply, Bool.true_and, decide_eq_true_eq, Option.some.injEq] at h
    subst h
    split <;> simp [Setting.str?, upd_ne h1]
  | subsystem n c =>
    simp only [apply, if_true, Option.map_eq_some_iff] at h
    obtain ⟨l, _, h⟩ := h
    subst h
    simp [Setting.str?]

theorem applyAll_str {k : Key} (h1 : k ≠ .userEnvList) (g : List Setting) : ∀ {o o' : Opts}, (∀ s ∈ g, s.Ok) →
    applyAll true g o = some o' → o'.str k = (o.str k).or (firstStr k g) := by
  induction g with
  | nil => intro o o' _ h; cases h; simp [firstStr]
  | cons s r ih =>
    intro o o' hok h
    rw [applyAll_cons] at h
    obtain ⟨u, h5, h6⟩ := bind_some' h
    have a := apply_str (hok s (by simp)) h1 h5
    have b := ih (fun x hx => hok x (List.mem_cons_of_mem _ hx)) h6
    rw [b, a]
    simp only [firstStr, List.findSome?_cons]
    cases o.str k <;> cases s.str? k <;> simp

/-- Lists set at once. -/
theorem apply_list {s : Setting} (hs : s.Ok) {k : Key} (h1 : k ∉ growing) {o o' : Opts} (h : apply true s o = some o') :
    o'.list k = if o.list k ≠ [] then o.list k else (s.list? k).getD [] := by
  cases s with
  | list j v =>
    simp only [apply, Bool.true_and, decide_eq_true_eq, Option.some.injEq] at h
    subst h
    by_cases hj : j = k
    · subst hj
      by_cases h5 : o.list j = [] <;> simp [h5, Setting.list?, upd]
    · by_cases h5 : o.list j = [] <;> by_cases h6 : o.list k = [] <;> simp [h5, h6, Setting.list?, hj, upd_ne (Ne.symm hj)]
  | int j v | str j v | penalty j v | userEnv j v =>
    simp only [apply, Bool.true_and, Option.some.injEq] at h
    subst h
    split <;> by_cases h6 : o.list k = [] <;> simp [h6, Setting.list?]
  | add j v m =>
    simp only [apply, if_true] at h
    rcases ite_or h with h | h
    · cases h
    · simp only [Option.some.injEq] at h
      subst h
      have : k ≠ j := by rintro rfl; exact h1 hs.2
      by_cases h6 : o.list k = [] <;> simp [h6, Setting.list?, upd_ne this]
  | last j v =>
    simp only [apply, if_true, Option.some.injEq] at h
    subst h
    by_cases h6 : o.list k = [] <;> simp [h6, Setting.list?]
  | subsystem n c =>
    simp only [apply, if_true, Option.map_eq_some_iff] at h
    obtain ⟨l, _, h⟩ := h
    subst h
    by_cases h6 : o.list k = [] <;> simp [h6, Setting.list?]

theorem firstList_ne {k : Key} {g : List Setting} (hok : ∀ s ∈ g, s.Ok) {v : List Bytes} (h : firstList k g = some v) : v ≠ [] := by
  obtain ⟨s, h2, h3⟩ := List.exists_of_findSome?_eq_some h
  have := hok s h2
  cases s with
  | list j w =>
    simp only [Setting.list?] at h3
    split at h3
    · cases h3; exact this.1
    · cases h3
  | _ => cases h3

theorem applyAll_list {k : Key} (h1 : k ∉ growing) (g : List Setting) : ∀ {o o' : Opts}, (∀ s ∈ g, s.Ok) →
    applyAll true g o = some o' → o'.list k = if o.list k ≠ [] then o.list k else (firstList k g).getD [] := by
  induction g with
  | nil => intro o o' _ h; cases h; simp only [firstList, List.findSome?_nil, Option.getD_none]; split <;> simp_all
  | cons s r ih =>
    intro o o' hok h
    rw [applyAll_cons] at h
    obtain ⟨u, h5, h6⟩ := bind_some' h
    have a := apply_list (hok s (by simp)) h1 h5
    have b := ih (fun x hx => hok x (List.mem_cons_of_mem _ hx)) h6
    rw [b]
    simp only [firstList, List.findSome?_cons]
    cases hs : s.list? k with
    | none =>
      rw [hs] at a
      simp only [Option.getD_none] at a
      have : u.list k = o.list k := by rw [a]; split <;> simp_all
      rw [this]
    | some v =>
      have hv : v ≠ [] := firstList_ne (k := k) (g := [s]) (fun x hx => hok x (by simp_all)) (by simp [firstList, hs])
      rw [hs] at a
      simp only [Option.getD_some] at a
      have : u.list k ≠ [] := by rw [a]; split <;> assumption
      rw [if_pos this, a]
      rfl

/-- Lists that grow. -/
theorem apply_more {s : Setting} (hs : s.Ok) {k : Key} (h1 : k ∈ growing) {o o' : Opts} (h : apply true s o = some o') :
    o'.list k = o.list k ++ s.more k := by
  cases s with
  | list j v =>
    simp only [apply, Bool.true_and, decide_eq_true_eq, Option.some.injEq] at h
    subst h
    have : k ≠ j := by rintro rfl; exact hs.2 h1
    split <;> simp [Setting.more, upd_ne this]
  | int j v | str j v | penalty j v | userEnv j v =>
    simp only [apply, Bool.true_and, Option.some.injEq] at h
    subst h
    split <;> simp [Setting.more]
  | add j v m =>
    simp only [apply, if_true] at h
    rcases ite_or h with h | h
    · cases h
    · simp only [Option.some.injEq] at h
      subst h
      by_cases hj : j = k
      · subst hj; simp [Setting.more, upd]
      · simp [Setting.more, hj, upd_ne (Ne.symm hj)]
  | last j v =>
    simp only [apply, if_true, Option.some.injEq] at h
    subst h
    simp [Setting.more]
  | subsystem n c =>
    simp only [apply, if_true, Option.map_eq_some_iff] at h
    obtain ⟨l, _, h⟩ := h
    subst h
    simp [Setting.more]

theorem applyAll_more {k : Key} (h1 : k ∈ growing) (g : List Setting) : ∀ {o o' : Opts}, (∀ s ∈ g, s.Ok) →
    applyAll true g o = some o' → o'.list k = o.list k ++ allOf k g := by
  induction g with
  | nil => intro o o' _ h; cases h; simp [allOf]
  | cons s r ih =>
    intro o o' hok h
    rw [applyAll_cons] at h
    obtain ⟨u, h5, h6⟩ := bind_some' h
    rw [ih (fun x hx => hok x (List.mem_cons_of_mem _ hx)) h6, apply_more (hok s (by simp)) h1 h5]
    simp [allOf]

/-- Subsystems. -/
theorem applyAll_subs (g : List Setting) : ∀ {o o' : Opts}, applyAll true g o = some o' → subsOf g o.subs = some o'.subs := by
  induction g with
  | nil => intro o o' h; cases h; rfl
  | cons s r ih =>
    intro o o' h
    rw [applyAll_cons] at h
    obtain ⟨u, h5, h6⟩ := bind_some' h
    have b := ih h6
    cases s with
    | subsystem n c =>
      simp only [apply, if_true, Option.map_eq_some_iff] at h5
      obtain ⟨l, h7, h5⟩ := h5
      subst h5
      simp only [subsOf, h7, Option.bind_some]
      exact b
    | add j v m =>
      simp only [apply, if_true] at h5
      rcases ite_or h5 with h5 | h5
      · cases h5
      · simp only [Option.some.injEq] at h5
        subst h5
        exact b
    | last j v =>
      simp only [apply, if_true, Option.some.injEq] at h5
      subst h5
      exact b
    | int j v | str j v | list j v | penalty j v | userEnv j v =>
      simp only [apply, Bool.true_and, Option.some.injEq] at h5
      subst h5
      rw [subsOf, ← b]
      · congr 1; split <;> rfl
      · intro _ _ hh; cases hh

end Verif.SrvConf
