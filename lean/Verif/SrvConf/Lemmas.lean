/- Reading a file sets what is written where it counts, in that order. -/
import Verif.SrvConf.Spec

namespace Verif.SrvConf
open Verif Match
open _root_.Verif.Conf (Raw same)

/-! ### The table -/

theorem table_match : ∀ x ∈ keywords, (x.2.1 = .match_ → x.1 = b!"match") ∧ (x.2.1 = .incl → x.1 = b!"include") := by
  simp [keywords, flag]

theorem kindOf_mem {kw k b} (h : kindOf kw = some (k, b)) : (kw, k, b) ∈ keywords := by
  simp only [kindOf, Option.map_eq_some_iff] at h
  obtain ⟨x, h1, h2⟩ := h
  have h3 := List.find?_some h1
  have h4 := List.mem_of_find?_eq_some h1
  simp only [decide_eq_true_eq] at h3
  obtain ⟨a, c⟩ := x
  simp only at h2 h3
  rw [← h3, ← h2]; exact h4

theorem kind_match {kw b} (h : kindOf kw = some (.match_, b)) : kw = b!"match" := (table_match _ (kindOf_mem h)).1 rfl
theorem kind_incl {kw b} (h : kindOf kw = some (.incl, b)) : kw = b!"include" := (table_match _ (kindOf_mem h)).2 rfl

/-! ### Applying settings -/

theorem apply_inactive (s : Setting) (o : Opts) : apply false s o = some o := by cases s <;> simp [apply]

theorem applyAll_inactive (l : List Setting) (o : Opts) : applyAll false l o = some o := by
  induction l with
  | nil => rfl
  | cons s r ih => simp only [applyAll, List.foldlM_cons, apply_inactive, Option.bind_eq_bind, Option.bind_some] at ih ⊢; exact ih

theorem applyAll_append {b : Bool} (l r : List Setting) (o : Opts) :
    applyAll b (l ++ r) o = (applyAll b l o).bind (applyAll b r) := by
  simp only [applyAll, List.foldlM_append, Option.bind_eq_bind]; rfl

theorem applyAll_cons (b : Bool) (s : Setting) (r : List Setting) (o : Opts) :
    applyAll b (s :: r) o = (apply b s o).bind (applyAll b r) := by
  simp only [applyAll, List.foldlM_cons, Option.bind_eq_bind]; rfl

/-! ### Files -/

/-- How the code keeps the place. -/
def modeOf (ci : Option Conn) : Place → Mode
  | .global => if ci.isSome then .matchOnly else .plain
  | .block _ => .plain
  | .off => .never

theorem modeOf_inner (ci : Option Conn) (p : Place) : (modeOf ci p).inner (p.counts ci.isSome) = modeOf ci p.within := by
  cases p with
  | global => cases h : ci.isSome <;> simp [modeOf, Mode.inner, Place.within, Place.counts, h]
  | block b => cases b <;> simp [modeOf, Mode.inner, Place.within, Place.counts]
  | off => simp [modeOf, Mode.inner, Place.within, Place.counts]

theorem within_counts (conn : Bool) (p : Place) : p.within.counts conn = p.counts conn := by
  cases p with
  | block b => cases b <;> rfl
  | _ => rfl

theorem modeOf_match (ci : Option Conn) (p : Place) (b : Bool) :
    afterMatch (modeOf ci p) = modeOf ci (p.enter b) ∧ (b && decide (modeOf ci p ≠ .never)) = (p.enter b).counts ci.isSome ∧
      seen (modeOf ci p) ci = p.sees ci := by
  cases p with
  | global => cases h : ci.isSome <;> simp [modeOf, afterMatch, Place.enter, Place.counts, seen, Place.sees, h]
  | block b => simp [modeOf, afterMatch, Place.enter, Place.counts, seen, Place.sees]
  | off => simp [modeOf, afterMatch, Place.enter, Place.counts, seen, Place.sees]

/-- A reader of included files does what it should. -/
def IncOk (E : Env) (W : World) (ci : Option Conn) (n : Nat) (inc : Mode → List Bytes → St → Option St) : Prop :=
  ∀ p lines s t, s.active = p.counts ci.isSome → inc (modeOf ci p) lines s = some t →
    ∃ g, Reads E W ci n p lines g ∧ applyAll true g s.o = some t.o

theorem includeFiles_ok {E : Env} {W : World} {ci : Option Conn} {n : Nat} {inc : Mode → List Bytes → St → Option St}
    (hi : IncOk E W ci n inc) (p : Place) (fs : List Bytes) : ∀ s t, s.active = p.counts ci.isSome →
    includeFiles inc (modeOf ci p) (p.counts ci.isSome) fs s = some t →
    t.active = s.active ∧ ∃ g, ReadsAll E W ci n p.within fs g ∧ applyAll true g s.o = some t.o := by
  induction fs with
  | nil => intro s t ha h; simp only [includeFiles, Option.some.injEq] at h; subst h; exact ⟨rfl, [], .done .., rfl⟩
  | cons f r ih =>
    intro s t ha h
    simp only [includeFiles, modeOf_inner] at h
    cases hl : inc (modeOf ci p.within) (loadConfig f) s with
    | none => rw [hl] at h; cases h
    | some u =>
      rw [hl] at h; simp only at h
      obtain ⟨g, hg, hu⟩ := hi p.within (loadConfig f) s u (by rw [within_counts]; exact ha) hl
      obtain ⟨h1, g', hg', ht⟩ := ih { u with active := p.counts ci.isSome } t rfl h
      refine ⟨by rw [h1]; exact ha.symm, g ++ g', .file _ _ _ _ _ _ hg hg', ?_⟩
      rw [applyAll_append, hu]; exact ht

theorem ReadsAll.append {E : Env} {W : World} {ci : Option Conn} {n : Nat} {p : Place} {g' fs'} (h' : ReadsAll E W ci n p fs' g') :
    ∀ {fs g}, ReadsAll E W ci n p fs g → ReadsAll E W ci n p (fs ++ fs') (g ++ g') := by
  intro fs
  induction fs with
  | nil => intro g h; cases h; exact h'
  | cons f r ih =>
    intro g h
    cases h with
    | file _ _ _ _ g₁ g₂ h1 h2 =>
      rw [List.append_assoc]
      exact .file _ _ _ _ _ _ h1 (ih h2)

theorem includeArgs_ok {E : Env} {W : World} {ci : Option Conn} {n : Nat} {inc : Mode → List Bytes → St → Option St}
    (hi : IncOk E W ci n inc) (p : Place) (args : List Bytes) : ∀ s t, s.active = p.counts ci.isSome →
    includeArgs inc W (modeOf ci p) args s = some t →
    t.active = s.active ∧ ∃ fs g, filesOf W args = some fs ∧ ReadsAll E W ci n p.within fs g ∧ applyAll true g s.o = some t.o := by
  induction args with
  | nil => intro s t ha h; simp only [includeArgs, Option.some.injEq] at h; subst h; exact ⟨rfl, [], [], rfl, .done .., rfl⟩
  | cons a r ih =>
    intro s t ha h
    rw [includeArgs] at h
    split at h
    · cases h
    rename_i h0
    cases hf : W.glob a with
    | none => rw [hf] at h; cases h
    | some fs =>
      rw [hf] at h; simp only at h
      rw [ha] at h
      cases hl : includeFiles inc (modeOf ci p) (p.counts ci.isSome) fs s with
      | none => rw [hl] at h; cases h
      | some u =>
        rw [hl] at h; simp only at h
        obtain ⟨h1, g, hg, hu⟩ := includeFiles_ok hi p fs s u ha hl
        obtain ⟨h2, fs', g', hf', hg', ht⟩ := ih u t (by rw [h1]; exact ha) h
        refine ⟨by rw [h2, h1], fs ++ fs', g ++ g', ?_, hg'.append hg, ?_⟩
        · simp [filesOf, h0, hf, hf']
        · rw [applyAll_append, hu]; exact ht

theorem not_may {kw : Bytes} (h : (kindOf kw).any (·.2) = false) : ¬ MayMatch kw := by
  rintro ⟨k, hk⟩
  rw [hk] at h; simp at h

theorem may {kw : Bytes} (h : (kindOf kw).any (·.2) ≠ false) : MayMatch kw := by
  cases hk : kindOf kw with
  | none => rw [hk] at h; simp at h
  | some x =>
    rw [hk] at h; simp at h
    obtain ⟨k, b⟩ := x
    simp only at h
    subst h
    exact ⟨k, hk⟩

/-- One line. -/
theorem step_ok {E : Env} {W : World} {ci : Option Conn} {n : Nat} {inc : Mode → List Bytes → St → Option St}
    (hi : IncOk E W ci n inc) {p : Place} {s t : St} {m : Mode} {line : Bytes} (ha : s.active = p.counts ci.isSome)
    (h : step inc E W ci (s, modeOf ci p) line = some (t, m)) :
    ∃ p' g, t.active = p'.counts ci.isSome ∧ m = modeOf ci p' ∧ applyAll true g s.o = some t.o ∧
      ∀ r g', Reads E W ci (n + 1) p' r g' → Reads E W ci (n + 1) p (line :: r) (g ++ g') := by
  rw [step] at h
  cases hr : rawLine line with
  | blank =>
    rw [hr] at h; simp only [Option.some.injEq, Prod.mk.injEq] at h
    obtain ⟨h, h'⟩ := h
    subst h; subst h'
    exact ⟨p, [], ha, rfl, rfl, fun r g' hg => .blank _ _ _ _ _ hr hg⟩
  | bad => rw [hr] at h; cases h
  | line kw str =>
    rw [hr] at h; simp only at h
    cases hs : Misc.Argv.argvSplit str true with
    | none => rw [hs] at h; cases h
    | some args =>
      rw [hs] at h; simp only at h
      have hline : Line line kw str args := ⟨hr, hs⟩
      split at h
      · rename_i h0
        cases hc : ci with
        | none => rw [hc] at h; simp at h
        | some c =>
          rw [hc] at h
          simp only [Option.isNone_some, Bool.false_eq_true, if_false, Option.some.injEq, Prod.mk.injEq] at h
          obtain ⟨h, h'⟩ := h
          subst h; subst h'
          have hp : p.counts true = false := by
            have := ha; rw [h0.1, hc] at this; exact this.symm
          rw [hc] at ha
          exact ⟨p, [], ha, rfl, rfl, fun r g' hg => .old _ _ _ _ _ _ _ _ hline rfl hp (not_may h0.2) hg⟩
      · rename_i h0
        have hmay : p.counts ci.isSome ∨ MayMatch kw := by
          by_cases h1 : p.counts ci.isSome
          · exact .inl h1
          · exact .inr (may fun h2 => h0 ⟨by rw [ha]; simpa using h1, h2⟩)
        cases hk : kindOf kw with
        | none => rw [hk] at h; cases h
        | some kb =>
          obtain ⟨k, b⟩ := kb
          have hsays : k ≠ .match_ → k ≠ .incl →
              ((settings E k str args).bind fun l => (applyAll s.active l s.o).map fun o => ({ s with o := o }, modeOf ci p)) = some (t, m) →
              ∃ p' g, t.active = p'.counts ci.isSome ∧ m = modeOf ci p' ∧ applyAll true g s.o = some t.o ∧
                ∀ r g', Reads E W ci (n + 1) p' r g' → Reads E W ci (n + 1) p (line :: r) (g ++ g') := by
            intro n1 n2 h
            cases hl : settings E k str args with
            | none => rw [hl] at h; cases h
            | some l =>
              rw [hl] at h
              simp only [Option.bind_some, Option.map_eq_some_iff, Prod.mk.injEq] at h
              obtain ⟨o, h1, h2, h3⟩ := h
              subst h2; subst h3
              refine ⟨p, if p.counts ci.isSome then l else [], ha, rfl, ?_,
                fun r g' hg => .says _ _ _ _ _ _ _ _ _ _ hline ⟨b, hk, n1, n2⟩ hl hmay hg⟩
              rw [ha] at h1
              cases hb : p.counts ci.isSome
              · rw [hb, applyAll_inactive] at h1; exact h1
              · rw [hb] at h1; exact h1
          rw [hk] at h
          simp only [Option.map_some] at h
          split at h
          · cases ‹some k = none›
          · rename_i he
            simp only [Option.some.injEq] at he
            subst he
            have hkw := kind_match hk
            obtain ⟨e1, e2, e3⟩ := modeOf_match ci p
              (match matchLine E W (p.sees ci) args with | some (b, _) => b | none => false)
            rw [e3] at h
            cases hm : matchLine E W (p.sees ci) args with
            | none => rw [hm] at h; cases h
            | some q =>
              obtain ⟨b', rest⟩ := q
              rw [hm] at h e1 e2
              cases rest with
              | cons _ _ => cases h
              | nil =>
                simp only [Option.some.injEq, Prod.mk.injEq] at h e1 e2
                obtain ⟨h1, h2⟩ := h
                subst h1; subst h2
                subst hkw
                exact ⟨p.enter b', [], e2, e1, rfl, fun r g' hg => .match_ _ _ _ _ _ _ _ _ hline hm hg⟩
          · rename_i he
            simp only [Option.some.injEq] at he
            subst he
            have hkw := kind_incl hk
            subst hkw
            split at h
            · cases h
            · rename_i hne
              simp only [Option.map_eq_some_iff, Prod.mk.injEq] at h
              obtain ⟨u, h1, h2, h3⟩ := h
              subst h2; subst h3
              obtain ⟨h4, fs, g, h5, h6, h7⟩ := includeArgs_ok hi p args s u ha h1
              exact ⟨p, g, by rw [h4]; exact ha, rfl, h7, fun r g' hg => .incl _ _ _ _ _ _ _ _ _ hline hne h5 h6 hg⟩
          · rename_i k' n1 n2 he
            simp only [Option.some.injEq] at he
            subst he
            exact hsays n1 n2 h

theorem lines_ok {E : Env} {W : World} {ci : Option Conn} {n : Nat} {inc : Mode → List Bytes → St → Option St}
    (hi : IncOk E W ci n inc) (lines : List Bytes) : ∀ (p : Place) (s t : St) (m : Mode), s.active = p.counts ci.isSome →
    lines.foldlM (step inc E W ci) (s, modeOf ci p) = some (t, m) →
    ∃ g, Reads E W ci (n + 1) p lines g ∧ applyAll true g s.o = some t.o := by
  induction lines with
  | nil =>
    intro p s t m ha h
    simp only [List.foldlM_nil, Option.pure_def, Option.some.injEq, Prod.mk.injEq] at h
    rw [← h.1]
    exact ⟨[], .done .., rfl⟩
  | cons line r ih =>
    intro p s t m ha h
    rw [List.foldlM_cons] at h
    cases hs : step inc E W ci (s, modeOf ci p) line with
    | none => rw [hs] at h; cases h
    | some x =>
      obtain ⟨u, m'⟩ := x
      rw [hs] at h
      simp only [Option.bind_eq_bind, Option.bind_some] at h
      obtain ⟨p', g, h1, h2, h3, h4⟩ := step_ok hi ha hs
      rw [h2] at h
      obtain ⟨g', h5, h6⟩ := ih p' u t m h1 h
      refine ⟨g ++ g', h4 _ _ h5, ?_⟩
      rw [applyAll_append, h3]; exact h6

theorem readLines_ok (E : Env) (W : World) (ci : Option Conn) (n : Nat) : IncOk E W ci n (readLines E W ci n) := by
  induction n with
  | zero => intro p lines s t _ h; cases h
  | succ n ih =>
    intro p lines s t ha h
    simp only [readLines, Option.map_eq_some_iff] at h
    obtain ⟨⟨u, m⟩, h1, h2⟩ := h
    simp only at h2
    subst h2
    exact lines_ok ih lines p s u m ha h1

/-- The whole file. -/
theorem readConfig_ok {E : Env} {W : World} {ci : Option Conn} {raw : Bytes} {o o' : Opts}
    (h : readConfig E W ci raw o = some o') :
    ∃ g, Reads E W ci 17 .global (loadConfig raw) g ∧ applyAll true g o = some o' := by
  simp only [readConfig, Option.map_eq_some_iff] at h
  obtain ⟨t, h1, h2⟩ := h
  subst h2
  refine readLines_ok E W ci 17 .global _ ⟨o, ci.isNone⟩ t ?_ h1
  cases ci <;> rfl

theorem cmd_ok {E : Env} (cmd : List Bytes) : ∀ {o o' : Opts}, cmd.foldlM (cmdLine E) o = some o' →
    ∃ g, Given E cmd g ∧ applyAll true g o = some o' := by
  induction cmd with
  | nil => intro o o' h; simp only [List.foldlM_nil, Option.pure_def, Option.some.injEq] at h; subst h; exact ⟨[], .done, rfl⟩
  | cons line r ih =>
    intro o o' h
    rw [List.foldlM_cons] at h
    cases hc : cmdLine E o line with
    | none => rw [hc] at h; cases h
    | some u =>
      rw [hc] at h
      simp only [Option.bind_eq_bind, Option.bind_some] at h
      obtain ⟨g, h1, h2⟩ := ih h
      rw [cmdLine] at hc
      cases hr : rawLine line with
      | blank =>
        rw [hr] at hc; simp only [Option.some.injEq] at hc
        subst hc
        exact ⟨g, .blank _ _ _ hr h1, h2⟩
      | bad => rw [hr] at hc; cases hc
      | line kw str =>
        rw [hr] at hc; simp only at hc
        cases hs : Misc.Argv.argvSplit str true with
        | none => rw [hs] at hc; cases hc
        | some args =>
          cases hk : kindOf kw with
          | none => rw [hs, hk] at hc; cases hc
          | some kb =>
            obtain ⟨k, b⟩ := kb
            rw [hs, hk] at hc
            simp only [Option.map_some] at hc
            cases hl : settings E k str args with
            | none => rw [hl] at hc; cases hc
            | some l =>
              rw [hl] at hc
              simp only [Option.bind_some] at hc
              refine ⟨l ++ g, .says _ _ _ _ _ _ _ _ ⟨hr, hs⟩ ⟨b, hk, ?_, ?_⟩ hl h1, ?_⟩
              · intro e; subst e; simp [settings] at hl
              · intro e; subst e; simp [settings] at hl
              · rw [applyAll_append, hc]; exact h2

end Verif.SrvConf
