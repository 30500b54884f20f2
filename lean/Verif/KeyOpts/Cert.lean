/-
Lemmas about certificate options.
-/
import Verif.KeyOpts.Spec
import Verif.Match.Props

namespace Verif.KeyOpts

open Spec

/-- one entry of the list -/
def entryStep (w : World) (crit : Bool) (o : Opts) (e : Bytes × Bytes) : Option Opts :=
  afterEntry crit o (setEntry w crit e.1 e.2 o)

def entries (w : World) (crit : Bool) : List (Bytes × Bytes) → Opts → Option Opts
  | [], o => some o
  | e :: l, o => (entryStep w crit o e).bind (entries w crit l)

theorem getCstr_str {n name rest : Bytes} (h : Wire.cstr n = some name) (hl : n.length ≤ maxString) :
    Wire.getCstr (Wire.str n ++ rest) = some (name, rest) := by
  unfold Wire.getCstr
  rw [Wire.getStr_append _ _ hl]
  simp [h]

theorem getCstr_some {b name rest : Bytes} (h : Wire.getCstr b = some (name, rest)) :
    ∃ n, b = Wire.str n ++ rest ∧ n.length ≤ maxString ∧ Wire.cstr n = some name := by
  unfold Wire.getCstr at h
  split at h
  · simp at h
  · rename_i v r hv
    split at h
    · simp at h
    · rename_i s hs
      simp only [Option.some.injEq, Prod.mk.injEq] at h
      obtain ⟨rfl, rfl⟩ := h
      obtain ⟨h1, h2⟩ := Wire.getStr_some hv
      exact ⟨v, h1, h2, hs⟩

theorem loop_encodes {w : World} {crit : Bool} {l : List (Bytes × Bytes)} {b : Bytes} (he : Encodes l b) :
    ∀ (fuel : Nat) (o : Opts), b.length < fuel → certOptionList w crit fuel b o = entries w crit l o := by
  induction he with
  | nil =>
    intro fuel o hf
    cases fuel with
    | zero => simp at hf
    | succ n => simp [certOptionList, entries]
  | @cons n name d b l hn h1 h2 ht ih =>
    intro fuel o hf
    cases fuel with
    | zero => simp at hf
    | succ k =>
      have hne : Wire.str n ++ (Wire.str d ++ b) ≠ [] := by
        intro h
        have := congrArg List.length h
        simp [Wire.str] at this
      simp only [certOptionList, if_neg hne, getCstr_str hn h1, Wire.getStr_append _ _ h2, entries, entryStep]
      have hk : b.length < k := by simp [Wire.str] at hf; omega
      cases afterEntry crit o (setEntry w crit name d o) with
      | none => simp
      | some o' => simp [ih k o' hk]

theorem loop_some {w : World} {crit : Bool} :
    ∀ (fuel : Nat) (b : Bytes) (o o' : Opts), certOptionList w crit fuel b o = some o' → ∃ l, Encodes l b := by
  intro fuel
  induction fuel with
  | zero => intro b o o' h; simp [certOptionList] at h
  | succ k ih =>
    intro b o o' h
    by_cases hb : b = []
    · subst hb; exact ⟨[], .nil⟩
    simp only [certOptionList, if_neg hb] at h
    split at h
    · simp at h
    · rename_i name r hn
      split at h
      · simp at h
      · rename_i d r' hd
        split at h
        · simp at h
        · obtain ⟨l, hl⟩ := ih _ _ _ h
          obtain ⟨n, rfl, h1, h2⟩ := getCstr_some hn
          obtain ⟨rfl, h3⟩ := Wire.getStr_some hd
          exact ⟨(name, d) :: l, .cons h2 h1 h3 hl⟩

/-- A blob stands for one list only. -/
theorem Encodes_unique {l l' : List (Bytes × Bytes)} {b : Bytes} (h : Encodes l b) (h' : Encodes l' b) : l = l' := by
  induction h generalizing l' with
  | nil =>
    generalize hb : ([] : Bytes) = b' at h'
    cases h' with
    | nil => rfl
    | cons =>
      have := congrArg List.length hb
      simp [Wire.str] at this
      omega
  | @cons n name d b l hn h1 h2 ht ih =>
    generalize hb : Wire.str n ++ (Wire.str d ++ b) = b' at h'
    cases h' with
    | nil =>
      have := congrArg List.length hb
      simp [Wire.str] at this
    | @cons n' name' d' b'' l'' hn' h1' h2' ht' =>
      have e1 := getCstr_str (rest := Wire.str d ++ b) hn h1
      rw [hb, getCstr_str hn' h1'] at e1
      simp only [Option.some.injEq, Prod.mk.injEq] at e1
      obtain ⟨rfl, e2⟩ := e1
      have e3 := Wire.getStr_append d b h2
      rw [← e2, Wire.getStr_append _ _ h2'] at e3
      simp only [Option.some.injEq, Prod.mk.injEq] at e3
      obtain ⟨rfl, rfl⟩ := e3
      rw [ih ht']

theorem holds_iff {d v : Bytes} : Wire.getCstr d = some (v, []) ↔ Holds d v := by
  constructor
  · intro h
    obtain ⟨n, h1, h2, h3⟩ := getCstr_some h
    exact ⟨n, by simpa using h1, h2, h3⟩
  · rintro ⟨n, rfl, h2, h3⟩
    have := getCstr_str (rest := []) h3 h2
    simpa using this

/-! ### Critical options -/

/-- what one critical option does -/
theorem critical_step {w : World} {o o' : Opts} {n d : Bytes} (h : entryStep w true o (n, d) = some o') :
    (n = b!"verify-required" ∧ d = [] ∧ o' = { o with verify := true }) ∨
    (n = b!"force-command" ∧ ∃ v, Holds d v ∧ o.command = none ∧ o' = { o with command := some v }) ∨
    (n = b!"source-address" ∧ ∃ v, Holds d v ∧ o.fromCert = none ∧ Addr.matchCidrList w.pton none v ≠ -1 ∧
      o' = { o with fromCert := some v }) := by
  simp only [entryStep, setEntry, if_true, setCritical] at h
  split at h
  · rename_i hn
    simp only [afterEntry] at h
    split at h
    · simp at h
    · rename_i hd
      simp only [ne_eq, Decidable.not_not] at hd
      simp only [Option.some.injEq] at h
      exact .inl ⟨hn, hd, h.symm⟩
  · split at h
    · rename_i hn
      split at h
      · simp [afterEntry] at h
      · rename_i v left hv
        split at h
        · simp [afterEntry] at h
        · rename_i hc
          simp only [ne_eq, Decidable.not_not] at hc
          simp only [afterEntry] at h
          split at h
          · simp at h
          · rename_i hl
            simp only [ne_eq, Decidable.not_not] at hl
            subst hl
            simp only [Option.some.injEq] at h
            exact .inr (.inl ⟨hn, v, holds_iff.1 hv, hc, h.symm⟩)
    · split at h
      · rename_i hn
        split at h
        · simp [afterEntry] at h
        · rename_i v left hv
          split at h
          · simp [afterEntry] at h
          · rename_i hc
            simp only [ne_eq, Decidable.not_not] at hc
            split at h
            · simp [afterEntry] at h
            · rename_i hm
              simp only [afterEntry] at h
              split at h
              · simp at h
              · rename_i hl
                simp only [ne_eq, Decidable.not_not] at hl
                subst hl
                simp only [Option.some.injEq] at h
                exact .inr (.inr ⟨hn, v, holds_iff.1 hv, hc, hm, h.symm⟩)
      · simp [afterEntry] at h

theorem critical_step_of {w : World} {o : Opts} {n d : Bytes} (h : Understood w (n, d))
    (h1 : n = b!"force-command" → o.command = none) (h2 : n = b!"source-address" → o.fromCert = none) :
    ∃ o', entryStep w true o (n, d) = some o' := by
  generalize he : (n, d) = e at h
  cases h with
  | verify =>
    injection he with hn hd; subst hn; subst hd
    exact ⟨{ o with verify := true }, by simp [entryStep, setEntry, setCritical, afterEntry]⟩
  | @force d' v hv =>
    injection he with hn hd; subst hn; subst hd
    refine ⟨{ o with command := some v }, ?_⟩
    simp only [entryStep, setEntry, if_true, setCritical]
    rw [if_neg (by decide)]
    simp [holds_iff.2 hv, h1 rfl, afterEntry]
  | @source d' v hv hm =>
    injection he with hn hd; subst hn; subst hd
    refine ⟨{ o with fromCert := some v }, ?_⟩
    simp only [entryStep, setEntry, if_true, setCritical]
    rw [if_neg (by decide), if_neg (by decide)]
    simp [holds_iff.2 hv, h2 rfl, hm, afterEntry]

/-- the fields critical options never touch -/
structure SameButCrit (o o' : Opts) : Prop where
  eq : o' = { o with verify := o'.verify, command := o'.command, fromCert := o'.fromCert }

theorem entries_critical {w : World} {l : List (Bytes × Bytes)} :
    ∀ {o o' : Opts}, entries w true l o = some o' →
      o' = { o with verify := o'.verify, command := o'.command, fromCert := o'.fromCert } ∧
      (∀ e ∈ l, Understood w e) ∧
      (o'.verify = true ↔ o.verify = true ∨ ∃ d, (b!"verify-required", d) ∈ l) ∧
      (∀ v, o'.command = some v ↔
        (o.command = some v ∧ ∀ d, (b!"force-command", d) ∉ l) ∨
        (o.command = none ∧ ∃ d, (b!"force-command", d) ∈ l ∧ Holds d v)) ∧
      (∀ v, o'.fromCert = some v ↔
        (o.fromCert = some v ∧ ∀ d, (b!"source-address", d) ∉ l) ∨
        (o.fromCert = none ∧ ∃ d, (b!"source-address", d) ∈ l ∧ Holds d v)) ∧
      (o.command ≠ none → ∀ d, (b!"force-command", d) ∉ l) ∧
      (o.fromCert ≠ none → ∀ d, (b!"source-address", d) ∉ l) := by
  induction l with
  | nil =>
    intro o o' h
    simp only [entries, Option.some.injEq] at h
    subst h
    simp
  | cons e l ih =>
    intro o o' h
    obtain ⟨n, d⟩ := e
    simp only [entries] at h
    cases hs : entryStep w true o (n, d) with
    | none => rw [hs] at h; simp at h
    | some o1 =>
      rw [hs] at h
      simp only [Option.bind_some] at h
      obtain ⟨i1, i2, i3, i4, i5, i6, i7⟩ := ih h
      rcases critical_step hs with ⟨rfl, rfl, rfl⟩ | ⟨rfl, v, hv, hc, rfl⟩ | ⟨rfl, v, hv, hc, hm, rfl⟩
      · refine ⟨i1, ?_, ?_, ?_, ?_, ?_, ?_⟩
        · intro e he
          rcases List.mem_cons.1 he with rfl | he
          · exact .verify
          · exact i2 e he
        · simp [i3]
        · intro v; rw [i4]; simp
        · intro v; rw [i5]; simp
        · intro hc d; have := i6 hc d; simp [this]
        · intro hc d; have := i7 hc d; simp [this]
      · refine ⟨i1, ?_, ?_, ?_, ?_, ?_, ?_⟩
        · intro e he
          rcases List.mem_cons.1 he with rfl | he
          · exact .force hv
          · exact i2 e he
        · rw [i3]; simp
        · intro u
          rw [i4]
          have hno := i6 (by simp)
          simp only [Option.some.injEq, hc, List.mem_cons, Prod.mk.injEq, true_and, reduceCtorEq, false_and, or_false, false_or]
          constructor
          · rintro ⟨rfl, -⟩
            exact ⟨d, .inl rfl, hv⟩
          · rintro ⟨d', hd | hd, hu⟩
            · subst hd
              have a := holds_iff.2 hu
              rw [holds_iff.2 hv] at a
              simp only [Option.some.injEq, Prod.mk.injEq, and_true] at a
              exact ⟨a, hno⟩
            · exact absurd hd (hno d')
        · intro u; rw [i5]; simp
        · intro h; exact absurd hc h
        · intro h d; have := i7 h d; simp [this]
      · refine ⟨i1, ?_, ?_, ?_, ?_, ?_, ?_⟩
        · intro e he
          rcases List.mem_cons.1 he with rfl | he
          · exact .source hv hm
          · exact i2 e he
        · rw [i3]; simp
        · intro u; rw [i4]; simp
        · intro u
          rw [i5]
          have hno := i7 (by simp)
          simp only [Option.some.injEq, hc, List.mem_cons, Prod.mk.injEq, true_and, reduceCtorEq, false_and, or_false, false_or]
          constructor
          · rintro ⟨rfl, -⟩
            exact ⟨d, .inl rfl, hv⟩
          · rintro ⟨d', hd | hd, hu⟩
            · subst hd
              have a := holds_iff.2 hu
              rw [holds_iff.2 hv] at a
              simp only [Option.some.injEq, Prod.mk.injEq, and_true] at a
              exact ⟨a, hno⟩
            · exact absurd hd (hno d')
        · intro h d; have := i6 h d; simp [this]
        · intro h; exact absurd hc h

/-! ### Extensions -/

/-- the fields extensions never touch are as before; the flags are as listed -/
theorem entries_extensions {w : World} {l : List (Bytes × Bytes)} :
    ∀ {o o' : Opts}, entries w false l o = some o' →
      o' = { o with x11 := o'.x11, agentFwd := o'.agentFwd, portFwd := o'.portFwd, pty := o'.pty,
                    userRc := o'.userRc, noPresence := o'.noPresence } ∧
      (o'.x11 = true ↔ o.x11 = true ∨ ∃ d, (b!"permit-X11-forwarding", d) ∈ l) ∧
      (o'.agentFwd = true ↔ o.agentFwd = true ∨ ∃ d, (b!"permit-agent-forwarding", d) ∈ l) ∧
      (o'.portFwd = true ↔ o.portFwd = true ∨ ∃ d, (b!"permit-port-forwarding", d) ∈ l) ∧
      (o'.pty = true ↔ o.pty = true ∨ ∃ d, (b!"permit-pty", d) ∈ l) ∧
      (o'.userRc = true ↔ o.userRc = true ∨ ∃ d, (b!"permit-user-rc", d) ∈ l) ∧
      (o'.noPresence = true ↔ o.noPresence = true ∨ ∃ d, (b!"no-touch-required", d) ∈ l) := by
  induction l with
  | nil =>
    intro o o' h
    simp only [entries, Option.some.injEq] at h
    subst h
    simp
  | cons e l ih =>
    intro o o' h
    obtain ⟨n, d⟩ := e
    simp only [entries] at h
    cases hs : entryStep w false o (n, d) with
    | none => rw [hs] at h; simp at h
    | some o1 =>
      rw [hs] at h
      simp only [Option.bind_some] at h
      obtain ⟨i1, i2, i3, i4, i5, i6, i7⟩ := ih h
      have fin : ∀ (o2 : Opts) (hn : setExtension n o = some o2), o1 = o2 := by
        intro o2 hn
        simp only [entryStep, setEntry, Bool.false_eq_true, if_false, hn, afterEntry] at hs
        split at hs
        · simp at hs
        · simpa using hs.symm
      by_cases n1 : n = b!"no-touch-required"
      · have := fin { o with noPresence := true } (by subst n1; simp [setExtension])
        subst n1; subst this
        refine ⟨i1, ?_, ?_, ?_, ?_, ?_, ?_⟩ <;> simp [i2, i3, i4, i5, i6, i7]
      by_cases n2 : n = b!"permit-X11-forwarding"
      · have := fin { o with x11 := true } (by subst n2; simp [setExtension])
        subst n2; subst this
        refine ⟨i1, ?_, ?_, ?_, ?_, ?_, ?_⟩ <;> simp [i2, i3, i4, i5, i6, i7]
      by_cases n3 : n = b!"permit-agent-forwarding"
      · have := fin { o with agentFwd := true } (by subst n3; simp [setExtension])
        subst n3; subst this
        refine ⟨i1, ?_, ?_, ?_, ?_, ?_, ?_⟩ <;> simp [i2, i3, i4, i5, i6, i7]
      by_cases n4 : n = b!"permit-port-forwarding"
      · have := fin { o with portFwd := true } (by subst n4; simp [setExtension])
        subst n4; subst this
        refine ⟨i1, ?_, ?_, ?_, ?_, ?_, ?_⟩ <;> simp [i2, i3, i4, i5, i6, i7]
      by_cases n5 : n = b!"permit-pty"
      · have := fin { o with pty := true } (by subst n5; simp [setExtension])
        subst n5; subst this
        refine ⟨i1, ?_, ?_, ?_, ?_, ?_, ?_⟩ <;> simp [i2, i3, i4, i5, i6, i7]
      by_cases n6 : n = b!"permit-user-rc"
      · have := fin { o with userRc := true } (by subst n6; simp [setExtension])
        subst n6; subst this
        refine ⟨i1, ?_, ?_, ?_, ?_, ?_, ?_⟩ <;> simp [i2, i3, i4, i5, i6, i7]
      have hx : setExtension n o = none := by
        simp only [setExtension, if_neg n1, if_neg n2, if_neg n3, if_neg n4, if_neg n5, if_neg n6]
      have ho : o1 = o := by
        simp only [entryStep, setEntry, Bool.false_eq_true, if_false, hx, afterEntry, Option.some.injEq] at hs
        exact hs.symm
      subst ho
      refine ⟨i1, ?_, ?_, ?_, ?_, ?_, ?_⟩
      · rw [i2]; simp [Ne.symm n2]
      · rw [i3]; simp [Ne.symm n3]
      · rw [i4]; simp [Ne.symm n4]
      · rw [i5]; simp [Ne.symm n5]
      · rw [i6]; simp [Ne.symm n6]
      · rw [i7]; simp [Ne.symm n1]

theorem fromCert_some {w : World} {c : Cert} {o : Opts} (h : fromCert w c = some o) :
    c.type = .user ∧ ∃ lc le o1, Encodes lc c.critical ∧ Encodes le c.extensions ∧
      entries w true lc new = some o1 ∧ entries w false le o1 = some o := by
  unfold fromCert at h
  split at h
  · simp at h
  · rename_i ht
    simp only [ne_eq, Decidable.not_not] at ht
    split at h
    · simp at h
    · rename_i o1 h1
      obtain ⟨lc, hc⟩ := loop_some _ _ _ _ h1
      obtain ⟨le, he⟩ := loop_some _ _ _ _ h
      rw [loop_encodes hc _ _ (by omega)] at h1
      rw [loop_encodes he _ _ (by omega)] at h
      exact ⟨ht, lc, le, o1, hc, he, h1, h⟩

end Verif.KeyOpts
