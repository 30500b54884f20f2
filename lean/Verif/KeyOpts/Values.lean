/-
C59, continued: what the clauses of an option text leave behind, for whole option lists.
-/
import Verif.KeyOpts.Grammar

namespace Verif.KeyOpts

open Match (toLower)
open Spec

namespace Spec

/-- the values given for a clause, in order -/
def values (n : Bytes) (is : List Item) : List Bytes :=
  is.filterMap fun
    | .clause m v => if m = n then some v else none
    | .flag _ _ => none

/-- the variable an environment setting is about -/
def varName (v : Bytes) : Bytes := v.takeWhile (· ≠ 61)

end Spec

theorem values_concat (n : Bytes) (is : List Item) (i : Item) : values n (is ++ [i]) = values n is ++ values n [i] := by
  unfold values; rw [List.filterMap_append]

theorem values_self (n v : Bytes) : values n [.clause n v] = [v] := by simp [values]

theorem values_other {n : Bytes} {i : Item} (h : ∀ v, i ≠ .clause n v) : values n [i] = [] := by
  cases i with
  | flag m b => rfl
  | clause m v =>
    have : m ≠ n := fun hm => h v (by rw [hm])
    simp [values, this]

/-- Options lists, one option at a time. -/
theorem meanings_ind {w : World} (P : List Item → Opts → Prop) (h0 : P [] keysDefaults)
    (hs : ∀ is i o o', P is o → (∃ t, Written i t) → meaning w i o = some o' → P (is ++ [i]) o') :
    ∀ {is o}, (∀ i ∈ is, ∃ t, Written i t) → meanings w is keysDefaults = some o → P is o := by
  suffices H : ∀ (js : List Item), (∀ i ∈ js.reverse, ∃ t, Written i t) → ∀ o, meanings w js.reverse keysDefaults = some o → P js.reverse o by
    intro is o hw hm
    have := H is.reverse (by simpa using hw) o (by simpa using hm)
    simpa using this
  intro js
  induction js with
  | nil =>
    intro _ o h
    simp only [List.reverse_nil, meanings, Option.some.injEq] at h
    subst h; exact h0
  | cons i js ih =>
    intro hw o h
    rw [List.reverse_cons] at h hw ⊢
    rw [meanings_concat] at h
    cases h1 : meanings w js.reverse keysDefaults with
    | none => rw [h1] at h; simp at h
    | some o1 =>
      rw [h1] at h
      exact hs _ _ _ _ (ih (fun j hj => hw j (List.mem_append_left _ hj)) o1 h1) (hw i (by simp)) h

/-- An option leaves alone what belongs to other options. -/
theorem meaning_frame {w : World} {i : Item} {o o' : Opts} (h : meaning w i o = some o') (hi : ∃ t, Written i t) :
    ((∀ v, i ≠ .clause b!"expiry-time" v) → o'.validBefore = o.validBefore) ∧
    ((∀ v, i ≠ .clause b!"environment" v) → o'.env = o.env) ∧
    ((∀ v, i ≠ .clause b!"permitopen" v) → o'.permitopen = o.permitopen) ∧
    ((∀ v, i ≠ .clause b!"permitlisten" v) → o'.permitlisten = o.permitlisten) ∧
    ((∀ v, i ≠ .clause b!"command" v) → o'.command = o.command) ∧
    ((∀ v, i ≠ .clause b!"principals" v) → o'.principals = o.principals) ∧
    ((∀ v, i ≠ .clause b!"from" v) → o'.fromKeys = o.fromKeys) ∧
    ((∀ v, i ≠ .clause b!"tunnel" v) → o'.tun = o.tun) := by
  obtain ⟨t, hw⟩ := hi
  cases hw with
  | flag hn ht =>
    simp only [flagNames, List.mem_cons, List.not_mem_nil, or_false] at hn
    rcases hn with h' | h' | h' | h' | h' | h' | h' | h' | h' <;> subst h' <;>
      (simp [meaning] at h; subst h; simp)
  | noFlag hn h1 h2 ht =>
    simp only [flagNames, List.mem_cons, List.not_mem_nil, or_false] at hn
    rcases hn with h' | h' | h' | h' | h' | h' | h' | h' | h' <;> subst h' <;>
      first
        | exact absurd rfl h1
        | exact absurd rfl h2
        | (simp [meaning] at h; subst h; simp)
  | @clause n t q v hn ht hq =>
    simp only [clauseNames, List.mem_cons, List.not_mem_nil, or_false] at hn
    rcases hn with h' | h' | h' | h' | h' | h' | h' | h' <;> subst h' <;> simp [meaning] at h
    · simp only [setOnce] at h; split at h <;> simp at h; subst h; simp
    · simp only [setOnce] at h; split at h <;> simp at h; subst h; simp
    · simp only [setOnce] at h; split at h <;> simp at h; subst h; simp
    · simp only [setExpiry] at h
      split at h
      · simp at h
      · split at h
        · simp at h
        · split at h <;> simp only [Option.some.injEq] at h <;> subst h <;> simp
    · simp only [setEnv] at h
      split at h
      · simp at h
      · split at h
        · simp at h
        · split at h
          · simp at h
          · split at h <;> simp only [Option.some.injEq] at h <;> subst h <;> simp
    · obtain ⟨e, -, rfl⟩ := h; simp
    · obtain ⟨e, -, rfl⟩ := h; simp
    · obtain ⟨e, -, rfl⟩ := h; simp

theorem clause_or (n : Bytes) (i : Item) : (∃ v, i = .clause n v) ∨ ∀ v, i ≠ .clause n v := by
  by_cases h : ∃ v, i = .clause n v
  · exact .inl h
  · exact .inr fun v hv => h ⟨v, hv⟩

/-- **C59: the earliest expiry counts.**  Every expiry-time given is readable and not zero; the time in force is
one of them and none is earlier; without the option the line does not expire. -/
theorem C59_expiry {w : World} {is : List Item} {s rest : Bytes} {o : Opts} (hl : Line is s rest)
    (hm : meanings w is keysDefaults = some o) :
    (∀ v ∈ values b!"expiry-time" is, ∃ t, w.time v = some t ∧ t ≠ 0 ∧ o.validBefore ≤ t) ∧
    (values b!"expiry-time" is = [] → o.validBefore = 0) ∧
    (values b!"expiry-time" is ≠ [] → o.validBefore ≠ 0 ∧ ∃ v ∈ values b!"expiry-time" is, w.time v = some o.validBefore) := by
  refine meanings_ind (P := fun is o =>
    (∀ v ∈ values b!"expiry-time" is, ∃ t, w.time v = some t ∧ t ≠ 0 ∧ o.validBefore ≤ t) ∧
    (values b!"expiry-time" is = [] → o.validBefore = 0) ∧
    (values b!"expiry-time" is ≠ [] → o.validBefore ≠ 0 ∧ ∃ v ∈ values b!"expiry-time" is, w.time v = some o.validBefore))
    (by refine ⟨?_, fun _ => rfl, ?_⟩ <;> simp [values]) ?_ (line_written hl) hm
  rintro is i o o' ⟨h1, h2, h3⟩ hi h
  rcases clause_or b!"expiry-time" i with ⟨v, rfl⟩ | hne
  · rw [values_concat, values_self]
    have h : setExpiry w v o = some o' := by simpa [meaning] using h
    unfold setExpiry at h
    split at h
    · simp at h
    · rename_i t ht
      split at h
      · simp at h
      · rename_i hz
        split at h
        · rename_i hc
          simp only [Option.some.injEq] at h
          subst h
          refine ⟨?_, by simp, fun _ => ⟨hz, v, by simp, ht⟩⟩
          intro v' hv'
          rcases List.mem_append.1 hv' with hv' | hv'
          · obtain ⟨t', a, b, c⟩ := h1 v' hv'
            have hnz := (h3 (List.ne_nil_of_mem hv')).1
            refine ⟨t', a, b, ?_⟩
            show t ≤ t'
            rcases hc with hc | hc <;> omega
          · simp at hv'; subst hv'; exact ⟨t, ht, hz, Nat.le_refl _⟩
        · rename_i hc
          simp only [Option.some.injEq] at h
          subst h
          have hnz : o.validBefore ≠ 0 := fun h => hc (.inl h)
          have hge : o.validBefore ≤ t := by
            apply Nat.le_of_not_lt; exact fun h => hc (.inr h)
          have hne : values b!"expiry-time" is ≠ [] := fun he => hnz (h2 he)
          obtain ⟨-, v', hv', e⟩ := h3 hne
          refine ⟨?_, by simp, fun _ => ⟨hnz, v', by simp [hv'], e⟩⟩
          intro v2 hv2
          rcases List.mem_append.1 hv2 with hv2 | hv2
          · exact h1 v2 hv2
          · simp at hv2; subst hv2; exact ⟨t, ht, hz, hge⟩
  · rw [values_concat, values_other hne, List.append_nil, (meaning_frame h hi).1 hne]
    exact ⟨h1, h2, h3⟩

theorem prefix_varName {name e : Bytes} (hn : (61 : UInt8) ∉ name) : (name ++ [61]) <+: e ↔ (varName e = name ∧ (61 : UInt8) ∈ e) := by
  induction name generalizing e with
  | nil =>
    cases e with
    | nil => simp
    | cons c e =>
      by_cases hc : c = 61
      · subst hc; simp [varName]
      · simp [varName, hc, Ne.symm hc]
  | cons a name ih =>
    simp at hn
    cases e with
    | nil => simp
    | cons c e =>
      rw [List.cons_append, List.cons_prefix_cons, ih hn.2]
      by_cases hc : c = 61
      · subst hc
        simp [varName, Ne.symm hn.1]
      · have hv : varName (c :: e) = c :: varName e := by simp [varName, hc]
        rw [hv]
        simp only [List.mem_cons, Ne.symm hc, false_or, List.cons.injEq]
        constructor
        · rintro ⟨rfl, h1, h2⟩; exact ⟨⟨rfl, h1⟩, h2⟩
        · rintro ⟨⟨rfl, h1⟩, h2⟩; exact ⟨rfl, h1, h2⟩

theorem varName_no (v : Bytes) : (61 : UInt8) ∉ varName v := by
  intro h
  unfold varName at h
  induction v with
  | nil => simp at h
  | cons c v ih =>
    rw [List.takeWhile_cons] at h
    split at h
    · rename_i hc
      rcases List.mem_cons.1 h with h | h
      · subst h; simp at hc
      · exact ih h
    · simp at h

/-- **C59: of several settings of one variable the first counts.**  Every environment option names a variable
by letters, digits and underscores; the settings in force are those not preceded by one of the same variable. -/
theorem C59_environment {w : World} {is : List Item} {s rest : Bytes} {o : Opts} (hl : Line is s rest)
    (hm : meanings w is keysDefaults = some o) :
    (∀ v ∈ values b!"environment" is, (61 : UInt8) ∈ v ∧ validEnvName (varName v) = true) ∧
    (∀ e, e ∈ o.env ↔ ∃ x y, values b!"environment" is = x ++ e :: y ∧ ∀ z ∈ x, varName z ≠ varName e) := by
  refine meanings_ind (P := fun is o =>
    (∀ v ∈ values b!"environment" is, (61 : UInt8) ∈ v ∧ validEnvName (varName v) = true) ∧
    (∀ e, e ∈ o.env ↔ ∃ x y, values b!"environment" is = x ++ e :: y ∧ ∀ z ∈ x, varName z ≠ varName e))
    (by simp [values, keysDefaults]) ?_ (line_written hl) hm
  rintro is i o o' ⟨h1, h2⟩ hi h
  rcases clause_or b!"environment" i with ⟨v, rfl⟩ | hne
  · rw [values_concat, values_self]
    have h : setEnv v o = some o' := by simpa [meaning] using h
    unfold setEnv at h
    split at h
    · simp at h
    · split at h
      · simp at h
      · rename_i hc
        have hc : (61 : UInt8) ∈ v := by simpa using hc
        simp only at h
        split at h
        · simp at h
        · rename_i hv
          have hv : validEnvName (varName v) = true := by simpa [varName] using hv
          have hold : (o.env.any fun e => decide ((v.takeWhile (· ≠ 61) ++ [61]) <+: e)) = true ↔
              ∃ e ∈ o.env, varName e = varName v := by
            rw [List.any_eq_true]
            constructor
            · rintro ⟨e, he, hx⟩
              have := of_decide_eq_true hx
              exact ⟨e, he, ((prefix_varName (varName_no v)).1 this).1⟩
            · rintro ⟨e, he, hx⟩
              refine ⟨e, he, decide_eq_true ((prefix_varName (varName_no v)).2 ⟨hx, ?_⟩)⟩
              obtain ⟨x, y, e1, -⟩ := (h2 e).1 he
              exact (h1 e (by rw [e1]; simp)).1
          have hfirst : (∃ e ∈ o.env, varName e = varName v) ↔ ∃ z ∈ values b!"environment" is, varName z = varName v := by
            constructor
            · rintro ⟨e, he, hx⟩
              obtain ⟨x, y, e1, -⟩ := (h2 e).1 he
              exact ⟨e, by rw [e1]; simp, hx⟩
            · rintro hz
              have key : ∀ l : List Bytes, (∃ z ∈ l, varName z = varName v) →
                  ∃ x e y, l = x ++ e :: y ∧ varName e = varName v ∧ ∀ u ∈ x, varName u ≠ varName v := by
                intro l
                induction l with
                | nil => simp
                | cons a l ih =>
                  intro hx
                  by_cases ha : varName a = varName v
                  · exact ⟨[], a, l, rfl, ha, by simp⟩
                  · have : ∃ z ∈ l, varName z = varName v := by
                      obtain ⟨z, hz, hx⟩ := hx
                      rcases List.mem_cons.1 hz with rfl | hz
                      · exact absurd hx ha
                      · exact ⟨z, hz, hx⟩
                    obtain ⟨x, e, y, e1, e2, e3⟩ := ih this
                    refine ⟨a :: x, e, y, by rw [e1]; rfl, e2, ?_⟩
                    intro u hu
                    rcases List.mem_cons.1 hu with rfl | hu
                    · exact ha
                    · exact e3 u hu
              obtain ⟨x, e, y, e1, e2, e3⟩ := key _ hz
              exact ⟨e, (h2 e).2 ⟨x, y, e1, fun z hz => by rw [e2]; exact e3 z hz⟩, e2⟩
          have hval : ∀ u ∈ values b!"environment" is ++ [v], (61 : UInt8) ∈ u ∧ validEnvName (varName u) = true := by
            intro u hu
            rcases List.mem_append.1 hu with hu | hu
            · exact h1 u hu
            · simp at hu; subst hu; exact ⟨hc, hv⟩
          have hgrow : ∀ e, (∃ x y, values b!"environment" is ++ [v] = x ++ e :: y ∧ ∀ z ∈ x, varName z ≠ varName e) ↔
              (e ∈ o.env ∨ (e = v ∧ ¬ ∃ z ∈ values b!"environment" is, varName z = varName v)) := by
            intro e
            rw [h2 e]
            constructor
            · rintro ⟨x, y, e1, e2⟩
              rcases List.eq_nil_or_concat y with rfl | ⟨y', b, rfl⟩
              · have := List.append_inj' e1 rfl
                simp at this
                refine .inr ⟨this.2.symm, ?_⟩
                rintro ⟨z, hz, hx⟩
                rw [this.1] at hz
                rw [this.2] at hx
                exact e2 z hz hx
              · have e1' : values b!"environment" is ++ [v] = (x ++ e :: y') ++ [b] := by simpa using e1
                have := List.append_inj' e1' rfl
                exact .inl ⟨x, y', this.1, e2⟩
            · rintro (⟨x, y, e1, e2⟩ | ⟨rfl, hx⟩)
              · exact ⟨x, y ++ [v], by rw [e1]; simp, e2⟩
              · exact ⟨values b!"environment" is, [], rfl, fun z hz hz' => hx ⟨z, hz, hz'⟩⟩
          split at h
          · rename_i ho
            simp only [Option.some.injEq] at h
            subst h
            refine ⟨hval, fun e => ?_⟩
            rw [hgrow]
            have := hfirst.1 (hold.1 ho)
            simp [this]
          · rename_i ho
            simp only [Option.some.injEq] at h
            subst h
            refine ⟨hval, fun e => ?_⟩
            rw [hgrow]
            have : ¬ ∃ z ∈ values b!"environment" is, varName z = varName v := fun hz => ho (hold.2 (hfirst.2 hz))
            simp [this]
  · rw [values_concat, values_other hne, List.append_nil, (meaning_frame h hi).2.1 hne]
    exact ⟨h1, h2⟩

/-- **C59: the lists of permitted destinations are exactly those written**, in order, a listening entry without
a colon being a port on any address.  A forced command, the source list and the principals are those written, and each is
written at most once. -/
theorem C59_clauses {w : World} {is : List Item} {s rest : Bytes} {o : Opts} (hl : Line is s rest)
    (hm : meanings w is keysDefaults = some o) :
    o.permitopen = values b!"permitopen" is ∧
    o.permitlisten = (values b!"permitlisten" is).map (fun v => if (58 : UInt8) ∈ v then v else b!"*:" ++ v) ∧
    o.command.toList = values b!"command" is ∧ o.principals.toList = values b!"principals" is ∧
    o.fromKeys.toList = values b!"from" is := by
  refine meanings_ind (P := fun is o =>
    o.permitopen = values b!"permitopen" is ∧
    o.permitlisten = (values b!"permitlisten" is).map (fun v => if (58 : UInt8) ∈ v then v else b!"*:" ++ v) ∧
    o.command.toList = values b!"command" is ∧ o.principals.toList = values b!"principals" is ∧
    o.fromKeys.toList = values b!"from" is)
    (by simp [values, keysDefaults]) ?_ (line_written hl) hm
  rintro is i o o' ⟨h1, h2, h3, h4, h5⟩ hi h
  have hf := meaning_frame h hi
  refine ⟨?_, ?_, ?_, ?_, ?_⟩
  · rcases clause_or b!"permitopen" i with ⟨v, rfl⟩ | hne
    · rw [values_concat, values_self, ← h1]
      simp [meaning] at h
      obtain ⟨e, he, rfl⟩ := h
      simp only [handlePermit, Bool.false_and, Bool.false_eq_true, if_false] at he
      split at he
      · simp at he
      · split at he <;> simp at he
        simp [he]
    · rw [values_concat, values_other hne, List.append_nil, hf.2.2.1 hne]; exact h1
  · rcases clause_or b!"permitlisten" i with ⟨v, rfl⟩ | hne
    · rw [values_concat, values_self, List.map_append, ← h2]
      simp [meaning] at h
      obtain ⟨e, he, rfl⟩ := h
      by_cases hc : (58 : UInt8) ∈ v
      · have hb : v.contains 58 = true := by simpa using hc
        simp only [handlePermit, hb, Bool.true_and, Bool.not_true, Bool.false_eq_true, if_false] at he
        split at he
        · simp at he
        · split at he <;> simp at he
          subst he; simp [hc]
      · have hb : v.contains 58 = false := by simpa using hc
        simp only [handlePermit, hb, Bool.true_and, Bool.not_false, if_true] at he
        split at he
        · simp at he
        · split at he <;> simp at he
          subst he; simp [hc]
    · rw [values_concat, values_other hne, List.append_nil, hf.2.2.2.1 hne]; exact h2
  · rcases clause_or b!"command" i with ⟨v, rfl⟩ | hne
    · rw [values_concat, values_self, ← h3]
      simp [meaning, setOnce] at h
      obtain ⟨h, rfl⟩ := h
      simp [h]
    · rw [values_concat, values_other hne, List.append_nil, hf.2.2.2.2.1 hne]; exact h3
  · rcases clause_or b!"principals" i with ⟨v, rfl⟩ | hne
    · rw [values_concat, values_self, ← h4]
      simp [meaning, setOnce] at h
      obtain ⟨h, rfl⟩ := h
      simp [h]
    · rw [values_concat, values_other hne, List.append_nil, hf.2.2.2.2.2.1 hne]; exact h4
  · rcases clause_or b!"from" i with ⟨v, rfl⟩ | hne
    · rw [values_concat, values_self, ← h5]
      simp [meaning, setOnce] at h
      obtain ⟨h, rfl⟩ := h
      simp [h]
    · rw [values_concat, values_other hne, List.append_nil, hf.2.2.2.2.2.2.1 hne]; exact h5

/-- Non-vacuity: two settings of one variable, two destinations and a bare listening port. -/
example : parse exWorld (some b!"environment=\"A=1\",environment=\"A=2\",permitopen=\"h:22\",permitopen=\"g:*\",permitlisten=\"80\"") =
    some { keysDefaults with env := [b!"A=1"], permitopen := [b!"h:22", b!"g:*"], permitlisten := [b!"*:80"] } := by
  decide +kernel

end Verif.KeyOpts
