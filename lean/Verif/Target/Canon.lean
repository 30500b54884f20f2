/-
C120: canonical host names.
-/
import Verif.Target.Spec
import Verif.Match.Props

namespace Verif.Target
open Verif
open _root_.Verif.Match (toLower Glob entries isNeg body short matchPatternList)

private theorem bytes {P : UInt8 → Prop} (h : ∀ n : Fin 256, P (UInt8.ofNat n.1)) (c : UInt8) : P c := by
  have := h ⟨c.toNat, c.toNat_lt⟩
  simpa using this

theorem letter_iff (c : UInt8) : isAlpha c = true ↔ Letter c := by simp [isAlpha, Letter]
theorem digit_iff (c : UInt8) : isDigit c = true ↔ Digit c := by simp [isDigit, Digit]

theorem lower_alpha : ∀ c : UInt8, isAlpha (toLower c) = isAlpha c := by
  apply bytes
  decide +kernel

theorem nameChar_iff (c : UInt8) : NameChar c ↔
    ¬ (c ≠ 46 ∧ c ≠ 45 ∧ isAlpha (toLower c) = false ∧ isDigit c = false ∧ c ≠ 95) := by
  rw [NameChar, ← letter_iff, ← digit_iff, lower_alpha]
  by_cases h1 : c = 46 <;> by_cases h2 : c = 45 <;> by_cases h3 : c = 95 <;> cases h4 : isAlpha c <;> cases h5 : isDigit c <;> simp_all

/-- Two dots in a row, seen from a character before -/
theorem domainGo_iff : ∀ (s : Bytes) (last : UInt8), domainGo last s = true ↔
    (∀ c ∈ s, NameChar c) ∧ ¬ ∃ a b, last :: s = a ++ [46, 46] ++ b := by
  intro s
  induction s with
  | nil =>
    intro last
    simp only [domainGo, List.not_mem_nil, false_imp_iff, implies_true, true_and, true_iff]
    rintro ⟨a, b, h⟩
    have := congrArg List.length h
    simp at this
    omega
  | cons c s ih =>
    intro last
    rw [domainGo]
    have key : (∃ a b, last :: c :: s = a ++ [46, 46] ++ b) ↔ (last = 46 ∧ c = 46) ∨ ∃ a b, c :: s = a ++ [46, 46] ++ b := by
      constructor
      · rintro ⟨a, b, h⟩
        cases a with
        | nil => simp at h; exact .inl ⟨h.1, h.2.1⟩
        | cons x a => simp at h; exact .inr ⟨a, b, by simpa using h.2⟩
      · rintro (⟨rfl, rfl⟩ | ⟨a, b, h⟩)
        · exact ⟨[], s, rfl⟩
        · exact ⟨last :: a, b, by rw [h]; rfl⟩
    rw [key]
    by_cases h1 : last = 46 ∧ c = 46
    · rw [if_pos h1]
      exact ⟨fun h => (by cases h), fun h => absurd (.inl h1) h.2⟩
    · rw [if_neg h1]
      by_cases h2 : NameChar c
      · rw [if_neg ((nameChar_iff c).1 h2), ih c]
        simp only [List.forall_mem_cons, h2, true_and, h1, false_or]
      · rw [if_pos (Classical.byContradiction fun h => h2 ((nameChar_iff c).2 h))]
        exact ⟨fun h => (by cases h), fun h => absurd (h.1 c List.mem_cons_self) h2⟩

theorem last_iff (s : Bytes) (c : UInt8) : s.getLast? = some c ↔ ∃ e, s = e ++ [c] := List.getLast?_eq_some_iff

/-- C120: what counts as a domain name. -/
theorem validDomain_iff (s d : Bytes) : validDomain s = some d ↔ Domain s ∧ Unanchored s d := by
  unfold validDomain
  cases s with
  | nil => exact ⟨fun h => (by cases h), fun ⟨⟨⟨c, l, h, _⟩, _⟩, _⟩ => (by cases h)⟩
  | cons c l =>
    simp only
    have hh : (∃ c' l', c :: l = c' :: l' ∧ (Letter c' ∨ Digit c' ∨ c' = 95)) ↔ Letter c ∨ Digit c ∨ c = 95 := by
      constructor
      · rintro ⟨c', l', h, h'⟩; cases h; exact h'
      · exact fun h => ⟨c, l, rfl, h⟩
    by_cases h1 : Letter c ∨ Digit c ∨ c = 95
    · rw [if_neg (by
        rw [← letter_iff, ← digit_iff] at h1
        rintro ⟨a, b, e⟩
        simp_all)]
      have hgo : domainGo 0 (c :: l) = true ↔ (∀ x ∈ c :: l, NameChar x) ∧ ¬ ∃ a b, c :: l = a ++ [46, 46] ++ b := by
        rw [domainGo_iff]
        refine and_congr_right fun _ => not_congr ?_
        constructor
        · rintro ⟨a, b, h⟩
          cases a with
          | nil => simp at h
          | cons x a => simp at h; exact ⟨a, b, by simpa using h.2⟩
        · rintro ⟨a, b, h⟩; exact ⟨0 :: a, b, by rw [h]; rfl⟩
      have hd : Domain (c :: l) ↔ domainGo 0 (c :: l) = true := by
        rw [hgo, Domain, hh]
        simp only [h1, true_and]
      rw [hd]
      cases hg : domainGo 0 (c :: l) with
      | false => simp
      | true =>
        simp only [Bool.true_eq_false, if_false, Option.some.injEq, true_and]
        by_cases h3 : (c :: l).getLast? = some 46
        · rw [if_pos h3]
          obtain ⟨e, he⟩ := (last_iff _ _).1 h3
          rw [he, List.dropLast_concat]
          constructor
          · rintro rfl; exact .inl rfl
          · rintro (h | ⟨_, h⟩)
            · exact (List.append_inj_left' h rfl)
            · exact absurd ⟨e, rfl⟩ h
        · rw [if_neg h3]
          rw [last_iff] at h3
          constructor
          · rintro rfl; exact .inr ⟨rfl, h3⟩
          · rintro (h | ⟨h, _⟩)
            · exact absurd ⟨d, h⟩ h3
            · exact h
    · rw [if_pos (by
        rw [← letter_iff, ← digit_iff] at h1
        refine ⟨?_, ?_, ?_⟩ <;> simp_all)]
      refine ⟨fun h => (by cases h), fun ⟨⟨h, _⟩, _⟩ => absurd (hh.1 h) h1⟩

theorem unanchored_unique {s d d' : Bytes} (h : Unanchored s d) (h' : Unanchored s d') : d = d' := by
  rcases h with h | ⟨h, g⟩ <;> rcases h' with h' | ⟨h', g'⟩
  · exact List.append_inj_left' (h.symm.trans h') rfl
  · exact absurd ⟨_, h⟩ g'
  · exact absurd ⟨_, h'⟩ g
  · exact h.symm.trans h'

theorem unanchored_ne {s d : Bytes} (hs : Domain s) (h : Unanchored s d) : d ≠ [] := by
  rintro rfl
  obtain ⟨⟨c, l, hc, hl⟩, _⟩ := hs
  rcases h with h | ⟨h, _⟩
  · rw [hc] at h
    simp at h
    rw [h.1] at hl
    revert hl
    simp [Letter, Digit]
  · rw [hc] at h; cases h

/-- The alias found: it is what the resolver says, or there is none. -/
theorem resolveHost_some {R : Resolver} {q c : Bytes} (h : resolveHost R q = some c) :
    Exists R q ∧ ((c ≠ [] ∧ AliasOf R q c) ∨ (c = [] ∧ ∀ x, ¬ AliasOf R q x)) := by
  unfold resolveHost at h
  cases hl : R.look q with
  | none => rw [hl] at h; cases h
  | some o =>
    rw [hl] at h
    refine ⟨by rw [Exists, hl]; simp, ?_⟩
    cases o with
    | none => cases h; exact .inr ⟨rfl, fun x ⟨a, h, _⟩ => by rw [hl] at h; cases h⟩
    | some a =>
      simp only at h
      cases hv : validDomain a with
      | none =>
        rw [hv] at h
        cases h
        refine .inr ⟨rfl, ?_⟩
        rintro x ⟨a', h, h1, h2, _⟩
        rw [hl] at h
        cases h
        rw [(validDomain_iff a x).2 ⟨h1, h2⟩] at hv
        cases hv
      | some d =>
        rw [hv] at h
        obtain ⟨h1, h2⟩ := (validDomain_iff a d).1 hv
        simp only [Option.some.injEq] at h
        subst h
        by_cases hd : d.length ≥ 1025
        · rw [if_pos hd]
          refine .inr ⟨rfl, ?_⟩
          rintro x ⟨a', h, _, h4, h5⟩
          rw [hl] at h
          cases h
          rw [unanchored_unique h4 h2] at h5
          omega
        · rw [if_neg hd]
          exact .inl ⟨unanchored_ne h1 h2, a, hl, h1, h2, by omega⟩

theorem resolveHost_none {R : Resolver} {q : Bytes} : resolveHost R q = none ↔ ¬ Exists R q := by
  unfold resolveHost Exists
  cases hl : R.look q with
  | none => simp
  | some o =>
    cases o with
    | none => simp
    | some a => cases hv : validDomain a <;> simp [hv]

theorem alias_unique {R : Resolver} {q c c' : Bytes} (h : AliasOf R q c) (h' : AliasOf R q c') : c = c' := by
  obtain ⟨a, h1, _, h3, _⟩ := h
  obtain ⟨a', h1', _, h3', _⟩ := h'
  rw [h1] at h1'
  cases h1'
  exact unanchored_unique h3 h3'

theorem listed_iff (l n : Bytes) : matchPatternList n l true = 1 ↔ Listed l n := by
  have := Match.C06_positive_iff n l true
  simpa [Match.hits, Listed] using this

theorem lower_none : (b!"none" : Bytes).map toLower = b!"none" := by decide

theorem same_none (d : Bytes) : same d b!"none" = true ↔ NoneWord d := by
  unfold same NoneWord
  rw [lower_none, decide_eq_true_iff]

theorem hasRules_iff (C : Cfg) : hasRules C = true ↔ Rules C := by
  unfold hasRules Rules
  split
  · rename_i h; simp [h]
  · rename_i s t h
    rw [h]
    simp only [Bool.not_eq_true', Bool.and_eq_false_iff, decide_eq_false_iff_not, ne_eq, List.cons_ne_nil, not_false_eq_true,
      List.cons.injEq, Prod.mk.injEq, and_true, true_and]
    rw [← Bool.not_eq_true, same_none, NoneWord]
    constructor
    · rintro (h1 | h1) ⟨s', ⟨rfl, rfl⟩, h2⟩
      · exact h1 h2
      · exact h1 rfl
    · intro h1
      by_cases ht : t = []
      · exact .inl fun h2 => h1 ⟨s, ⟨rfl, ht⟩, h2⟩
      · exact .inr ht
  · rename_i h1 h2
    simp only [true_iff]
    refine ⟨h1, ?_⟩
    rintro ⟨s, h, _⟩
    exact h2 s [] h

theorem follow_iff (C : Cfg) (n c h : Bytes) : follow C n c = some h ↔ c ≠ [] ∧ c ≠ n ∧ Permitted C n c ∧ h = c := by
  unfold follow
  have hr := hasRules_iff C
  by_cases h1 : c = []
  · simp [h1]
  by_cases h2 : hasRules C = false
  · rw [if_pos (.inr (.inl h2))]
    refine ⟨fun h => (by cases h), fun ⟨_, _, ⟨_, h3, _⟩, _⟩ => ?_⟩
    rw [hr.2 h3] at h2
    cases h2
  by_cases h3 : n = c
  · simp [h3]
  rw [if_neg (by rintro (h | h | h) <;> contradiction)]
  have hR : Rules C := hr.1 (by simpa using h2)
  have h3' : c ≠ n := fun h => h3 h.symm
  by_cases h4 : C.canon = .no
  · rw [if_pos h4]
    exact ⟨fun h => (by cases h), fun ⟨_, _, ⟨h5, _⟩, _⟩ => absurd h4 h5.1⟩
  rw [if_neg h4]
  by_cases h5 : C.direct = false ∧ C.canon ≠ .always
  · rw [if_pos h5]
    refine ⟨fun h => (by cases h), fun ⟨_, _, ⟨⟨_, h6⟩, _⟩, _⟩ => ?_⟩
    rcases h6 with h6 | h6
    · rw [h5.1] at h6; cases h6
    · exact absurd h6 h5.2
  rw [if_neg h5]
  have hA : Asked C := by
    refine ⟨h4, ?_⟩
    by_cases h6 : C.direct = true
    · exact .inl h6
    · refine .inr (Classical.byContradiction fun h7 => h5 ⟨by simpa using h6, h7⟩)
  have hany : (C.rules.any fun r => matchPatternList n r.1 true = 1 && matchPatternList c r.2 true = 1) = true ↔
      ∃ r ∈ C.rules, Listed r.1 n ∧ Listed r.2 c := by
    simp only [List.any_eq_true, Bool.and_eq_true, decide_eq_true_eq, listed_iff]
  by_cases h6 : ∃ r ∈ C.rules, Listed r.1 n ∧ Listed r.2 c
  · rw [if_pos (hany.2 h6), Option.some.injEq]
    exact ⟨fun h => ⟨h1, h3', ⟨hA, hR, h6⟩, h.symm⟩, fun h => h.2.2.2.symm⟩
  · rw [if_neg (fun h => h6 (hany.1 h))]
    exact ⟨fun h => (by cases h), fun ⟨_, _, ⟨_, _, h7⟩, _⟩ => absurd h7 h6⟩

/-- Following an alias -/
theorem followed_iff {C : Cfg} {R : Resolver} {q n c h : Bytes} (hq : resolveHost R q = some c) :
    (follow C n c).getD n = h ↔ Followed C R q n h := by
  obtain ⟨_, hc⟩ := resolveHost_some hq
  have key : ∀ g, follow C n c = some g ↔ ∃ x, AliasOf R q x ∧ x ≠ n ∧ Permitted C n x ∧ g = x := by
    intro g
    rw [follow_iff]
    constructor
    · rintro ⟨h1, h2, h3, h4⟩
      rcases hc with ⟨_, ha⟩ | ⟨h5, _⟩
      · exact ⟨c, ha, h2, h3, h4⟩
      · exact absurd h5 h1
    · rintro ⟨x, h1, h2, h3, h4⟩
      rcases hc with ⟨h5, ha⟩ | ⟨_, h5⟩
      · rw [alias_unique h1 ha] at h2 h3 h4
        exact ⟨h5, h2, h3, h4⟩
      · exact absurd h1 (h5 x)
  cases hf : follow C n c with
  | some g =>
    obtain ⟨x, h1, h2, h3, h4⟩ := (key g).1 hf
    constructor
    · intro e
      simp only [Option.getD_some] at e
      subst e
      exact .inl ⟨x, h1, h2, h3, h4⟩
    · rintro (⟨y, g1, g2, g3, rfl⟩ | ⟨h5, _⟩)
      · simp only [Option.getD_some]
        rw [h4]; exact alias_unique h1 g1
      · exact absurd h3 (h5 x h1 h2)
  | none =>
    have hno : ∀ x, AliasOf R q x → x ≠ n → ¬ Permitted C n x := by
      intro x h1 h2 h3
      have := (key x).2 ⟨x, h1, h2, h3, rfl⟩
      rw [hf] at this
      cases this
    constructor
    · intro e
      simp only [Option.getD_none] at e
      exact .inr ⟨hno, e.symm⟩
    · rintro (⟨y, g1, g2, g3, _⟩ | ⟨_, h5⟩)
      · exact absurd g3 (hno y g1 g2)
      · exact h5.symm

theorem looks_iff (n : Bytes) : isAddrFast n = true ↔ LooksNumeric n := by
  simp only [isAddrFast, Bool.or_eq_true, List.contains_iff_mem, List.all_eq_true, LooksNumeric, decide_eq_true_eq, digit_iff,
    or_assoc]

/-- The suffixes -/
theorem suffixes_iff (C : Cfg) (R : Resolver) (host : Bytes) (hn : ¬ ∃ n, host = n ++ [46]) : ∀ (l pre : List Bytes),
    C.domains = pre ++ l → (∀ x ∈ pre, ¬ NoneWord x ∧ ¬ Exists R (host ++ [46] ++ x ++ [46])) →
    ((host.count 46 : Nat) : Int) ≤ C.maxDots →
    (∃ q n c, Full C R host q n ∧ resolveHost R q = some c ∧ suffixes C R host l = found C n c) ∨
    ((¬ ∃ q n, Full C R host q n) ∧ suffixes C R host l = notFound C) := by
  intro l
  induction l with
  | nil =>
    intro pre hd hp hc
    refine .inr ⟨?_, rfl⟩
    rintro ⟨q, n, h⟩
    cases h with
    | anchored h _ => exact hn ⟨_, h⟩
    | @suffix p d _ _ h1 h2 h3 =>
      obtain ⟨⟨post, h4⟩, _⟩ := h1
      have : d ∈ pre := by
        have : d ∈ C.domains := by rw [h4]; simp
        rw [hd] at this
        simpa using this
      exact (hp d this).2 h3
  | cons d l ih =>
    intro pre hd hp hc
    -- everything tried before does not exist
    have none_before : ∀ (p post : List Bytes) (x : Bytes), C.domains = p ++ x :: post →
        Exists R (host ++ [46] ++ x ++ [46]) → ∃ p', p = pre ++ p' := by
      intro p post x h1 h2
      rw [hd] at h1
      rcases List.append_eq_append_iff.1 h1 with ⟨a, ha, _⟩ | ⟨a, ha, hb⟩
      · exact ⟨a, ha⟩
      · cases a with
        | nil => exact ⟨[], by simpa using ha.symm⟩
        | cons y a =>
          simp at hb
          exact absurd h2 (hp x (by rw [ha, hb.1]; simp)).2
    rw [suffixes]
    by_cases hnone : NoneWord d
    · rw [if_pos ((same_none d).2 hnone)]
      refine .inr ⟨?_, rfl⟩
      rintro ⟨q, n, h⟩
      cases h with
      | anchored h _ => exact hn ⟨_, h⟩
      | suffix _ _ h1 h2 h3 =>
        obtain ⟨⟨post, h4⟩, h5, h6⟩ := h1
        obtain ⟨p', rfl⟩ := none_before _ _ _ h4 h3
        rw [hd, List.append_assoc] at h4
        have h7 := List.append_cancel_left h4
        cases p' with
        | nil => simp at h7; exact h6 (h7.1 ▸ hnone)
        | cons y p' =>
          simp at h7
          exact h5 y (by simp) (h7.1 ▸ hnone)
    · rw [if_neg (fun h => hnone ((same_none d).1 h))]
      cases hr : resolveHost R (host ++ [46] ++ d ++ [46]) with
      | some c =>
        refine .inl ⟨_, _, c, .suffix (pre := pre) hn hc ⟨⟨l, hd⟩, fun x hx => (hp x hx).1, hnone⟩ (fun x hx => (hp x hx).2)
          (resolveHost_some hr).1, hr, rfl⟩
      | none =>
        refine ih (pre ++ [d]) (by simp [hd]) ?_ hc
        intro x hx
        rcases List.mem_append.1 hx with hx | hx
        · exact hp x hx
        · rw [List.mem_singleton.1 hx]
          exact ⟨hnone, resolveHost_none.1 hr⟩

theorem full_unique {C : Cfg} {R : Resolver} {h q n q' n' : Bytes} (a : Full C R h q n) (b : Full C R h q' n') : q = q' ∧ n = n' := by
  cases a with
  | anchored h1 _ =>
    cases b with
    | anchored h2 _ => exact ⟨rfl, List.append_inj_left' (h1.symm.trans h2) rfl⟩
    | suffix g _ _ _ _ => exact absurd ⟨_, h1⟩ g
  | @suffix p d g1 _ t1 e1 x1 =>
    cases b with
    | anchored h2 _ => exact absurd ⟨_, h2⟩ g1
    | @suffix p' d' _ _ t2 e2 x2 =>
      obtain ⟨⟨post, h1⟩, _⟩ := t1
      obtain ⟨⟨post', h2⟩, _⟩ := t2
      have : d = d' := by
        rw [h1] at h2
        rcases List.append_eq_append_iff.1 h2 with ⟨a, ha, hb⟩ | ⟨a, ha, hb⟩
        · cases a with
          | nil => simp at hb; exact hb.1
          | cons y a =>
            simp at hb
            exact absurd x1 (e2 d (by rw [ha, hb.1]; simp))
        · cases a with
          | nil => simp at hb; exact hb.1.symm
          | cons y a =>
            simp at hb
            exact absurd x2 (e1 d' (by rw [ha, hb.1]; simp))
      subst this
      exact ⟨rfl, rfl⟩

/-- What `resolve_canonicalize` does. -/
theorem canonicalize_cases (C : Cfg) (R : Resolver) (h : Bytes) :
    (∃ a g, R.numeric h = some a ∧ (h.map toLower = a.map toLower ∧ g = h ∨ h.map toLower ≠ a.map toLower ∧ g = a) ∧
      canonicalize C R h = .found g) ∨
    (R.numeric h = none ∧ Skipped C h ∧ canonicalize C R h = .nothing) ∨
    (R.numeric h = none ∧ ¬ Skipped C h ∧ ∃ q n g, Full C R h q n ∧ Followed C R q n g ∧ canonicalize C R h = .found g) ∨
    (R.numeric h = none ∧ Missing C R h ∧ canonicalize C R h = notFound C) := by
  unfold canonicalize
  cases hnum : R.numeric h with
  | some a =>
    refine .inl ⟨a, _, rfl, ?_, rfl⟩
    by_cases hs : h.map toLower = a.map toLower
    · exact .inl ⟨hs, by rw [if_pos (by rw [same, decide_eq_true_iff]; exact hs)]⟩
    · exact .inr ⟨hs, by rw [if_neg (by rw [same, decide_eq_true_iff]; exact hs)]⟩
  | none =>
    right
    simp only [true_and, reduceCtorEq]
    by_cases h1 : LooksNumeric h
    · rw [if_pos ((looks_iff h).2 h1)]
      exact .inl ⟨.inl h1, rfl⟩
    rw [if_neg (fun e => h1 ((looks_iff h).1 e))]
    by_cases h2 : C.canon = .no
    · rw [if_pos h2]
      exact .inl ⟨.inr (.inl fun e => e.1 h2), rfl⟩
    rw [if_neg h2]
    by_cases h3 : C.direct = false ∧ C.canon ≠ .always
    · rw [if_pos h3]
      refine .inl ⟨.inr (.inl ?_), rfl⟩
      rintro ⟨_, e | e⟩
      · rw [h3.1] at e; cases e
      · exact h3.2 e
    rw [if_neg h3]
    have hA : Asked C := by
      refine ⟨h2, ?_⟩
      by_cases h6 : C.direct = true
      · exact .inl h6
      · exact .inr (Classical.byContradiction fun h7 => h3 ⟨by simpa using h6, h7⟩)
    have hcount : (h.filter fun c => decide (c = 46)).length = h.count 46 := by
      rw [List.count_eq_length_filter]
      rfl
    cases hl : h.getLast? with
    | none =>
      rw [List.getLast?_eq_none_iff] at hl
      exact absurd (.inr (.inr (by rw [hl]; simp))) h1
    | some c =>
      simp only
      obtain ⟨e, he⟩ := (last_iff _ _).1 hl
      by_cases hc : c = 46
      · rw [if_pos hc]
        rw [hc] at he
        have hns : ¬ Skipped C h := by
          rintro (x | x | x)
          · exact h1 x
          · exact x hA
          · exact x (.inl ⟨e, he⟩)
        cases hr : resolveHost R h with
        | some a =>
          refine .inr (.inl ⟨hns, h, e, _, .anchored he (resolveHost_some hr).1, (followed_iff hr).1 rfl, ?_⟩)
          simp only [found]
          rw [he, List.dropLast_concat]
        | none =>
          refine .inr (.inr ⟨⟨hns, ?_⟩, rfl⟩)
          rintro ⟨q, n, hf⟩
          cases hf with
          | anchored _ hx => exact resolveHost_none.1 hr hx
          | suffix hx _ _ _ _ => exact hx ⟨e, he⟩
      · rw [if_neg hc, hcount]
        have hne : ¬ ∃ n, h = n ++ [46] := by
          rintro ⟨n, hn⟩
          rw [hn] at he
          have := List.append_inj_right' he rfl
          simp at this
          exact hc this.symm
        by_cases hm : ((h.count 46 : Nat) : Int) > C.maxDots
        · rw [if_pos hm]
          refine .inl ⟨.inr (.inr ?_), rfl⟩
          rintro (x | x)
          · exact hne x
          · omega
        · rw [if_neg hm]
          have hns : ¬ Skipped C h := by
            rintro (x | x | x)
            · exact h1 x
            · exact x hA
            · exact x (.inr (by omega))
          rcases suffixes_iff C R h hne C.domains [] rfl (by simp) (by omega) with ⟨q, n, c, f1, f2, f3⟩ | ⟨f1, f2⟩
          · exact .inr (.inl ⟨hns, q, n, _, f1, (followed_iff f2).1 rfl, f3⟩)
          · exact .inr (.inr ⟨⟨hns, f1⟩, f2⟩)

theorem begin_iff (R : Resolver) (host h : Bytes) : Begin R host h ↔ h = start R host := by
  unfold Begin start isAddr
  rw [← looks_iff]
  cases isAddrFast host <;> cases R.single host <;> simp

theorem entered_iff (C : Cfg) (R : Resolver) (host : Bytes) : Entered C R host ↔ C.canon ≠ .no ∨ isAddr R host = true := by
  unfold Entered isAddr
  rw [← looks_iff, Bool.or_eq_true]

theorem plain_iff (C : Cfg) (R : Resolver) (h g : Bytes) (r : Bool) : plain C R h = .host g r ↔
    (Rules C ∧ (C.direct = true ∨ C.canon = .always) ∧ Exists R h ∧ Followed C R h h g ∧ r = true) ∨
    (Rules C ∧ C.direct = false ∧ C.canon = .always ∧ ¬ Exists R h ∧ g = h ∧ r = false) ∨
    ((¬ Rules C ∨ C.direct = false ∧ C.canon ≠ .always) ∧ g = h ∧ r = false) := by
  unfold plain
  by_cases hR : Rules C
  · by_cases hD : C.direct = true ∨ C.canon = .always
    · rw [if_pos ⟨(hasRules_iff C).2 hR, hD⟩]
      have hD' : ¬ (C.direct = false ∧ C.canon ≠ .always) := by
        rintro ⟨h1, h2⟩
        rcases hD with h3 | h3
        · rw [h1] at h3; cases h3
        · exact h2 h3
      cases hr : resolveHost R h with
      | some c =>
        have hE := (resolveHost_some hr).1
        have hF := followed_iff (C := C) (n := h) (h := g) hr
        simp only [Res.host.injEq, hR, hD, hE, hF, hD', true_and, not_true_eq_false, false_and, and_false, or_false, false_or]
        exact ⟨fun ⟨h1, h2⟩ => ⟨h1, h2.symm⟩, fun ⟨h1, h2⟩ => ⟨h1, h2.symm⟩⟩
      | none =>
        have hE := resolveHost_none.1 hr
        cases hd : C.direct with
        | true => simp [hR, hE]
        | false =>
          have hal : C.canon = .always := by
            rcases hD with h | h
            · rw [hd] at h; cases h
            · exact h
          simp only [Bool.false_eq_true, if_false, Res.host.injEq, hR, hE, hal, false_and, and_false, false_or, true_and,
            not_false_eq_true, not_true_eq_false, ne_eq, or_false]
          exact ⟨fun ⟨h1, h2⟩ => ⟨h1.symm, h2.symm⟩, fun ⟨h1, h2⟩ => ⟨h1.symm, h2.symm⟩⟩
    · rw [if_neg (fun h => hD h.2)]
      have h1 : C.direct = false ∧ C.canon ≠ .always := by
        refine ⟨?_, fun h => hD (.inr h)⟩
        cases hd : C.direct
        · rfl
        · exact absurd (.inl hd) hD
      simp only [Res.host.injEq]
      constructor
      · rintro ⟨e1, e2⟩
        exact .inr (.inr ⟨.inr h1, e1.symm, e2.symm⟩)
      · rintro (⟨_, x, _⟩ | ⟨_, _, x, _⟩ | ⟨_, e1, e2⟩)
        · exact absurd x hD
        · exact absurd x h1.2
        · exact ⟨e1.symm, e2.symm⟩
  · rw [if_neg (fun h => hR ((hasRules_iff C).1 h.1))]
    simp only [Res.host.injEq, hR, false_and, false_or, not_false_eq_true, true_or, true_and]
    exact ⟨fun ⟨h1, h2⟩ => ⟨h1.symm, h2.symm⟩, fun ⟨h1, h2⟩ => ⟨h1.symm, h2.symm⟩⟩

theorem plain_ub (C : Cfg) (R : Resolver) (h : Bytes) : plain C R h ≠ .ub := by
  unfold plain
  split
  · split
    · split <;> (intro h; cases h)
    · intro h; cases h
  · intro h; cases h

/-- C120: the name that is used is the one of the rules, in every case. -/
theorem C120_name (C : Cfg) (R : Resolver) (host g : Bytes) (r : Bool) : target C R host = .host g r ↔ Resolves C R host g r := by
  have hb : Begin R host (start R host) := (begin_iff R host _).2 rfl
  unfold target
  by_cases he : C.canon ≠ .no ∨ isAddr R host = true
  · have hE : Entered C R host := (entered_iff C R host).2 he
    rw [if_pos he]
    -- the last three cases, from an unresolved name
    have tail_ : R.numeric (start R host) = none → (Skipped C (start R host) ∨ Missing C R (start R host) ∧ C.fallback = true) →
        (plain C R (start R host) = .host g r ↔ Resolves C R host g r) := by
      intro hn hs
      rw [plain_iff]
      constructor
      · rintro (⟨h1, h2, h3, h4, rfl⟩ | ⟨h1, h2, h3, h4, rfl, rfl⟩ | ⟨h1, rfl, rfl⟩)
        · exact .rules hb (fun _ => hn) (fun _ => hs) h1 h2 h3 h4
        · exact .proxied hb (fun _ => hn) (fun _ => hs) h1 h2 h3 h4
        · exact .plain hb (fun _ => hn) (fun _ => hs) h1
      · intro h
        cases h with
        | address b _ h1 _ =>
          rw [(begin_iff _ _ _).1 b, hn] at h1; cases h1
        | full b _ _ h1 h2 _ =>
          rw [(begin_iff _ _ _).1 b] at h1 h2
          rcases hs with hs | ⟨hs, _⟩
          · exact absurd hs h1
          · exact absurd ⟨_, _, h2⟩ hs.2
        | rules b _ _ h1 h2 h3 h4 =>
          rw [(begin_iff _ _ _).1 b] at h3 h4
          exact .inl ⟨h1, h2, h3, h4, rfl⟩
        | proxied b _ _ h1 h2 h3 h4 =>
          rw [(begin_iff _ _ _).1 b] at h4
          exact .inr (.inl ⟨h1, h2, h3, h4, (begin_iff _ _ _).1 b, rfl⟩)
        | plain b _ _ h1 => exact .inr (.inr ⟨h1, (begin_iff _ _ _).1 b, rfl⟩)
    rcases canonicalize_cases C R (start R host) with ⟨a, x, h1, h2, h3⟩ | ⟨h1, h2, h3⟩ | ⟨h1, h2, q, n, x, h3, h4, h5⟩ | ⟨h1, h2, h3⟩
    · rw [h3]
      simp only [Res.host.injEq]
      constructor
      · rintro ⟨rfl, rfl⟩
        exact .address hb hE h1 h2
      · intro h
        cases h with
        | address b _ g1 g2 =>
          rw [(begin_iff _ _ _).1 b] at g1 g2
          rw [h1] at g1
          cases g1
          refine ⟨?_, rfl⟩
          rcases h2 with ⟨e1, rfl⟩ | ⟨e1, rfl⟩ <;> rcases g2 with ⟨e2, rfl⟩ | ⟨e2, rfl⟩
          · rfl
          · exact absurd e1 e2
          · exact absurd e2 e1
          · rfl
        | full b _ g1 _ _ _ => rw [(begin_iff _ _ _).1 b, h1] at g1; cases g1
        | rules b g1 _ _ _ _ _ => have := g1 hE; rw [(begin_iff _ _ _).1 b, h1] at this; cases this
        | proxied b g1 _ _ _ _ _ => have := g1 hE; rw [(begin_iff _ _ _).1 b, h1] at this; cases this
        | plain b g1 _ _ => have := g1 hE; rw [(begin_iff _ _ _).1 b, h1] at this; cases this
    · rw [h3]
      exact tail_ h1 (.inl h2)
    · rw [h5]
      simp only [Res.host.injEq]
      constructor
      · rintro ⟨rfl, rfl⟩
        exact .full hb hE h1 h2 h3 h4
      · intro h
        cases h with
        | address b _ g1 _ => rw [(begin_iff _ _ _).1 b, h1] at g1; cases g1
        | full b _ _ _ f1 f2 =>
          rw [(begin_iff _ _ _).1 b] at f1
          obtain ⟨rfl, rfl⟩ := full_unique f1 h3
          refine ⟨?_, rfl⟩
          rcases h4 with ⟨c, a1, a2, a3, rfl⟩ | ⟨a1, rfl⟩ <;> rcases f2 with ⟨c', b1, b2, b3, rfl⟩ | ⟨b1, rfl⟩
          · exact alias_unique a1 b1
          · exact absurd a3 (b1 _ a1 a2)
          · exact absurd b3 (a1 _ b1 b2)
          · rfl
        | rules b _ g2 _ _ _ _ =>
          have g3 := g2 hE
          rw [(begin_iff _ _ _).1 b] at g3
          rcases g3 with g3 | ⟨g3, _⟩
          · exact absurd g3 h2
          · exact absurd ⟨_, _, h3⟩ g3.2
        | proxied b _ g2 _ _ _ _ =>
          have g3 := g2 hE
          rw [(begin_iff _ _ _).1 b] at g3
          rcases g3 with g3 | ⟨g3, _⟩
          · exact absurd g3 h2
          · exact absurd ⟨_, _, h3⟩ g3.2
        | plain b _ g2 _ =>
          have g3 := g2 hE
          rw [(begin_iff _ _ _).1 b] at g3
          rcases g3 with g3 | ⟨g3, _⟩
          · exact absurd g3 h2
          · exact absurd ⟨_, _, h3⟩ g3.2
    · rw [h3]
      cases hf : C.fallback with
      | true =>
        simp only [notFound, hf, if_true]
        exact tail_ h1 (.inr ⟨h2, hf⟩)
      | false =>
        simp only [notFound, hf, Bool.false_eq_true, if_false, reduceCtorEq, false_iff]
        intro h
        cases h with
        | address b _ g1 _ => rw [(begin_iff _ _ _).1 b, h1] at g1; cases g1
        | full b _ _ _ f1 f2 =>
          rw [(begin_iff _ _ _).1 b] at f1
          exact h2.2 ⟨_, _, f1⟩
        | rules b _ g2 _ _ _ _ =>
          have g3 := g2 hE
          rw [(begin_iff _ _ _).1 b] at g3
          rcases g3 with g3 | ⟨_, g3⟩
          · exact h2.1 g3
          · rw [hf] at g3; cases g3
        | proxied b _ g2 _ _ _ _ =>
          have g3 := g2 hE
          rw [(begin_iff _ _ _).1 b] at g3
          rcases g3 with g3 | ⟨_, g3⟩
          · exact h2.1 g3
          · rw [hf] at g3; cases g3
        | plain b _ g2 _ =>
          have g3 := g2 hE
          rw [(begin_iff _ _ _).1 b] at g3
          rcases g3 with g3 | ⟨_, g3⟩
          · exact h2.1 g3
          · rw [hf] at g3; cases g3
  · have hE : ¬ Entered C R host := fun h => he ((entered_iff C R host).1 h)
    rw [if_neg he, plain_iff]
    constructor
    · rintro (⟨h1, h2, h3, h4, rfl⟩ | ⟨h1, h2, h3, h4, rfl, rfl⟩ | ⟨h1, rfl, rfl⟩)
      · exact .rules hb (fun h => absurd h hE) (fun h => absurd h hE) h1 h2 h3 h4
      · exact .proxied hb (fun h => absurd h hE) (fun h => absurd h hE) h1 h2 h3 h4
      · exact .plain hb (fun h => absurd h hE) (fun h => absurd h hE) h1
    · intro h
      cases h with
      | address _ x _ _ => exact absurd x hE
      | full _ x _ _ _ _ => exact absurd x hE
      | rules b _ _ h1 h2 h3 h4 =>
        rw [(begin_iff _ _ _).1 b] at h3 h4
        exact .inl ⟨h1, h2, h3, h4, rfl⟩
      | proxied b _ _ h1 h2 h3 h4 =>
        rw [(begin_iff _ _ _).1 b] at h4
        exact .inr (.inl ⟨h1, h2, h3, h4, (begin_iff _ _ _).1 b, rfl⟩)
      | plain b _ _ h1 => exact .inr (.inr ⟨h1, (begin_iff _ _ _).1 b, rfl⟩)

/-- C120: no character before the start of the name is looked at, not even of an empty one. -/
theorem C120_safe (C : Cfg) (R : Resolver) (host : Bytes) : target C R host ≠ .ub := by
  unfold target
  split
  · rcases canonicalize_cases C R (start R host) with ⟨a, x, _, _, h3⟩ | ⟨_, _, h3⟩ | ⟨_, _, q, n, x, _, _, h3⟩ | ⟨_, _, h3⟩
    · rw [h3]; intro h; cases h
    · rw [h3]; exact plain_ub _ _ _
    · rw [h3]; intro h; cases h
    · rw [h3]
      cases hf : C.fallback with
      | true => simp only [notFound, hf, if_true]; exact plain_ub _ _ _
      | false => simp only [notFound, hf, Bool.false_eq_true, if_false]; intro h; cases h
  · exact plain_ub _ _ _

/-- C120: what names are possible at all: the name given, its usual form as an address, without its last dot, with one of the
configured domains, or an alias that a rule permits for one of these. -/
theorem C120_possible {C : Cfg} {R : Resolver} {host g : Bytes} {r : Bool} (h : target C R host = .host g r) :
    ∃ b, Begin R host b ∧ (g = b ∨ R.numeric b = some g ∨
      ∃ n, (n = b ∨ b = n ++ [46] ∨ ∃ d ∈ C.domains, n = b ++ [46] ++ d) ∧ (g = n ∨ Permitted C n g ∧ Domain g)) := by
  have hsub : ∀ {q c : Bytes}, AliasOf R q c → Domain c := by
    rintro q c ⟨a, _, ha, hu, _⟩
    rcases hu with rfl | ⟨rfl, _⟩
    · obtain ⟨⟨x, l, e, hx⟩, h2, h3⟩ := ha
      refine ⟨?_, fun y hy => h2 y (by simp [hy]), fun ⟨a, b, e⟩ => h3 ⟨a, b ++ [46], by rw [e]; simp⟩⟩
      cases c with
      | nil => simp at e; rw [← e.1] at hx; revert hx; simp [Letter, Digit]
      | cons y c => simp at e; exact ⟨y, c, rfl, by rw [e.1]; exact hx⟩
    · exact ha
  have hfol : ∀ {q n : Bytes}, Followed C R q n g → g = n ∨ Permitted C n g ∧ Domain g := by
    rintro q n (⟨c, h1, _, h3, rfl⟩ | ⟨_, rfl⟩)
    · exact .inr ⟨h3, hsub h1⟩
    · exact .inl rfl
  cases (C120_name C R host g r).1 h with
  | @address x a _ b _ h1 h2 =>
    refine ⟨x, b, ?_⟩
    rcases h2 with ⟨_, rfl⟩ | ⟨_, rfl⟩
    · exact .inl rfl
    · exact .inr (.inl h1)
  | @full x q n _ b _ _ _ h1 h2 =>
    refine ⟨x, b, .inr (.inr ⟨n, ?_, hfol h2⟩)⟩
    cases h1 with
    | anchored e _ => exact .inr (.inl e)
    | @suffix pre d _ _ t _ _ =>
      obtain ⟨⟨post, e⟩, _⟩ := t
      exact .inr (.inr ⟨d, by rw [e]; simp, rfl⟩)
  | rules b _ _ _ _ _ h1 => exact ⟨_, b, .inr (.inr ⟨_, .inl rfl, hfol h1⟩)⟩
  | proxied b _ _ _ _ _ _ => exact ⟨_, b, .inl rfl⟩
  | plain b _ _ _ => exact ⟨_, b, .inl rfl⟩

/-- C120: without `CanonicalizeHostname` a name is only put into lower case. -/
theorem C120_off {C : Cfg} {R : Resolver} {host g : Bytes} {r : Bool} (hc : C.canon = .no)
    (hn : ¬ LooksNumeric host) (hs : R.single host = false) (h : target C R host = .host g r) : g = host.map toLower := by
  have hb : ∀ {x}, Begin R host x → x = host.map toLower := by
    rintro x (⟨h1, _⟩ | ⟨_, _, h1⟩)
    · rcases h1 with h1 | h1
      · exact absurd h1 hn
      · rw [hs] at h1; cases h1
    · exact h1
  have hE : ¬ Entered C R host := by
    rintro (h1 | h1 | h1)
    · exact h1 hc
    · exact hn h1
    · rw [hs] at h1; cases h1
  cases (C120_name C R host g r).1 h with
  | address _ x _ _ => exact absurd x hE
  | full _ x _ _ _ _ => exact absurd x hE
  | rules b _ _ _ _ _ h1 =>
    rcases h1 with ⟨c, _, _, h3, _⟩ | ⟨_, rfl⟩
    · exact absurd hc h3.1.1
    · exact hb b
  | proxied b _ _ _ _ _ _ => exact hb b
  | plain b _ _ _ => exact hb b

/-- C120: with a proxy or jump host, and without `always`, names are looked up by it and not here. -/
theorem C120_proxied {C : Cfg} {R : Resolver} {host : Bytes} (hd : C.direct = false) (hc : C.canon ≠ .always)
    (hn : ¬ LooksNumeric host) (hs : R.single host = false) (hnum : R.numeric (host.map toLower) = none) :
    target C R host = .host (host.map toLower) false := by
  refine (C120_name C R host _ _).2 (.plain (.inr ⟨hn, hs, rfl⟩) (fun _ => hnum) (fun _ => .inl (.inr (.inl ?_))) (.inr ⟨hd, hc⟩))
  rintro ⟨_, h | h⟩
  · rw [hd] at h; cases h
  · exact hc h

/-- C120: with `CanonicalizeFallbackLocal no` a name that is not found in the domains is not looked up otherwise. -/
theorem C120_no_fallback {C : Cfg} {R : Resolver} {host b : Bytes} (hf : C.fallback = false) (he : Entered C R host)
    (hb : Begin R host b) (hnum : R.numeric b = none) (hm : Missing C R b) : target C R host = .exit := by
  cases ht : target C R host with
  | ub => exact absurd ht (C120_safe C R host)
  | exit => rfl
  | host g r =>
    exfalso
    have e := (begin_iff _ _ _).1 hb
    subst e
    cases (C120_name C R host g r).1 ht with
    | address b _ g1 _ => rw [(begin_iff _ _ _).1 b, hnum] at g1; cases g1
    | full b _ _ _ f1 f2 =>
      rw [(begin_iff _ _ _).1 b] at f1
      exact hm.2 ⟨_, _, f1⟩
    | rules b _ g2 _ _ _ _ =>
      have g3 := g2 he
      rw [(begin_iff _ _ _).1 b] at g3
      rcases g3 with g3 | ⟨_, g3⟩
      · exact hm.1 g3
      · rw [hf] at g3; cases g3
    | proxied b _ g2 _ _ _ _ =>
      have g3 := g2 he
      rw [(begin_iff _ _ _).1 b] at g3
      rcases g3 with g3 | ⟨_, g3⟩
      · exact hm.1 g3
      · rw [hf] at g3; cases g3
    | plain b _ g2 _ =>
      have g3 := g2 he
      rw [(begin_iff _ _ _).1 b] at g3
      rcases g3 with g3 | ⟨_, g3⟩
      · exact hm.1 g3
      · rw [hf] at g3; cases g3

end Verif.Target
