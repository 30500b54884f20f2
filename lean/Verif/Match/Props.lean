/- Properties C05 to C08. -/
import Verif.Match.Spec

namespace Verif.Match
open Verif Text

/-! ### C05 -/

theorem scan_iff (f : Bytes → Bool) (s : Bytes) :
    scan f s = true ↔ ∃ u x t, s = u ++ x :: t ∧ f (x :: t) = true := by
  induction s with
  | nil => simp [scan]
  | cons x xs ih =>
    simp only [scan, Bool.or_eq_true, ih]
    constructor
    · rintro (h | ⟨u, y, t, h, hf⟩)
      · exact ⟨[], x, xs, rfl, h⟩
      · exact ⟨x :: u, y, t, by rw [h]; rfl, hf⟩
    · rintro ⟨u, y, t, h, hf⟩
      cases u with
      | nil => simp at h; left; rw [h.1, h.2]; exact hf
      | cons z u => simp at h; right; exact ⟨u, y, t, h.2, hf⟩

theorem glob_star {p s : Bytes} : Glob (STAR :: p) s ↔ ∃ u t, s = u ++ t ∧ Glob p t := by
  constructor
  · intro h
    generalize hq : STAR :: p = q at h
    cases h with
    | nil => cases hq
    | star u h => cases hq; exact ⟨u, _, rfl, h⟩
    | any x h => cases hq
    | lit c h1 h2 h => injection hq with hq; exact absurd hq.symm h1
  · rintro ⟨u, t, rfl, h⟩; exact .star u h

theorem glob_any {p s : Bytes} : Glob (QUEST :: p) s ↔ ∃ x t, s = x :: t ∧ Glob p t := by
  constructor
  · intro h
    generalize hq : QUEST :: p = q at h
    cases h with
    | nil => cases hq
    | star u h => cases hq
    | any x h => cases hq; exact ⟨x, _, rfl, h⟩
    | lit c h1 h2 h => injection hq with hq; exact absurd hq.symm h2
  · rintro ⟨x, t, rfl, h⟩; exact .any x h

theorem glob_lit {c : UInt8} {p s : Bytes} (h1 : c ≠ STAR) (h2 : c ≠ QUEST) :
    Glob (c :: p) s ↔ ∃ t, s = c :: t ∧ Glob p t := by
  constructor
  · intro h
    cases h with
    | star u h => exact absurd rfl h1
    | any x h => exact absurd rfl h2
    | lit _ _ _ h => exact ⟨_, rfl, h⟩
  · rintro ⟨t, rfl, h⟩; exact .lit c h1 h2 h

theorem matchGo_iff (p : Bytes) :
    (∀ s, matchGo p false s = true ↔ Glob p s) ∧
    (∀ s, matchGo p true s = true ↔ ∃ u t, s = u ++ t ∧ Glob p t) := by
  induction p with
  | nil =>
    constructor
    · intro s
      simp only [matchGo, Bool.false_eq_true, if_false, List.isEmpty_iff]
      constructor
      · rintro rfl; exact .nil
      · intro h; cases h; rfl
    · intro s
      simp only [matchGo, if_true, true_iff]
      exact ⟨s, [], by simp, .nil⟩
  | cons c p ih =>
    obtain ⟨ih1, ih2⟩ := ih
    by_cases hs : c = STAR
    · subst hs
      constructor
      · intro s
        rw [matchGo.eq_def]
        simp only [if_true]
        rw [ih2, glob_star]
      · intro s
        rw [matchGo.eq_def]
        simp only [if_true]
        rw [ih2]
        constructor
        · rintro ⟨u, t, h, hg⟩
          exact ⟨[], s, rfl, glob_star.2 ⟨u, t, h, hg⟩⟩
        · rintro ⟨u, t, h, hg⟩
          obtain ⟨u', t', h', hg'⟩ := glob_star.1 hg
          exact ⟨u ++ u', t', by rw [h, h', List.append_assoc], hg'⟩
    · by_cases hq : c = QUEST
      · subst hq
        constructor
        · intro s
          rw [matchGo.eq_def, glob_any]
          simp only [if_neg hs]
          cases s with
          | nil => simp
          | cons x t =>
            simp only [ne_eq, not_true_eq_false, false_and, if_false, ih1]
            constructor
            · intro h; exact ⟨x, t, rfl, h⟩
            · rintro ⟨_, _, h, hg⟩; cases h; exact hg
        · intro s
          rw [matchGo.eq_def]
          simp only [if_neg hs, ne_eq, not_true_eq_false, if_false, scan_iff, ih1]
          constructor
          · rintro ⟨u, x, t, h, hg⟩
            exact ⟨u, x :: t, h, .any x hg⟩
          · rintro ⟨u, t, h, hg⟩
            obtain ⟨x, t', rfl, hg'⟩ := glob_any.1 hg
            exact ⟨u, x, t', h, hg'⟩
      · constructor
        · intro s
          rw [matchGo.eq_def, glob_lit hs hq]
          simp only [if_neg hs]
          cases s with
          | nil => simp
          | cons x t =>
            by_cases hx : c = x
            · subst hx
              simp [ih1]
            · simp [hq, hx, Ne.symm hx]
        · intro s
          rw [matchGo.eq_def]
          simp only [if_neg hs, ne_eq, hq, not_false_eq_true, if_true, scan_iff, Bool.and_eq_true,
            decide_eq_true_eq, ih1]
          constructor
          · rintro ⟨u, x, t, h, rfl, hg⟩
            exact ⟨u, x :: t, h, .lit x hs hq hg⟩
          · rintro ⟨u, t, h, hg⟩
            obtain ⟨t', rfl, hg'⟩ := (glob_lit hs hq).1 hg
            exact ⟨u, c, t', h, rfl, hg'⟩

/-- **C05**: `match_pattern` decides exactly the documented wildcard semantics, for all strings and
patterns. -/
theorem C05_match_pattern (s pattern : Bytes) : matchPattern s pattern = true ↔ Glob pattern s :=
  (matchGo_iff pattern).1 s

/-- Non-vacuity. -/
example : matchPattern b!"host.example.com" b!"h?st.*.com" = true := by decide
example : matchPattern b!"host.example.org" b!"h?st.*.com" = false := by decide
example : Glob b!"*a?" b!"xab" := .star b!"x" (.lit 97 (by decide) (by decide) (.any 98 .nil))

/-! ### C06 -/

theorem entries_nil : entries [] = [] := rfl

theorem entries_strsep {p : Bytes} (hp : p ≠ []) :
    entries p = (strsep COMMA p).1 :: (match (strsep COMMA p).2 with | none => [] | some r => entries r) := by
  unfold entries
  rw [split_strsep]
  rcases h : (strsep COMMA p).2 with _ | r
  · have := strsep_last h
    simp [this, hp]
  · have hne := split_ne_nil COMMA r
    cases hs : split COMMA r with
    | nil => exact absurd hs hne
    | cons a t =>
      simp only [hs]
      rw [List.getLast?_cons_cons]
      split <;> simp

theorem entries_comma (r : Bytes) : entries (COMMA :: r) = [] :: entries r := by
  rw [entries_strsep (by simp), strsep_cons]; simp

/-- The unread text when a subpattern has been copied. -/
def afterSep : Option Bytes → Bytes
  | none => []
  | some r => COMMA :: r

theorem takeSub_eq (dl : Bool) (n : Nat) (p : Bytes) :
    if (strsep COMMA p).1.length < n then
      takeSub dl n p = ((strsep COMMA p).1.map (fun c => if dl then toLower c else c),
        afterSep (strsep COMMA p).2)
    else (takeSub dl n p).1.length = n := by
  induction n generalizing p with
  | zero => simp [takeSub]
  | succ n ih =>
    cases p with
    | nil => simp [takeSub, strsep_nil, afterSep]
    | cons c p =>
      rw [strsep_cons]
      by_cases hc : c = COMMA
      · simp [takeSub, hc, afterSep]
      · have := ih p
        simp only [hc, if_false, takeSub, List.length_cons, Nat.add_lt_add_iff_right]
        split at this
        · rename_i hl
          rw [if_pos hl, this]; simp
        · rename_i hl
          rw [if_neg hl]; omega

theorem map_low (dl : Bool) (l : Bytes) :
    l.map (fun c => if dl then toLower c else c) = if dl then l.map toLower else l := by
  cases dl <;> simp

/-- The list loop satisfies the specification of pattern lists. -/
theorem listGo_spec (s : Bytes) (dl : Bool) (fuel : Nat) (p : Bytes) (hf : p.length ≤ fuel) (gp : Bool) :
    (listGo s dl fuel p gp = -1 ∧
      ∃ pre e post, entries p = pre ++ e :: post ∧ (∀ x ∈ pre, short x) ∧ short e ∧ isNeg e ∧ hits s dl e) ∨
    (listGo s dl fuel p gp = 0 ∧
      (∃ pre e post, entries p = pre ++ e :: post ∧ (∀ x ∈ pre, short x ∧ ¬ (isNeg x ∧ hits s dl x)) ∧ ¬ short e)) ∨
    (listGo s dl fuel p gp = 1 ∧ (∀ e ∈ entries p, short e ∧ ¬ (isNeg e ∧ hits s dl e)) ∧
      (gp = true ∨ ∃ e ∈ entries p, ¬ isNeg e ∧ hits s dl e)) ∨
    (listGo s dl fuel p gp = 0 ∧ (∀ e ∈ entries p, short e ∧ ¬ (isNeg e ∧ hits s dl e)) ∧
      gp = false ∧ ∀ e ∈ entries p, ¬ hits s dl e) := by
  induction fuel generalizing p gp with
  | zero =>
    have : p = [] := by simpa using hf
    subst this
    cases gp <;> simp [listGo, entries_nil]
  | succ fuel ih =>
    cases p with
    | nil => cases gp <;> simp [listGo, entries_nil]
    | cons c p =>
      have hes := entries_strsep (p := c :: p) (by simp)
      generalize hse : strsep COMMA (c :: p) = se at hes
      obtain ⟨e, rest⟩ := se
      simp only at hes
      -- the text after the optional `!`
      have hbody : strsep COMMA (if c = BANG then p else c :: p) = (body e, rest) := by
        by_cases hb : c = BANG
        · subst hb
          rw [strsep_cons, if_neg (by decide)] at hse
          injection hse with h1 h2
          subst h1; subst h2
          simp [body]
        · rw [if_neg hb, hse]
          have : e.head? ≠ some BANG := by
            rw [strsep_cons] at hse
            split at hse
            · injection hse with h1 h2; subst h1; simp
            · injection hse with h1 h2; subst h1; simpa using hb
          simp [body, this]
      have hneg : isNeg e ↔ c = BANG := by
        rw [strsep_cons] at hse
        unfold isNeg
        split at hse
        · rename_i hc; injection hse with h1 h2; subst h1; subst hc; simp
        · injection hse with h1 h2; subst h1; simp
      have hts := takeSub_eq dl SUB_MAX (if c = BANG then p else c :: p)
      rw [hbody] at hts
      simp only at hts
      rw [listGo]
      by_cases hl : (body e).length < SUB_MAX
      · rw [if_pos hl] at hts
        rw [map_low] at hts
        have hrest : ∀ r, rest = some r → r.length ≤ fuel := by
          intro r hr
          have h1 : (strsep COMMA (c :: p)).2 = some r := by rw [hse]; exact hr
          have := strsep_length h1
          simp at this hf; omega
        simp only [hts]
        have hlen2 : ¬ (if dl = true then List.map toLower (body e) else body e).length ≥ SUB_MAX := by
          cases dl <;> simp <;> omega
        rw [if_neg hlen2]
        -- the remaining pattern
        generalize hrr : skipComma (afterSep rest) = p'
        have hp' : entries (c :: p) = e :: entries p' ∧ p'.length ≤ fuel := by
          rw [hes]
          cases rest with
          | none => simp [skipComma, afterSep] at hrr; subst hrr; simp [entries_nil]
          | some r => simp [skipComma, afterSep] at hrr; subst hrr; simp [hrest r rfl]
        obtain ⟨hpe, hpl⟩ := hp'
        rw [hpe]
        have hshort : short e := hl
        by_cases hm : matchPattern s (if dl = true then List.map toLower (body e) else body e) = true
        · have hhit : hits s dl e := (C05_match_pattern _ _).1 hm
          simp only [hm, if_true]
          by_cases hb : c = BANG
          · simp only [hb, if_true]
            left
            exact ⟨trivial, [], e, entries p', rfl, by simp, hshort, hneg.2 hb, hhit⟩
          · simp only [hb, if_false]
            have hnn : ¬ isNeg e := fun h => hb (hneg.1 h)
            rcases ih p' hpl true with ⟨h1, pre, x, post, h2, h3, h4⟩ | ⟨h1, pre, x, post, h2, h3, h4⟩ |
              ⟨h1, h2, h3⟩ | ⟨h1, h2, h3, h4⟩
            · left
              refine ⟨h1, e :: pre, x, post, by rw [h2]; rfl, ?_, h4⟩
              intro y hy; rcases List.mem_cons.1 hy with rfl | hy
              · exact hshort
              · exact h3 y hy
            · right; left
              refine ⟨h1, e :: pre, x, post, by rw [h2]; rfl, ?_, h4⟩
              intro y hy; rcases List.mem_cons.1 hy with rfl | hy
              · exact ⟨hshort, fun h => hnn h.1⟩
              · exact h3 y hy
            · right; right; left
              refine ⟨h1, ?_, .inr ⟨e, by simp, hnn, hhit⟩⟩
              intro y hy; rcases List.mem_cons.1 hy with rfl | hy
              · exact ⟨hshort, fun h => hnn h.1⟩
              · exact h2 y hy
            · cases h3
        · have hhit : ¬ hits s dl e := fun h => hm ((C05_match_pattern _ _).2 h)
          simp only [hm, Bool.false_eq_true, if_false]
          rcases ih p' hpl gp with ⟨h1, pre, x, post, h2, h3, h4⟩ | ⟨h1, pre, x, post, h2, h3, h4⟩ |
            ⟨h1, h2, h3⟩ | ⟨h1, h2, h3, h4⟩
          · left
            refine ⟨h1, e :: pre, x, post, by rw [h2]; rfl, ?_, h4⟩
            intro y hy; rcases List.mem_cons.1 hy with rfl | hy
            · exact hshort
            · exact h3 y hy
          · right; left
            refine ⟨h1, e :: pre, x, post, by rw [h2]; rfl, ?_, h4⟩
            intro y hy; rcases List.mem_cons.1 hy with rfl | hy
            · exact ⟨hshort, fun h => hhit h.2⟩
            · exact h3 y hy
          · right; right; left
            refine ⟨h1, ?_, ?_⟩
            · intro y hy; rcases List.mem_cons.1 hy with rfl | hy
              · exact ⟨hshort, fun h => hhit h.2⟩
              · exact h2 y hy
            · rcases h3 with h3 | ⟨x, hx, h3⟩
              · exact .inl h3
              · exact .inr ⟨x, by simp [hx], h3⟩
          · right; right; right
            refine ⟨h1, ?_, h3, ?_⟩
            · intro y hy; rcases List.mem_cons.1 hy with rfl | hy
              · exact ⟨hshort, fun h => hhit h.2⟩
              · exact h2 y hy
            · intro y hy; rcases List.mem_cons.1 hy with rfl | hy
              · exact hhit
              · exact h4 y hy
      · rw [if_neg hl] at hts
        have hge : (takeSub dl SUB_MAX (if c = BANG then p else c :: p)).1.length ≥ SUB_MAX := by omega
        simp only [if_pos hge]
        right; left
        refine ⟨trivial, [], e, _, by rw [hes]; rfl, by simp, hl⟩

/-- **C06**: the result is "negative" exactly when some negated entry matches and no entry up to it is
over-long. -/
theorem C06_negative_iff (s p : Bytes) (dl : Bool) :
    matchPatternList s p dl = -1 ↔
      ∃ pre e post, entries p = pre ++ e :: post ∧ (∀ x ∈ pre, short x) ∧ short e ∧ isNeg e ∧ hits s dl e := by
  constructor
  · intro h
    rcases listGo_spec s dl p.length p (Nat.le_refl _) false with ⟨_, h1⟩ | ⟨h1, _⟩ | ⟨h1, _⟩ | ⟨h1, _⟩
    · exact h1
    all_goals (unfold matchPatternList at h; omega)
  · rintro ⟨pre, e, post, he, hpre, hs, hn, hh⟩
    have hin : e ∈ entries p := by rw [he]; simp
    rcases listGo_spec s dl p.length p (Nat.le_refl _) false with ⟨h1, _⟩ | ⟨h1, pre', e', post', he', hp', hs'⟩ |
      ⟨h1, h2, _⟩ | ⟨h1, h2, _⟩
    · exact h1
    · exfalso
      rw [he] at he'
      rcases List.append_eq_append_iff.1 he' with ⟨a, ha, hb⟩ | ⟨a, ha, hb⟩
      · cases a with
        | nil => simp at hb; exact hs' (hb.1 ▸ hs)
        | cons y a =>
          simp at hb
          have : e ∈ pre' := by rw [ha, ← hb.1]; simp
          exact (hp' e this).2 ⟨hn, hh⟩
      · cases a with
        | nil => simp at hb; exact hs' (hb.1 ▸ hs)
        | cons y a =>
          simp at hb
          have : e' ∈ pre := by rw [ha, hb.1]; simp
          exact hs' (hpre _ this)
    · exact absurd ⟨hn, hh⟩ (h2 e hin).2
    · exact absurd ⟨hn, hh⟩ (h2 e hin).2

/-- **C06**: the result is "positive" exactly when no entry is over-long, no negated entry matches, and
some plain entry matches. -/
theorem C06_positive_iff (s p : Bytes) (dl : Bool) :
    matchPatternList s p dl = 1 ↔
      (∀ e ∈ entries p, short e ∧ ¬ (isNeg e ∧ hits s dl e)) ∧ ∃ e ∈ entries p, ¬ isNeg e ∧ hits s dl e := by
  unfold matchPatternList
  rcases listGo_spec s dl p.length p (Nat.le_refl _) false with ⟨h1, pre, e, post, he, _, _, hn, hh⟩ |
    ⟨h1, pre', e', post', he', hp', hs'⟩ | ⟨h1, h2, h3⟩ | ⟨h1, h2, h3, h4⟩
  · rw [h1]
    refine ⟨fun h => by omega, fun ⟨h, _⟩ => ?_⟩
    exact absurd ⟨hn, hh⟩ (h e (by rw [he]; simp)).2
  · rw [h1]
    refine ⟨fun h => by omega, fun ⟨h, _⟩ => ?_⟩
    exact absurd (h e' (by rw [he']; simp)).1 hs'
  · rw [h1]
    refine ⟨fun _ => ⟨h2, ?_⟩, fun _ => rfl⟩
    rcases h3 with h3 | h3
    · cases h3
    · exact h3
  · rw [h1]
    refine ⟨fun h => by omega, fun ⟨_, e, he, _, hh⟩ => ?_⟩
    exact absurd hh (h4 e he)

/-- **C06**: there are no other results. -/
theorem C06_results (s p : Bytes) (dl : Bool) :
    matchPatternList s p dl = -1 ∨ matchPatternList s p dl = 0 ∨ matchPatternList s p dl = 1 := by
  unfold matchPatternList
  rcases listGo_spec s dl p.length p (Nat.le_refl _) false with ⟨h, _⟩ | ⟨h, _⟩ | ⟨h, _⟩ | ⟨h, _⟩ <;> simp [h]

/-- **C06**: a list containing a matching negated entry never reports a positive match. -/
theorem C06_negation_wins (s p : Bytes) (dl : Bool) (e : Bytes) (he : e ∈ entries p) (hn : isNeg e)
    (hh : hits s dl e) : matchPatternList s p dl ≠ 1 :=
  fun h => (((C06_positive_iff s p dl).1 h).1 e he).2 ⟨hn, hh⟩

/-- **C06**: a list with negated entries only never reports a positive match. -/
theorem C06_all_negative (s p : Bytes) (dl : Bool) (h : ∀ e ∈ entries p, isNeg e) :
    matchPatternList s p dl ≠ 1 := by
  intro hp
  obtain ⟨e, he, hn, _⟩ := ((C06_positive_iff s p dl).1 hp).2
  exact hn (h e he)

/-- **C06** for host names: case of host and pattern is ignored. -/
theorem C06_hostname (host p : Bytes) :
    (matchHostname host p = 1 ↔
      (∀ e ∈ entries p, short e ∧ ¬ (isNeg e ∧ Glob ((body e).map toLower) (host.map toLower))) ∧
      ∃ e ∈ entries p, ¬ isNeg e ∧ Glob ((body e).map toLower) (host.map toLower)) := by
  have := C06_positive_iff (host.map toLower) p true
  simpa [matchHostname, hits] using this

/-- Non-vacuity: negation wins wherever it stands; all-negative lists do not match. -/
example : matchPatternList b!"evil.example" b!"*.example,!evil.*" false = -1 := by decide
example : matchPatternList b!"good.example" b!"!evil.*,*.example" false = 1 := by decide
example : matchPatternList b!"good.example" b!"!evil.*" false = 0 := by decide
example : entries b!"*.a,!b" = [b!"*.a", b!"!b"] := by decide
example : matchHostname b!"HOST" b!"h*" = 1 := by decide

/-! ### C07 -/

theorem names_strsep (s : Bytes) :
    names s = if (strsep COMMA s).1 = [] then [] else
      (strsep COMMA s).1 :: (match (strsep COMMA s).2 with | none => [] | some r => names r) := by
  unfold names
  rw [split_strsep]
  by_cases h : (strsep COMMA s).1 = []
  · simp [h]
  · rw [List.takeWhile_cons, if_pos (by simpa using h), if_neg h]
    cases (strsep COMMA s).2 <;> simp

theorem proposals_eq (fuel n : Nat) (s : Bytes) (hf : s.length < fuel) :
    proposals fuel n (some s) = (names s).take n := by
  induction fuel generalizing n s with
  | zero => omega
  | succ fuel ih =>
    cases n with
    | zero => simp [proposals]
    | succ n =>
      rw [proposals, names_strsep]
      by_cases h : (strsep COMMA s).1 = []
      · simp [h]
      · simp only [h, if_false, List.take_succ_cons]
        congr 1
        rcases hr : (strsep COMMA s).2 with _ | r
        · cases fuel <;> cases n <;> simp [proposals]
        · have := strsep_length hr
          exact ih n r (by omega)

theorem selectGo_eq (server : List Bytes) (total fuel pos : Nat) (s : Bytes) (hf : s.length < fuel) :
    (selectGo server total fuel pos (some s)).1 = (names s).find? (· ∈ server) := by
  induction fuel generalizing pos s with
  | zero => omega
  | succ fuel ih =>
    rw [selectGo, names_strsep]
    by_cases h : (strsep COMMA s).1 = []
    · simp [h]
    · simp only [h, if_false]
      by_cases hm : (strsep COMMA s).1 ∈ server
      · simp [hm]
      · simp only [hm, if_false, List.find?_cons, decide_false]
        rcases hr : (strsep COMMA s).2 with _ | r
        · cases fuel <;> simp [selectGo]
        · have := strsep_length hr
          exact ih _ r (by omega)

/-- **C07**: the name selected is the first name of the client's list that occurs among the first 40
names of the server's list; selection fails exactly when there is none. -/
theorem C07_match_list (client server : Bytes) :
    (matchList client server).1 = (names client).find? (· ∈ (names server).take 40) := by
  unfold matchList
  rw [selectGo_eq _ _ _ _ _ (by omega), proposals_eq _ _ _ (by omega)]

/-- **C07** spelled out: success. -/
theorem C07_selected_iff (client server n : Bytes) :
    (matchList client server).1 = some n ↔
      n ∈ (names server).take 40 ∧
      ∃ before after, names client = before ++ n :: after ∧ ∀ m ∈ before, m ∉ (names server).take 40 := by
  rw [C07_match_list, List.find?_eq_some_iff_append]
  simp

/-- **C07** spelled out: failure. -/
theorem C07_none_iff (client server : Bytes) :
    (matchList client server).1 = none ↔ ∀ n ∈ names client, n ∉ (names server).take 40 := by
  rw [C07_match_list, List.find?_eq_none]
  simp

theorem selectGo_next (server : List Bytes) (pre s n : Bytes) (total fuel : Nat) (k : Nat)
    (ht : total = pre.length + s.length)
    (h : selectGo server total fuel pre.length (some s) = (some n, k)) :
    (k = total ∧ ∃ a, pre ++ s = a ++ n ∧ (a = [] ∨ a.getLast? = some COMMA)) ∨
    (∃ a rest, pre ++ s = a ++ n ++ COMMA :: rest ∧ k = (a ++ n).length + 1 ∧ (a = pre ∨ a.getLast? = some COMMA)) ∨
    (k = total ∧ ∃ a, pre ++ s = a ++ n ∧ a = pre) := by
  induction fuel generalizing pre s with
  | zero => simp [selectGo] at h
  | succ fuel ih =>
    rw [selectGo] at h
    by_cases he : (strsep COMMA s).1 = []
    · simp [he] at h
    · simp only [he, if_false] at h
      by_cases hm : (strsep COMMA s).1 ∈ server
      · simp only [hm, if_true] at h
        injection h with h1 h2
        injection h1 with h1
        rcases hr : (strsep COMMA s).2 with _ | r
        · rw [hr] at h2
          right; right
          exact ⟨h2.symm, pre, by rw [← h1, strsep_last hr], rfl⟩
        · rw [hr] at h2
          right; left
          refine ⟨pre, r, ?_, ?_, .inl rfl⟩
          · have := strsep_rest hr
            rw [h1] at this
            rw [List.append_assoc, ← this]
          · simp only at h2
            rw [← h2, h1]; simp
      · simp only [hm, if_false] at h
        rcases hr : (strsep COMMA s).2 with _ | r
        · rw [hr] at h; cases fuel <;> simp [selectGo] at h
        · rw [hr] at h
          have hs := strsep_rest hr
          have hp : (pre ++ (strsep COMMA s).1 ++ [COMMA]).length = pre.length + (strsep COMMA s).1.length + 1 := by
            simp; omega
          have hcat : pre ++ (strsep COMMA s).1 ++ [COMMA] ++ r = pre ++ s := by
            conv => rhs; rw [hs]
            simp
          have hlen := strsep_length hr
          rw [← hp] at h
          rcases ih (pre ++ (strsep COMMA s).1 ++ [COMMA]) r (by rw [hp]; omega) h with
            ⟨h1, a, h2, h3⟩ | ⟨a, rest, h2, h3, h4⟩ | ⟨h1, a, h2, h3⟩
          · rw [hcat] at h2
            exact .inl ⟨h1, a, h2, h3⟩
          · rw [hcat] at h2
            refine .inr (.inl ⟨a, rest, h2, h3, .inr ?_⟩)
            rcases h4 with rfl | h4
            · simp
            · exact h4
          · rw [hcat] at h2
            refine .inl ⟨h1, a, h2, .inr ?_⟩
            rw [h3]; simp

/-- **C07**, the resumption offset: it points just behind the selected name and its comma, or to the end
of the list when the selected name is the last one; without a selection it is the end of the list. -/
theorem C07_next (client server n : Bytes) (k : Nat) (h : matchList client server = (some n, k)) :
    (k = client.length ∧ ∃ a, client = a ++ n ∧ (a = [] ∨ a.getLast? = some COMMA)) ∨
    (∃ a rest, client = a ++ n ++ COMMA :: rest ∧ client.drop k = rest ∧ (a = [] ∨ a.getLast? = some COMMA)) := by
  rcases selectGo_next _ [] client n client.length _ k (by simp) h with ⟨h1, a, h2, h3⟩ | ⟨a, rest, h2, h3, h4⟩ | ⟨h1, a, h2, h3⟩
  · exact .inl ⟨h1, a, h2, h3⟩
  · refine .inr ⟨a, rest, h2, ?_, h4⟩
    have h2' : client = (a ++ n ++ [COMMA]) ++ rest := by rw [List.append_assoc (a ++ n)]; exact h2
    rw [h2']
    exact List.drop_left' (by simp at h3 ⊢; omega)
  · exact .inl ⟨h1, a, h2, .inl h3⟩

/-- Non-vacuity. -/
example : matchList b!"aes,chacha,3des" b!"3des,chacha" = (some b!"chacha", 11) := by decide
example : names b!"a,b,,c" = [b!"a", b!"b"] := by decide
example : (matchList b!"x,y" b!"3des,chacha").1 = none := by decide

/-! ### C08 -/

/-- Is the name kept by the filter. -/
def kept (filter : Bytes) (deny : Bool) (n : Bytes) : Bool :=
  if deny then decide (matchPatternList n filter false ≠ 1) else decide (matchPatternList n filter false = 1)

/-- Appending a name to a comma separated list (an empty list is not followed by a comma). -/
def addName (fix n : Bytes) : Bytes := (if fix = [] then [] else fix ++ [COMMA]) ++ n

theorem strlcat_fits {dst src : Bytes} {size : Nat} (h : dst.length + src.length < size) :
    strlcat dst src size = dst ++ src := by
  unfold strlcat
  exact List.take_of_length_le (by simp; omega)

theorem filterGo_eq (filter : Bytes) (deny : Bool) (len fuel : Nat) (s fix : Bytes) (hf : s.length < fuel)
    (hroom : fix.length + s.length + (if fix = [] then 0 else 1) < len) :
    filterGo filter deny len fuel (some s) fix = ((split COMMA s).filter (kept filter deny)).foldl addName fix := by
  induction fuel generalizing s fix with
  | zero => omega
  | succ fuel ih =>
    rw [filterGo, split_strsep]
    have htok : (strsep COMMA s).1.length ≤ s.length := by
      rcases hr : (strsep COMMA s).2 with _ | r
      · rw [strsep_last hr]; omega
      · have := strsep_length hr; omega
    have hk : ((deny = true ∧ matchPatternList (strsep COMMA s).1 filter false ≠ 1) ∨
        (¬ deny = true ∧ matchPatternList (strsep COMMA s).1 filter false = 1)) ↔ kept filter deny (strsep COMMA s).1 = true := by
      cases deny <;> simp [kept]
    simp only [hk]
    have hrec : ∀ fix' : Bytes, (∀ r, (strsep COMMA s).2 = some r →
          fix'.length + r.length + (if fix' = [] then 0 else 1) < len) →
        filterGo filter deny len fuel (strsep COMMA s).2 fix' =
          (List.filter (kept filter deny) (match (strsep COMMA s).2 with | none => [] | some r => split COMMA r)).foldl addName fix' := by
      intro fix' hfix
      rcases hr : (strsep COMMA s).2 with _ | r
      · cases fuel <;> simp [filterGo]
      · have := strsep_length hr
        exact ih r fix' (by omega) (hfix r hr)
    by_cases hkk : kept filter deny (strsep COMMA s).1 = true
    · rw [if_pos hkk]
      simp only [List.filter_cons, if_pos hkk, List.foldl_cons]
      have hcat : strlcat (if fix ≠ [] then strlcat fix [COMMA] len else fix) (strsep COMMA s).1 len = addName fix (strsep COMMA s).1 := by
        unfold addName
        by_cases hfx : fix = []
        · subst hfx
          simp only [if_true, List.length_nil] at hroom
          simp only [ne_eq, not_true_eq_false, if_false, if_true]
          exact strlcat_fits (by simp only [List.length_nil]; omega)
        · simp only [hfx, if_false] at hroom
          simp only [hfx, ne_eq, not_false_eq_true, if_true, if_false]
          have e1 : strlcat fix [COMMA] len = fix ++ [COMMA] := strlcat_fits (by
            simp only [List.length_cons, List.length_nil]; omega)
          rw [e1]
          exact strlcat_fits (by simp only [List.length_append, List.length_cons, List.length_nil]; omega)
      rw [hcat]
      apply hrec
      intro r hr
      have := strsep_length hr
      unfold addName
      by_cases hfx : fix = []
      · simp only [hfx, if_true, List.nil_append, List.length_nil] at hroom ⊢
        split <;> omega
      · simp only [hfx, if_false] at hroom ⊢
        simp only [List.length_append, List.length_cons, List.length_nil]
        split <;> omega
    · rw [if_neg hkk]
      simp only [List.filter_cons, if_neg hkk]
      apply hrec
      intro r hr
      have := strsep_length hr
      split <;> (simp_all; try omega)

theorem foldl_addName_join (l : List Bytes) (fix : Bytes) (h : ∀ n ∈ l, n ≠ []) (hl : fix ≠ [] ∨ l ≠ []) :
    l.foldl addName fix = join COMMA (if fix = [] then l else fix :: l) := by
  induction l generalizing fix with
  | nil =>
    rcases hl with hl | hl
    · simp [hl, join]
    · exact absurd rfl hl
  | cons a t ih =>
    rw [List.foldl_cons]
    have ha := h a (by simp)
    have hne : addName fix a ≠ [] := by unfold addName; simp [ha]
    rw [ih _ (fun n hn => h n (by simp [hn])) (.inl hne), if_neg hne]
    by_cases hf : fix = []
    · simp [hf, addName]
    · simp only [hf, if_false]
      have : addName fix a = fix ++ COMMA :: a := by simp [addName, hf]
      rw [this]
      cases t with
      | nil => simp [join]
      | cons b t => simp [join]

/-- **C08**: filtering a proposal without empty names leaves exactly the permitted names, in order. -/
theorem C08_filter (proposal filter : Bytes) (deny : Bool) (h : ∀ n ∈ split COMMA proposal, n ≠ []) :
    filterList proposal filter deny = join COMMA ((split COMMA proposal).filter (kept filter deny)) := by
  unfold filterList
  rw [filterGo_eq _ _ _ _ _ _ (by omega) (by simp)]
  by_cases hn : (split COMMA proposal).filter (kept filter deny) = []
  · rw [hn]; rfl
  · rw [foldl_addName_join _ _ (fun n hn => h n ((List.mem_filter.1 hn).1)) (.inr hn), if_pos rfl]

/-- **C08** on the level of names: reading the filtered list back gives the permitted names, in order
(nothing when no name is permitted). -/
theorem C08_filter_names (proposal filter : Bytes) (deny : Bool) (h : ∀ n ∈ split COMMA proposal, n ≠ []) :
    names (filterList proposal filter deny) = (split COMMA proposal).filter (kept filter deny) := by
  rw [C08_filter _ _ _ h]
  have hall : ∀ n ∈ (split COMMA proposal).filter (kept filter deny), n ≠ [] :=
    fun n hn => h n ((List.mem_filter.1 hn).1)
  by_cases hn : (split COMMA proposal).filter (kept filter deny) = []
  · rw [hn]; rfl
  · unfold names
    rw [split_join hn (fun f hf => mem_split_no_sep ((List.mem_filter.1 hf).1))]
    generalize (split COMMA proposal).filter (kept filter deny) = l at hall
    induction l with
    | nil => rfl
    | cons a t ih =>
      rw [List.takeWhile_cons, if_pos (by simpa using hall a (by simp)), ih (fun n hn => hall n (by simp [hn]))]

/-- **C08**: what "permitted" means — the pattern list semantics of C06. -/
theorem C08_kept_iff (filter n : Bytes) :
    (kept filter false n = true ↔ matchPatternList n filter false = 1) ∧
    (kept filter true n = true ↔ matchPatternList n filter false ≠ 1) := by
  simp [kept]

/-- **C08** for every proposal, including ones with empty names: the non-empty names that remain are the
permitted non-empty names, in order, and the result is never longer than the proposal. -/
theorem C08_filter_general (proposal filter : Bytes) (deny : Bool) :
    (split COMMA (filterList proposal filter deny)).filter (· ≠ []) =
      ((split COMMA proposal).filter (kept filter deny)).filter (· ≠ []) := by
  unfold filterList
  rw [filterGo_eq _ _ _ _ _ _ (by omega) (by simp)]
  have key : ∀ (l : List Bytes) (fix : Bytes), (∀ n ∈ l, COMMA ∉ n) →
      (split COMMA (l.foldl addName fix)).filter (· ≠ []) =
        (split COMMA fix).filter (· ≠ []) ++ l.filter (· ≠ []) := by
    intro l
    induction l with
    | nil => intro fix _; simp
    | cons a t ih =>
      intro fix hl
      rw [List.foldl_cons, ih _ (fun n hn => hl n (by simp [hn]))]
      have ha := hl a (by simp)
      have hadd : split COMMA (addName fix a) = (if fix = [] then [] else split COMMA fix) ++ [a] := by
        unfold addName
        by_cases hf : fix = []
        · simp [hf, split_no_sep ha]
        · simp only [hf, if_false]
          rw [List.append_assoc]
          exact (split_sep_append COMMA fix a).trans (by rw [split_no_sep ha])
      rw [hadd]
      by_cases hf : fix = []
      · simp [hf, split, List.filter_cons]
        split <;> simp
      · simp [hf, List.filter_cons]
        split <;> simp
  rw [key _ _ (fun n hn => mem_split_no_sep ((List.mem_filter.1 hn).1))]
  simp [split]

example : filterDenylist b!"aes128,3des-cbc,chacha" b!"3des*" = b!"aes128,chacha" := by decide
example : filterAllowlist b!"aes128,3des-cbc,aes256" b!"aes*,!aes128" = b!"aes256" := by decide

end Verif.Match
