/-
C147: which names are of remote files, and what they mean.
-/
import Verif.Operand.Model
import Verif.Target.Dest

namespace Verif.Operand
open Verif
open _root_.Verif.Target (splitLast splitLast_some splitLast_none)

/-! ### What is meant -/

/-- A bracket is open: at the beginning or after an `@`. -/
def Open (b : Bytes) : Prop := (∃ r, b = 91 :: r) ∨ ∃ x y, b = x ++ 64 :: 91 :: y

/-- `b` before a colon and `a` after it may be host and path: there is something before, which does not begin with a colon and is no path; and it has no
colon and no bracket, or ends in a bracket that was open. -/
def Splits (s b a : Bytes) : Prop :=
  s = b ++ 58 :: a ∧ b ≠ [] ∧ b.head? ≠ some 58 ∧ 47 ∉ b ∧ ((58 ∉ b ∧ ¬ Open b) ∨ (Open b ∧ b.getLast? = some 93))

/-- `user@host:path`, where the host may be in brackets -/
def written (user : Option Bytes) (brackets : Bool) (host path : Bytes) : Bytes :=
  (match user with | some u => u ++ [64] | none => []) ++ (if brackets then 91 :: host ++ [93] else host) ++ 58 :: path

/-! ### The loop -/

theorem open_snoc (x : Bytes) (d : UInt8) : Open (x ++ [d]) ↔ Open x ∨ (d = 91 ∧ (x = [] ∨ x.getLast? = some 64)) := by
  constructor
  · rintro (⟨r, h⟩ | ⟨p, q, h⟩)
    · cases x with
      | nil =>
        rw [List.nil_append] at h
        cases h
        exact .inr ⟨rfl, .inl rfl⟩
      | cons c x =>
        rw [List.cons_append] at h
        cases h
        exact .inl (.inl ⟨_, rfl⟩)
    · rcases List.eq_nil_or_concat q with rfl | ⟨q', e, rfl⟩
      · have h' : x ++ [d] = (p ++ [64]) ++ [91] := by rw [h]; simp
        obtain ⟨h1, h2⟩ := List.append_inj' h' rfl
        cases h2
        exact .inr ⟨rfl, .inr (by rw [h1]; simp)⟩
      · have h' : x ++ [d] = (p ++ 64 :: 91 :: q') ++ [e] := by rw [h]; simp
        obtain ⟨h1, h2⟩ := List.append_inj' h' rfl
        exact .inl (.inr ⟨p, q', h1⟩)
  · rintro ((⟨r, rfl⟩ | ⟨p, q, rfl⟩) | ⟨rfl, rfl | h⟩)
    · exact .inl ⟨r ++ [d], rfl⟩
    · exact .inr ⟨p, q ++ [d], by simp⟩
    · exact .inl ⟨[], rfl⟩
    · obtain ⟨y, rfl⟩ := List.getLast?_eq_some_iff.1 h
      exact .inr ⟨y, [], by simp⟩

theorem flagged_open {flag : Bool} {seen l : Bytes} {c : UInt8} (h : flag = true ↔ Open (seen ++ [c])) :
    flagged flag c l = true ↔ Open ((seen ++ [c]) ++ l.take 1) := by
  unfold flagged
  cases l with
  | nil => simp [h]
  | cons d l =>
    rw [List.take_succ_cons, List.take_zero, open_snoc, ← h]
    simp [and_comm]

theorem head_append {b t : Bytes} (h : b ≠ []) : (b ++ t).head? = b.head? := by
  cases b with
  | nil => exact absurd rfl h
  | cons _ _ => rfl

theorem go_sound : ∀ (l : Bytes) (flag : Bool) (seen b a : Bytes), (flag = true ↔ Open (seen ++ l.take 1)) → 47 ∉ seen → (flag = false → 58 ∉ seen) →
    (seen = [] → l.head? ≠ some 58) → colonGo flag seen l = some (b, a) →
    seen ++ l = b ++ 58 :: a ∧ b ≠ [] ∧ 47 ∉ b ∧ ((58 ∉ b ∧ ¬ Open b) ∨ (Open b ∧ b.getLast? = some 93)) := by
  intro l
  induction l with
  | nil => intro _ _ _ _ _ _ _ _ h; cases h
  | cons c l ih =>
    intro flag seen b a hf h47 h58 hne h
    rw [List.take_succ_cons, List.take_zero] at hf
    have hf' := flagged_open (l := l) hf
    rw [colonGo] at h
    split at h
    · rename_i hc
      obtain ⟨rfl, hl, hfl⟩ := hc
      simp only [Option.some.injEq, Prod.mk.injEq] at h
      obtain ⟨rfl, rfl⟩ := h
      cases l with
      | nil => cases hl
      | cons d l =>
        simp only [List.head?_cons, Option.some.injEq] at hl
        subst hl
        refine ⟨by simp, by simp, by simpa using h47, .inr ⟨?_, by simp⟩⟩
        rw [hfl] at hf'
        have := hf'.1 rfl
        rw [List.take_succ_cons, List.take_zero, open_snoc] at this
        rcases this with h | h
        · exact h
        · exact absurd h.1 (by decide)
    split at h
    · rename_i hc
      obtain ⟨rfl, hfl⟩ := hc
      simp only [Option.some.injEq, Prod.mk.injEq] at h
      obtain ⟨rfl, rfl⟩ := h
      have hff : flag = false := by
        cases flag with
        | false => rfl
        | true => simp [flagged] at hfl
      refine ⟨rfl, fun hs => hne hs rfl, h47, .inl ⟨h58 hff, fun ho => ?_⟩⟩
      have := hf.2 ((open_snoc _ _).2 (.inl ho))
      rw [hff] at this
      cases this
    split at h
    · cases h
    · rename_i h1 h2 h3
      have := ih (flagged flag c l) (seen ++ [c]) b a hf' (by simp; exact ⟨h47, fun h => h3 h.symm⟩) ?_ (by simp) h
      · rwa [List.append_assoc, List.singleton_append] at this
      · intro hfl
        have hff : flag = false := by
          cases flag with
          | false => rfl
          | true => simp [flagged] at hfl
        simp only [List.mem_append, List.mem_singleton, not_or]
        exact ⟨h58 hff, fun h => h2 ⟨h.symm, hfl⟩⟩

theorem go_complete (a : Bytes) : ∀ (m : Bytes) (flag : Bool) (seen : Bytes), (flag = true ↔ Open (seen ++ (m ++ 58 :: a).take 1)) → 47 ∉ m →
    ((58 ∉ m ∧ ¬ Open (seen ++ m)) ∨ (Open (seen ++ m) ∧ m.getLast? = some 93)) →
    ∃ b' a', colonGo flag seen (m ++ 58 :: a) = some (b', a') ∧ b'.length ≤ (seen ++ m).length := by
  intro m
  induction m with
  | nil =>
    intro flag seen hf _ h
    rcases h with ⟨_, h⟩ | ⟨_, h⟩
    · rw [List.nil_append, List.take_succ_cons, List.take_zero, open_snoc] at hf
      have hff : flag = false := by
        cases flag with
        | false => rfl
        | true =>
          rcases hf.1 rfl with h' | h'
          · rw [List.append_nil] at h
            exact absurd h' h
          · exact absurd h'.1 (by decide)
      subst hff
      refine ⟨seen, a, ?_, by simp⟩
      rw [List.nil_append, colonGo, if_neg (by intro h; exact absurd h.1 (by decide)), if_pos ⟨rfl, rfl⟩]
    · cases h
  | cons c m ih =>
    intro flag seen hf h47 h
    rw [List.cons_append, List.take_succ_cons, List.take_zero] at hf
    have hf' := flagged_open (l := m ++ 58 :: a) hf
    simp only [List.mem_cons, not_or] at h47
    rw [List.cons_append, colonGo]
    split
    · exact ⟨_, _, rfl, by simp⟩
    split
    · exact ⟨_, _, rfl, by simp⟩
    rw [if_neg (fun h => h47.1 h.symm)]
    rename_i h1 h2
    have hs : (seen ++ [c]) ++ m = seen ++ c :: m := by simp
    obtain ⟨b', a', e, hl⟩ := ih (flagged flag c (m ++ 58 :: a)) (seen ++ [c]) hf' h47.2 (by
      rw [hs]
      rcases h with ⟨h3, h4⟩ | ⟨h3, h4⟩
      · exact .inl ⟨fun h => h3 (List.mem_cons_of_mem _ h), h4⟩
      · cases m with
        | nil =>
          simp only [List.getLast?_singleton, Option.some.injEq] at h4
          subst h4
          refine absurd ⟨rfl, rfl, ?_⟩ h1
          rw [hf']
          exact (open_snoc _ _).2 (.inl h3)
        | cons d m =>
          rw [List.getLast?_cons_cons] at h4
          exact .inr ⟨h3, h4⟩)
    exact ⟨b', a', e, by rwa [hs] at hl⟩

theorem open_head (s : Bytes) : decide (s.head? = some 91) = true ↔ Open ([] ++ s.take 1) := by
  cases s with
  | nil => exact ⟨fun h => by simp at h, by rintro (⟨r, h⟩ | ⟨x, y, h⟩) <;> simp at h⟩
  | cons c s =>
    rw [List.nil_append, List.take_succ_cons, List.take_zero]
    constructor
    · intro h
      simp only [List.head?_cons, Option.some.injEq, decide_eq_true_eq] at h
      exact .inl ⟨[], by rw [h]⟩
    · rintro (⟨r, h⟩ | ⟨x, y, h⟩)
      · cases h
        rfl
      · have := congrArg List.length h
        simp at this
        omega

theorem colon_sound {s b a : Bytes} (h : colon s = some (b, a)) : Splits s b a := by
  unfold colon at h
  split at h
  · cases h
  · rename_i hs
    obtain ⟨h1, h2, h3, h4⟩ := go_sound s _ [] b a (open_head s) (by simp) (by simp) (fun _ => hs) h
    rw [List.nil_append] at h1
    exact ⟨h1, h2, by rwa [h1, head_append h2] at hs, h3, h4⟩

theorem colon_complete {s b a : Bytes} (h : Splits s b a) : ∃ b' a', colon s = some (b', a') ∧ b'.length ≤ b.length := by
  obtain ⟨rfl, h1, h2, h3, h4⟩ := h
  unfold colon
  rw [if_neg (by rwa [head_append h1])]
  have := go_complete a b (decide ((b ++ 58 :: a).head? = some 91)) [] (open_head _) h3 (by
    rw [List.nil_append]
    exact h4)
  simpa using this

theorem colon_iff {s b a : Bytes} : colon s = some (b, a) ↔ Splits s b a ∧ ∀ b' a', Splits s b' a' → b.length ≤ b'.length := by
  constructor
  · intro h
    refine ⟨colon_sound h, fun b' a' h' => ?_⟩
    obtain ⟨x, y, e, hl⟩ := colon_complete h'
    rw [h] at e
    cases e
    exact hl
  · rintro ⟨h, hmin⟩
    obtain ⟨x, y, e, hl⟩ := colon_complete h
    have hx := colon_sound e
    have := hmin x y hx
    have hlen : x.length = b.length := by omega
    have heq := hx.1.symm.trans h.1
    obtain ⟨h1, h2⟩ := List.append_inj heq hlen
    cases h2
    rw [e, h1]

/-- C147: a name is that of a remote file if it can be split into host and path, and the colon is the first at which it can. -/
theorem C147_split (s : Bytes) (r : Remote) :
    parse s = some r ↔ ∃ b a, Splits s b a ∧ (∀ b' a', Splits s b' a' → b.length ≤ b'.length) ∧ r = remoteOf b a := by
  unfold parse
  constructor
  · intro h
    cases hc : colon s with
    | none => rw [hc] at h; cases h
    | some x =>
      rw [hc] at h
      cases h
      obtain ⟨h1, h2⟩ := colon_iff.1 hc
      exact ⟨_, _, h1, h2, rfl⟩
  · rintro ⟨b, a, h1, h2, rfl⟩
    rw [colon_iff.2 ⟨h1, h2⟩]
    rfl

/-- C147: a name is local if it has no colon, begins with one, or has a slash before all of them. So `./` makes any name local. -/
theorem C147_local {s : Bytes} (h : 58 ∉ s ∨ s.head? = some 58 ∨ ∃ x y, s = x ++ 47 :: y ∧ 58 ∉ x) : parse s = none := by
  cases hp : parse s with
  | none => rfl
  | some r =>
    exfalso
    obtain ⟨b, a, ⟨rfl, h1, h2, h3, h4⟩, -, -⟩ := (C147_split s r).1 hp
    rcases h with h | h | ⟨x, y, h, hx⟩
    · exact h (by simp)
    · exact h2 (by rwa [head_append h1] at h)
    · rcases List.append_eq_append_iff.1 h with ⟨z, rfl, hz⟩ | ⟨z, rfl, hz⟩
      · cases z with
        | nil => cases hz
        | cons d z =>
          rw [List.cons_append] at hz
          cases hz
          exact hx (by simp)
      · cases z with
        | nil => cases hz
        | cons d z =>
          rw [List.cons_append] at hz
          cases hz
          exact h3 (by simp)

/-- the part before the host -/
def before (user : Option Bytes) : Bytes := match user with | some u => u ++ [64] | none => []

theorem remoteOf_before {user : Option Bytes} {h a : Bytes} (hu : ∀ u, user = some u → u ≠ []) (h64 : 64 ∉ h) :
    remoteOf (before user ++ h) a = ⟨user, cleanHost h, pathOf a⟩ := by
  cases user with
  | none =>
    have : splitLast 64 (before none ++ h) = none := splitLast_none.2 (by simpa [before] using h64)
    rw [remoteOf, this]
    rfl
  | some u =>
    have : splitLast 64 (before (some u) ++ h) = some (u, h) := splitLast_some.2 ⟨by simp [before], h64⟩
    rw [remoteOf, this]
    simp [hu u rfl]

theorem not_open {b : Bytes} (h : 91 ∉ b) : ¬ Open b := by
  rintro (⟨r, rfl⟩ | ⟨x, y, rfl⟩) <;> exact h (by simp)

theorem head_mem {b : Bytes} {c : UInt8} (h : b.head? = some c) : c ∈ b := by
  cases b with
  | nil => cases h
  | cons d b =>
    cases h
    simp

theorem cleanHost_plain {h : Bytes} (h91 : 91 ∉ h) : cleanHost h = h := by
  rw [cleanHost, if_neg]
  intro h
  exact h91 (head_mem h.1)

theorem last_bracket (x host : Bytes) : (x ++ (91 :: host ++ [93])).getLast? = some 93 := by
  rw [← List.append_assoc, List.getLast?_concat]

theorem cleanHost_brackets (host : Bytes) : cleanHost (91 :: host ++ [93]) = host := by
  rw [cleanHost, if_pos ⟨rfl, by rw [← List.nil_append (91 :: host ++ [93]), last_bracket]⟩]
  simp

/-- C147: `user@host:path` and `host:path` mean user, host and path; without a path it is the directory one begins in. -/
theorem C147_plain {user : Option Bytes} {host path : Bytes} (hu : ∀ u, user = some u → u ≠ [] ∧ 58 ∉ u ∧ 47 ∉ u ∧ 91 ∉ u) (hh : host ≠ [])
    (h58 : 58 ∉ host) (h47 : 47 ∉ host) (h64 : 64 ∉ host) (h91 : 91 ∉ host) :
    parse (written user false host path) = some ⟨user, host, if path = [] then b!"." else path⟩ := by
  have hw : written user false host path = (before user ++ host) ++ 58 :: path := by cases user <;> simp [written, before]
  have hb : ∀ c : UInt8, c = 58 ∨ c = 47 ∨ c = 91 → c ∉ host → c ∉ before user ++ host := by
    intro c hc hch
    cases user with
    | none => simpa [before] using hch
    | some u =>
      obtain ⟨_, h1, h2, h3⟩ := hu u rfl
      rcases hc with rfl | rfl | rfl <;> simp [before, *]
  have h58' := hb 58 (by simp) h58
  refine (C147_split _ _).2 ⟨before user ++ host, path, ⟨hw, by simp [hh], fun h => h58' (head_mem h), hb 47 (by simp) h47,
    .inl ⟨h58', not_open (hb 91 (by simp) h91)⟩⟩, ?_, ?_⟩
  · rintro b' a' ⟨e, -⟩
    rw [hw] at e
    rcases List.append_eq_append_iff.1 e with ⟨z, rfl, hz⟩ | ⟨z, hz0, hz⟩
    · simp
    · cases z with
      | nil => simp at hz0; simp [hz0]
      | cons d z =>
        rw [List.cons_append] at hz
        cases hz
        exact absurd (by rw [hz0]; simp) h58'
  · rw [remoteOf_before (fun u h => (hu u h).1) h64, cleanHost_plain h91]
    rfl

/-- C147: the same with the host in brackets, which may then have colons. -/
theorem C147_brackets {user : Option Bytes} {host path : Bytes} (hu : ∀ u, user = some u → u ≠ [] ∧ 58 ∉ u ∧ 47 ∉ u) (h47 : 47 ∉ host) (h64 : 64 ∉ host)
    (h93 : 93 ∉ host) : parse (written user true host path) = some ⟨user, host, if path = [] then b!"." else path⟩ := by
  have hw : written user true host path = (before user ++ (91 :: host ++ [93])) ++ 58 :: path := by cases user <;> simp [written, before]
  have hb : 58 ∉ before user ∧ 47 ∉ before user := by
    cases user with
    | none => simp [before]
    | some u =>
      obtain ⟨_, h1, h2⟩ := hu u rfl
      simp [before, *]
  have hop : ∀ y, Open (before user ++ 91 :: y) := by
    intro y
    cases user with
    | none => exact .inl ⟨y, rfl⟩
    | some u => exact .inr ⟨u, y, by simp [before]⟩
  refine (C147_split _ _).2 ⟨before user ++ (91 :: host ++ [93]), path, ⟨hw, by simp, ?_, by simp [hb.2, h47], .inr ⟨hop _, last_bracket _ _⟩⟩, ?_, ?_⟩
  · intro h
    cases hbu : before user with
    | nil => rw [hbu] at h; cases h
    | cons c l =>
      rw [hbu] at h
      cases h
      exact hb.1 (by rw [hbu]; simp)
  · rintro b' a' ⟨e, -, -, -, h4⟩
    rw [hw] at e
    rcases List.append_eq_append_iff.1 e with ⟨z, rfl, hz⟩ | ⟨z, hz0, hz⟩
    · simp
    · cases z with
      | nil => rw [List.append_nil] at hz0; rw [hz0]; exact Nat.le_refl _
      | cons d z =>
        exfalso
        rw [List.cons_append] at hz
        cases hz
        rcases List.append_eq_append_iff.1 hz0 with ⟨w, rfl, hw'⟩ | ⟨w, hw0, hw'⟩
        · cases w with
          | nil => cases hw'
          | cons c w =>
            rw [List.cons_append, List.cons_append] at hw'
            injection hw' with e1 hww
            subst e1
            rcases h4 with ⟨_, h⟩ | ⟨_, h⟩
            · exact h (hop w)
            · have hm : (93 : UInt8) ∈ 91 :: w := by
                rw [List.getLast?_append] at h
                cases hg : (91 :: w).getLast? with
                | none => simp at hg
                | some x =>
                  rw [hg] at h
                  cases h
                  exact List.mem_of_getLast? hg
              have hm : (93 : UInt8) ∈ w := by simpa using hm
              rcases List.append_eq_append_iff.1 hww with ⟨v, hv0, hv⟩ | ⟨v, hv0, hv⟩
              · cases v with
                | nil => simp at hv
                | cons c v =>
                  rw [List.cons_append] at hv
                  injection hv with _ hv
                  simp at hv
              · exact h93 (by simp [hv0, hm])
        · cases w with
          | nil => cases hw'
          | cons c w =>
            rw [List.cons_append] at hw'
            cases hw'
            exact hb.1 (by rw [hw0]; simp)
  · rw [remoteOf_before (fun u h => (hu u h).1) (by simp [h64]), cleanHost_brackets]
    rfl

end Verif.Operand
