/-
C41: percent expansion is single pass and total.
-/
import Verif.Misc.Expand

namespace Verif.Misc.Expand
open Verif

/-! ## Specification -/

/-- A piece of a format string: a character standing for itself, an escape, a variable. -/
inductive Piece where
  | text (c : UInt8)
  | esc (c : UInt8)
  | var (name : Bytes)

/-- How a piece is written. -/
def Piece.source : Piece → Bytes
  | .text c => [c]
  | .esc c => [37, c]
  | .var n => b!"${" ++ n ++ b!"}"

def source (ps : List Piece) : Bytes := (ps.map Piece.source).flatten

/-- The value given for a character: that of the first pair whose key text contains it. -/
def Given (keys : List (Bytes × Bytes)) (c : UInt8) (v : Bytes) : Prop :=
  ∃ pre k post, keys = pre ++ (k, v) :: post ∧ c ∈ k ∧ ∀ p ∈ pre, c ∉ p.1

/-- What an escape stands for. -/
def Escape (keys : List (Bytes × Bytes)) (c : UInt8) (v : Bytes) : Prop :=
  (c = 37 ∧ v = [37]) ∨ (c ≠ 37 ∧ Given keys c v)

/-- A string is well formed when it can be cut into pieces: with percent expansion, `%` only begins an
escape for which there is a value; with variable expansion, `${` only begins a variable name up to the next
`}`. -/
inductive Pieces (keys : List (Bytes × Bytes)) (dollar percent : Bool) : List Piece → Prop where
  | nil : Pieces keys dollar percent []
  | text {c ps} (h1 : percent = true → c ≠ 37)
      (h2 : dollar = true → c = 36 → (source ps).head? ≠ some 123) (h : Pieces keys dollar percent ps) :
      Pieces keys dollar percent (.text c :: ps)
  | esc {c v ps} (h1 : percent = true) (h2 : Escape keys c v) (h : Pieces keys dollar percent ps) :
      Pieces keys dollar percent (.esc c :: ps)
  | var {n ps} (h1 : dollar = true) (h2 : n ≠ []) (h3 : (125 : UInt8) ∉ n) (h : Pieces keys dollar percent ps) :
      Pieces keys dollar percent (.var n :: ps)

/-- What the pieces stand for, one after the other; undefined if a variable is not set. -/
inductive Stands (keys : List (Bytes × Bytes)) (env : Bytes → Option Bytes) : List Piece → Bytes → Prop where
  | nil : Stands keys env [] []
  | text {c ps out} (h : Stands keys env ps out) : Stands keys env (.text c :: ps) (c :: out)
  | esc {c v ps out} (hv : Escape keys c v) (h : Stands keys env ps out) : Stands keys env (.esc c :: ps) (v ++ out)
  | var {n v ps out} (hv : env n = some v) (h : Stands keys env ps out) : Stands keys env (.var n :: ps) (v ++ out)

/-- Some variable among the pieces is not set. -/
def Unset (env : Bytes → Option Bytes) (ps : List Piece) : Prop := ∃ n, .var n ∈ ps ∧ env n = none

/-! ## Lemmas -/

variable {keys : List (Bytes × Bytes)} {env : Bytes → Option Bytes} {dollar percent : Bool}

theorem lookup_iff (c : UInt8) (keys : List (Bytes × Bytes)) (v : Bytes) : lookup c keys = some v ↔ Given keys c v := by
  induction keys with
  | nil =>
    simp only [lookup, reduceCtorEq, false_iff]
    rintro ⟨pre, k, post, h, _⟩
    simp at h
  | cons p ks ih =>
    obtain ⟨k, w⟩ := p
    unfold lookup
    by_cases hc : c ∈ k
    · rw [if_pos hc]
      constructor
      · intro h; cases h; exact ⟨[], k, ks, rfl, hc, by simp⟩
      · rintro ⟨pre, k', post, h, hk, hp⟩
        cases pre with
        | nil => simp at h; rw [h.1.2]
        | cons q pre =>
          injection h with h1 _
          exact absurd hc (by have := hp q (by simp); rwa [← h1] at this)
    · rw [if_neg hc, ih]
      constructor
      · rintro ⟨pre, k', post, rfl, hk, hp⟩
        exact ⟨(k, w) :: pre, k', post, rfl, hk, by
          intro p hp'; rcases List.mem_cons.1 hp' with rfl | h
          · exact hc
          · exact hp p h⟩
      · rintro ⟨pre, k', post, h, hk, hp⟩
        cases pre with
        | nil => simp at h; exact absurd (h.1.1 ▸ hk) hc
        | cons q pre =>
          injection h with _ h2
          exact ⟨pre, k', post, h2, hk, fun p hp' => hp p (by simp [hp'])⟩

theorem takeWhile_name {n r : Bytes} (h : (125 : UInt8) ∉ n) :
    (n ++ 125 :: r).takeWhile (· ≠ 125) = n ∧ (n ++ 125 :: r).dropWhile (· ≠ 125) = 125 :: r := by
  induction n with
  | nil => simp
  | cons x xs ih =>
    simp only [List.mem_cons, not_or] at h
    have := ih h.2
    have hx : x ≠ 125 := Ne.symm h.1
    simp only [List.cons_append, List.takeWhile_cons, List.dropWhile_cons, ne_eq, hx, not_false_eq_true,
      decide_true, if_true]
    exact ⟨by rw [this.1], this.2⟩

theorem drop_name {s rest : Bytes} {x : UInt8} (h : s.dropWhile (· ≠ 125) = x :: rest) :
    s = s.takeWhile (· ≠ 125) ++ 125 :: rest ∧ (125 : UInt8) ∉ s.takeWhile (· ≠ 125) := by
  induction s with
  | nil => simp at h
  | cons y ys ih =>
    by_cases hy : y = 125
    · subst hy; simp at h ⊢; exact h.2
    · simp only [List.dropWhile_cons, List.takeWhile_cons, ne_eq, hy, not_false_eq_true, decide_true,
        if_true] at h ⊢
      have := ih h
      refine ⟨by rw [List.cons_append, ← this.1], ?_⟩
      simp only [List.mem_cons, not_or]
      exact ⟨Ne.symm hy, this.2⟩

/-- The loop on a well-formed string. -/
theorem Pieces.loop {ps : List Piece} (h : Pieces keys dollar percent ps) (env : Bytes → Option Bytes)
    (fuel : Nat) (hf : (source ps).length < fuel) :
    ∃ out miss, Expand.loop keys env dollar percent fuel (source ps) = some (out, miss) ∧
      (miss = true ↔ Unset env ps) ∧ (miss = false → Stands keys env ps out) := by
  induction h generalizing fuel with
  | nil =>
    refine ⟨[], false, by cases fuel <;> rfl, ?_, fun _ => .nil⟩
    simp [Unset]
  | @text c ps h1 h2 _ ih =>
    have e : source (.text c :: ps) = c :: source ps := rfl
    rw [e] at hf ⊢
    cases fuel with
    | zero => omega
    | succ f =>
      simp only [List.length_cons] at hf
      obtain ⟨out, miss, hl, hm, hs⟩ := ih f (by omega)
      unfold Expand.loop
      rw [if_neg, if_pos, hl]
      · refine ⟨c :: out, miss, rfl, ?_, fun h => .text (hs h)⟩
        rw [hm]; simp [Unset]
      · cases percent with
        | false => simp
        | true => simpa using h1 rfl
      · intro hc
        simp only [Bool.and_eq_true, decide_eq_true_eq] at hc
        exact h2 hc.1.1 hc.1.2 hc.2
  | @esc c v ps h1 h2 _ ih =>
    have e : source (.esc c :: ps) = 37 :: c :: source ps := rfl
    rw [e] at hf ⊢
    cases fuel with
    | zero => omega
    | succ f =>
      simp only [List.length_cons] at hf
      obtain ⟨out, miss, hl, hm, hs⟩ := ih f (by omega)
      unfold Expand.loop
      rw [if_neg (by simp), if_neg (by simp [h1])]
      have hm' : miss = true ↔ Unset env (.esc c :: ps) := by rw [hm]; simp [Unset]
      rcases h2 with ⟨rfl, rfl⟩ | ⟨hc, hg⟩
      · simp only [if_true]; rw [hl]
        exact ⟨[37] ++ out, miss, rfl, hm', fun h => .esc (.inl ⟨rfl, rfl⟩) (hs h)⟩
      · simp only [if_neg hc, (lookup_iff c keys v).2 hg]; rw [hl]
        exact ⟨v ++ out, miss, rfl, hm', fun h => .esc (.inr ⟨hc, hg⟩) (hs h)⟩
  | @var n ps h1 h2 h3 _ ih =>
    have e : source (.var n :: ps) = 36 :: 123 :: (n ++ 125 :: source ps) := by
      simp [source, Piece.source]
    rw [e] at hf ⊢
    cases fuel with
    | zero => omega
    | succ f =>
      simp only [List.length_cons, List.length_append] at hf
      obtain ⟨out, miss, hl, hm, hs⟩ := ih f (by omega)
      unfold Expand.loop
      obtain ⟨t1, t2⟩ := takeWhile_name (r := source ps) h3
      rw [if_pos (by simp [h1])]
      simp only [List.tail_cons, t1, t2, if_neg h2, hl]
      cases hv : env n with
      | some v =>
        refine ⟨v ++ out, miss, rfl, ?_, fun h => .var hv (hs h)⟩
        rw [hm]
        constructor
        · rintro ⟨m, hmem, he⟩; exact ⟨m, by simp [hmem], he⟩
        · rintro ⟨m, hmem, he⟩
          simp at hmem
          rcases hmem with rfl | hmem
          · rw [hv] at he; cases he
          · exact ⟨m, hmem, he⟩
      | none =>
        refine ⟨out, true, rfl, ?_, fun h => by cases h⟩
        simp only [true_iff]
        exact ⟨n, by simp, hv⟩

/-- What the loop accepts is well formed. -/
theorem loop_pieces (fuel : Nat) (s : Bytes) (hf : s.length < fuel) {x : Bytes × Bool}
    (h : loop keys env dollar percent fuel s = some x) : ∃ ps, s = source ps ∧ Pieces keys dollar percent ps := by
  induction fuel generalizing s x with
  | zero => omega
  | succ f ih =>
    cases s with
    | nil => exact ⟨[], rfl, .nil⟩
    | cons c r =>
      simp only [List.length_cons] at hf
      unfold loop at h
      by_cases h1 : (dollar && decide (c = 36) && decide (r.head? = some 123)) = true
      · rw [if_pos h1] at h
        simp only [Bool.and_eq_true, decide_eq_true_eq] at h1
        obtain ⟨⟨hd, rfl⟩, hr⟩ := h1
        split at h
        · cases h
        · rename_i y rest hdrop
          obtain ⟨e1, e2⟩ := drop_name hdrop
          split at h
          · cases h
          · rename_i hne
            cases hrec : loop keys env dollar percent f rest with
            | none => rw [hrec] at h; cases h
            | some p =>
              have hr' : r = 123 :: r.tail := by
                cases r with
                | nil => cases hr
                | cons a t => simp at hr; rw [hr]; rfl
              have hlen : rest.length < f := by
                have := congrArg List.length e1
                have h2 := congrArg List.length hr'
                simp only [List.length_append, List.length_cons] at this h2
                omega
              obtain ⟨ps, e, hp⟩ := ih rest hlen hrec
              refine ⟨.var (r.tail.takeWhile (· ≠ 125)) :: ps, ?_, .var hd hne e2 hp⟩
              have : source (.var (r.tail.takeWhile (· ≠ 125)) :: ps) =
                36 :: 123 :: (r.tail.takeWhile (· ≠ 125) ++ 125 :: source ps) := by simp [source, Piece.source]
              rw [this, ← e, ← e1, ← hr']
      · rw [if_neg h1] at h
        by_cases h2 : (decide (c ≠ 37) || !percent) = true
        · rw [if_pos h2] at h
          cases hrec : loop keys env dollar percent f r with
          | none => rw [hrec] at h; cases h
          | some p =>
            obtain ⟨ps, e, hp⟩ := ih r (by omega) hrec
            refine ⟨.text c :: ps, by rw [e]; rfl, .text ?_ ?_ hp⟩
            · intro hpc hc; simp [hpc, hc] at h2
            · intro hd hc hh; exact h1 (by simp [hd, hc, e, hh])
        · rw [if_neg h2] at h
          simp only [ne_eq, Bool.or_eq_true, decide_eq_true_eq, Bool.not_eq_eq_eq_not, Bool.not_true,
            not_or, Decidable.not_not, Bool.not_eq_false] at h2
          obtain ⟨rfl, hpc⟩ := h2
          cases r with
          | nil => cases h
          | cons d r =>
            simp only [List.length_cons] at hf
            simp only at h
            by_cases h3 : d = 37
            · rw [if_pos h3] at h
              cases hrec : loop keys env dollar percent f r with
              | none => rw [hrec] at h; cases h
              | some p =>
                obtain ⟨ps, e, hp⟩ := ih r (by omega) hrec
                exact ⟨.esc d :: ps, by rw [e]; rfl, .esc hpc (.inl ⟨h3, rfl⟩) hp⟩
            · rw [if_neg h3] at h
              cases hl : lookup d keys with
              | none => rw [hl] at h; cases h
              | some v =>
                rw [hl] at h
                simp only at h
                cases hrec : loop keys env dollar percent f r with
                | none => rw [hrec] at h; cases h
                | some p =>
                  obtain ⟨ps, e, hp⟩ := ih r (by omega) hrec
                  exact ⟨.esc d :: ps, by rw [e]; rfl, .esc hpc (.inr ⟨h3, (lookup_iff _ _ _).1 hl⟩) hp⟩

theorem given_unique {c : UInt8} {v w : Bytes} (h1 : Given keys c v) (h2 : Given keys c w) : v = w := by
  have a := (lookup_iff c keys v).2 h1
  have b := (lookup_iff c keys w).2 h2
  rw [a] at b; injection b

theorem escape_unique {c : UInt8} {v w : Bytes} (h1 : Escape keys c v) (h2 : Escape keys c w) : v = w := by
  rcases h1 with ⟨a, rfl⟩ | ⟨a, h1⟩ <;> rcases h2 with ⟨b, rfl⟩ | ⟨b, h2⟩
  · rfl
  · exact absurd a b
  · exact absurd b a
  · exact given_unique h1 h2

theorem stands_unique {ps : List Piece} {a b : Bytes} (h1 : Stands keys env ps a) (h2 : Stands keys env ps b) :
    a = b := by
  induction h1 generalizing b with
  | nil => cases h2; rfl
  | text _ ih => cases h2 with | text h => rw [ih h]
  | esc hv _ ih => cases h2 with | esc hw h => rw [ih h, escape_unique hv hw]
  | var hv _ ih => cases h2 with | var hw h => rw [hv] at hw; injection hw with hw; rw [ih h, hw]

theorem stands_set {ps : List Piece} {a : Bytes} (h1 : Stands keys env ps a) : ¬ Unset env ps := by
  rintro ⟨n, hn, he⟩
  induction h1 with
  | nil => cases hn
  | text _ ih => exact ih (by simpa using hn)
  | esc _ _ ih => exact ih (by simpa using hn)
  | var hv _ ih =>
    simp at hn
    rcases hn with rfl | hn
    · rw [he] at hv; cases hv
    · exact ih hn

/-- The caller passed between 1 and 64 keys, or did not ask for percent expansion. -/
def KeysOk (keys : List (Bytes × Bytes)) (percent : Bool) : Prop :=
  percent = true → keys ≠ [] ∧ keys.length ≤ 64

theorem expand_ok (hk : KeysOk keys percent) (s : Bytes) :
    expand keys env dollar percent s = match loop keys env dollar percent (s.length + 1) s with
    | none => .bad
    | some (_, true) => .missing
    | some (out, false) => .ok out := by
  unfold expand
  rw [if_neg]
  · rfl
  · intro h
    simp only [Bool.and_eq_true, Bool.or_eq_true, decide_eq_true_eq, List.isEmpty_iff] at h
    have := hk h.1
    rcases h.2 with h | h
    · exact this.1 h
    · omega

/-! ## Theorems -/

/-- **C41 (each piece is replaced by its value, once).**  The expansion of a string is the values of the
pieces of the string, in order; the values themselves are never looked at, so nothing in them is expanded
again. -/
theorem C41_expand (hk : KeysOk keys percent) (s out : Bytes) :
    expand keys env dollar percent s = .ok out ↔
      ∃ ps, s = source ps ∧ Pieces keys dollar percent ps ∧ Stands keys env ps out := by
  rw [expand_ok hk]
  constructor
  · intro h
    split at h
    · cases h
    · cases h
    · rename_i o hl
      injection h with h; subst h
      obtain ⟨ps, rfl, hp⟩ := loop_pieces _ s (by omega) hl
      obtain ⟨out', miss, hl', hm, hs⟩ := hp.loop env ((source ps).length + 1) (by omega)
      rw [hl] at hl'
      simp only [Option.some.injEq, Prod.mk.injEq] at hl'
      obtain ⟨rfl, rfl⟩ := hl'
      exact ⟨ps, rfl, hp, hs rfl⟩
  · rintro ⟨ps, rfl, hp, hs⟩
    obtain ⟨out', miss, hl', hm, hs'⟩ := hp.loop env ((source ps).length + 1) (by omega)
    rw [hl']
    cases miss with
    | true => exact absurd (hm.1 rfl) (stands_set hs)
    | false => simp only; rw [stands_unique hs (hs' rfl)]

/-- **C41 (errors).**  A string is refused exactly when it cannot be cut into pieces: a `%` at the end or
before a character without a value, or a `${` without a name or closing brace. -/
theorem C41_bad (hk : KeysOk keys percent) (s : Bytes) :
    expand keys env dollar percent s = .bad ↔ ¬ ∃ ps, s = source ps ∧ Pieces keys dollar percent ps := by
  rw [expand_ok hk]
  constructor
  · rintro h ⟨ps, rfl, hp⟩
    obtain ⟨out', miss, hl', _⟩ := hp.loop env ((source ps).length + 1) (by omega)
    rw [hl'] at h
    cases miss <;> cases h
  · intro h
    split
    · rfl
    · rename_i hl; exact absurd (loop_pieces _ s (by omega) hl) h
    · rename_i hl; exact absurd (loop_pieces _ s (by omega) hl) h

/-- **C41 (unset variables).**  A well-formed string yields no result exactly when it names a variable that
is not set. -/
theorem C41_missing (hk : KeysOk keys percent) (s : Bytes) :
    expand keys env dollar percent s = .missing ↔
      ∃ ps, s = source ps ∧ Pieces keys dollar percent ps ∧ Unset env ps := by
  rw [expand_ok hk]
  constructor
  · intro h
    split at h
    · cases h
    · rename_i o hl
      obtain ⟨ps, rfl, hp⟩ := loop_pieces _ s (by omega) hl
      obtain ⟨out', miss, hl', hm, _⟩ := hp.loop env ((source ps).length + 1) (by omega)
      rw [hl] at hl'
      simp only [Option.some.injEq, Prod.mk.injEq] at hl'
      exact ⟨ps, rfl, hp, hm.1 hl'.2.symm⟩
    · cases h
  · rintro ⟨ps, rfl, hp, hu⟩
    obtain ⟨out', miss, hl', hm, _⟩ := hp.loop env ((source ps).length + 1) (by omega)
    rw [hl']
    rw [hm.2 hu]

/-- **C41 (values are never expanded again).**  Text on either side of an escape expands as it would by
itself, and the value of the escape appears between the two unchanged, whatever it contains. -/
theorem C41_single_pass (hk : keys ≠ [] ∧ keys.length ≤ 64) (a b out₁ out₂ v : Bytes) (c : UInt8)
    (ha : percentExpand keys a = .ok out₁) (hb : percentExpand keys b = .ok out₂) (hc : c ≠ 37)
    (hv : Given keys c v) : percentExpand keys (a ++ [37, c] ++ b) = .ok (out₁ ++ v ++ out₂) := by
  have hk' : KeysOk keys true := fun _ => hk
  have key : ∀ s o, percentExpand keys s = .ok o ↔
      ∃ ps, s = source ps ∧ Pieces keys false true ps ∧ Stands keys (fun _ => none) ps o := by
    intro s o
    rw [← C41_expand hk']
    unfold percentExpand
    cases expand keys (fun _ => none) false true s <;> simp
  rw [key] at ha hb ⊢
  obtain ⟨p1, rfl, hp1, hs1⟩ := ha
  obtain ⟨p2, rfl, hp2, hs2⟩ := hb
  refine ⟨p1 ++ .esc c :: p2, by simp [source, Piece.source], ?_, ?_⟩
  · clear hs1
    induction hp1 with
    | nil => exact .esc rfl (.inr ⟨hc, hv⟩) hp2
    | text h1 h2 _ ih => exact .text h1 (fun h => by cases h) ih
    | esc h1 h2 _ ih => exact .esc h1 h2 ih
    | var h1 h2 h3 _ ih => exact .var h1 h2 h3 ih
  · clear hp1
    induction hs1 with
    | nil => exact .esc (.inr ⟨hc, hv⟩) hs2
    | text _ ih => exact .text ih
    | esc h1 _ ih => rw [List.append_assoc, List.append_assoc]; exact .esc h1 (by rw [← List.append_assoc]; exact ih)
    | var h1 _ ih => rw [List.append_assoc, List.append_assoc]; exact .var h1 (by rw [← List.append_assoc]; exact ih)

/-- **C41 (percent expansion always answers).**  It yields a string or exits; it never silently yields
nothing. -/
theorem C41_percent_total (keys : List (Bytes × Bytes)) (s : Bytes) :
    (∃ out, percentExpand keys s = .ok out) ∨ percentExpand keys s = .fatal := by
  by_cases hk : KeysOk keys true
  · unfold percentExpand
    cases h : expand keys (fun _ => none) false true s with
    | ok o => exact .inl ⟨o, rfl⟩
    | bad => exact .inr rfl
    | fatal => exact .inr rfl
    | missing =>
      exfalso
      obtain ⟨ps, hs, hp, n, hn, _⟩ := (C41_missing hk s).1 h
      clear hs
      induction hp with
      | nil => cases hn
      | text _ _ _ ih => exact ih (by simpa using hn)
      | esc _ _ _ ih => exact ih (by simpa using hn)
      | var h1 _ _ _ _ => cases h1
  · right
    unfold percentExpand expand
    rw [if_pos]
    simp only [KeysOk, forall_const, not_and] at hk
    simp only [Bool.true_and, Bool.or_eq_true, decide_eq_true_eq, List.isEmpty_iff]
    by_cases h : keys = []
    · exact .inl h
    · exact .inr (by have := hk h; omega)

/-- A value that itself looks like an escape is copied, not expanded. -/
example : percentExpand [(b!"h", b!"%u"), (b!"u", b!"joe")] b!"/keys/%h/%%/%u" = .ok b!"/keys/%u/%/joe" := by decide
example : expand [(b!"h", b!"host")] (fun n => if n = b!"HOME" then some b!"/r/${X}%h" else none) true true
    b!"${HOME}/%h$" = .ok b!"/r/${X}%h/host$" := by decide
example : percentExpand [(b!"h", b!"host")] b!"100%" = .fatal ∧ percentExpand [(b!"h", b!"host")] b!"%x" = .fatal := by
  decide
example : Given [(b!"h", b!"%u"), (b!"u", b!"joe")] 117 b!"joe" :=
  ⟨[(b!"h", b!"%u")], b!"u", [], rfl, by decide, by decide⟩

end Verif.Misc.Expand
