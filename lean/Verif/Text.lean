/-
Separated lists of byte strings: splitting and joining.  Specification vocabulary shared by the areas
that deal with comma or space separated text.
-/
import Verif.Base

namespace Verif.Text
open Verif

/-- All fields of `s` between occurrences of `c` (always at least one field). -/
def split (c : UInt8) : Bytes → List Bytes
  | [] => [[]]
  | x :: xs =>
    if x = c then [] :: split c xs
    else match split c xs with
      | [] => [[x]]
      | h :: t => (x :: h) :: t

/-- Fields put back together with `c` between them. -/
def join (c : UInt8) : List Bytes → Bytes
  | [] => []
  | [a] => a
  | a :: b :: t => a ++ c :: join c (b :: t)

theorem split_cons (c x : UInt8) (xs : Bytes) :
    split c (x :: xs) = if x = c then [] :: split c xs
      else match split c xs with
        | [] => [[x]]
        | h :: t => (x :: h) :: t := rfl

theorem split_ne_nil (c : UInt8) (s : Bytes) : split c s ≠ [] := by
  cases s with
  | nil => simp [split]
  | cons x xs =>
    unfold split
    split
    · simp
    · split <;> simp

/-- `strsep(3)` with a single separator: the token up to the separator and what follows it (`none` when
the separator does not occur). -/
def strsep (c : UInt8) (s : Bytes) : Bytes × Option Bytes :=
  (s.takeWhile (· ≠ c), match s.dropWhile (· ≠ c) with | [] => none | _ :: r => some r)

theorem strsep_nil (c : UInt8) : strsep c [] = ([], none) := rfl

theorem strsep_cons (c x : UInt8) (xs : Bytes) :
    strsep c (x :: xs) = if x = c then ([], some xs) else (x :: (strsep c xs).1, (strsep c xs).2) := by
  unfold strsep
  by_cases h : x = c
  · simp [h]
  · simp [h]

theorem split_strsep (c : UInt8) (s : Bytes) :
    split c s = (strsep c s).1 :: (match (strsep c s).2 with | none => [] | some r => split c r) := by
  induction s with
  | nil => rfl
  | cons x xs ih =>
    rw [strsep_cons, split_cons]
    by_cases h : x = c
    · simp [h]
    · simp only [h, if_false]
      rw [ih]

theorem strsep_length {c : UInt8} {s r : Bytes} (h : (strsep c s).2 = some r) :
    s.length = (strsep c s).1.length + 1 + r.length := by
  induction s with
  | nil => simp [strsep] at h
  | cons x xs ih =>
    rw [strsep_cons] at h ⊢
    by_cases hx : x = c
    · simp only [hx, if_true] at h ⊢
      injection h with h
      subst h; simp; omega
    · simp only [hx, if_false] at h ⊢
      have := ih h
      simp; omega

theorem strsep_rest {c : UInt8} {s r : Bytes} (h : (strsep c s).2 = some r) :
    s = (strsep c s).1 ++ c :: r := by
  induction s with
  | nil => simp [strsep] at h
  | cons x xs ih =>
    rw [strsep_cons] at h ⊢
    by_cases hx : x = c
    · simp only [hx, if_true] at h ⊢
      injection h with h
      subst h; rfl
    · simp only [hx, if_false] at h ⊢
      rw [List.cons_append, ← ih h]

theorem strsep_last {c : UInt8} {s : Bytes} (h : (strsep c s).2 = none) : (strsep c s).1 = s := by
  induction s with
  | nil => rfl
  | cons x xs ih =>
    rw [strsep_cons] at h ⊢
    by_cases hx : x = c
    · simp [hx] at h
    · simp only [hx, if_false] at h ⊢
      rw [ih h]

theorem strsep_token (c : UInt8) (s : Bytes) : c ∉ (strsep c s).1 := by
  induction s with
  | nil => simp [strsep]
  | cons x xs ih =>
    rw [strsep_cons]
    by_cases hx : x = c
    · simp [hx]
    · simp [hx, Ne.symm hx, ih]

theorem split_no_sep {c : UInt8} {s : Bytes} (h : c ∉ s) : split c s = [s] := by
  induction s with
  | nil => rfl
  | cons x xs ih =>
    simp only [List.mem_cons, not_or] at h
    unfold split
    rw [if_neg (Ne.symm h.1), ih h.2]

theorem split_append {c : UInt8} {s r : Bytes} (h : c ∉ s) : split c (s ++ c :: r) = s :: split c r := by
  induction s with
  | nil => simp [split]
  | cons x xs ih =>
    simp only [List.mem_cons, not_or] at h
    rw [List.cons_append, split_cons, if_neg (Ne.symm h.1), ih h.2]

theorem split_sep_append (c : UInt8) (u v : Bytes) : split c (u ++ c :: v) = split c u ++ split c v := by
  induction u with
  | nil => simp [split]
  | cons x xs ih =>
    rw [List.cons_append, split_cons, split_cons, ih]
    by_cases hx : x = c
    · simp [hx]
    · simp only [hx, if_false]
      cases hs : split c xs with
      | nil => exact absurd hs (split_ne_nil c xs)
      | cons a t => rfl

theorem mem_split_no_sep {c : UInt8} {s f : Bytes} (h : f ∈ split c s) : c ∉ f := by
  induction s generalizing f with
  | nil => simp [split] at h; simp [h]
  | cons x xs ih =>
    unfold split at h
    split at h
    · rcases List.mem_cons.1 h with rfl | h
      · simp
      · exact ih h
    · rename_i hx
      split at h
      · rename_i heq; exact absurd heq (split_ne_nil c xs)
      · rename_i a t heq
        rcases List.mem_cons.1 h with rfl | h
        · have := ih (f := a) (by rw [heq]; simp)
          simp [Ne.symm hx, this]
        · exact ih (by rw [heq]; simp [h])

theorem split_join {c : UInt8} {l : List Bytes} (hl : l ≠ []) (h : ∀ f ∈ l, c ∉ f) : split c (join c l) = l := by
  induction l with
  | nil => exact absurd rfl hl
  | cons a t ih =>
    cases t with
    | nil => exact split_no_sep (h a (by simp))
    | cons b t =>
      rw [join, split_append (h a (by simp)), ih (by simp) (fun f hf => h f (by simp [hf]))]

theorem join_split (c : UInt8) (s : Bytes) : join c (split c s) = s := by
  induction s with
  | nil => rfl
  | cons x xs ih =>
    unfold split
    split
    · rename_i hx
      cases hs : split c xs with
      | nil => exact absurd hs (split_ne_nil c xs)
      | cons a t => rw [hs] at ih; rw [join, ih, hx]; rfl
    · cases hs : split c xs with
      | nil => exact absurd hs (split_ne_nil c xs)
      | cons a t =>
        rw [hs] at ih
        simp only
        cases t with
        | nil => simp only [join] at ih ⊢; rw [ih]
        | cons b t => simp only [join] at ih ⊢; rw [List.cons_append, ih]

/-- The fields remaining after `strsep`. -/
def splitRest (c : UInt8) : Option Bytes → List Bytes
  | none => []
  | some r => split c r

theorem split_eq_rest (c : UInt8) (s : Bytes) : split c s = (strsep c s).1 :: splitRest c (strsep c s).2 := by
  rw [split_strsep]
  cases (strsep c s).2 <;> rfl

end Verif.Text
