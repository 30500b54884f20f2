/-
Reading back: what a successful read says about the bytes.
-/
import Verif.Wire

namespace Verif.Wire
open Verif

/-- How a name may be written: as it is, or with one NUL byte at the end. -/
def Named (v s : Bytes) : Prop := (v = s ∨ v = s ++ [0]) ∧ (0 : UInt8) ∉ s

theorem getCstr_named {l s r : Bytes} (h : getCstr l = some (s, r)) : ∃ v, Named v s ∧ l = str v ++ r ∧ v.length ≤ maxString := by
  unfold getCstr at h
  split at h
  · simp at h
  · rename_i v rest hv
    split at h
    · simp at h
    · rename_i s' hs
      simp only [Option.some.injEq, Prod.mk.injEq] at h
      obtain ⟨rfl, rfl⟩ := h
      refine ⟨v, ?_, getStr_some hv⟩
      unfold cstr at hs
      split at hs
      · simp at hs
      · rename_i hno
        split at hs
        · rename_i hl
          simp only [Option.some.injEq] at hs
          subst hs
          obtain ⟨ys, hys⟩ := List.getLast?_eq_some_iff.1 hl
          subst hys
          simp only [List.dropLast_concat] at hno
          exact ⟨by simp, by simpa using hno⟩
        · rename_i hl
          simp only [Option.some.injEq] at hs
          subst hs
          refine ⟨Or.inl rfl, fun hm => ?_⟩
          rcases List.eq_nil_or_concat v with rfl | ⟨ys, y, rfl⟩
          · simp at hm
          · rw [List.concat_eq_append] at *
            simp only [List.dropLast_concat, List.getLast?_concat, Option.some.injEq] at hno hl
            rcases List.mem_append.1 hm with hm | hm
            · exact hno hm
            · simp only [List.mem_singleton] at hm; exact hl hm.symm

theorem getCstr_of_named {v s : Bytes} (h : Named v s) (rest : Bytes) (hl : v.length ≤ maxString) :
    getCstr (str v ++ rest) = some (s, rest) := by
  obtain ⟨hv | hv, hn⟩ := h
  · subst hv
    exact getCstr_append _ rest hn hl
  · subst hv
    unfold getCstr
    rw [getStr_append _ rest hl]
    simp [cstr, hn]

theorem getInt_one {l : Bytes} {v : Nat} {r : Bytes} (h : getInt 1 l = some (v, r)) : ∃ x : UInt8, l = x :: r ∧ v = x.toNat := by
  have := getInt_some h
  obtain ⟨h1, h2⟩ := this
  cases l with
  | nil => simp [be] at h1
  | cons x l =>
    have h3 : be 1 v = [UInt8.ofNat (v % 256)] := by simp [be]
    rw [h3] at h1
    simp only [List.cons_append, List.nil_append, List.cons.injEq] at h1
    refine ⟨x, by rw [h1.2], ?_⟩
    rw [h1.1]
    simp
    omega

theorem getInt_cons (x : UInt8) (r : Bytes) : getInt 1 (x :: r) = some (x.toNat, r) := by
  have := getInt_append 1 x.toNat r (by have := x.toNat_lt; omega)
  have h3 : be 1 x.toNat = [x] := by
    simp [be]
  rw [h3] at this
  exact this

end Verif.Wire
