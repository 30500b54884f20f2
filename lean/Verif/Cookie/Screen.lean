/-
C143: the number of the screen.
-/
import Verif.Cookie.Props
import Verif.Banner.Props
import Verif.Misc.TimeProps

namespace Verif.Cookie
open Verif

theorem strtonum_low (s : Bytes) {hi : Int} (h : 0 ≤ hi) (h' : hi ≤ 2147483647) :
    Num.strtonum s 0 hi = (Num.strtonum s 0 2147483647).bind fun v => if v > hi then none else some v := by
  unfold Num.strtonum
  rw [if_neg (by omega), if_neg (by omega)]
  cases Num.strtoll s with
  | none => rfl
  | some x =>
    obtain ⟨v, rest⟩ := x
    simp only
    by_cases hr : rest = []
    · simp only [hr, ne_eq, not_true_eq_false, if_false]
      by_cases h1 : v < 0 ∨ v > 2147483647
      · rw [if_pos h1, if_pos (by omega)]
        rfl
      · rw [if_neg h1]
        by_cases h2 : v > hi
        · rw [if_pos (.inr h2)]
          simp [h2]
        · rw [if_neg (by omega)]
          simp [h2]
    · simp [hr]

/-- a number in base 10 -/
def decimal (ds : Bytes) : Nat := ds.foldl (fun n c => n * 10 + (c.toNat - 48)) 0

theorem decimal_val (ds : Bytes) : Num.digitsVal 0 ds = decimal ds := Banner.digitsVal_eq 0 ds

theorem drop_to (x : UInt8) : ∀ (a b : Bytes), x ∉ a → (a ++ x :: b).dropWhile (· ≠ x) = x :: b
  | [], b, _ => by simp
  | c :: a, b, h => by
    simp only [List.mem_cons, not_or] at h
    rw [List.cons_append, List.dropWhile_cons, if_pos (by simpa using fun e => h.1 e.symm)]
    exact drop_to x a b h.2

theorem drop_all (x : UInt8) : ∀ (a : Bytes), x ∉ a → a.dropWhile (· ≠ x) = []
  | [], _ => rfl
  | c :: a, h => by
    simp only [List.mem_cons, not_or] at h
    rw [List.dropWhile_cons, if_pos (by simpa using fun e => h.1 e.symm)]
    exact drop_all x a h.2

/-- C143: the screen the server is told is that of the display, `host:display.screen`; it is the first one if none is given or it is more than 400. -/
theorem C143_screen {host d ds : Bytes} (hh : 58 ∉ host) (hd : 46 ∉ d) (h1 : ds ≠ []) (h2 : ∀ c ∈ ds, 48 ≤ c.toNat ∧ c.toNat ≤ 57) :
    screen (host ++ 58 :: (d ++ 46 :: ds)) = (if decimal ds ≤ 400 then decimal ds else 0) ∧ screen (host ++ 58 :: d) = 0 := by
  have hdig : ∀ c ∈ ds, Num.isDigit c = true := by
    intro c hc
    have := h2 c hc
    simp only [Num.isDigit, Bool.and_eq_true, decide_eq_true_eq, UInt8.le_iff_toNat_le]
    exact this
  constructor
  · have e1 := drop_to 58 host (d ++ 46 :: ds) hh
    have e2 := drop_to 46 (58 :: d) ds (by simp [hd])
    rw [List.cons_append] at e2
    have e3 := Misc.Time.strtonum_digits hdig
    rw [if_neg h1, decimal_val] at e3
    unfold screen
    rw [e1, e2, if_neg (by simp), List.drop_succ_cons, List.drop_zero, strtonum_low ds (by decide) (by decide), e3]
    by_cases h : decimal ds ≤ 400
    · rw [if_neg (by omega), if_pos h]
      simp only [Option.bind_some]
      rw [if_neg (by omega)]
      simp
    · rw [if_neg h]
      split
      · rfl
      · simp only [Option.bind_some]
        rw [if_pos (by omega)]
        rfl
  · unfold screen
    rw [drop_to 58 host d hh, if_pos (drop_all 46 (58 :: d) (by simp [hd]))]

-- a case
example : screen b!"localhost:10.3" = 3 := (C143_screen (host := b!"localhost") (d := b!"10") (ds := b!"3") (by decide) (by decide) (by decide) (by decide)).1

end Verif.Cookie
