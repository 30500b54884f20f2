/-
Concrete cases.
-/
import Verif.Show.Terminal

namespace Verif.Show
open Verif

/-! ### A locale that is sane: UTF-8 up to two bytes -/

def utf2 : Locale where
  decode
    | [] => none
    | c :: l =>
      if c < 128 then some (1, c.toNat)
      else
        match l with
        | [] => none
        | d :: _ => if 194 ≤ c ∧ c < 224 ∧ 128 ≤ d ∧ d < 192 then some (2, (c.toNat - 192) * 64 + (d.toNat - 128)) else none
  width wc := if wc < 32 ∨ (127 ≤ wc ∧ wc < 160) then none else some 1
  dangerous := false

private theorem utf2_cases (src : Bytes) (n wc : Nat) (h : utf2.decode src = some (n, wc)) :
    (∃ c l, src = c :: l ∧ c < 128 ∧ n = 1 ∧ wc = c.toNat) ∨
    (∃ c d l, src = c :: d :: l ∧ ¬ c < 128 ∧ (194 ≤ c ∧ c < 224 ∧ 128 ≤ d ∧ d < 192) ∧ n = 2 ∧
      wc = (c.toNat - 192) * 64 + (d.toNat - 128)) := by
  unfold utf2 at h
  simp only at h
  cases src with
  | nil => cases h
  | cons c l =>
    simp only at h
    by_cases hc : c < 128
    · rw [if_pos hc] at h; cases h; exact Or.inl ⟨c, l, rfl, hc, rfl, rfl⟩
    · rw [if_neg hc] at h
      cases l with
      | nil => cases h
      | cons d l =>
        simp only at h
        split at h
        · rename_i hd
          cases h
          exact Or.inr ⟨c, d, l, rfl, hc, hd, rfl, rfl⟩
        · cases h

theorem utf2_sane : Sane utf2 where
  len := by
    intro src n wc _ h
    rcases utf2_cases src n wc h with ⟨c, l, rfl, -, rfl, -⟩ | ⟨c, d, l, rfl, -, -, rfl, -⟩ <;> simp
  front := by
    intro src n wc rest h
    rcases utf2_cases src n wc h with ⟨c, l, rfl, hc, rfl, hw⟩ | ⟨c, d, l, rfl, hc, hd, rfl, hw⟩
    · rw [hw]; simp [utf2, hc]
    · rw [hw]; simp [utf2, hc, hd]
  ascii := by intro c src h; simp [utf2, h]
  high := by
    intro src n wc h hn c hc
    rcases utf2_cases src n wc h with ⟨c', l, rfl, -, rfl, -⟩ | ⟨c', d, l, rfl, hc', hd, rfl, -⟩
    · exact absurd rfl hn
    · have : c = c' ∨ c = d := by simpa using hc
      rcases this with rfl | rfl
      · exact UInt8.not_lt.1 hc'
      · exact hd.2.2.1
  seen := by intro c h1 h2; simp [utf2]; omega
  ctrl := by intro c h; simp [utf2]; omega

/-! ### C101 -/

/-- A file name with an escape sequence, as `sftp` prints it in a listing. -/
example : printed utf2 b!"a\u001b[2Jb\n" = .ok b!"a\\033[2Jb\n" := by decide

/-- The control character U+009B, of two bytes, and a stray byte. -/
example : printed utf2 [194, 155, 200, 195, 169] = .ok (b!"\\302\\233\\310" ++ [195, 169]) := by decide

/-- In a limited width, newline too is escaped, and what does not fit is left out. -/
example : show_ utf2 2147483647 (some 6) b!"a\nbcd" = .ok ⟨b!"a\\012b", none, 6⟩ := by decide

/-- A buffer of six bytes. -/
example : show_ utf2 6 none b!"ab\u0007cd" = .ok ⟨b!"ab", some 8, 2⟩ := by decide

/-- Where unprintable things are dangerous, nothing is printed. -/
example : printed { utf2 with dangerous := true } b!"ab\u0007cd" = .ok [] := by decide
example : printed { utf2 with dangerous := true } b!"abcd" = .ok b!"abcd" := by decide

/-- The rendering is not unambiguous: a backslash stands for itself. -/
theorem C101_ambiguous : printed utf2 b!"\\033" = printed utf2 b!"\u001b" := by decide

/-! ### C102 -/

example : syslogText b!"Invalid user a\nb\\c\u001b" = b!"Invalid user a\\nb\\\\c\\033" := by decide
example : stderrText b!"a\tb\u001b" = b!"a\tb\\033\r\n" := by decide
example : strnvis logFlags b!"ab\ncd" 5 = (b!"ab\\n", 6) := by decide
example : strnvis logFlags b!"ab\ncd" 4 = (b!"ab", 6) := by decide
example : strnvis logFlags b!"ab\ncd" 0 = ([], 6) := by decide
example : strnvis { nl := true } b!"a\nb" 10 = (b!"a\\^Jb", 5) := by decide

/-- With a buffer of one byte the length of the text is not told. -/
theorem C102_one : (strnvis logFlags b!"ab" 1).2 = 0 := by decide

/-- The standard error output, unlike the log, may have several lines for one message. -/
theorem C102_lines : stderrText b!"a\nb" = b!"a\nb\r\n" := by decide

end Verif.Show
