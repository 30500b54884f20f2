/-
Cases for C146.
-/
import Verif.Argv.Props

namespace Verif.Argv.Examples
open Verif Verif.Argv

/-! A name with a blank, a quote, a star, a backslash and a hash -/

def odd : Bytes := b!"a \"b*\\#'"

example : line [(.double, odd), (.single, odd), (.backslash, b!"it")] = b!"\"a \\\"b*\\\\#'\" 'a \"b*\\\\#\\'' \\i\\t" := by decide +kernel

example : makeargv false (line [(.double, odd), (.single, odd), (.backslash, b!"it")]) =
    .args [b!"a \"b\\*\\\\#'", b!"a \"b\\*\\\\#'", b!"it"] true := by decide +kernel

example : ∃ as, makeargv false (line [(.double, odd), (.single, odd), (.backslash, b!"it")]) = .args as true ∧
    as.map pattern = [odd.map .lit, odd.map .lit, b!"it".map .lit] ∧ as.map undo = [odd, odd, b!"it"] :=
  C146_names false (by simp) (by decide +kernel) (by decide) (by decide +kernel)

/-! Without quotes a star stands for others and a hash begins a comment. -/

example : makeargv false b!"rm * # all" = .args [b!"rm", b!"*"] true := by decide +kernel
example : pattern b!"*" = [.wild 42] := by decide +kernel
example : makeargv false b!"rm \"a" = .unterminated := by decide +kernel
example : makeargv true b!"rm \"a" = .args [b!"rm", b!"a"] false := by decide +kernel

example : undo b!"a\\*b\\c" = b!"a*b\\c" := by decide +kernel

/-! Memory -/

example : makeargv false b!"ls a" ≠ .writePast ∧ (makeargv false b!"ls a" = .readPast → ∃ p, b!"ls a" = p ++ [92]) :=
  C146_safe_partial false (.inl (by decide +kernel))

/-- C146: false as it stands: after a line that ends in a backslash the loop goes on behind its end. -/
theorem C146_read_original_false : ¬ ∀ sloppy l, makeargv sloppy l ≠ .readPast := fun h => h false b!"ls \\" (by decide +kernel)

theorem stars (sloppy : Bool) (rest : Bytes) : ∀ (n : Nat) (s : St), s.mode = .dq → s.args.length < 129 → s.j + 2 * n ≤ 8190 →
    ∃ cur, go sloppy (List.replicate n 42 ++ rest) s = go sloppy rest ⟨.dq, cur, s.args, s.j + 2 * n⟩
  | 0, s, h, _, _ => ⟨s.cur, by rw [← h]; rfl⟩
  | n + 1, s, h1, h2, h3 => by
    have hs : size = 8192 := rfl
    have hent : enter s = s := by rw [enter, if_neg (by rw [h1]; simp)]
    have e : go sloppy (List.replicate (n + 1) 42 ++ rest) s = go sloppy (List.replicate n 42 ++ rest) ⟨s.mode, s.cur ++ [92, 42], s.args, s.j + 2⟩ := by
      rw [List.replicate_succ, List.cons_append, go.eq_def]
      dsimp only
      rw [if_neg (by omega), if_neg (by decide), if_neg (by decide), if_neg (by decide), if_neg (by simp),
        if_pos ⟨by rw [h1]; rfl, by decide⟩, if_neg (by omega), hent, put_ok (by simp only [List.length_cons, List.length_nil]; omega)]
      rfl
    obtain ⟨cur, hc⟩ := stars sloppy rest n ⟨s.mode, s.cur ++ [92, 42], s.args, s.j + 2⟩ h1 h2 (by simp only; omega)
    exact ⟨cur, by rw [e, hc]; simp only; congr 2; omega⟩

theorem letters (sloppy : Bool) : ∀ (n : Nat) (s : St), s.mode = .dq → s.args.length < 129 → s.j ≤ size → size < s.j + n →
    go sloppy (List.replicate n 97) s = .writePast
  | 0, _, _, _, _, _ => by omega
  | n + 1, s, h1, h2, h3, h4 => by
    have hent : enter s = s := by rw [enter, if_neg (by rw [h1]; simp)]
    rw [List.replicate_succ, go.eq_def]
    dsimp only
    rw [if_neg (by omega), if_neg (by decide), if_neg (by decide), if_neg (by decide), if_neg (by simp),
      if_neg (by intro h; exact absurd h.2 (by decide)), hent]
    by_cases h : s.j + 1 ≤ size
    · rw [put_ok h]
      exact letters sloppy n ⟨s.mode, s.cur ++ [97], s.args, s.j + 1⟩ h1 h2 h (by simp only; omega)
    · rw [put, if_pos (by simp only [List.length_cons, List.length_nil]; omega)]

/-- C146: false as it stands: many stars in quotes, then letters, leave the buffer behind. -/
theorem C146_write_original_false : ¬ ∀ sloppy l, makeargv sloppy l ≠ .writePast := fun h => h false (34 :: (List.replicate 4090 42 ++ List.replicate 110 97)) (by
  have hs : size = 8192 := rfl
  rw [makeargv, if_neg (by simp only [List.length_cons, List.length_append, List.length_replicate]; omega), go.eq_def]
  dsimp only
  rw [if_neg (by simp), if_neg (by decide),
    if_pos (by decide), if_pos (by rfl)]
  obtain ⟨cur, hc⟩ := stars false (List.replicate 110 97) 4090 ⟨.dq, [], [], 0⟩ rfl (by simp) (by simp)
  refine hc.trans (letters false 110 _ rfl (by simp) (by simp only; omega) (by simp only; omega)))

end Verif.Argv.Examples
