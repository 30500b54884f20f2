/-
Cases that meet the hypotheses.
-/
import Verif.Pace.Props

namespace Verif.Pace
open Verif Wire

theorem goes_key (s : St) (ms : Nat) (chans : List Chan) : Goes s (key ms chans) :=
  ⟨⟨rfl, rfl, .inr ⟨rfl, show (36 : Nat) < 256 by decide⟩⟩, .inl ⟨rfl, show (36 : Nat) ≠ 0 by decide⟩⟩

/-- The first key goes at once, the next three wait for the time 20 ms (less a tenth, with no jitter) later, at which they go together. -/
example : times 20 init [key 1000 [], key 1003 [], key 1007 [], key 1016 [], look 1018] = [1000000000, 1018000000] := by decide +kernel

/-- Keys at other times, same output. -/
example : times 20 init [key 1000 [], key 1011 [], look 1018] = [1000000000, 1018000000] := by decide +kernel

/-- With hiding on, as C131_times needs it. -/
example : (run 20 init [key 1000 []]).active = true ∧ AllGo 20 (run 20 init [key 1000 []]) [key 1003 [], key 1018 []] ∧
    (∀ e ∈ [key 1003 [], key 1018 []], NoX11 e) ∧
    times 20 (run 20 init [key 1000 []]) [key 1003 [], key 1018 []] = [1018000000] := by
  refine ⟨by decide +kernel, fun pre e post h => ?_, ?_, by decide +kernel⟩
  · have : e ∈ [key 1003 [], key 1018 []] := by rw [h]; simp
    simp only [List.mem_cons, List.not_mem_nil, or_false] at this
    rcases this with rfl | rfl <;> exact goes_key _ _ _
  · intro e he c hc
    simp only [List.mem_cons, List.not_mem_nil, or_false] at he
    rcases he with rfl | rfl <;> cases hc

/-- Nothing is typed: chaff. -/
example : (call 20 (run 20 init [key 1000 []]) (look 1018)).sent = true ∧ (call 20 (run 20 init [key 1000 []]) (look 1017)).ready = false ∧
    Goes (run 20 init [key 1000 []]) (look 1018) := by
  refine ⟨by decide +kernel, by decide +kernel, ⟨rfl, rfl, .inl rfl⟩, .inr (by decide +kernel)⟩

/-- After more than a second it ends. -/
example : (call 20 (run 20 init [key 1000 []]) (look 2024)).st.active = false ∧ ¬ Goes (run 20 init [key 1000 []]) (look 2024) := by
  refine ⟨by decide +kernel, fun h => ?_⟩
  rcases h.2 with ⟨h, -⟩ | h
  · cases h
  · exact absurd h (by decide +kernel)

/-- The bounds, with jitter. -/
example : (run 20 init [⟨1000000000, true, false, true, 36, true, true, [], 1999999, 1999999, 5⟩]).next = 1000000000 + 18000000 + 1999999 + 1999999 := by
  decide +kernel

/-- A program that is not late. -/
example : Punctual 20 init ([key 1000 []] ++ [key 1003 []]) ∧ (call 20 (run 20 init [key 1000 []]) (key 1003 [])).ready = false := by
  refine ⟨fun pre e post h ha => ?_, by decide +kernel⟩
  match pre, h with
  | [], h => cases ha
  | [a], h =>
    simp only [List.cons_append, List.nil_append, List.cons.injEq] at h
    obtain ⟨rfl, rfl, -⟩ := h
    decide +kernel
  | _ :: _ :: _, h =>
    have := congrArg List.length h
    simp at this

end Verif.Pace
