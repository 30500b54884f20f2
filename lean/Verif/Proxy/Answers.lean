/-
C130: answers to global requests of the program itself.
-/
import Verif.Proxy.Apart

namespace Verif.Proxy
open Verif

/-- the requests of the program itself that wait for an answer -/
def asked : List Event → List Nat
  | [] => []
  | .ownAsk q :: l => q :: asked l
  | _ :: l => asked l

/-- the numbers of answers that have come -/
def came : List Event → List Bool
  | [] => []
  | .answer ok :: l => ok :: came l
  | _ :: l => came l

theorem step_idle {s : St} {e : Event} (h : s.status ≠ .running) : step s e = s := by
  unfold step
  rw [if_pos h]

theorem run_idle : ∀ {evs : List Event} {s : St}, s.status ≠ .running → run s evs = s
  | [], _, _ => rfl
  | _ :: _, _, h => by rw [run, step_idle h, run_idle h]

theorem step_frame {s : St} {e : Event} (h1 : ∀ ok, e ≠ .answer ok) (h2 : ∀ q, e ≠ .ownAsk q) : (step s e).confs = s.confs ∧ (step s e).answers = s.answers := by
  unfold step
  split
  · exact ⟨rfl, rfl⟩
  cases e with
  | answer ok => exact absurd rfl (h1 ok)
  | ownAsk q => exact absurd rfl (h2 q)
  | server type b =>
    dsimp only
    unfold message upstream
    repeat' split
    all_goals exact ⟨rfl, rfl⟩
  | forwarded a b c d f g h =>
    dsimp only
    unfold forwarded
    repeat' split
    all_goals exact ⟨rfl, rfl⟩
  | packet a p =>
    dsimp only
    unfold downstream request
    repeat' split
    all_goals exact ⟨rfl, rfl⟩
  | collect m =>
    dsimp only
    unfold collect
    repeat' split
    all_goals exact ⟨rfl, rfl⟩
  | client => exact ⟨rfl, rfl⟩
  | own => exact ⟨rfl, rfl⟩
  | ownListen host port => exact ⟨rfl, rfl⟩
  | eof d =>
    dsimp only
    repeat' split
    all_goals exact ⟨rfl, rfl⟩
  | lost d =>
    dsimp only
    repeat' split
    all_goals exact ⟨rfl, rfl⟩
  | ownSend n type before after =>
    dsimp only
    repeat' split
    all_goals exact ⟨rfl, rfl⟩
  | ownRemote n r =>
    dsimp only
    repeat' split
    all_goals exact ⟨rfl, rfl⟩
  | ownFree n =>
    dsimp only
    repeat' split
    all_goals exact ⟨rfl, rfl⟩

theorem answers_run : ∀ {evs : List Event} {s : St}, (run s evs).status = .running →
    (run s evs).answers.map Prod.fst ++ (run s evs).confs = s.answers.map Prod.fst ++ s.confs ++ asked evs ∧
    ∃ l, (run s evs).answers.map Prod.snd = s.answers.map Prod.snd ++ l ∧ l.Sublist (came evs)
  | [], s, _ => ⟨by simp [run, asked], [], by simp [run], by simp [came]⟩
  | e :: l, s, h => by
    have hs : s.status = .running := by
      by_cases hs : s.status = .running
      · exact hs
      · rw [run_idle hs] at h
        exact h
    rw [run] at h ⊢
    obtain ⟨i1, k, i2, i3⟩ := answers_run h
    have other : (∀ ok, e ≠ .answer ok) → (∀ q, e ≠ .ownAsk q) → asked (e :: l) = asked l → came (e :: l) = came l →
        (run (step s e) l).answers.map Prod.fst ++ (run (step s e) l).confs = s.answers.map Prod.fst ++ s.confs ++ asked (e :: l) ∧
        ∃ m, (run (step s e) l).answers.map Prod.snd = s.answers.map Prod.snd ++ m ∧ m.Sublist (came (e :: l)) := by
      intro h1 h2 h3 h4
      obtain ⟨f1, f2⟩ := step_frame (s := s) h1 h2
      rw [f1, f2] at i1
      rw [f2] at i2
      exact ⟨by rw [i1, h3], k, i2, by rwa [h4]⟩
    cases e with
    | answer ok =>
      have e0 : step s (.answer ok) = answer s ok := by
        unfold step
        rw [if_neg (by simp [hs])]
      cases hc : s.confs with
      | nil =>
        have e1 : step s (.answer ok) = s := by rw [e0, answer, hc]
        rw [e1] at i1 i2 ⊢
        rw [hc] at i1
        exact ⟨i1, k, i2, i3.cons _⟩
      | cons q c =>
        have e1 : step s (.answer ok) = { s with confs := c, answers := s.answers ++ [(q, ok)] } := by rw [e0, answer, hc]
        rw [e1] at i1 i2 ⊢
        refine ⟨?_, ok :: k, ?_, i3.cons_cons _⟩
        · rw [i1, asked]
          · simp
          · simp
        · rw [i2]
          simp
    | ownAsk q =>
      have e1 : step s (.ownAsk q) = { s with confs := s.confs ++ [q] } := by
        unfold step
        rw [if_neg (by simp [hs])]
      rw [e1] at i1 i2 ⊢
      exact ⟨by rw [i1, asked]; simp, k, i2, i3⟩
    | _ => exact other (by simp) (by simp) rfl rfl

/-- C130: requests of the program itself are answered in order, each at most once, and with answers that have come, each used at most once. Missing: that it
is the answer to that request, which is false if clients ask too (`C130_answers_original_false`). -/
theorem C130_answers_partial {evs : List Event} (h : (run init evs).status = .running) :
    (run init evs).answers.map Prod.fst ++ (run init evs).confs = asked evs ∧ ((run init evs).answers.map Prod.snd).Sublist (came evs) := by
  obtain ⟨h1, l, h2, h3⟩ := answers_run h
  exact ⟨by rw [h1]; rfl, by rw [h2]; exact h3⟩

-- a case: two requests, one answer
example : (run init [.client, .ownAsk 7, .ownAsk 8, .answer true]).answers = [(7, true)] ∧
    (run init [.client, .ownAsk 7, .ownAsk 8, .answer true]).status = .running := by decide +kernel

end Verif.Proxy
