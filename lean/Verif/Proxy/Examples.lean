/-
Cases that meet the hypotheses.
-/
import Verif.Proxy.Apart

namespace Verif.Proxy
open Verif Wire

/-- Two clients, whose channels have the same number for them: data for channel 3 is for client 1. -/
example : Has (run init two) 2 0 7 ∧ Has (run init two) 3 1 7 ∧ isClient (run init two).slots 1 = true ∧ Few (run init two) ∧
    (run init two).status = .running :=
  ⟨⟨⟨2, .proxy 0 7, some 40, false, false⟩, by decide +kernel, rfl⟩, ⟨⟨3, .proxy 1 7, some 41, false, false⟩, by decide +kernel, rfl⟩,
    by decide +kernel, by unfold Few; decide +kernel, by decide +kernel⟩

example : (step (run init two) (.server 94 (be 4 3 ++ str b!"hi"))).down =
    (run init two).down ++ [(1, 0 :: 94 :: (be 4 7 ++ str b!"hi"))] := by decide +kernel

/-- The request of client 1 was sent with number 3. -/
example : (run init two).up.map (fun u => (u.src, u.type, u.body)) =
    [(some 0, 90, str b!"session" ++ be 4 2 ++ be 4 1000 ++ be 4 100), (some 1, 90, str b!"session" ++ be 4 3 ++ be 4 1000 ++ be 4 100)] := by
  decide +kernel

/-- It ends when both sides have closed it. -/
example : (run init (two ++ [.packet 1 (0 :: 97 :: be 4 41)])).slots[3]? = some (some ⟨3, .proxy 1 7, some 41, true, false⟩) ∧
    (run init (two ++ [.packet 1 (0 :: 97 :: be 4 41), .server 97 (be 4 3)])).slots[3]? = some none := by decide +kernel

/-- A client may end the connection for all. -/
example : Taken 1 (be 4 11) ∧ (step (run init two) (.packet 1 (0 :: 1 :: be 4 11))).up = (run init two).up ++ [⟨some 1, 1, be 4 11, be 4 11⟩] :=
  ⟨.other _ _ (by decide) (by decide) (by decide), by decide +kernel⟩

/-- It must not ask for other things than to listen. -/
example : isClient (step (run init two) (.packet 1 (0 :: 80 :: (str b!"cancel-tcpip-forward" ++ [1])))).slots 1 = false := by decide +kernel

/-- A connection to a port is shown to the client that asked for it. -/
example : (step (run init (two ++ [wants 1])) (.forwarded b!"localhost" 8080 50 1000 100 b!"10.0.0.1" 4000)).down.getLast? =
    some (1, opening b!"localhost" 8080 50 1000 100 b!"10.0.0.1" 4000) := by decide +kernel

/-- When it leaves, the server is told to stop. -/
example : ((run init (two ++ [wants 1, .eof 1])).up.drop 3).map (·.body) = [str b!"cancel-tcpip-forward" ++ [0] ++ str b!"localhost" ++ be 4 8080] ∧
    (run init (two ++ [wants 1, .eof 1])).perms = [] ∧
    (run init (two ++ [wants 1, .eof 1])).slots[3]? = some (some ⟨3, .detached, some 41, false, false⟩) := by decide +kernel

/-- Its channel is closed then. -/
example : (run init (two ++ [.eof 1, .collect 3])).up.getLast? = some ⟨none, 97, [], be 4 41⟩ ∧
    (run init (two ++ [.eof 1, .collect 3, .server 97 (be 4 3), .collect 3])).slots[3]? = some none := by decide +kernel

example : Gone (run init (two ++ [wants 1, .eof 1])) 1 := by
  have h := (C130_leaves (s := run init (two ++ [wants 1])) (d := 1) (by decide +kernel) (by decide +kernel)).1
  rw [show two ++ [wants 1, .eof 1] = (two ++ [wants 1]) ++ [.eof 1] by simp, run_append]
  exact h

/-- Events that the partial claims are about. -/
example : ∀ e ∈ two, Decent e := by
  intro e he
  have hn : Named b!"session" b!"session" := ⟨.inl rfl, by decide⟩
  have ho : ∀ d id, id < 2 ^ 32 → Decent (asks d id) := fun d id hid =>
    ⟨fun _ h => (by cases h), fun d' p h => by
      cases h
      refine ⟨0, 90, _, rfl, ?_⟩
      have := Taken.opens id b!"session" b!"session" (be 4 1000 ++ be 4 100) hid hn (by decide)
      simpa using this⟩
  have hother : ∀ e : Event, (∀ d, e ≠ .lost d) → (∀ d p, e ≠ .packet d p) → Decent e := fun e h1 h2 => ⟨h1, fun d p h => absurd h (h2 d p)⟩
  simp only [two, List.mem_cons, List.not_mem_nil, or_false] at he
  rcases he with rfl | rfl | rfl | rfl | rfl | rfl
  · exact hother _ (fun _ h => (by cases h)) (fun _ _ h => (by cases h))
  · exact hother _ (fun _ h => (by cases h)) (fun _ _ h => (by cases h))
  · exact ho _ _ (by decide)
  · exact ho _ _ (by decide)
  · exact hother _ (fun _ h => (by cases h)) (fun _ _ h => (by cases h))
  · exact hother _ (fun _ h => (by cases h)) (fun _ _ h => (by cases h))

example : Confirmed (run init two) 1 := by
  intro n c id hc hk
  rw [show run init two = ⟨.running, [some ⟨0, .client, none, false, false⟩, some ⟨1, .client, none, false, false⟩,
    some ⟨2, .proxy 0 7, some 40, false, false⟩, some ⟨3, .proxy 1 7, some 41, false, false⟩], [], 4, [], (run init two).up,
    (run init two).down, []⟩ by decide +kernel] at hc
  match n, hc with
  | 0, hc => cases hc; cases hk
  | 1, hc => cases hc; cases hk
  | 2, hc => cases hc; cases hk
  | 3, hc => cases hc; exact .inl (by simp)

end Verif.Proxy
