/-
C125: the standard input and output of a client forwarded to elsewhere.
-/
import Verif.Mux.Ses

namespace Verif.Mux
open Verif Wire

theorem getStdio_some {b host : Bytes} {port : Nat} (h : getStdio b = some (host, port)) :
    ∃ reserved nh rest, Named nh host ∧ b = str reserved ++ str nh ++ be 4 port ++ rest ∧ (port = 4294967294 ∨ port ≤ 2147483647) := by
  simp only [getStdio, bind, Option.bind_eq_some_iff, Prod.exists] at h
  obtain ⟨res, b1, h1, hs, b2, h2, p, b3, h3, h4⟩ := h
  obtain ⟨rfl, -⟩ := getStr_some h1
  obtain ⟨nh, hn, rfl, -⟩ := getCstr_named h2
  obtain ⟨rfl, -⟩ := getInt_some h3
  split at h4
  · rename_i hp
    simp only [pure, Option.some.injEq, Prod.mk.injEq] at h4
    obtain ⟨rfl, rfl⟩ := h4
    exact ⟨res, nh, b3, hn, by simp [List.append_assoc], hp⟩
  · cases h4

/-- C125: input and output are forwarded for a request with two descriptors, to where it says; and a port is one that there can be, or the sign
for a path. -/
theorem C125_stdio_opened {C : Conf} {s : St} (hr : Ready s) (W : World) {p b : Bytes} {rid : Nat} (hp : request? p = some (0x10000008, rid, b))
    {k : List Act} (hk : (step C W s (.packet p)).out = s.out ++ k) {host : Bytes} {port : Nat} {fds : List Nat}
    (ho : Act.openStdio host port fds ∈ k) :
    ∃ reserved nh rest, Named nh host ∧ b = str reserved ++ str nh ++ be 4 port ++ rest ∧ (port = 4294967294 ∨ port ≤ 2147483647) ∧
      s.child = none ∧ W.fds.length ≥ 2 ∧ fds = W.fds.take 2 ∧
      (step C W s (.packet p)).wait = some (.stdio rid) ∧ (step C W s (.packet p)).child = some W.next := by
  rw [step_request hr W hp] at hk ⊢
  have hh : handle C W s 0x10000008 rid b = stdioFwd C W s rid b := rfl
  rw [hh] at hk ⊢
  unfold stdioFwd at hk ⊢
  have nope : ∀ {l : List Act}, s.out ++ l = s.out ++ k → (∀ a ∈ l, isOpen a = false) → False := by
    intro l h1 h2
    rw [List.append_cancel_left h1] at h2
    have := h2 _ ho
    cases this
  cases hq : getStdio b with
  | none =>
    simp only [hq] at hk
    exact (nope (l := []) (by simpa [St.die] using hk) (by simp)).elim
  | some q =>
    obtain ⟨h, n⟩ := q
    simp only [hq] at hk ⊢
    obtain ⟨res, nh, rest, i1, i2, i3⟩ := getStdio_some hq
    by_cases h1 : W.fds.length < 2
    · rw [if_pos h1] at hk
      exact (nope (l := [.reply _]) hk (by simp [isOpen])).elim
    · rw [if_neg h1] at hk ⊢
      by_cases h2 : s.child.isSome = true
      · rw [if_pos h2] at hk
        exact (nope (l := [.reply _]) hk (by simp [isOpen])).elim
      · rw [if_neg h2] at hk ⊢
        by_cases h3 : (permit C W s (askStdio h n)).1 = true
        · rw [if_pos h3] at hk ⊢
          have hmem : Act.openStdio host port fds = .openStdio h n (W.fds.take 2) := by
            rcases permit_cases C W s (askStdio h n) with ⟨_, e⟩ | ⟨_, e⟩ <;> rw [e] at hk
            · have := List.append_cancel_left hk
              rw [← this] at ho
              simpa using ho
            · simp only [St.act, List.append_assoc] at hk
              have := List.append_cancel_left hk
              rw [← this] at ho
              simpa using ho
          simp only [Act.openStdio.injEq] at hmem
          obtain ⟨rfl, rfl, rfl⟩ := hmem
          exact ⟨res, nh, rest, i1, i2, i3, by simpa using h2, by omega, rfl, rfl, rfl⟩
        · rw [if_neg h3] at hk
          rcases permit_cases C W s (askStdio h n) with ⟨_, e⟩ | ⟨_, e⟩ <;> rw [e] at hk
          · exact (nope (l := [.reply _]) hk (by simp [isOpen])).elim
          · exact (nope (l := [.asked (prompt (askStdio h n)), .reply (errReply sDenied rid denied)])
              (by rw [← hk]; simp [St.act, St.err]) (by simp [isOpen])).elim

/-- C125: when the server has opened the channel the client is told its number; when the server has refused, it is told that. -/
theorem C125_stdio_confirmed {C : Conf} {s : St} (hs : s.status = .running) {rid id : Nat} (hw : s.wait = some (.stdio rid))
    (hc : s.child = some id) (W : World) (success : Bool) :
    (step C W s (.opened success)).wait = none ∧ (step C W s (.opened success)).status = .running ∧
    (step C W s (.opened success)).out = s.out ++ (if success = true then [.reply (be 4 0x80000006 ++ be 4 rid ++ be 4 id)]
      else [.reply (be 4 0x80000003 ++ be 4 rid ++ str b!"Session open refused by peer")]) := by
  have : step C W s (.opened success) = stdioConfirm s rid id success := by
    unfold step
    rw [if_neg (by simp [hs])]
    simp only [hw, hc]
  rw [this]
  unfold stdioConfirm
  cases success with
  | true => exact ⟨rfl, hs, rfl⟩
  | false => exact ⟨rfl, hs, rfl⟩

/-- A request that is met. -/
example : getStdio (str [] ++ str b!"web" ++ be 4 80) = some (b!"web", 80) ∧ getStdio (str [] ++ str b!"web" ++ be 4 3000000000) = none := by
  decide +kernel

end Verif.Mux
