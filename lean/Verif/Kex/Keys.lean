/-
C53: key derivation.
-/
import Verif.Kex.Spec

namespace Verif.Kex
open Verif Wire Text

theorem blocks_length (H : Bytes → Bytes) (m : Nat) (hm : ∀ x, (H x).length = m) (K h : Bytes) (X : UInt8) (sid : Bytes)
    (n : Nat) : (blocks H K h X sid n).length = n * m := by
  induction n with
  | zero => simp [blocks]
  | succ n ih =>
    cases n with
    | zero => simp [blocks, hm]
    | succ n => rw [blocks, List.length_append, ih, hm, Nat.succ_mul (n + 1)]

theorem expandKey_eq (H : Bytes → Bytes) (m : Nat) (hm : ∀ x, (H x).length = m) (hpos : 0 < m) (K h : Bytes) (X : UInt8)
    (sid : Bytes) (need fuel n : Nat) (hf : need ≤ fuel + (n + 1) * m) :
    ∃ k, expandKey H K h need m fuel (blocks H K h X sid (n + 1)) = blocks H K h X sid (k + 1) ∧ need ≤ (k + 1) * m ∧
      (k = n ∨ k * m < need) := by
  induction fuel generalizing n with
  | zero => exact ⟨n, rfl, by omega, .inl rfl⟩
  | succ fuel ih =>
    rw [expandKey, blocks_length H m hm]
    by_cases hc : need > (n + 1) * m
    · rw [if_pos hc]
      have hs : (n + 1 + 1) * m = (n + 1) * m + m := Nat.succ_mul _ _
      obtain ⟨k, h1, h2, h3⟩ := ih (n + 1) (by omega)
      refine ⟨k, h1, h2, ?_⟩
      rcases h3 with rfl | h3
      · exact .inr hc
      · exact .inr h3
    · rw [if_neg hc]
      exact ⟨n, rfl, by omega, .inl rfl⟩

/-- **C53** the derived key is the RFC's `K1 || K2 || ...`, cut at a block boundary, of at least the
requested length and with no block more than necessary. -/
theorem C53_rfc (H : Bytes → Bytes) (m : Nat) (hm : ∀ x, (H x).length = m) (hpos : 0 < m) (sid h K : Bytes) (X : UInt8)
    (need : Nat) :
    ∃ k, deriveKey H m sid X need h K = blocks H K h X sid (k + 1) ∧
      need ≤ (deriveKey H m sid X need h K).length ∧ (k = 0 ∨ k * m < need) := by
  obtain ⟨k, h1, h2, h3⟩ := expandKey_eq H m hm hpos K h X sid need need 0 (by omega)
  refine ⟨k, h1, ?_, h3⟩
  have : deriveKey H m sid X need h K = blocks H K h X sid (k + 1) := h1
  rw [this, blocks_length H m hm]; exact h2

/-- **C53** agreement: both ends, given the same shared secret, exchange hash and session id, end up with the
same session id, and each end's sending keys are the other end's receiving keys. -/
theorem C53_agree (H : Bytes → Bytes) (m : Nat) (initial : Bool) (sid h K : Bytes) (need : Nat)
    (sc ss : Bytes) (ci co si so : KeySet)
    (hc : deriveKeys H m false initial sid need h K = .ok (sc, ci, co))
    (hs : deriveKeys H m true initial sid need h K = .ok (ss, si, so)) :
    sc = ss ∧ co = si ∧ ci = so := by
  unfold deriveKeys at hc hs
  split at hc
  · simp at hc
  · rename_i h1
    rw [if_neg h1] at hs
    split at hc
    · simp at hc
    · rename_i h2
      rw [if_neg h2] at hs
      simp only [ctosOf, Except.ok.injEq, Prod.mk.injEq] at hc hs
      obtain ⟨rfl, rfl, rfl⟩ := hc
      obtain ⟨rfl, rfl, rfl⟩ := hs
      exact ⟨rfl, rfl, rfl⟩

/-- The letter RFC 4253 section 7.2 assigns to each key. -/
def rfcLetter (d : Dir) : UInt8 × UInt8 × UInt8 :=
  match d with
  | .ctos => (65, 67, 69)
  | .stoc => (66, 68, 70)

/-- **C53** letters: for each direction of traffic, initialisation vector, encryption key and integrity key
are derived with the RFC's letters, all six different, and with the session id of the first exchange. -/
theorem C53_letters (H : Bytes → Bytes) (m : Nat) (server initial : Bool) (sid h K : Bytes) (need : Nat)
    (s : Bytes) (ki ko : KeySet) (hk : deriveKeys H m server initial sid need h K = .ok (s, ki, ko)) (d : Dir) :
    let keys := match d with
      | .ctos => if server then ki else ko
      | .stoc => if server then ko else ki
    keys.iv = deriveKey H m s (rfcLetter d).1 need h K ∧ keys.enc = deriveKey H m s (rfcLetter d).2.1 need h K ∧
    keys.mac = deriveKey H m s (rfcLetter d).2.2 need h K := by
  unfold deriveKeys at hk
  split at hk
  · simp at hk
  · split at hk
    · simp at hk
    · simp only [Except.ok.injEq, Prod.mk.injEq] at hk
      obtain ⟨rfl, rfl, rfl⟩ := hk
      cases d <;> cases server <;> exact ⟨rfl, rfl, rfl⟩

/-- The session id along a sequence of exchanges (first one initial, later ones not). -/
def sessionIds (H : Bytes → Bytes) (m : Nat) (server : Bool) : Bytes → Bool → List (Nat × Bytes × Bytes) → Option Bytes
  | sid, _, [] => some sid
  | sid, initial, (need, h, K) :: rest =>
    match deriveKeys H m server initial sid need h K with
    | .error _ => none
    | .ok (sid', _) => sessionIds H m server sid' false rest

/-- **C53** the session id is the hash of the first exchange, however many exchanges follow, and no later
exchange fails for lack of one. -/
theorem C53_session_id (H : Bytes → Bytes) (m : Nat) (server : Bool) (need : Nat) (h K : Bytes) (hh : h ≠ [])
    (rest : List (Nat × Bytes × Bytes)) :
    sessionIds H m server [] true ((need, h, K) :: rest) = some h := by
  have step : ∀ (rest : List (Nat × Bytes × Bytes)), sessionIds H m server h false rest = some h := by
    intro rest
    induction rest with
    | nil => rfl
    | cons a rest ih =>
      obtain ⟨n', h', K'⟩ := a
      rw [sessionIds]
      unfold deriveKeys
      rw [if_neg (by simp), if_neg (by simp [hh])]
      simpa using ih
  rw [sessionIds]
  unfold deriveKeys
  rw [if_neg (by simp), if_neg (by simp)]
  simpa using step rest

/-- Non-vacuity: a toy hash of two bytes. -/
def toyHash (x : Bytes) : Bytes := [x.foldl (· + ·) 1, x.foldl (fun a b => a * 3 + b) 7]
example : (deriveKey toyHash 2 [9] 65 5 [1, 2] [3]).length = 6 := by decide
example : deriveKey toyHash 2 [9] 65 5 [1, 2] [3] ≠ deriveKey toyHash 2 [9] 66 5 [1, 2] [3] := by decide
example : (deriveKeys toyHash 2 false true [] 5 [1, 2] [3]).toBool = true := by decide
example : ∀ x, (toyHash x).length = 2 := fun _ => rfl

end Verif.Kex
