/-
C10: a bitmap is a finite set of bit numbers, and its byte-string form is minimal and faithful.
-/
import Verif.Bitmap.Lemmas

namespace Verif.Bitmap
open Verif

/-- The specification: a set of numbers. -/
abbrev NSet := Nat → Bool

/-- The effect of a call on the set, given whether it reported success.  Bit numbers above 2^24 and byte
strings longer than 2^21 are refused; other failures are due to memory. -/
def specStep (s : NSet) (ok : Bool) : Op → NSet
  | .set n _ => if ok then fun m => decide (m = n) || s m else s
  | .clear n => fun m => !decide (m = n) && s m
  | .zero => fun _ => false
  | .load v _ => if ok then fun m => (Wire.ofBE v).testBit m else s

/-- Whether a call reports success. -/
def succeeds (b : Bitmap) : Op → Bool
  | .set n mem => (setBit b n mem).isSome
  | .clear _ => true
  | .zero => true
  | .load s mem => (fromString b s mem).isSome

/-- Run a history on both the bitmap and the set. -/
def runBoth : Bitmap → NSet → List Op → Bitmap × NSet
  | b, s, [] => (b, s)
  | b, s, o :: os => runBoth (step b o) (specStep s (succeeds b o) o) os

theorem step_inv {b : Bitmap} (hb : Inv b) (o : Op) :
    Inv (step b o) ∧ ∀ m, wt (step b o).d m = specStep (wt b.d) (succeeds b o) o m := by
  cases o with
  | set n mem =>
    rcases h : setBit b n mem with _ | b'
    · simp [step, specStep, succeeds, h, hb]
    · obtain ⟨h1, _, h3⟩ := setBit_some hb h
      simpa [step, specStep, succeeds, h] using ⟨h1, h3⟩
  | clear n => exact clearBit_spec n hb
  | zero => exact zero_spec hb
  | load s mem =>
    rcases h : fromString b s mem with _ | b'
    · simp [step, specStep, succeeds, h, hb]
    · obtain ⟨h1, _, h3⟩ := fromString_some hb h
      simpa [step, specStep, succeeds, h] using ⟨h1, h3⟩

theorem runBoth_spec (os : List Op) : ∀ (b : Bitmap) (s : NSet), Inv b → (∀ m, wt b.d m = s m) →
    Inv (runBoth b s os).1 ∧ ∀ m, wt (runBoth b s os).1.d m = (runBoth b s os).2 m := by
  induction os with
  | nil => intro b s hb hs; exact ⟨hb, hs⟩
  | cons o os ih =>
    intro b s hb hs
    obtain ⟨h1, h2⟩ := step_inv hb o
    have : wt b.d = s := funext hs
    exact ih _ _ h1 (by rw [← this]; exact h2)

/-- C10, set behaviour: after any history from a fresh bitmap, testing a bit answers membership in the set
obtained by performing the same history on a set. -/
theorem C10_set (os : List Op) (n : Nat) :
    testBit (runBoth new (fun _ => false) os).1 n = (runBoth new (fun _ => false) os).2 n := by
  obtain ⟨h1, h2⟩ := runBoth_spec os new _ new_inv (fun m => wt_zeros 1 m)
  rw [testBit_eq h1, h2]

/-- A bitmap reachable by calls. -/
def Reachable (b : Bitmap) : Prop := ∃ os, b = (runBoth new (fun _ => false) os).1

theorem Reachable.inv {b : Bitmap} (h : Reachable b) : Inv b := by
  obtain ⟨os, rfl⟩ := h
  exact (runBoth_spec os new _ new_inv (fun m => wt_zeros 1 m)).1

/-- C10, availability: with memory, exactly the numbers up to 2^24 can be set and exactly the strings of up
to 2^21 bytes loaded. -/
theorem C10_accepts (b : Bitmap) (h : Reachable b) (n : Nat) (s : Bytes) :
    ((setBit b n true).isSome ↔ n ≤ 16777216) ∧ ((fromString b s true).isSome ↔ s.length ≤ 2097152) := by
  have ht := h.inv.top_lt
  have hr : ∀ k, (reserve b k true).isSome ↔ k ≤ 16777216 := by
    intro k
    unfold reserve
    split
    · simp; omega
    · split <;> simp <;> omega
  constructor
  · rw [← hr]
    unfold setBit
    cases reserve b n true <;> simp
  · unfold fromString
    simp only
    split
    · simp; omega
    · have := (hr (s.length * 8)).2 (by omega)
      cases hc : reserve b (s.length * 8) true with
      | none => simp [hc] at this
      | some b' => simp only; split <;> simp <;> omega

/-- C10, number of bits: one more than the largest member, 0 for the empty set. -/
theorem C10_nbits (b : Bitmap) (h : Reachable b) :
    (∀ n, testBit b n = true → n < nbits b) ∧ (nbits b ≠ 0 → testBit b (nbits b - 1) = true) := by
  have := nbits_spec h.inv
  simpa only [testBit_eq h.inv] using this

/-- C10, byte strings: the string form always exists for a large enough buffer, denotes (as a big-endian
number) exactly the set, and no shorter string does. -/
theorem C10_string (b : Bitmap) (h : Reachable b) (l : Nat) (hl : nbytes b ≤ l) :
    ∃ s, toString b l = some s ∧ s.length = nbytes b ∧
      (∀ n, (Wire.ofBE s).testBit n = testBit b n) ∧
      (∀ s' : Bytes, (∀ n, (Wire.ofBE s').testBit n = testBit b n) → s.length ≤ s'.length) := by
  obtain ⟨s, h1, h2, h3⟩ := toString_some h.inv l hl
  refine ⟨s, h1, h2, fun n => by rw [h3, testBit_eq h.inv], fun s' hs' => ?_⟩
  rw [h2]
  unfold nbytes
  by_cases h0 : nbits b = 0
  · omega
  · have := (nbits_spec h.inv).2 h0
    rw [← testBit_eq h.inv, ← hs'] at this
    by_cases hc : 8 * s'.length ≤ nbits b - 1
    · rw [ofBE_testBit_ge s' _ hc] at this; simp at this
    · omega

/-- C10, round trip: loading the string form into any bitmap restores the set. -/
theorem C10_roundtrip (b c c' : Bitmap) (hb : Reachable b) (hc : Reachable c) (l : Nat) (s : Bytes) (mem : Bool)
    (hs : toString b l = some s) (hl : fromString c s mem = some c') (n : Nat) :
    testBit c' n = testBit b n := by
  obtain ⟨i, -, hw⟩ := fromString_some hc.inv hl
  have hle : nbytes b ≤ l := by
    unfold toString at hs
    simp only at hs
    split at hs
    · simp at hs
    · omega
  obtain ⟨s', h1, _, h3⟩ := toString_some hb.inv l hle
  rw [hs] at h1
  simp only [Option.some.injEq] at h1
  subst h1
  rw [testBit_eq i, hw, h3, testBit_eq hb.inv]

/-- Loading what was written always succeeds when memory is available, except for the single bit number
2^24, which can be set but makes the string too long to load. -/
theorem C10_roundtrip_accepted (b c : Bitmap) (hb : Reachable b) (hc : Reachable c) (l : Nat) (s : Bytes)
    (hs : toString b l = some s) (h : testBit b 16777216 = false) : (fromString c s true).isSome := by
  have hle : nbytes b ≤ l := by
    unfold toString at hs
    simp only at hs
    split at hs
    · simp at hs
    · omega
  obtain ⟨s', h1, h2, _⟩ := toString_some hb.inv l hle
  rw [hs] at h1
  simp only [Option.some.injEq] at h1
  subst h1
  rw [(C10_accepts c hc 0 s).2, h2]
  unfold nbytes
  by_cases h0 : nbits b = 0
  · omega
  · have hm := (nbits_spec hb.inv).2 h0
    have := hb.inv.max _ hm
    have hne : nbits b - 1 ≠ 16777216 := by
      intro he; rw [he, ← testBit_eq hb.inv, h] at hm; simp at hm
    omega

/-- Non-trivial case: bits in different words, a clear lowering the top, and the string form. -/
example : let b := (runBoth new (fun _ => false) [.set 3 true, .set 70 true, .set 40 true, .clear 70]).1
    testBit b 40 = true ∧ testBit b 70 = false ∧ b.top = 1 ∧ nbits b = 41 ∧
    toString b 6 = some [1, 0, 0, 0, 0, 8] ∧
    (fromString new [1, 0, 0, 0, 0, 8] true).map (fun c => (testBit c 40, testBit c 3, testBit c 4)) =
      some (true, true, false) := by decide

end Verif.Bitmap
