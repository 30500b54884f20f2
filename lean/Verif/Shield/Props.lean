/-
C149: a private key that is kept encrypted in memory is the same when it is needed.
-/
import Verif.Shield.Model
import Verif.PrivKey.Props

namespace Verif.Shield
open Verif
open _root_.Verif.PrivKey (pad checkPadding padding_eq check_padding pad_spec)
open _root_.Verif.PrivKey.Spec (padding)

variable {K P : Type}

/-- What is relied on: keys are read back as they were written, and the cipher keeps lengths and can be undone. -/
structure Sound (w : World K P) : Prop where
  back : ∀ k r, w.deser (w.ser k ++ r) = some (k, r)
  some : ∀ k, w.ser k ≠ []
  dec : ∀ a b x, w.dec a b (w.enc a b x) = x
  length : ∀ a b x, (w.enc a b x).length = x.length

/-- What is in memory while the key is not needed: its public part, and the private one, filled up to whole blocks with 1, 2, 3, ..., under a key that only
the random bytes beside it give. -/
def Hidden (w : World K P) (k : K) (prekey : Bytes) (h : Held K P) : Prop :=
  ∃ n, n < 16 ∧ 16 ∣ (w.ser k).length + n ∧
    h = .shielded (w.pub k) (w.flags k) (w.enc ((w.hash prekey).take 32) (((w.hash prekey).drop 32).take 16) (w.ser k ++ padding n)) prekey

/-- C149: a key is taken out exactly if what is kept is of whole blocks, and, decrypted, is a key followed by 1, 2, 3, ... to the end. -/
theorem C149_open (w : World K P) (p : P) (f : UInt8) (data prekey : Bytes) (h : Held K P) : unshield w (.shielded p f data prekey) = some h ↔
    16 ≤ data.length ∧ 16 ∣ data.length ∧
    ∃ k n, w.deser (w.dec ((w.hash prekey).take 32) (((w.hash prekey).drop 32).take 16) data) = some (k, padding n) ∧ h = .plain k := by
  unfold unshield
  dsimp only
  by_cases hl : data.length < 16 ∨ data.length % 16 ≠ 0
  · rw [if_pos hl]
    constructor
    · intro h; cases h
    · rintro ⟨h1, h2, -⟩
      omega
  · rw [if_neg hl]
    cases hd : w.deser (w.dec (keyOf w prekey) (ivOf w prekey) data) with
    | none =>
      constructor
      · intro h; cases h
      · rintro ⟨-, -, k, n, h, -⟩
        exact absurd (hd.symm.trans h) (by simp)
    | some x =>
      obtain ⟨k, rest⟩ := x
      simp only
      by_cases hp : checkPadding 0 rest = true
      · rw [if_neg (by simp [hp])]
        obtain ⟨n, rfl⟩ := check_padding.1 hp
        constructor
        · intro h
          cases h
          exact ⟨by omega, by omega, k, n, hd, rfl⟩
        · rintro ⟨-, -, k', n', h, rfl⟩
          have := hd.symm.trans h
          simp only [Option.some.injEq, Prod.mk.injEq] at this
          rw [this.1]
      · rw [if_pos (by simpa using hp)]
        constructor
        · intro h; cases h
        · rintro ⟨-, -, k', n', h, rfl⟩
          have := hd.symm.trans h
          simp only [Option.some.injEq, Prod.mk.injEq] at this
          exact absurd (check_padding.2 ⟨n', this.2⟩) hp

theorem wrap_hidden (w : World K P) (prekey : Bytes) (k : K) : Hidden w k prekey (wrap w prekey k) := by
  obtain ⟨m, p1, p2, p3⟩ := pad_spec 16 (by decide) 16 (w.ser k).length 0 (by omega)
  rw [← padding_eq] at p1
  exact ⟨m, p3, p2, by rw [wrap, p1]; rfl⟩

theorem hidden_open {w : World K P} (hw : Sound w) {k : K} {prekey : Bytes} {h : Held K P} (hh : Hidden w k prekey h) : unshield w h = some (.plain k) := by
  obtain ⟨n, h1, h2, rfl⟩ := hh
  have hl : (w.ser k ++ padding n).length = (w.ser k).length + n := by simp [padding]
  have hpos : 0 < (w.ser k).length := List.length_pos_iff.2 (hw.some k)
  rw [C149_open, hw.length, hl, hw.dec]
  exact ⟨by omega, h2, k, n, hw.back _ _, rfl⟩

/-- C149: once hidden, only its public part and what is under the new random key are in memory, also if it was hidden before; and what is taken out is
the same key. -/
theorem C149_hidden {w : World K P} (hw : Sound w) {k : K} {h : Held K P} (hh : h = .plain k ∨ ∃ prekey, Hidden w k prekey h) (prekey : Bytes) :
    ∃ h', shield w prekey h = some h' ∧ Hidden w k prekey h' ∧ unshield w h' = some (.plain k) := by
  have hu : unshield w h = some (.plain k) := by
    rcases hh with rfl | ⟨pk, hh⟩
    · rfl
    · exact hidden_open hw hh
  refine ⟨wrap w prekey k, ?_, wrap_hidden w prekey k, hidden_open hw (wrap_hidden w prekey k)⟩
  rw [shield, hu]

/-- the random bytes of the last call, if the key is hidden after these calls -/
def last : Option Bytes → List Op → Option Bytes
  | o, [] => o
  | _, .shield pk :: l => last (some pk) l
  | _, .unshield :: l => last none l

/-- C149: however often a key is hidden and taken out, nothing fails, and it is the same key; it is hidden under the random bytes of the last time. -/
theorem C149_same {w : World K P} (hw : Sound w) (k : K) (ops : List Op) :
    ∃ h, run w (.plain k) ops = some h ∧ unshield w h = some (.plain k) ∧
      (match last none ops with | none => h = .plain k | some prekey => Hidden w k prekey h) := by
  have key : ∀ (ops : List Op) (h : Held K P) (o : Option Bytes), (match o with | none => h = .plain k | some prekey => Hidden w k prekey h) →
      ∃ h', run w h ops = some h' ∧ unshield w h' = some (.plain k) ∧ (match last o ops with | none => h' = .plain k | some prekey => Hidden w k prekey h') := by
    intro ops
    induction ops with
    | nil =>
      intro h o ho
      refine ⟨h, rfl, ?_, ho⟩
      cases o with
      | none => rw [ho]; rfl
      | some pk => exact hidden_open hw ho
    | cons op ops ih =>
      intro h o ho
      have hh : h = .plain k ∨ ∃ prekey, Hidden w k prekey h := by
        cases o with
        | none => exact .inl ho
        | some pk => exact .inr ⟨pk, ho⟩
      cases op with
      | shield pk =>
        obtain ⟨h', e, hid, -⟩ := C149_hidden hw hh pk
        obtain ⟨h'', e', r⟩ := ih h' (some pk) hid
        refine ⟨h'', ?_, r⟩
        rw [run, apply, e]
        exact e'
      | unshield =>
        have hu : unshield w h = some (.plain k) := by
          rcases hh with rfl | ⟨pk, hh⟩
          · rfl
          · exact hidden_open hw hh
        obtain ⟨h'', e', r⟩ := ih (.plain k) none rfl
        refine ⟨h'', ?_, r⟩
        rw [run, apply, hu]
        exact e'
  exact key ops (.plain k) none rfl

end Verif.Shield
