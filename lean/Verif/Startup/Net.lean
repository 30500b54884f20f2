import Verif.Addr.Lemmas
import Verif.Startup.Spec

namespace Verif.Startup
open Verif Text
open Verif.Addr (XAddr Family Known width bit)

theorem plen_le (c : Cfg) (h : c.Ok) (a : XAddr) (hk : Known a) : plen c a ≤ width a.af := by
  rcases hk with e | e <;> simp [plen, e, width, h.len4, h.len6]

theorem bits_eq (c : Cfg) (a : XAddr) : bits c a = plen c a := rfl

theorem plen_af {c : Cfg} {a b : XAddr} (h : a.af = b.af) : plen c a = plen c b := by simp [plen, h]

/-- What a masked address looks like. -/
theorem mask_spec (c : Cfg) (h : c.Ok) (a : XAddr) (hk : Known a) :
    ∃ m, mask a (bits c a) = some m ∧ m.af = a.af ∧ m.scope = a.scope ∧
      ∀ i < width a.af, bit m i = (bit a i && decide (i < plen c a)) := by
  obtain ⟨x, hx, haf, hb⟩ := Addr.netmask_bits a.af (plen c a) (plen_le c h a hk) hk
  obtain ⟨r, hr, hraf⟩ := Addr.and_ok a x hk haf.symm
  refine ⟨r, by simp [mask, bits_eq, hx, hr], hraf.1, hraf.2, fun i hi => ?_⟩
  rw [Addr.bit_and a x r hr i hi, hb i hi]

theorem mask_unknown (a : XAddr) (n : Nat) (h : ¬ Known a) : mask a n = none := by
  have : Addr.netmask a.af n = none := by
    apply Addr.netmask_none
    cases e : a.af with
    | inet => exact absurd (Or.inl e) h
    | inet6 => exact absurd (Or.inr e) h
    | other n => exact Or.inr ⟨n, rfl⟩
  simp [mask, this]

theorem known_of_mask {c : Cfg} {a m : XAddr} (h : mask a (bits c a) = some m) : Known a := by
  apply Classical.byContradiction
  intro hk
  rw [mask_unknown a _ hk] at h
  cases h

/-- An address that is the masked form of some address. -/
def Masked (c : Cfg) (m : XAddr) : Prop := ∃ a, Known a ∧ mask a (bits c a) = some m

theorem Masked.known {c : Cfg} (h : c.Ok) {m : XAddr} (hm : Masked c m) : Known m := by
  obtain ⟨a, hk, ha⟩ := hm
  obtain ⟨m', hm', haf, _⟩ := mask_spec c h a hk
  rw [ha] at hm'; cases hm'
  unfold Known at *
  rw [haf]; exact hk

/-- A masked address is found exactly by the addresses of its network. -/
theorem cmp_mask (c : Cfg) (h : c.Ok) {a m d : XAddr} (ha : mask a (bits c a) = some m) (hd : Masked c d) :
    Addr.cmp m d = 0 ↔ SameNet c a d := by
  have hk := known_of_mask ha
  obtain ⟨m', hm', haf, hsc, hb⟩ := mask_spec c h a hk
  rw [ha] at hm'; cases hm'
  obtain ⟨b, hkb, hbm⟩ := hd
  obtain ⟨d', hd', daf, dsc, db⟩ := mask_spec c h b hkb
  rw [hbm] at hd'; cases hd'
  have hkm : Known m := by unfold Known at *; rw [haf]; exact hk
  by_cases e : a.af = b.af
  · rw [Addr.cmp_zero m d hkm (by rw [haf, daf, e]), haf]
    have hpl := plen_le c h a hk
    constructor
    · rintro ⟨h1, h2⟩
      refine ⟨by rw [daf, e], fun i hi => ?_, fun h6 => ?_⟩
      · have := h1 i (by omega)
        rw [hb i (by omega), db i (by rw [← e]; omega)] at this
        rw [db i (by rw [← e]; omega)]
        simp only [hi, decide_true, Bool.and_true] at this
        exact this
      · rw [← hsc]; exact h2 h6
    · rintro ⟨h0, h1, h2⟩
      refine ⟨fun i hi => ?_, fun h6 => by rw [hsc]; exact h2 h6⟩
      rw [hb i hi, db i (by rw [← e]; exact hi)]
      by_cases hlt : i < plen c a
      · have := h1 i hlt
        rw [db i (by rw [← e]; exact hi)] at this
        rw [this, plen_af e]
        simp only [Bool.and_assoc, Bool.and_self]
      · rw [plen_af e] at *
        simp [hlt]
  · constructor
    · intro hc
      exfalso
      unfold Addr.cmp at hc
      rw [if_pos (by rw [haf, daf]; exact e)] at hc
      split at hc <;> simp at hc
    · intro hs
      exact absurd (hs.1.trans daf) e

theorem SameNet.refl (c : Cfg) (a : XAddr) : SameNet c a a := ⟨rfl, fun _ _ => rfl, fun _ => rfl⟩

theorem SameNet.symm {c : Cfg} {a b : XAddr} (h : SameNet c a b) : SameNet c b a :=
  ⟨h.1.symm, fun i hi => (h.2.1 i (by rw [plen_af h.1]; exact hi)).symm, fun e => (h.2.2 (h.1.trans e)).symm⟩

theorem SameNet.trans {c : Cfg} {a b d : XAddr} (h : SameNet c a b) (h' : SameNet c b d) : SameNet c a d :=
  ⟨h.1.trans h'.1, fun i hi => (h.2.1 i hi).trans (h'.2.1 i (by rw [← plen_af h.1]; exact hi)),
    fun e => (h.2.2 e).trans (h'.2.2 (h.1.symm.trans e))⟩

/-- An address and its masked form are of the same network. -/
theorem sameNet_mask (c : Cfg) (h : c.Ok) {a m : XAddr} (ha : mask a (bits c a) = some m) : SameNet c a m := by
  have hk := known_of_mask ha
  obtain ⟨m', hm', haf, hsc, hb⟩ := mask_spec c h a hk
  rw [ha] at hm'; cases hm'
  have hpl := plen_le c h a hk
  refine ⟨haf.symm, fun i hi => ?_, fun _ => hsc.symm⟩
  rw [hb i (by omega)]; simp [hi]

/-- Masked addresses compare equal exactly when they are of the same network. -/
theorem cmp_masked (c : Cfg) (h : c.Ok) {m d : XAddr} (hm : Masked c m) (hd : Masked c d) :
    Addr.cmp m d = 0 ↔ SameNet c m d := by
  obtain ⟨a, hk, ha⟩ := hm
  rw [cmp_mask c h ha hd]
  have := sameNet_mask c h ha
  exact ⟨fun hs => this.symm.trans hs, fun hs => this.trans hs⟩

end Verif.Startup
