import Verif.Addr.Spec

namespace Verif.Addr
open Verif Text

theorem u32_ext_iff (x y : UInt32) : x = y ↔ ∀ j < 32, x.toBitVec.getLsbD j = y.toBitVec.getLsbD j := by
  constructor
  · rintro rfl j _; rfl
  · intro h
    apply UInt32.eq_of_toBitVec_eq
    apply BitVec.eq_of_getLsbD_eq
    intro i hi
    exact h i hi

theorem wordMask_bits : ∀ l < 33, 0 < l → ∀ i < 32,
    (wordMask l).toBitVec.getLsbD (31 - i) = decide (i < l) := by decide +kernel

def m6 (l : Nat) : XAddr :=
  ⟨.inet6, (maskWords 4 l).getD 0 0, (maskWords 4 l).getD 1 0, (maskWords 4 l).getD 2 0, (maskWords 4 l).getD 3 0, 0⟩

theorem mask6_bits : ∀ l < 129, ∀ i < 128, bit (m6 l) i = decide (i < l) := by decide +kernel

theorem maskWords_length (n l : Nat) : (maskWords n l).length = n := by
  induction n generalizing l with
  | zero => rfl
  | succ n ih => unfold maskWords; split <;> simp [ih]

theorem netmask6 (l : Nat) (h : l ≤ 128) : netmask .inet6 l = some (m6 l) := by
  have hl := maskWords_length 4 l
  unfold netmask m6
  simp only [masklenValid, h, decide_true]
  match hm : maskWords 4 l, hl with
  | [a, b, c, d], _ => simp

/-- The mask has exactly the leading `l` bits set. -/
theorem netmask_bits (af : Family) (l : Nat) (h : l ≤ width af) (hk : af = .inet ∨ af = .inet6) :
    ∃ m, netmask af l = some m ∧ m.af = af ∧ ∀ i < width af, bit m i = decide (i < l) := by
  rcases hk with rfl | rfl
  · refine ⟨{ zeroed .inet with w0 := if l = 0 then 0 else wordMask l }, ?_, rfl, ?_⟩
    · simp only [width] at h
      simp [netmask, masklenValid, h]
    · intro i hi
      simp only [width] at hi h
      have e : i / 32 = 0 := by omega
      have e2 : i % 32 = i := by omega
      simp only [bit, e, e2, word]
      by_cases hl : l = 0
      · simp [hl]
      · rw [if_neg hl]
        exact wordMask_bits l (by omega) (by omega) i hi
  · exact ⟨m6 l, netmask6 l h, rfl, fun i hi => mask6_bits l (by simp [width] at h; omega) i hi⟩

theorem netmask_none (af : Family) (l : Nat) (h : ¬ l ≤ width af ∨ ∃ n, af = .other n) : netmask af l = none := by
  cases af <;> simp [netmask, masklenValid, width] at * <;> omega

theorem bit_and (a b r : XAddr) (h : and a b = some r) (i : Nat) (hi : i < width a.af) :
    bit r i = (bit a i && bit b i) := by
  unfold and at h
  split at h
  · simp at h
  · cases ha : a.af <;> rw [ha] at h <;> simp at h
    · rw [ha] at hi
      simp only [width] at hi
      have e : i / 32 = 0 := by omega
      subst h; simp [bit, e, word]
    · rw [ha] at hi
      simp only [width] at hi
      subst h
      have : i / 32 = 0 ∨ i / 32 = 1 ∨ i / 32 = 2 ∨ i / 32 = 3 := by omega
      rcases this with e | e | e | e <;> simp [bit, e, word]

theorem bit_or (a b r : XAddr) (h : or a b = some r) (i : Nat) (hi : i < width a.af) :
    bit r i = (bit a i || bit b i) := by
  unfold or at h
  split at h
  · simp at h
  · cases ha : a.af <;> rw [ha] at h <;> simp at h
    · rw [ha] at hi
      simp only [width] at hi
      have e : i / 32 = 0 := by omega
      subst h; simp [bit, e, word]
    · rw [ha] at hi
      simp only [width] at hi
      subst h
      have : i / 32 = 0 ∨ i / 32 = 1 ∨ i / 32 = 2 ∨ i / 32 = 3 := by omega
      rcases this with e | e | e | e <;> simp [bit, e, word]

theorem bit_invert (a r : XAddr) (h : invert a = some r) (i : Nat) (hi : i < width a.af) :
    bit r i = !bit a i := by
  unfold invert at h
  cases ha : a.af <;> rw [ha] at h <;> simp at h
  · rw [ha] at hi
    simp only [width] at hi
    have e : i / 32 = 0 := by omega
    have : 31 - i % 32 < 32 := by omega
    subst h; simp [bit, e, word, this]
  · rw [ha] at hi
    simp only [width] at hi
    subst h
    have h2 : 31 - i % 32 < 32 := by omega
    have : i / 32 = 0 ∨ i / 32 = 1 ∨ i / 32 = 2 ∨ i / 32 = 3 := by omega
    rcases this with e | e | e | e <;> simp [bit, e, word, h2]

theorem and_ok (a b : XAddr) (hk : Known a) (h : a.af = b.af) :
    ∃ r, and a b = some r ∧ r.af = a.af ∧ r.scope = a.scope := by
  rcases hk with hk | hk <;> simp [and, ← h, hk]

theorem or_ok (a b : XAddr) (hk : Known a) (h : a.af = b.af) :
    ∃ r, or a b = some r ∧ r.af = a.af ∧ r.scope = a.scope := by
  rcases hk with hk | hk <;> simp [or, ← h, hk]

theorem invert_ok (a : XAddr) (hk : Known a) : ∃ r, invert a = some r ∧ r.af = a.af := by
  rcases hk with hk | hk <;> simp [invert, hk]

theorem word_eq_of_bits {a b : XAddr} (k : Nat) (h : ∀ i, i / 32 = k → bit a i = bit b i) :
    word a k = word b k := by
  rw [u32_ext_iff]
  intro j hj
  have := h (32 * k + (31 - j)) (by omega)
  unfold bit at this
  have e1 : (32 * k + (31 - j)) / 32 = k := by omega
  have e2 : 31 - (32 * k + (31 - j)) % 32 = j := by omega
  rw [e1, e2] at this
  exact this

theorem cmpBytes_eq_zero : ∀ (x y : Bytes), x.length = y.length → (cmpBytes x y = 0 ↔ x = y)
  | [], [], _ => by simp [cmpBytes]
  | [], _ :: _, h => by simp at h
  | _ :: _, [], h => by simp at h
  | a :: x, b :: y, h => by
    have ih := cmpBytes_eq_zero x y (by simpa using h)
    unfold cmpBytes
    split
    · constructor
      · intro h2; contradiction
      · intro h2; simp only [List.cons.injEq] at h2; rw [h2.1] at *; omega
    · rename_i h2
      have : a = b := by apply UInt8.toNat_inj.1; omega
      rw [ih, this]; simp

theorem be4_inj (x y : UInt32) (h : Wire.be 4 x.toNat = Wire.be 4 y.toNat) : x = y := by
  apply UInt32.toNat_inj.1
  have hx := x.toNat_lt
  have hy := y.toNat_lt
  exact Wire.be_inj (by omega) (by omega) h

theorem addr8_length (a : XAddr) : (addr8 a).length = 16 := by simp [addr8, Wire.be_length]

theorem addr8_inj {a b : XAddr} : addr8 a = addr8 b ↔ a.w0 = b.w0 ∧ a.w1 = b.w1 ∧ a.w2 = b.w2 ∧ a.w3 = b.w3 := by
  constructor
  · intro h
    unfold addr8 at h
    have h1 := List.append_inj' h (by simp [Wire.be_length])
    have h2 := List.append_inj' h1.1 (by simp [Wire.be_length])
    have h3 := List.append_inj' h2.1 (by simp [Wire.be_length])
    exact ⟨be4_inj _ _ h3.1, be4_inj _ _ h3.2, be4_inj _ _ h2.2, be4_inj _ _ h1.2⟩
  · rintro ⟨h0, h1, h2, h3⟩; simp [addr8, h0, h1, h2, h3]

/-- Two addresses of the same known family compare equal iff all their bits (and IPv6 scopes) agree. -/
theorem cmp_zero (a b : XAddr) (hk : Known a) (haf : a.af = b.af) :
    cmp a b = 0 ↔ (∀ i < width a.af, bit a i = bit b i) ∧ (a.af = .inet6 → a.scope = b.scope) := by
  rcases hk with hk | hk
  · have e : cmp a b = 0 ↔ a.w0 = b.w0 := by
      simp only [cmp, ← haf, hk]
      by_cases h : a.w0 = b.w0 <;> simp [h]
      split <;> simp
    rw [e, hk]
    constructor
    · intro h
      refine ⟨fun i hi => ?_, by simp⟩
      simp only [width] at hi
      have : i / 32 = 0 := by omega
      simp [bit, this, word, h]
    · intro h
      exact word_eq_of_bits (a := a) (b := b) 0 (fun i hi => h.1 i (by simp [width]; omega))
  · have e : cmp a b = 0 ↔ addr8 a = addr8 b ∧ a.scope = b.scope := by
      rw [← cmpBytes_eq_zero _ _ (by simp [addr8_length])]
      simp only [cmp, ← haf, hk]
      by_cases h : cmpBytes (addr8 a) (addr8 b) = 0
      · by_cases h2 : a.scope = b.scope
        · simp [h, h2]
        · simp [h, h2]; split <;> simp
      · simp [h]
    rw [e, addr8_inj, hk]
    constructor
    · rintro ⟨⟨h0, h1, h2, h3⟩, h4⟩
      refine ⟨fun i hi => ?_, fun _ => h4⟩
      simp only [width] at hi
      have : i / 32 = 0 ∨ i / 32 = 1 ∨ i / 32 = 2 ∨ i / 32 = 3 := by omega
      rcases this with e | e | e | e <;> simp [bit, e, word, h0, h1, h2, h3]
    · rintro ⟨h, h2⟩
      refine ⟨⟨?_, ?_, ?_, ?_⟩, h2 rfl⟩
      · exact word_eq_of_bits (a := a) (b := b) 0 (fun i hi => h i (by simp [width]; omega))
      · exact word_eq_of_bits (a := a) (b := b) 1 (fun i hi => h i (by simp [width]; omega))
      · exact word_eq_of_bits (a := a) (b := b) 2 (fun i hi => h i (by simp [width]; omega))
      · exact word_eq_of_bits (a := a) (b := b) 3 (fun i hi => h i (by simp [width]; omega))

theorem hostmask_bits (af : Family) (l : Nat) (h : l ≤ width af) (hk : af = .inet ∨ af = .inet6) :
    ∃ m, hostmask af l = some m ∧ m.af = af ∧ ∀ i < width af, bit m i = decide (l ≤ i) := by
  obtain ⟨m, hm, haf, hb⟩ := netmask_bits af l h hk
  obtain ⟨r, hr, hraf⟩ := invert_ok m (by rw [Known, haf]; exact hk)
  refine ⟨r, by simp [hostmask, hm, hr], by rw [hraf, haf], fun i hi => ?_⟩
  rw [bit_invert m r hr i (by rw [haf]; exact hi), hb i hi]
  by_cases h : i < l <;> simp [h] <;> omega

theorem isAll0s_bits (a : XAddr) (hk : Known a) : isAll0s a = true ↔ ∀ i < width a.af, bit a i = false := by
  have hz : ∀ i, bit (zeroed a.af) i = false := by
    intro i
    have : word (zeroed a.af) (i / 32) = 0 := by unfold word zeroed; split <;> rfl
    simp [bit, this]
  have hc := cmp_zero { a with scope := 0 } (zeroed a.af) hk rfl
  have e : isAll0s a = true ↔ cmp { a with scope := 0 } (zeroed a.af) = 0 := by
    rcases hk with hk | hk
    · rw [hc]
      simp only [isAll0s, hk, decide_eq_true_eq]
      constructor
      · intro h
        refine ⟨fun i hi => ?_, fun _ => rfl⟩
        simp only [width] at hi
        have : i / 32 = 0 := by omega
        simp [bit, this, word, h, zeroed]
      · intro h
        exact word_eq_of_bits (a := { a with scope := 0 }) (b := zeroed .inet) 0
          (fun i hi => by have := h.1 i (by simp [width]; omega); simpa [hk] using this)
    · have e2 : cmp { a with scope := 0 } (zeroed a.af) = 0 ↔
          addr8 { a with scope := 0 } = addr8 (zeroed a.af) := by
        rw [← cmpBytes_eq_zero _ _ (by simp [addr8_length])]
        simp only [cmp, hk, zeroed]
        by_cases h : cmpBytes (addr8 { a with scope := 0 }) (addr8 (zeroed .inet6)) = 0
        · simp [zeroed, hk] at h; simp [h]
        · simp [zeroed, hk] at h; simp [h]
      rw [e2, addr8_inj]
      simp [isAll0s, hk, zeroed, and_assoc]
  rw [e, hc]
  constructor
  · intro h i hi
    have := h.1 i hi
    rw [hz] at this
    exact this
  · intro h
    refine ⟨fun i hi => ?_, fun _ => rfl⟩
    rw [hz]; exact h i hi

theorem hostIsAll0s_iff (a : XAddr) (l : Nat) (hk : Known a) (hl : l ≤ width a.af) :
    hostIsAll0s a l = true ↔ HostBitsZero a l := by
  obtain ⟨m, hm, haf, hb⟩ := hostmask_bits a.af l hl hk
  obtain ⟨r, hr, hraf, _⟩ := and_ok a m hk haf.symm
  have e : hostIsAll0s a l = isAll0s r := by simp [hostIsAll0s, hm, hr]
  rw [e, isAll0s_bits r (by rw [Known, hraf]; exact hk), hraf]
  constructor
  · intro h i h1 h2
    have := h i h2
    rw [bit_and a m r hr i h2, hb i h2] at this
    simpa [h1] using this
  · intro h i hi
    rw [bit_and a m r hr i hi, hb i hi]
    by_cases h1 : l ≤ i
    · simp [h i h1 hi]
    · simp [h1]

end Verif.Addr
