/-
C138: fingerprints tell digests apart.
-/
import Verif.Finger.Model
import Verif.Misc.Base64Props
import Verif.Match.Props

namespace Verif.Finger
open Verif Verif.Text
open _root_.Verif.Misc.Base64 (Rfc encode letter alphabet encode_rfc rfc_encode encode_length)

/-! ### What is meant -/

/-- Bubble Babble (Huima): the letters, and how pairs of bytes are written with a checksum -/
def vowel (n : Nat) : UInt8 := (b!"aeiouy").getD n 0
def consonant (n : Nat) : UInt8 := (b!"bcdfghklmnprstvzx").getD n 0

inductive Babble : Nat → Bytes → Bytes → Prop where
  | none (k : Nat) : Babble k [] [vowel (k % 6), b!"x".head!, vowel (k / 6)]
  | one (k : Nat) (a : UInt8) : Babble k [a] [vowel ((a.toNat / 64 + k) % 6), consonant (a.toNat / 4 % 16), vowel ((a.toNat % 4 + k / 6) % 6)]
  | two {k : Nat} {a b : UInt8} {d s : Bytes} : Babble ((k * 5 + a.toNat * 7 + b.toNat) % 36) d s →
      Babble k (a :: b :: d) (vowel ((a.toNat / 64 + k) % 6) :: consonant (a.toNat / 4 % 16) :: vowel ((a.toNat % 4 + k / 6) % 6) ::
        consonant (b.toNat / 16) :: 45 :: consonant (b.toNat % 16) :: s)

/-! ### Bubble Babble -/

theorem vowels_get : ∀ k < 6, vowels[k]? = some (vowel k) := by decide +kernel
theorem consonants_get : ∀ k < 17, consonants[k]? = some (consonant k) := by decide +kernel
theorem vowel_inj : ∀ j < 6, ∀ k < 6, vowel j = vowel k → j = k := by decide +kernel
theorem consonant_inj : ∀ j < 17, ∀ k < 17, consonant j = consonant k → j = k := by decide +kernel

theorem bits_hi (b : UInt8) : (b.toNat >>> 6) &&& 3 = b.toNat / 64 := by
  have := b.toNat_lt
  rw [Nat.shiftRight_eq_div_pow, Nat.and_two_pow_sub_one_eq_mod _ 2]
  omega

theorem bits_mid (b : UInt8) : (b.toNat >>> 2) &&& 15 = b.toNat / 4 % 16 := by
  rw [Nat.shiftRight_eq_div_pow, Nat.and_two_pow_sub_one_eq_mod _ 4]

theorem bits_lo (b : UInt8) : b.toNat &&& 3 = b.toNat % 4 := Nat.and_two_pow_sub_one_eq_mod _ 2

theorem bits_hi4 (b : UInt8) : (b.toNat >>> 4) &&& 15 = b.toNat / 16 := by
  have := b.toNat_lt
  rw [Nat.shiftRight_eq_div_pow, Nat.and_two_pow_sub_one_eq_mod _ 4]
  omega

theorem bits_lo4 (b : UInt8) : b.toNat &&& 15 = b.toNat % 16 := Nat.and_two_pow_sub_one_eq_mod _ 4

theorem three_some (k : Nat) (b : UInt8) :
    three k (some b) = some [vowel ((b.toNat / 64 + k) % 6), consonant (b.toNat / 4 % 16), vowel ((b.toNat % 4 + k / 6) % 6)] := by
  unfold three
  simp only [bits_hi, bits_mid, bits_lo]
  rw [vowels_get _ (Nat.mod_lt _ (by omega)), consonants_get _ (by omega), vowels_get _ (Nat.mod_lt _ (by omega))]
  rfl

theorem three_none {k : Nat} (hk : k < 36) : three k none = some [vowel (k % 6), 120, vowel (k / 6)] := by
  unfold three
  simp only []
  rw [vowels_get _ (Nat.mod_lt _ (by omega)), consonants_get _ (by omega), vowels_get _ (by omega)]
  rfl

theorem bubbleGo_eq (d : Bytes) : ∀ (n i k : Nat), i + n = d.length / 2 + 1 → 0 < n → k < 36 →
    ∃ s, bubbleGo d (d.length / 2 + 1) n i k = some s ∧ Babble k (d.drop (2 * i)) s ∧ s.length = 6 * (n - 1) + 3 := by
  intro n
  induction n with
  | zero => intro i k _ h; omega
  | succ n ih =>
    intro i k hi _ hk
    rw [bubbleGo]
    by_cases hlast : i + 1 < d.length / 2 + 1
    · rw [if_pos (.inl hlast)]
      have h1 : 2 * i < d.length := by omega
      have h2 : 2 * i + 1 < d.length := by omega
      have e : d.drop (2 * i) = d[2 * i] :: d[2 * i + 1] :: d.drop (2 * (i + 1)) := by
        rw [List.drop_eq_getElem_cons h1, List.drop_eq_getElem_cons h2]
        rfl
      obtain ⟨s, hs, hb, hl⟩ := ih (i + 1) ((k * 5 + (d[2 * i].toNat * 7 + d[2 * i + 1].toNat)) % 36) (by omega) (by omega) (Nat.mod_lt _ (by omega))
      rw [List.getElem?_eq_getElem h1, List.getElem?_eq_getElem h2]
      simp only [bind, Option.bind_some, three_some, if_pos hlast, bits_hi4, bits_lo4, hs]
      have hlt := (d[2 * i + 1]).toNat_lt
      rw [consonants_get _ (by omega), consonants_get _ (by omega)]
      refine ⟨_, rfl, ?_, ?_⟩
      · rw [e]
        refine .two ?_
        rwa [Nat.add_assoc]
      · simp only [List.length_append, List.length_cons, List.length_nil, hl]
        omega
    · have hn : n = 0 := by omega
      subst hn
      by_cases hodd : d.length % 2 ≠ 0
      · rw [if_pos (.inr hodd)]
        have h1 : 2 * i < d.length := by omega
        have e : d.drop (2 * i) = [d[2 * i]] := by
          rw [List.drop_eq_getElem_cons h1, List.drop_eq_nil_of_le (by omega)]
        rw [List.getElem?_eq_getElem h1]
        simp only [bind, Option.bind_some, three_some, if_neg hlast, bubbleGo]
        refine ⟨_, rfl, ?_, by simp⟩
        rw [e]
        exact .one ..
      · rw [if_neg (by simp only [not_or]; exact ⟨hlast, hodd⟩)]
        simp only [bind, three_none hk, Option.bind_some, bubbleGo]
        refine ⟨_, rfl, ?_, by simp⟩
        rw [List.drop_eq_nil_of_le (by omega)]
        exact .none k

/-- C138: the third form is Bubble Babble, between two `x`; reading the digest and writing to the buffer stay within their bounds. -/
theorem C138_babble (d : Bytes) : ∃ s, Babble 1 d s ∧ bubble d = some (120 :: s ++ [120]) := by
  obtain ⟨s, h1, h2, h3⟩ := bubbleGo_eq d (d.length / 2 + 1) 0 1 (by omega) (by omega) (by omega)
  refine ⟨s, h2, ?_⟩
  unfold bubble
  rw [h1]
  simp only []
  rw [if_neg]
  simp only [List.length_append, List.length_cons, List.length_nil, h3]
  omega

theorem mod_add_inj {a b k : Nat} (ha : a < 4) (hb : b < 4) (h : (a + k) % 6 = (b + k) % 6) : a = b := by omega

theorem babble_inj {k : Nat} {d d' s : Bytes} (h : Babble k d s) (h' : Babble k d' s) : d = d' := by
  have byte : ∀ (k : Nat) (a b : UInt8), vowel ((a.toNat / 64 + k) % 6) = vowel ((b.toNat / 64 + k) % 6) →
      consonant (a.toNat / 4 % 16) = consonant (b.toNat / 4 % 16) →
      vowel ((a.toNat % 4 + k / 6) % 6) = vowel ((b.toNat % 4 + k / 6) % 6) → a = b := by
    intro k a b h1 h2 h3
    have ha := a.toNat_lt
    have hb := b.toNat_lt
    have e1 := mod_add_inj (by omega) (by omega) (vowel_inj _ (Nat.mod_lt _ (by omega)) _ (Nat.mod_lt _ (by omega)) h1)
    have e2 := consonant_inj _ (by omega) _ (by omega) h2
    have e3 := mod_add_inj (by omega) (by omega) (vowel_inj _ (Nat.mod_lt _ (by omega)) _ (Nat.mod_lt _ (by omega)) h3)
    exact UInt8.toNat_inj.1 (by omega)
  have hx : ∀ a : UInt8, consonant (a.toNat / 4 % 16) ≠ b!"x".head! := by
    intro a h
    have h : consonant (a.toNat / 4 % 16) = consonant 16 := h
    have := consonant_inj _ (by omega) _ (by omega) h
    omega
  generalize hs : s = t at h'
  induction h generalizing d' t with
  | none k =>
    cases h' with
    | none => rfl
    | one _ a =>
      injection hs with h1 h2
      injection h2 with h2 h3
      exact absurd h2.symm (hx a)
    | two h => simp at hs
  | one k a =>
    cases h' with
    | none =>
      injection hs with h1 h2
      injection h2 with h2 h3
      exact absurd h2 (hx a)
    | one _ b =>
      simp only [List.cons.injEq, and_true] at hs
      rw [byte k a b hs.1 hs.2.1 hs.2.2]
    | two h => simp at hs
  | @two k a b d s h ih =>
    cases h' with
    | none => simp at hs
    | one => simp at hs
    | @two _ a' b' d'' s'' h'' =>
      simp only [List.cons.injEq, true_and] at hs
      obtain ⟨e1, e2, e3, e4, e5, e6⟩ := hs
      have ea := byte k a a' e1 e2 e3
      have hb := b.toNat_lt
      have hb' := b'.toNat_lt
      have eb : b = b' := by
        have f1 := consonant_inj _ (by omega) _ (by omega) e4
        have f2 := consonant_inj _ (by omega) _ (by omega) e5
        exact UInt8.toNat_inj.1 (by omega)
      subst ea
      subst eb
      rw [ih _ e6 h'']

/-! ### Hexadecimal -/

theorem digit_inj : ∀ a < 16, ∀ b < 16, digit a = digit b → a = b := by decide +kernel
theorem digit_ne : ∀ a < 16, digit a ≠ 58 := by decide +kernel

theorem hex2_inj {a b : UInt8} (h : hex2 a = hex2 b) : a = b := by
  have ha := a.toNat_lt
  have hb := b.toNat_lt
  simp only [hex2, List.cons.injEq, and_true] at h
  have e1 := digit_inj _ (by omega) _ (by omega) h.1
  have e2 := digit_inj _ (by omega) _ (by omega) h.2
  exact UInt8.toNat_inj.1 (by omega)

theorem hexGo_later (rlen : Nat) : ∀ (l : Bytes) (i : Nat) (acc : Bytes), 0 < i → acc.length + 3 * l.length < rlen →
    hexGo rlen l i acc = acc ++ l.flatMap fun b => 58 :: hex2 b := by
  intro l
  induction l with
  | nil => intro i acc _ _; simp [hexGo]
  | cons b l ih =>
    intro i acc hi h
    rw [hexGo, if_pos hi, Match.strlcat_fits (by simp only [hex2, List.length_append, List.length_cons, List.length_nil] at h ⊢; omega),
      ih _ _ (by omega) (by simp only [hex2, List.length_append, List.length_cons, List.length_nil] at h ⊢; omega)]
    simp

theorem join_cons (b : UInt8) (l : Bytes) : join 58 ((b :: l).map hex2) = hex2 b ++ l.flatMap fun b => 58 :: hex2 b := by
  induction l generalizing b with
  | nil => simp [join]
  | cons c l ih =>
    simp only [List.map_cons, join, List.flatMap_cons] at ih ⊢
    rw [ih]
    simp

/-- C138: the first form: the name of the algorithm, and two digits for each byte, with colons between them. -/
theorem C138_hex (alg : Bytes) {d : Bytes} (hd : d.length ≤ 65536) : hex alg d = some (alg ++ b!":" ++ join 58 (d.map hex2)) := by
  unfold hex
  rw [if_neg (by omega)]
  have h0 : strlcpy alg (d.length * 3 + alg.length + 2) = alg := List.take_of_length_le (by omega)
  rw [h0, Match.strlcat_fits (by simp only [List.length_cons, List.length_nil]; omega)]
  cases d with
  | nil => simp [hexGo, join]
  | cons b l =>
    rw [hexGo, if_neg (by omega), Match.strlcat_fits (by simp only [hex2, List.length_append, List.length_cons, List.length_nil]; omega),
      hexGo_later _ _ _ _ (by omega) (by simp only [hex2, List.length_append, List.length_cons, List.length_nil]; omega), join_cons]
    simp

/-! ### Base64 -/

theorem letter_ne (n : Nat) : letter n ≠ 61 := by
  unfold letter
  by_cases h : n < alphabet.length
  · have : ∀ c ∈ alphabet, c ≠ 61 := by decide +kernel
    rw [List.getD_eq_getElem?_getD, List.getElem?_eq_getElem h]
    exact this _ (List.getElem_mem h)
  · rw [List.getD_eq_getElem?_getD, List.getElem?_eq_none (by omega)]
    decide

theorem encode_pad (d : Bytes) : ∃ t k, k ≤ 2 ∧ 61 ∉ t ∧ encode d = t ++ List.replicate k 61 := by
  fun_induction encode d with
  | case1 a b c r ih =>
    obtain ⟨t, k, h1, h2, h3⟩ := ih
    refine ⟨letter _ :: letter _ :: letter _ :: letter _ :: t, k, h1, ?_, by rw [h3]; rfl⟩
    simp only [List.mem_cons, not_or]
    exact ⟨(letter_ne _).symm, (letter_ne _).symm, (letter_ne _).symm, (letter_ne _).symm, h2⟩
  | case2 a b =>
    refine ⟨[letter _, letter _, letter _], 1, by omega, ?_, rfl⟩
    simp only [List.mem_cons, not_or, List.not_mem_nil, not_false_eq_true, and_true]
    exact ⟨(letter_ne _).symm, (letter_ne _).symm, (letter_ne _).symm⟩
  | case3 a =>
    refine ⟨[letter _, letter _], 2, by omega, ?_, rfl⟩
    simp only [List.mem_cons, not_or, List.not_mem_nil, not_false_eq_true, and_true]
    exact ⟨(letter_ne _).symm, (letter_ne _).symm⟩
  | case4 => exact ⟨[], 0, by omega, by simp, rfl⟩

theorem takeWhile_stop {s : Bytes} (h : 61 ∉ s) (k : Nat) : (s ++ List.replicate k 61).takeWhile (fun c => decide (c ≠ 61)) = s := by
  induction s with
  | nil => cases k <;> simp [List.replicate]
  | cons a s ih =>
    simp only [List.mem_cons, not_or] at h
    rw [List.cons_append, List.takeWhile_cons, if_pos (by simpa using Ne.symm h.1), ih h.2]

/-- C138: the second form: the name of the algorithm, and the base64 of RFC 4648 without the `=` at the end. -/
theorem C138_b64 {alg : Bytes} (ha : 61 ∉ alg) {d : Bytes} (hd : d.length ≤ 65536) :
    ∃ t k, k ≤ 2 ∧ Rfc d (t ++ List.replicate k 61) ∧ 61 ∉ t ∧ b64 alg d = some (alg ++ b!":" ++ t) := by
  obtain ⟨t, k, h1, h2, h3⟩ := encode_pad d
  refine ⟨t, k, h1, h3 ▸ encode_rfc d, h2, ?_⟩
  have h0 : strlcpy alg ((d.length + 2) / 3 * 4 + (alg.length + 1) + 1) = alg := List.take_of_length_le (by omega)
  have hc : Match.strlcat alg b!":" ((d.length + 2) / 3 * 4 + (alg.length + 1) + 1) = alg ++ b!":" :=
    Match.strlcat_fits (by simp only [List.length_cons, List.length_nil]; omega)
  unfold b64
  rw [if_neg (by omega), h0, hc]
  by_cases hz : d.length = 0
  · rw [if_pos hz]
    rw [List.length_eq_zero_iff.1 hz] at h3
    have : t = [] := by
      cases t with
      | nil => rfl
      | cons c t => simp [encode] at h3
    rw [this, List.append_nil]
  · rw [if_neg hz]
    have hn : Misc.Base64.ntop d ((d.length + 2) / 3 * 4 + (alg.length + 1) + 1 - (alg.length + 1)) = some (encode d) := by
      unfold Misc.Base64.ntop
      rw [if_neg]
      rw [encode_length]
      omega
    rw [hn]
    simp only []
    rw [h3, ← List.append_assoc, takeWhile_stop]
    simp only [List.mem_append, not_or]
    exact ⟨⟨ha, by decide⟩, h2⟩

theorem encode_inj {d d' : Bytes} (h : encode d = encode d') : d = d' := by
  have back : ∀ d : Bytes, Misc.Base64.b64tod (encode d) = some d := by
    intro d
    obtain ⟨s, h1, h2, -⟩ := Misc.Base64.C63_roundtrip d false
    have : s = encode d := by
      unfold Misc.Base64.dtob64 at h1
      split at h1
      · rename_i h0
        rw [List.length_eq_zero_iff.1 h0]
        exact (Option.some.inj h1).symm
      · unfold Misc.Base64.ntop at h1
        rw [if_neg (by rw [encode_length]; omega)] at h1
        exact (Option.some.inj h1).symm
    rwa [this] at h2
  have h1 := back d
  rw [h, back d'] at h1
  exact (Option.some.inj h1).symm

/-! ### Telling apart -/

theorem colon_inj {a a' x y : Bytes} (h : 58 ∉ a) (h' : 58 ∉ a') (e : a ++ b!":" ++ x = a' ++ b!":" ++ y) : a = a' ∧ x = y := by
  induction a generalizing a' with
  | nil =>
    cases a' with
    | nil => exact ⟨rfl, by simpa using e⟩
    | cons c a' =>
      simp only [List.nil_append, List.cons_append, List.cons.injEq] at e
      exact absurd (List.mem_cons.2 (.inl e.1)) h'
  | cons c a ih =>
    cases a' with
    | nil =>
      simp only [List.nil_append, List.cons_append, List.cons.injEq] at e
      exact absurd (List.mem_cons.2 (.inl e.1.symm)) h
    | cons c' a' =>
      simp only [List.cons_append, List.cons.injEq] at e
      obtain ⟨h1, h2⟩ := ih (fun hm => h (List.mem_cons_of_mem _ hm)) (fun hm => h' (List.mem_cons_of_mem _ hm)) (by simpa using e.2)
      exact ⟨by rw [e.1, h1], h2⟩

theorem join_inj {d d' : Bytes} (h : join 58 (d.map hex2) = join 58 (d'.map hex2)) : d = d' := by
  have nosep : ∀ (d : Bytes), ∀ f ∈ d.map hex2, (58 : UInt8) ∉ f := by
    intro d f hf
    obtain ⟨b, -, rfl⟩ := List.mem_map.1 hf
    have hb := b.toNat_lt
    simp only [hex2, List.mem_cons, List.not_mem_nil, or_false, not_or]
    exact ⟨(digit_ne _ (by omega)).symm, (digit_ne _ (by omega)).symm⟩
  have hne : ∀ (b : UInt8) (l : Bytes), join 58 ((b :: l).map hex2) ≠ [] := by
    intro b l
    rw [join_cons]
    simp [hex2]
  cases d with
  | nil =>
    cases d' with
    | nil => rfl
    | cons b l => exact absurd h.symm (hne b l)
  | cons a m =>
    cases d' with
    | nil => exact absurd h (hne a m)
    | cons b l =>
      have := congrArg (split 58) h
      rw [split_join (by simp) (nosep _), split_join (by simp) (nosep _)] at this
      exact List.map_inj_right (fun _ _ => hex2_inj) |>.1 this

/-- C138: two keys that show the same fingerprint, in any form but the picture, have the same digest, and unless it is Bubble Babble, by the
same algorithm. (Names of algorithms have no `:` and no `=` in them.) -/
theorem C138_distinct {rep : Rep} (hr : rep ≠ .randomart) {alg alg' d d' type type' s : Bytes} {size size' : Nat} (ha : 58 ∉ alg ∧ 61 ∉ alg)
    (ha' : 58 ∉ alg' ∧ 61 ∉ alg') (hd : d.length ≤ 65536) (hd' : d'.length ≤ 65536) (h : fingerprint rep alg d type size = some s)
    (h' : fingerprint rep alg' d' type' size' = some s) : d = d' ∧ (rep ≠ .bubblebabble → alg = alg') := by
  have hhex : hex alg d = some s → hex alg' d' = some s → d = d' ∧ alg = alg' := by
    intro h h'
    rw [C138_hex alg hd] at h
    rw [C138_hex alg' hd', ← h] at h'
    obtain ⟨e1, e2⟩ := colon_inj ha'.1 ha.1 (Option.some.inj h')
    exact ⟨(join_inj e2).symm, e1.symm⟩
  have hb64 : b64 alg d = some s → b64 alg' d' = some s → d = d' ∧ alg = alg' := by
    intro h h'
    obtain ⟨t, k, k2, hrf, -, e⟩ := C138_b64 ha.2 hd
    obtain ⟨t', k', k2', hrf', -, e'⟩ := C138_b64 ha'.2 hd'
    rw [e] at h
    rw [e', ← h] at h'
    obtain ⟨e1, rfl⟩ := colon_inj ha'.1 ha.1 (Option.some.inj h')
    have l1 := congrArg List.length (rfc_encode hrf)
    have l2 := congrArg List.length (rfc_encode hrf')
    rw [encode_length, List.length_append, List.length_replicate] at l1 l2
    have hk : k = k' := by omega
    subst hk
    exact ⟨encode_inj ((rfc_encode hrf).symm.trans (rfc_encode hrf')), e1.symm⟩
  have mixed : ∀ {alg alg' d d' : Bytes}, 58 ∉ alg → (58 ∉ alg' ∧ 61 ∉ alg') → d.length ≤ 65536 → d'.length ≤ 65536 →
      hex alg d = some s → b64 alg' d' = some s → alg = alg' := by
    intro alg alg' d d' ha ha' hd hd' h h'
    rw [C138_hex alg hd] at h
    obtain ⟨t', k', -, -, -, e'⟩ := C138_b64 ha'.2 hd'
    rw [e', ← h] at h'
    exact (colon_inj ha'.1 ha (Option.some.inj h')).1.symm
  cases rep with
  | default =>
    simp only [fingerprint] at h h'
    by_cases hm : alg = b!"MD5" <;> by_cases hm' : alg' = b!"MD5"
    · rw [if_pos hm] at h
      rw [if_pos hm'] at h'
      exact ⟨(hhex h h').1, fun _ => (hhex h h').2⟩
    · rw [if_pos hm] at h
      rw [if_neg hm'] at h'
      exact absurd ((mixed ha.1 ha' hd hd' h h').symm.trans hm) hm'
    · rw [if_neg hm] at h
      rw [if_pos hm'] at h'
      exact absurd ((mixed ha'.1 ha hd' hd h' h).symm.trans hm') hm
    · rw [if_neg hm] at h
      rw [if_neg hm'] at h'
      exact ⟨(hb64 h h').1, fun _ => (hb64 h h').2⟩
  | hex => exact ⟨(hhex h h').1, fun _ => (hhex h h').2⟩
  | base64 => exact ⟨(hb64 h h').1, fun _ => (hb64 h h').2⟩
  | bubblebabble =>
    obtain ⟨t, h1, h2⟩ := C138_babble d
    obtain ⟨t', h1', h2'⟩ := C138_babble d'
    have h : bubble d = some s := h
    have h' : bubble d' = some s := h'
    rw [h2] at h
    rw [h2', ← h] at h'
    have e : t' = t := by
      have := Option.some.inj h'
      simpa using this
    subst e
    exact ⟨babble_inj h1 h1', fun h => absurd rfl h⟩
  | randomart => exact absurd rfl hr

end Verif.Finger
