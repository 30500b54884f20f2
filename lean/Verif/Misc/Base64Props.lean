/-
C63: base64 encodes as specified, and decoding accepts exactly the encodings (with white space anywhere).
-/
import Verif.Misc.Base64

namespace Verif.Misc.Base64
open Verif Num

/-! ## Specification (RFC 4648, section 4) -/

/-- The letter for a 6-bit value (RFC 4648, table 1). -/
def rfcLetter (n : Nat) : UInt8 :=
  if n < 26 then UInt8.ofNat (65 + n)
  else if n < 52 then UInt8.ofNat (97 + (n - 26))
  else if n < 62 then UInt8.ofNat (48 + (n - 52))
  else if n = 62 then 43 else 47

/-- `Rfc d s`: `s` is the base64 text for the bytes `d`.  Three bytes make a 24-bit number that is written with
four 6-bit digits; a last group of two bytes is written with three digits and `=`, of one byte with two digits
and `==`. -/
inductive Rfc : Bytes → Bytes → Prop where
  | nil : Rfc [] []
  | group {a b c : UInt8} {r t : Bytes} {v : Nat} (hv : v = a.toNat * 65536 + b.toNat * 256 + c.toNat) (h : Rfc r t) :
      Rfc (a :: b :: c :: r)
        (rfcLetter (v / 262144) :: rfcLetter (v / 4096 % 64) :: rfcLetter (v / 64 % 64) :: rfcLetter (v % 64) :: t)
  | two {a b : UInt8} {v : Nat} (hv : v = a.toNat * 65536 + b.toNat * 256) :
      Rfc [a, b] [rfcLetter (v / 262144), rfcLetter (v / 4096 % 64), rfcLetter (v / 64 % 64), 61]
  | one {a : UInt8} {v : Nat} (hv : v = a.toNat * 65536) :
      Rfc [a] [rfcLetter (v / 262144), rfcLetter (v / 4096 % 64), 61, 61]

/-- White space removed. -/
def squeeze (s : Bytes) : Bytes := s.filter fun c => !isSpace c

/-! ## Lemmas -/

theorem letter_rfc {n : Nat} (h : n < 64) : letter n = rfcLetter n := by
  have : ∀ n : Fin 64, letter n.val = rfcLetter n.val := by decide +kernel
  exact this ⟨n, h⟩

theorem value_letter {n : Nat} (h : n < 64) : value (rfcLetter n) = some n ∧ rfcLetter n ≠ 61 ∧
    isSpace (rfcLetter n) = false := by
  have : ∀ n : Fin 64, value (rfcLetter n.val) = some n.val ∧ rfcLetter n.val ≠ 61 ∧
    isSpace (rfcLetter n.val) = false := by decide +kernel
  exact this ⟨n, h⟩

theorem value_some {c : UInt8} {x : Nat} (h : value c = some x) : x < 64 ∧ c = rfcLetter x := by
  have : ∀ n : Fin 256, ∀ x, value (UInt8.ofNat n.val) = some x → x < 64 ∧ UInt8.ofNat n.val = rfcLetter x := by
    intro n
    have h : ∀ n : Fin 256, (match value (UInt8.ofNat n.val) with
      | none => true
      | some x => decide (x < 64 ∧ UInt8.ofNat n.val = rfcLetter x)) = true := by decide +kernel
    intro x hx
    have := h n
    rw [hx] at this
    simpa using this
  have h' := this ⟨c.toNat, c.toNat_lt⟩ x
  simp only [UInt8.ofNat_toNat] at h'
  exact h' h

theorem outs (a b c : UInt8) : out0 a = a.toNat / 4 ∧ out1 a b = a.toNat % 4 * 16 + b.toNat / 16 ∧
    out2 b c = b.toNat % 16 * 4 + c.toNat / 64 ∧ out3 c = c.toNat % 64 := by
  have e1 : a.toNat &&& 3 = a.toNat % 4 := Nat.and_two_pow_sub_one_eq_mod a.toNat 2
  have e2 : b.toNat &&& 15 = b.toNat % 16 := Nat.and_two_pow_sub_one_eq_mod b.toNat 4
  have e3 : c.toNat &&& 63 = c.toNat % 64 := Nat.and_two_pow_sub_one_eq_mod c.toNat 6
  refine ⟨?_, ?_, ?_, ?_⟩
  · unfold out0; rw [Nat.shiftRight_eq_div_pow]
  · unfold out1; rw [e1, Nat.shiftRight_eq_div_pow, Nat.shiftLeft_eq]
  · unfold out2; rw [e2, Nat.shiftRight_eq_div_pow, Nat.shiftLeft_eq]
  · exact e3

theorem encode_rfc (d : Bytes) : Rfc d (encode d) := by
  fun_induction encode d with
  | case1 a b c r ih =>
    have ha := a.toNat_lt; have hb := b.toNat_lt; have hc := c.toNat_lt
    obtain ⟨o0, o1, o2, o3⟩ := outs a b c
    have := Rfc.group (a := a) (b := b) (c := c) rfl ih
    rw [show (a.toNat * 65536 + b.toNat * 256 + c.toNat) / 262144 = out0 a by omega,
      show (a.toNat * 65536 + b.toNat * 256 + c.toNat) / 4096 % 64 = out1 a b by omega,
      show (a.toNat * 65536 + b.toNat * 256 + c.toNat) / 64 % 64 = out2 b c by omega,
      show (a.toNat * 65536 + b.toNat * 256 + c.toNat) % 64 = out3 c by omega] at this
    rw [letter_rfc (by omega), letter_rfc (by omega), letter_rfc (by omega), letter_rfc (by omega)]
    exact this
  | case2 a b =>
    have ha := a.toNat_lt; have hb := b.toNat_lt
    obtain ⟨o0, o1, o2, o3⟩ := outs a b 0
    have := Rfc.two (a := a) (b := b) rfl
    have h0 : (0 : UInt8).toNat = 0 := rfl
    rw [h0] at o2
    rw [show (a.toNat * 65536 + b.toNat * 256) / 262144 = out0 a by omega,
      show (a.toNat * 65536 + b.toNat * 256) / 4096 % 64 = out1 a b by omega,
      show (a.toNat * 65536 + b.toNat * 256) / 64 % 64 = out2 b 0 by omega] at this
    rw [letter_rfc (by omega), letter_rfc (by omega), letter_rfc (by omega)]
    exact this
  | case3 a =>
    have ha := a.toNat_lt
    obtain ⟨o0, o1, o2, o3⟩ := outs a 0 0
    have := Rfc.one (a := a) rfl
    have h0 : (0 : UInt8).toNat = 0 := rfl
    rw [h0] at o1
    rw [show (a.toNat * 65536) / 262144 = out0 a by omega,
      show (a.toNat * 65536) / 4096 % 64 = out1 a 0 by omega] at this
    rw [letter_rfc (by omega), letter_rfc (by omega)]
    exact this
  | case4 => exact .nil

theorem rfc_encode {d s : Bytes} (h : Rfc d s) : s = encode d := by
  induction h with
  | nil => rfl
  | @group a b c r t v hv h ih =>
    have ha := a.toNat_lt; have hb := b.toNat_lt; have hc := c.toNat_lt
    obtain ⟨o0, o1, o2, o3⟩ := outs a b c
    rw [show v / 262144 = out0 a by omega, show v / 4096 % 64 = out1 a b by omega,
      show v / 64 % 64 = out2 b c by omega, show v % 64 = out3 c by omega, ih]
    rw [encode, letter_rfc (by omega), letter_rfc (by omega), letter_rfc (by omega), letter_rfc (by omega)]
  | @two a b v hv =>
    have ha := a.toNat_lt; have hb := b.toNat_lt
    obtain ⟨o0, o1, o2, o3⟩ := outs a b 0
    have h0 : (0 : UInt8).toNat = 0 := rfl
    rw [h0] at o2
    rw [show v / 262144 = out0 a by omega, show v / 4096 % 64 = out1 a b by omega,
      show v / 64 % 64 = out2 b 0 by omega]
    rw [encode, letter_rfc (by omega), letter_rfc (by omega), letter_rfc (by omega)]
  | @one a v hv =>
    have ha := a.toNat_lt
    obtain ⟨o0, o1, o2, o3⟩ := outs a 0 0
    have h0 : (0 : UInt8).toNat = 0 := rfl
    rw [h0] at o1
    rw [show v / 262144 = out0 a by omega, show v / 4096 % 64 = out1 a 0 by omega]
    rw [encode, letter_rfc (by omega), letter_rfc (by omega)]

theorem encode_length (d : Bytes) : (encode d).length = (d.length + 2) / 3 * 4 := by
  fun_induction encode d with
  | case1 a b c r ih => simp only [List.length_cons, ih]; omega
  | case2 => simp
  | case3 => simp
  | case4 => rfl

/-! ### Decoding -/

theorem squeeze_cons_space {c : UInt8} {r : Bytes} (h : isSpace c = true) : squeeze (c :: r) = squeeze r := by
  simp [squeeze, h]
theorem squeeze_cons {c : UInt8} {r : Bytes} (h : isSpace c = false) : squeeze (c :: r) = c :: squeeze r := by
  simp [squeeze, h]

theorem finish_squeeze (st : St) (r : Bytes) : finish st r = finish st (squeeze r) := by
  have : r.any (fun c => !isSpace c) = (squeeze r).any (fun c => !isSpace c) := by
    rw [Bool.eq_iff_iff]
    simp only [squeeze, List.any_eq_true, List.mem_filter]
    constructor
    · rintro ⟨x, a, b⟩; exact ⟨x, ⟨a, b⟩, b⟩
    · rintro ⟨x, a, b⟩; exact ⟨x, a.1, b⟩
  unfold finish; rw [this]

theorem padded_squeeze (st : St) (r : Bytes) : padded st r = padded st (squeeze r) := by
  have hd : ∀ r : Bytes, (match r.dropWhile isSpace with
      | [] => none
      | c :: r => if c ≠ 61 then none else finish st r) =
      (match (squeeze r).dropWhile isSpace with
      | [] => none
      | c :: r => if c ≠ 61 then none else finish st r) := by
    intro r
    induction r with
    | nil => rfl
    | cons c r ih =>
      cases h : isSpace c with
      | true => rw [squeeze_cons_space h, List.dropWhile_cons, if_pos h]; exact ih
      | false =>
        rw [squeeze_cons h, List.dropWhile_cons, List.dropWhile_cons, if_neg (by simp [h]), if_neg (by simp [h])]
        simp only
        rw [finish_squeeze]
  unfold padded
  split
  · rfl
  · rfl
  · exact hd r
  · exact finish_squeeze st r

theorem pton_squeeze (n : Nat) (st : St) (s : Bytes) : pton n st s = pton n st (squeeze s) := by
  induction s generalizing st with
  | nil => rfl
  | cons c r ih =>
    cases h : isSpace c with
    | true => rw [squeeze_cons_space h, pton, if_pos h]; exact ih st
    | false =>
      rw [squeeze_cons h]
      simp only [pton, h, Bool.false_eq_true, if_false]
      rw [← padded_squeeze]
      split
      · rfl
      · cases value c with
        | none => rfl
        | some x =>
          simp only
          cases digit n st x with
          | none => rfl
          | some st' => exact ih st'

/-- A text without white space. -/
def Tight (s : Bytes) : Prop := ∀ c ∈ s, isSpace c = false

theorem squeeze_tight (s : Bytes) : Tight (squeeze s) := by
  intro c hc
  simpa [squeeze] using (List.mem_filter.1 hc).2

theorem finish_tight {st : St} {r bs : Bytes} (h : Tight r) (hf : finish st r = some bs) :
    r = [] ∧ st.cur = 0 ∧ bs = st.done := by
  unfold finish at hf
  split at hf
  · cases hf
  · rename_i ha
    split at hf
    · cases hf
    · rename_i hc
      injection hf with hf
      refine ⟨?_, Decidable.not_not.1 hc, hf.symm⟩
      cases r with
      | nil => rfl
      | cons c r =>
        exfalso; apply ha
        simp [h c (by simp)]

/-- Taking one digit off a tight text. -/
theorem pton_cons {n : Nat} {st : St} {c : UInt8} {r bs : Bytes} (ht : Tight (c :: r))
    (h : pton n st (c :: r) = some bs) :
    (c = 61 ∧ padded st r = some bs) ∨
    (∃ x st', x < 64 ∧ c = rfcLetter x ∧ digit n st x = some st' ∧ pton n st' r = some bs) := by
  rw [pton, if_neg (by simp [ht c (by simp)])] at h
  by_cases hc : c = 61
  · rw [if_pos hc] at h; exact .inl ⟨hc, h⟩
  · rw [if_neg hc] at h
    cases hv : value c with
    | none => rw [hv] at h; cases h
    | some x =>
      rw [hv] at h
      simp only at h
      cases hd : digit n st x with
      | none => rw [hd] at h; cases h
      | some st' =>
        rw [hd] at h
        obtain ⟨h1, h2⟩ := value_some hv
        exact .inr ⟨x, st', h1, h2, hd, h⟩

/-- The bytes of four digits. -/
theorem combine {x0 x1 x2 x3 : Nat} (h0 : x0 < 64) (h1 : x1 < 64) (h2 : x2 < 64) (h3 : x3 < 64) :
    (x0 <<< 2 ||| (x1 >>> 4)) = x0 * 4 + x1 / 16 ∧
    ((x1 &&& 0x0f) <<< 4 ||| (x2 >>> 2)) = x1 % 16 * 16 + x2 / 4 ∧
    ((x2 &&& 0x03) <<< 6 ||| x3) = x2 % 4 * 64 + x3 ∧ (x1 &&& 0x0f) <<< 4 = x1 % 16 * 16 ∧
    (x2 &&& 0x03) <<< 6 = x2 % 4 * 64 := by
  have e1 : x1 &&& 15 = x1 % 16 := Nat.and_two_pow_sub_one_eq_mod x1 4
  have e2 : x2 &&& 3 = x2 % 4 := Nat.and_two_pow_sub_one_eq_mod x2 2
  have d1 : x1 >>> 4 = x1 / 16 := Nat.shiftRight_eq_div_pow x1 4
  have d2 : x2 >>> 2 = x2 / 4 := Nat.shiftRight_eq_div_pow x2 2
  rw [e1, e2, d1, d2]
  refine ⟨?_, ?_, ?_, Nat.shiftLeft_eq _ _, Nat.shiftLeft_eq _ _⟩
  · rw [← Nat.shiftLeft_add_eq_or_of_lt (show x1 / 16 < 2 ^ 2 by omega), Nat.shiftLeft_eq]
  · rw [← Nat.shiftLeft_add_eq_or_of_lt (show x2 / 4 < 2 ^ 4 by omega), Nat.shiftLeft_eq]
  · rw [← Nat.shiftLeft_add_eq_or_of_lt (show x3 < 2 ^ 6 by omega), Nat.shiftLeft_eq]

theorem toNat_ofNat {n : Nat} (h : n < 256) : (UInt8.ofNat n).toNat = n := by
  simp [UInt8.toNat_ofNat', Nat.mod_eq_of_lt h]

/-- The room decoding wants: one spare byte unless the length is a multiple of three. -/
def Room (n len : Nat) : Prop := len ≤ n ∧ (len % 3 ≠ 0 → len < n)

theorem pton_sound (n : Nat) (m : Nat) : ∀ (s done bs : Bytes) (cur : Nat), s.length ≤ m → Tight s →
    done.length % 3 = 0 → done.length ≤ n →
    pton n ⟨done, cur, 0⟩ s = some bs → ∃ d, bs = done ++ d ∧ Rfc d s ∧ Room n bs.length := by
  induction m with
  | zero =>
    intro s done bs cur hm ht h3 hn h
    cases s with
    | nil =>
      simp only [pton, ne_eq, not_true_eq_false, if_false, Option.some.injEq] at h
      subst h
      exact ⟨[], by simp, .nil, hn, fun h => absurd h3 h⟩
    | cons c r => simp at hm
  | succ m ih =>
    intro s done bs cur hm ht h3 hn h
    cases s with
    | nil =>
      simp only [pton, ne_eq, not_true_eq_false, if_false, Option.some.injEq] at h
      subst h
      exact ⟨[], by simp, .nil, hn, fun h => absurd h3 h⟩
    | cons c0 r =>
      have tail : ∀ {c : UInt8} {r : Bytes}, Tight (c :: r) → Tight r := fun h x hx => h x (by simp [hx])
      have ht1 := tail ht
      rcases pton_cons ht h with ⟨_, hp⟩ | ⟨x0, st1, l0, rfl, hd0, h⟩
      · cases hp
      simp only [digit] at hd0
      split at hd0
      · cases hd0
      rename_i hs0
      injection hd0 with hd0; subst hd0
      cases r with
      | nil => simp [pton] at h
      | cons c1 r =>
      have ht2 := tail ht1
      rcases pton_cons ht1 h with ⟨_, hp⟩ | ⟨x1, st1, l1, rfl, hd1, h⟩
      · cases hp
      simp only [digit] at hd1
      split at hd1
      · cases hd1
      rename_i hs1
      injection hd1 with hd1; subst hd1
      cases r with
      | nil => simp [pton] at h
      | cons c2 r =>
      have ht3 := tail ht2
      rcases pton_cons ht2 h with ⟨rfl, hp⟩ | ⟨x2, st1, l2, rfl, hd2, h⟩
      · -- one byte and `==`
        obtain ⟨k1, k2, k3, k4, k5⟩ := combine l0 l1 (show 0 < 64 by omega) (show 0 < 64 by omega)
        simp only [padded] at hp
        cases r with
        | nil => simp at hp
        | cons c3 r =>
          rw [List.dropWhile_cons, if_neg (by simp [ht3 c3 (by simp)])] at hp
          simp only at hp
          split at hp
          · cases hp
          · rename_i h61
            have h61 : c3 = 61 := Decidable.not_not.1 h61
            obtain ⟨hr, hcur, hbs⟩ := finish_tight (tail ht3) hp
            simp only at hcur hbs
            rw [k4] at hcur
            rw [k1] at hbs
            refine ⟨[UInt8.ofNat (x0 * 4 + x1 / 16)], hbs, ?_, ?_⟩
            · have := Rfc.one (a := UInt8.ofNat (x0 * 4 + x1 / 16)) rfl
              rw [toNat_ofNat (by omega), show (x0 * 4 + x1 / 16) * 65536 / 262144 = x0 by omega,
                show (x0 * 4 + x1 / 16) * 65536 / 4096 % 64 = x1 by omega] at this
              rw [hr, h61]; exact this
            · rw [hbs]; unfold Room; simp; omega
      simp only [digit] at hd2
      split at hd2
      · cases hd2
      rename_i hs2
      injection hd2 with hd2; subst hd2
      simp only [List.length_append, List.length_cons, List.length_nil] at hs2
      cases r with
      | nil => simp [pton] at h
      | cons c3 r =>
      rcases pton_cons ht3 h with ⟨rfl, hp⟩ | ⟨x3, st1, l3, rfl, hd3, h⟩
      · obtain ⟨k1, k2, k3, k4, k5⟩ := combine l0 l1 l2 (show 0 < 64 by omega)
        simp only [padded] at hp
        obtain ⟨hr, hcur, hbs⟩ := finish_tight (tail ht3) hp
        simp only at hcur hbs
        rw [k5] at hcur
        rw [k1, k2] at hbs
        refine ⟨[UInt8.ofNat (x0 * 4 + x1 / 16), UInt8.ofNat (x1 % 16 * 16 + x2 / 4)], by rw [hbs]; simp, ?_, ?_⟩
        · have := Rfc.two (a := UInt8.ofNat (x0 * 4 + x1 / 16)) (b := UInt8.ofNat (x1 % 16 * 16 + x2 / 4)) rfl
          rw [toNat_ofNat (by omega), toNat_ofNat (by omega),
            show ((x0 * 4 + x1 / 16) * 65536 + (x1 % 16 * 16 + x2 / 4) * 256) / 262144 = x0 by omega,
            show ((x0 * 4 + x1 / 16) * 65536 + (x1 % 16 * 16 + x2 / 4) * 256) / 4096 % 64 = x1 by omega,
            show ((x0 * 4 + x1 / 16) * 65536 + (x1 % 16 * 16 + x2 / 4) * 256) / 64 % 64 = x2 by omega] at this
          rw [hr]; exact this
        · rw [hbs]; unfold Room; simp; omega
      · obtain ⟨k1, k2, k3, k4, k5⟩ := combine l0 l1 l2 l3
        simp only [digit] at hd3
        split at hd3
        · cases hd3
        rename_i hs3
        injection hd3 with hd3; subst hd3
        rw [k1, k2, k3] at h
        simp only [List.length_append, List.length_cons, List.length_nil] at hs3
        obtain ⟨d, hbs, hr, hroom⟩ := ih r _ bs 0 (by simp at hm; omega) (tail ht3)
          (by simp; omega) (by simp; omega) h
        refine ⟨UInt8.ofNat (x0 * 4 + x1 / 16) :: UInt8.ofNat (x1 % 16 * 16 + x2 / 4) ::
          UInt8.ofNat (x2 % 4 * 64 + x3) :: d, by rw [hbs]; simp, ?_, hroom⟩
        have := Rfc.group (a := UInt8.ofNat (x0 * 4 + x1 / 16)) (b := UInt8.ofNat (x1 % 16 * 16 + x2 / 4))
          (c := UInt8.ofNat (x2 % 4 * 64 + x3)) rfl hr
        rw [toNat_ofNat (by omega), toNat_ofNat (by omega), toNat_ofNat (by omega),
          show ((x0 * 4 + x1 / 16) * 65536 + (x1 % 16 * 16 + x2 / 4) * 256 + (x2 % 4 * 64 + x3)) / 262144 = x0 by omega,
          show ((x0 * 4 + x1 / 16) * 65536 + (x1 % 16 * 16 + x2 / 4) * 256 + (x2 % 4 * 64 + x3)) / 4096 % 64 = x1 by omega,
          show ((x0 * 4 + x1 / 16) * 65536 + (x1 % 16 * 16 + x2 / 4) * 256 + (x2 % 4 * 64 + x3)) / 64 % 64 = x2 by omega,
          show ((x0 * 4 + x1 / 16) * 65536 + (x1 % 16 * 16 + x2 / 4) * 256 + (x2 % 4 * 64 + x3)) % 64 = x3 by omega] at this
        exact this

/-- One digit on. -/
theorem pton_digit {n x : Nat} {st st' : St} {r : Bytes} (hx : x < 64) (hd : digit n st x = some st') :
    pton n st (rfcLetter x :: r) = pton n st' r := by
  obtain ⟨v1, v2, v3⟩ := value_letter hx
  rw [pton, if_neg (by simp [v3]), if_neg v2, v1]
  simp only [hd]

theorem pton_pad {n : Nat} {st : St} {r : Bytes} : pton n st (61 :: r) = padded st r := by
  rw [pton, if_neg (by decide), if_pos rfl]

theorem pton_complete {n : Nat} {d s : Bytes} (h : Rfc d s) : ∀ (done : Bytes) (cur : Nat), done.length % 3 = 0 →
    Room n (done.length + d.length) → pton n ⟨done, cur, 0⟩ s = some (done ++ d) := by
  induction h with
  | nil => intro done cur _ _; simp [pton]
  | @group a b c r t v hv h ih =>
    intro done cur h3 hroom
    have ha := a.toNat_lt; have hb := b.toNat_lt; have hc := c.toNat_lt
    have hr : done.length + 3 ≤ n := by have := hroom.1; simp only [List.length_cons] at this; omega
    obtain ⟨k1, k2, k3, k4, k5⟩ := combine (x0 := v / 262144) (x1 := v / 4096 % 64) (x2 := v / 64 % 64) (x3 := v % 64)
      (by omega) (by omega) (by omega) (by omega)
    rw [pton_digit (by omega) (by simp only [digit]; rw [if_neg (by omega)]),
      pton_digit (by omega) (by simp only [digit]; rw [if_neg (by omega)]),
      pton_digit (by omega) (by simp only [digit]; rw [if_neg (by simp; omega)]),
      pton_digit (by omega) (by simp only [digit]; rw [if_neg (by simp; omega)])]
    rw [k1, k2, k3, show v / 262144 * 4 + v / 4096 % 64 / 16 = a.toNat by omega,
      show v / 4096 % 64 % 16 * 16 + v / 64 % 64 / 4 = b.toNat by omega,
      show v / 64 % 64 % 4 * 64 + v % 64 = c.toNat by omega]
    simp only [UInt8.ofNat_toNat]
    rw [ih _ _ (by simp; omega) (by
      have : (done ++ [a] ++ [b] ++ [c]).length + r.length = done.length + (a :: b :: c :: r).length := by
        simp; omega
      rw [this]; exact hroom)]
    simp
  | @two a b v hv =>
    intro done cur h3 hroom
    have ha := a.toNat_lt; have hb := b.toNat_lt
    have hr : done.length + 2 < n := by
      have := hroom.2; simp only [List.length_cons, List.length_nil] at this; omega
    obtain ⟨k1, k2, k3, k4, k5⟩ := combine (x0 := v / 262144) (x1 := v / 4096 % 64) (x2 := v / 64 % 64) (x3 := 0)
      (by omega) (by omega) (by omega) (by omega)
    rw [pton_digit (by omega) (by simp only [digit]; rw [if_neg (by omega)]),
      pton_digit (by omega) (by simp only [digit]; rw [if_neg (by omega)]),
      pton_digit (by omega) (by simp only [digit]; rw [if_neg (by simp; omega)]), pton_pad]
    rw [k1, k2, k5, show v / 262144 * 4 + v / 4096 % 64 / 16 = a.toNat by omega,
      show v / 4096 % 64 % 16 * 16 + v / 64 % 64 / 4 = b.toNat by omega, show v / 64 % 64 % 4 * 64 = 0 by omega]
    simp [padded, finish]
  | @one a v hv =>
    intro done cur h3 hroom
    have ha := a.toNat_lt
    have hr : done.length + 1 < n := by
      have := hroom.2; simp only [List.length_cons, List.length_nil] at this; omega
    obtain ⟨k1, k2, k3, k4, k5⟩ := combine (x0 := v / 262144) (x1 := v / 4096 % 64) (x2 := 0) (x3 := 0)
      (by omega) (by omega) (by omega) (by omega)
    rw [pton_digit (by omega) (by simp only [digit]; rw [if_neg (by omega)]),
      pton_digit (by omega) (by simp only [digit]; rw [if_neg (by omega)]), pton_pad]
    rw [k1, k4, show v / 262144 * 4 + v / 4096 % 64 / 16 = a.toNat by omega,
      show v / 4096 % 64 % 16 * 16 = 0 by omega]
    have hsp : isSpace 61 = false := by decide
    simp [padded, finish, hsp]

/-! ## The property -/

/-- **C63 (encoding).**  Into a target of `n` bytes exactly the RFC 4648 text is written, when it and a NUL fit. -/
theorem C63_encode (d s : Bytes) (n : Nat) : ntop d n = some s ↔ Rfc d s ∧ s.length < n := by
  unfold ntop
  constructor
  · intro h
    split at h
    · cases h
    · injection h with h; subst h
      exact ⟨encode_rfc d, by omega⟩
  · rintro ⟨h, hl⟩
    rw [rfc_encode h] at hl ⊢
    rw [if_neg (by omega)]

/-- **C63 (decoding).**  A text is accepted, with result `d`, exactly when without its white space it is the
RFC 4648 text for `d` and the target has room. -/
theorem C63_decode (s d : Bytes) (n : Nat) : decode s n = some d ↔ Rfc d (squeeze s) ∧ Room n d.length := by
  unfold decode
  rw [pton_squeeze]
  constructor
  · intro h
    obtain ⟨d', e, hr, hroom⟩ := pton_sound n _ _ [] d 0 (Nat.le_refl _) (squeeze_tight s) rfl (by simp) h
    simp at e; subst e
    exact ⟨hr, hroom⟩
  · rintro ⟨hr, hroom⟩
    have := pton_complete (n := n) hr [] 0 rfl (by simpa using hroom)
    simpa using this

theorem rfc_length {d s : Bytes} (h : Rfc d s) : s.length = (d.length + 2) / 3 * 4 := by
  rw [rfc_encode h, encode_length]

/-- **C63 (buffers).**  `sshbuf_b64tod` never lacks room: it accepts exactly the RFC 4648 texts with white
space anywhere. -/
theorem C63_b64tod (s d : Bytes) : b64tod s = some d ↔ Rfc d (squeeze s) := by
  unfold b64tod
  split
  · rename_i h
    rw [List.length_eq_zero_iff.1 h]
    constructor
    · intro h; injection h with h; subst h; exact .nil
    · intro h
      have h2 := rfc_length h
      have : d.length = 0 := by simp [squeeze] at h2; omega
      rw [List.length_eq_zero_iff.1 this]
  · rw [C63_decode]
    constructor
    · exact fun h => h.1
    · intro h
      refine ⟨h, ?_⟩
      have h2 := rfc_length h
      have h3 : (squeeze s).length ≤ s.length := List.length_filter_le _ _
      unfold Room; omega

/-- **C63 (one text).**  No two texts that differ in more than white space decode to the same bytes. -/
theorem C63_unique (s t d : Bytes) (hs : b64tod s = some d) (ht : b64tod t = some d) : squeeze s = squeeze t := by
  rw [rfc_encode ((C63_b64tod s d).1 hs), rfc_encode ((C63_b64tod t d).1 ht)]

theorem rfc_chars {d s : Bytes} (h : Rfc d s) : ∀ c ∈ s, c = 61 ∨ ∃ x, x < 64 ∧ c = rfcLetter x := by
  induction h with
  | nil => intro c hc; cases hc
  | @group a b c r t v hv h ih =>
    have ha := a.toNat_lt; have hb := b.toNat_lt; have hc := c.toNat_lt
    intro x hx
    simp only [List.mem_cons] at hx
    rcases hx with rfl | rfl | rfl | rfl | hx
    · exact .inr ⟨_, by omega, rfl⟩
    · exact .inr ⟨_, by omega, rfl⟩
    · exact .inr ⟨_, by omega, rfl⟩
    · exact .inr ⟨_, by omega, rfl⟩
    · exact ih x hx
  | @two a b v hv =>
    have ha := a.toNat_lt; have hb := b.toNat_lt
    intro x hx
    simp only [List.mem_cons, List.not_mem_nil, or_false] at hx
    rcases hx with rfl | rfl | rfl | rfl
    · exact .inr ⟨_, by omega, rfl⟩
    · exact .inr ⟨_, by omega, rfl⟩
    · exact .inr ⟨_, by omega, rfl⟩
    · exact .inl rfl
  | @one a v hv =>
    have ha := a.toNat_lt
    intro x hx
    simp only [List.mem_cons, List.not_mem_nil, or_false] at hx
    rcases hx with rfl | rfl | rfl | rfl
    · exact .inr ⟨_, by omega, rfl⟩
    · exact .inr ⟨_, by omega, rfl⟩
    · exact .inl rfl
    · exact .inl rfl

theorem rfc_tight {d s : Bytes} (h : Rfc d s) : Tight s := by
  intro c hc
  rcases rfc_chars h c hc with rfl | ⟨x, hx, rfl⟩
  · decide
  · exact (value_letter hx).2.2

theorem squeeze_of_tight {s : Bytes} (h : Tight s) : squeeze s = s := by
  unfold squeeze
  rw [List.filter_eq_self]
  intro c hc; simp [h c hc]

theorem wrap_squeeze {s : Bytes} (h : Tight s) (i : Nat) : squeeze (wrapLoop i s) = s := by
  induction s generalizing i with
  | nil =>
    unfold wrapLoop
    split
    · rfl
    · split <;> decide
  | cons c r ih =>
    have hc := h c (by simp)
    have := ih (fun x hx => h x (by simp [hx])) (i + 1)
    unfold wrapLoop
    split
    · rw [squeeze_cons hc, squeeze_cons_space (by decide), this]
    · rw [squeeze_cons hc, this]

/-- **C63 (round trip).**  Whatever is encoded, wrapped into lines or not, decodes to the same bytes. -/
theorem C63_roundtrip (d : Bytes) (wrap : Bool) : ∃ s, dtob64 d wrap = some s ∧ b64tod s = some d ∧
    Rfc d (squeeze s) := by
  unfold dtob64
  split
  · rename_i h
    rw [List.length_eq_zero_iff.1 h]
    exact ⟨[], rfl, rfl, .nil⟩
  · have hn : ntop d ((d.length + 2) / 3 * 4 + 1) = some (encode d) :=
      (C63_encode d _ _).2 ⟨encode_rfc d, by rw [encode_length]; omega⟩
    rw [hn]
    have ht := rfc_tight (encode_rfc d)
    cases wrap with
    | true =>
      refine ⟨_, rfl, ?_, ?_⟩
      · rw [C63_b64tod]
        simp only [if_true]
        rw [wrap_squeeze ht]; exact encode_rfc d
      · simp only [if_true]
        rw [wrap_squeeze ht]; exact encode_rfc d
    | false =>
      refine ⟨_, rfl, ?_, ?_⟩
      · rw [C63_b64tod]
        simp only [Bool.false_eq_true, if_false]
        rw [squeeze_of_tight ht]; exact encode_rfc d
      · simp only [Bool.false_eq_true, if_false]
        rw [squeeze_of_tight ht]; exact encode_rfc d

example : Rfc b!"foob" b!"Zm9vYg==" := encode_rfc b!"foob"
example : b64tod b!" Zm9v\nYg = =" = some b!"foob" := by decide +kernel
example : b64tod b!"Zm9vYh==" = none := by decide +kernel
example : dtob64 (List.replicate 54 0) true = some (List.replicate 70 65 ++ [10, 65, 65, 10]) := by decide +kernel
example : decode b!"Zg==" 1 = none ∧ decode b!"Zg==" 2 = some b!"f" := by decide +kernel

end Verif.Misc.Base64
