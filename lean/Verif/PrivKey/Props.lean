/-
C48: private key files.
-/
import Verif.PrivKey.Spec

namespace Verif.PrivKey
open Verif Wire Spec

variable {K : Type} {w : World K}

/-! ### The text -/

theorem no_char {d s : Bytes} (c : UInt8) (hc : ∀ x : Fin 64, Misc.Base64.rfcLetter x.val ≠ c) (h61 : c ≠ 61) (hs : Num.isSpace c = false)
    (h : Misc.Base64.Rfc d (Misc.Base64.squeeze s)) : c ∉ s := by
  intro hm
  have : c ∈ Misc.Base64.squeeze s := by simp [Misc.Base64.squeeze, hm, hs]
  rcases Misc.Base64.rfc_chars h c this with h1 | ⟨x, hx, h1⟩
  · exact h61 h1
  · exact hc ⟨x, hx⟩ h1.symm

def strip (s : Bytes) : Bytes := s.filter fun c => decide (c ≠ 10 ∧ c ≠ 13)

theorem scan_some {s t : Bytes} (h : scan s = some t) : ∃ b tail, s = b ++ 10 :: END ++ tail ∧ t = strip b := by
  induction s generalizing t with
  | nil => simp [scan] at h
  | cons c r ih =>
    rw [scan] at h
    split at h
    · rename_i hc
      simp only [Option.some.injEq] at h
      refine ⟨[], r.drop (END).length, ?_, by rw [← h]; rfl⟩
      conv => lhs; rw [← List.take_append_drop (END).length r, hc.2, hc.1]
      simp
    · obtain ⟨t', ht, rfl⟩ := Option.map_eq_some_iff.1 h
      obtain ⟨b, tail, e1, e2⟩ := ih ht
      refine ⟨c :: b, tail, by rw [e1]; rfl, ?_⟩
      rw [e2]
      simp only [strip, List.filter_cons, decide_eq_true_eq]

theorem scan_junk (j tail : Bytes) : ∃ j' t', scan (j ++ 10 :: END ++ tail) = some (strip j') ∧ j = j' ++ t' := by
  induction j with
  | nil => exact ⟨[], [], by
      rw [List.nil_append, List.cons_append, scan, if_pos ⟨rfl, List.take_left ..⟩]; rfl, rfl⟩
  | cons c j ih =>
    obtain ⟨j', t', e1, e2⟩ := ih
    rw [List.cons_append, List.cons_append, scan]
    split
    · exact ⟨[], c :: j, rfl, rfl⟩
    · refine ⟨c :: j', t', ?_, by rw [e2]; rfl⟩
      rw [e1, Option.map_some]
      simp only [strip, List.filter_cons, decide_eq_true_eq]

theorem scan_body {b r t : Bytes} (hb : (45 : UInt8) ∉ b) (hr : r.head? ≠ some 45) (h : scan r = some t) :
    scan (b ++ r) = some (strip b ++ t) := by
  induction b with
  | nil => exact h
  | cons c b ih =>
    have h1 : (45 : UInt8) ∉ b := fun h => hb (by simp [h])
    rw [List.cons_append, scan, if_neg, ih h1]
    · simp only [strip, List.filter_cons, decide_eq_true_eq, Option.map_some]
      split <;> simp
    · rintro ⟨-, h2⟩
      have h3 : (b ++ r).head? = some 45 := by
        cases hbr : b ++ r with
        | nil => rw [hbr] at h2; simp at h2
        | cons x y => rw [hbr] at h2; simp at h2; rw [h2.1]; rfl
      cases b with
      | nil => exact hr (by simpa using h3)
      | cons x y => simp at h3; exact h1 (by simp [h3])

theorem takeWhile_strip (b : Bytes) : (strip b).takeWhile (· ≠ 0) = strip (b.takeWhile (· ≠ 0)) := by
  induction b with
  | nil => rfl
  | cons c b ih =>
    by_cases h0 : c = 0
    · subst h0; simp [strip]
    · by_cases h1 : c ≠ 10 ∧ c ≠ 13
      · simp [strip, h1, h0] at ih ⊢; exact ih
      · have : strip (c :: b) = strip b := by simp only [strip, List.filter_cons, decide_eq_true_eq, if_neg h1]
        rw [this, ih, List.takeWhile_cons, if_pos (by simp [h0])]
        simp only [strip, List.filter_cons, decide_eq_true_eq, if_neg h1]

theorem squeeze_strip (b : Bytes) : Misc.Base64.squeeze (strip b) = Misc.Base64.squeeze b := by
  unfold Misc.Base64.squeeze strip
  rw [List.filter_filter]
  apply List.filter_congr
  intro c _
  by_cases h : c = 10 ∨ c = 13
  · rcases h with rfl | rfl <;> decide
  · simp only [not_or] at h
    simp [h.1, h.2]

/-- The text of a file, before the magic is looked at. -/
theorem text_scan {s d : Bytes} : Text s d ↔
    s.length ≥ (BEGIN).length + (END).length ∧ s.take (BEGIN).length = BEGIN ∧
    ∃ t, scan (s.drop (BEGIN).length) = some t ∧ Misc.Base64.b64tod (t.takeWhile (· ≠ 0)) = some d := by
  constructor
  · rintro ⟨body, junk, tail, e, hj, hr⟩
    have e' : s = BEGIN ++ (body ++ (junk ++ 10 :: END ++ tail)) := by rw [e]; simp
    have h45 : (45 : UInt8) ∉ body := no_char 45 (by decide) (by decide) (by decide) hr
    have h0 : (0 : UInt8) ∉ body := no_char 0 (by decide) (by decide) (by decide) hr
    refine ⟨by rw [e']; simp only [List.length_append, List.length_cons]; omega, by rw [e', List.take_left], ?_⟩
    obtain ⟨j', t', e1, e2⟩ := scan_junk junk tail
    refine ⟨strip body ++ strip j', ?_, ?_⟩
    · rw [e', List.drop_left]
      refine scan_body h45 ?_ e1
      rcases hj with rfl | hj
      · simp
      · cases junk with
        | nil => simp at hj
        | cons x y => simp at hj; subst hj; simp
    · rw [show strip body ++ strip j' = strip (body ++ j') from (List.filter_append ..).symm, takeWhile_strip]
      have : (body ++ j').takeWhile (· ≠ 0) = body := by
        rw [List.takeWhile_append_of_pos (fun a ha => by
          simp only [ne_eq, decide_eq_true_eq]; rintro rfl; exact h0 ha)]
        cases j' with
        | nil => simp
        | cons x y =>
          rcases hj with rfl | hj
          · simp at e2
          · rw [e2] at hj; simp at hj; subst hj; simp
      rw [this, Misc.Base64.C63_b64tod, squeeze_strip]
      exact hr
  · rintro ⟨-, hb, t, hs, ht⟩
    obtain ⟨b, tail, e1, rfl⟩ := scan_some hs
    rw [takeWhile_strip, Misc.Base64.C63_b64tod, squeeze_strip] at ht
    refine .mk (b.takeWhile (· ≠ 0)) (b.dropWhile (· ≠ 0)) tail ?_ ?_ ht
    · have e0 := List.take_append_drop (BEGIN).length s
      rw [hb, e1] at e0
      rw [← e0]
      conv => lhs; rw [← List.takeWhile_append_dropWhile (p := (· ≠ 0)) (l := b)]
      simp
    · cases hd : b.dropWhile (· ≠ 0) with
      | nil => exact .inl rfl
      | cons x y =>
        have h2 := List.head?_dropWhile_not (· ≠ 0) b
        rw [hd] at h2
        simp at h2
        subst h2
        exact .inr rfl

/-- **C48 (text).**  What comes of the text is exactly what it says, and begins with the magic. -/
theorem uudecode_ok {s b : Bytes} : uudecode s = .ok b ↔ Text s (MAGIC ++ b) := by
  rw [text_scan]
  unfold uudecode
  constructor
  · intro h
    split at h
    · simp at h
    rename_i h1
    simp only [not_or, Nat.not_lt, ne_eq, Decidable.not_not] at h1
    split at h
    · simp at h
    rename_i t ht
    split at h
    · simp at h
    rename_i d hd
    split at h
    · simp at h
    rename_i h2
    simp only [not_or, Nat.not_lt, ne_eq, Decidable.not_not] at h2
    injection h with h
    refine ⟨h1.1, h1.2, t, ht, ?_⟩
    rw [hd, ← h]
    conv => lhs; rw [← List.take_append_drop (MAGIC).length d, h2.2]
  · rintro ⟨h1, h2, t, ht, hd⟩
    rw [if_neg (by simp only [not_or, ne_eq, Decidable.not_not]; exact ⟨Nat.not_lt.2 h1, h2⟩)]
    simp only [ht, hd]
    rw [List.take_left, List.drop_left, if_neg (by simp)]

theorem text_unique {s d d' : Bytes} (h : Text s d) (h' : Text s d') : d = d' := by
  obtain ⟨-, -, t, ht, hd⟩ := text_scan.1 h
  obtain ⟨-, -, t', ht', hd'⟩ := text_scan.1 h'
  rw [ht] at ht'; injection ht' with e; subst e
  rw [hd] at hd'; injection hd'

/-! ### The envelope -/

theorem envelope_ok {b : Bytes} {e : Envelope K} : envelope w b = .ok e ↔
    ∃ cb kb blob, b = str cb ++ (str kb ++ (str e.kdfOpts ++ (be 4 1 ++ (str blob ++ (be 4 e.len ++ e.rest))))) ∧
      (cb.length ≤ maxString ∧ kb.length ≤ maxString ∧ e.kdfOpts.length ≤ maxString ∧ blob.length ≤ maxString) ∧
      Named cb e.cipher ∧ Named kb e.kdf ∧ w.fromBlob blob = some e.pub ∧ e.len < 2 ^ 32 := by
  constructor
  · intro h
    unfold envelope at h
    split at h
    · simp at h
    rename_i cn r1 e1
    split at h
    · simp at h
    rename_i kn r2 e2
    split at h
    · simp at h
    rename_i opts r3 e3
    split at h
    · simp at h
    rename_i n r4 e4
    split at h
    · simp at h
    rename_i hn
    split at h
    · simp at h
    rename_i blob r5 e5
    split at h
    · simp at h
    rename_i pub hp
    split at h
    · simp at h
    rename_i len rest e6
    injection h with h
    subst h
    obtain ⟨cb, a1, b1, c1⟩ := getCstr_named e1
    obtain ⟨kb, a2, b2, c2⟩ := getCstr_named e2
    obtain ⟨b3, c3⟩ := getStr_some e3
    obtain ⟨b4, c4⟩ := getInt_some e4
    obtain ⟨b5, c5⟩ := getStr_some e5
    obtain ⟨b6, c6⟩ := getInt_some e6
    simp only [ne_eq, Decidable.not_not] at hn
    subst hn
    exact ⟨cb, kb, blob, by rw [b1, b2, b3, b4, b5, b6], ⟨c1, c2, c3, c5⟩, a1, a2, hp, c6⟩
  · rintro ⟨cb, kb, blob, rfl, ⟨c1, c2, c3, c5⟩, a1, a2, hp, c6⟩
    unfold envelope
    simp only [getCstr_of_named a1 _ c1, getCstr_of_named a2 _ c2, getStr_append _ _ c3, getInt_append 4 1 _ (by omega),
      getStr_append _ _ c5, hp, getInt_append 4 _ _ c6]
    simp

theorem derive_ok {c : Cipher} {cn kn opts pass key : Bytes} (h1 : kn = b!"none" ∨ kn = b!"bcrypt")
    (h2 : kn = b!"none" → cn = b!"none") (h3 : pass = [] → kn = b!"none") :
    derive w c pass kn opts = .ok key ↔ Derived w c cn kn opts pass key := by
  constructor
  · intro h
    unfold derive at h
    split at h
    · rename_i hk
      split at h
      · simp at h
      rename_i salt r e1
      split at h
      · simp at h
      rename_i rounds extra e2
      split at h
      · simp at h
      rename_i key' e3
      injection h with h
      subst h
      obtain ⟨b1, c1⟩ := getStr_some e1
      obtain ⟨b2, c2⟩ := getInt_some e2
      refine .bcrypt hk ?_ (by rw [b1, b2, List.append_assoc]) c1 c2 e3
      intro hp
      have := h3 hp
      rw [hk] at this
      exact absurd this (by decide)
    · rename_i hk
      injection h with h
      subst h
      have : kn = b!"none" := by rcases h1 with h | h; exact h; exact absurd h hk
      exact .none this (h2 this)
  · intro h
    unfold derive
    cases h with
    | none a b => rw [if_neg (by rw [a]; decide)]
    | @bcrypt salt extra key rounds a b e l32 hr hk =>
      rw [if_pos a, e, List.append_assoc]
      simp only [getStr_append _ _ l32, getInt_append 4 _ _ hr, hk]

theorem open_ok {c : Cipher} {key rest p : Bytes} {len : Nat} : open_ c key len rest = .ok p ↔
    rest.length = len + c.auth ∧ ∃ check, check < 2 ^ 32 ∧ c.dec key rest = .ok (be 4 check ++ be 4 check ++ p) := by
  unfold open_
  constructor
  · intro h
    split at h
    · simp at h
    rename_i h1
    split at h
    · simp at h
    · simp at h
    rename_i p0 hp
    split at h
    · simp at h
    rename_i h2
    split at h
    · simp at h
    rename_i c1 p1 e1
    split at h
    · simp at h
    rename_i c2 p2 e2
    split at h
    · simp at h
    rename_i h3
    simp only [ne_eq, Decidable.not_not] at h3
    injection h with h
    subst h h3
    obtain ⟨b1, l1⟩ := getInt_some e1
    obtain ⟨b2, l2⟩ := getInt_some e2
    have hlen : rest.length = len + c.auth := by
      simp only [List.length_drop] at h2; omega
    rw [← hlen, List.take_length, b1, b2] at hp
    exact ⟨hlen, c1, l1, by rw [hp, List.append_assoc]⟩
  · rintro ⟨hlen, check, hc, hd⟩
    rw [if_neg (by omega), ← hlen, List.take_length, hd]
    simp only [List.drop_length, List.length_nil, ne_eq, not_true_eq_false, if_false, List.append_assoc]
    simp [getInt_append 4 _ _ hc]

/-- What `decrypt` answers once the envelope is in order. -/
theorem decrypt_locked {b pass ct key : Bytes} {c : Cipher} {pub : K} (h : Locked w (MAGIC ++ b) pass c key ct pub) :
    ∃ len, ct.length = len + c.auth ∧ decrypt w b pass = (open_ c key len ct).map (·, pub) := by
  obtain ⟨cb, cn, kb, kn, opts, blob, len, e, ⟨c1, c2, c3, c4⟩, n1, n2, hc, hd, hp, s1, s2, s3, s4⟩ := h
  have e2 : b = str cb ++ (str kb ++ (str opts ++ (be 4 1 ++ (str blob ++ (be 4 len ++ ct))))) := by
    simpa only [List.append_assoc, List.append_cancel_left_eq] using e
  have henv : envelope w b = .ok ⟨cn, kn, opts, pub, len, ct⟩ :=
    envelope_ok.2 ⟨cb, kb, blob, e2, ⟨c1, c2, c3, c4⟩, n1, n2, hp, s3⟩
  have f1 : kn = b!"none" ∨ kn = b!"bcrypt" := by cases hd with
    | none a _ => exact .inl a
    | bcrypt a => exact .inr a
  have f2 : kn = b!"none" → cn = b!"none" := by
    intro h; cases hd with
    | none _ a => exact a
    | bcrypt a => rw [h] at a; exact absurd a (by decide)
  have f3 : pass = [] → kn = b!"none" := by
    intro h; cases hd with
    | none a _ => exact a
    | bcrypt _ a => exact absurd h a
  refine ⟨len, s4, ?_⟩
  unfold decrypt
  simp only [henv, hc]
  rw [if_neg (fun h => f1.elim h.1 h.2), if_neg (fun h => h.2 (f2 h.1)), if_neg (fun h => h.2 (f3 h.1)),
    if_neg (by have := Nat.mod_eq_zero_of_dvd s2; omega)]
  simp only [(derive_ok f1 f2 f3).2 hd]
  cases open_ c key len ct <;> rfl

theorem decrypt_ok {b pass p : Bytes} {pub : K} : decrypt w b pass = .ok (p, pub) ↔
    ∃ c key ct check, Locked w (MAGIC ++ b) pass c key ct pub ∧ check < 2 ^ 32 ∧
      c.dec key ct = .ok (be 4 check ++ be 4 check ++ p) := by
  constructor
  · intro h
    unfold decrypt at h
    split at h
    · simp at h
    rename_i e he
    split at h
    · simp at h
    rename_i c hc
    split at h
    · simp at h
    rename_i g1
    split at h
    · simp at h
    rename_i g2
    split at h
    · simp at h
    rename_i g3
    split at h
    · simp at h
    rename_i g4
    split at h
    · simp at h
    rename_i key hk
    split at h
    · simp at h
    rename_i p' hp
    simp only [Except.ok.injEq, Prod.mk.injEq] at h
    obtain ⟨rfl, rfl⟩ := h
    obtain ⟨cb, kb, blob, e2, l, n1, n2, hb, h32⟩ := envelope_ok.1 he
    obtain ⟨hl, check, hch, hdec⟩ := open_ok.1 hp
    have f1 : e.kdf = b!"none" ∨ e.kdf = b!"bcrypt" := by
      by_cases x : e.kdf = b!"none"
      · exact .inl x
      · by_cases y : e.kdf = b!"bcrypt"
        · exact .inr y
        · exact absurd ⟨x, y⟩ g1
    have f2 : e.kdf = b!"none" → e.cipher = b!"none" := fun x => Decidable.not_not.1 fun y => g2 ⟨x, y⟩
    have f3 : pass = [] → e.kdf = b!"none" := fun x => Decidable.not_not.1 fun y => g3 ⟨x, y⟩
    refine ⟨c, key, e.rest, check, .mk cb e.cipher kb e.kdf e.kdfOpts blob e.len ?_ l n1 n2 hc
      ((derive_ok f1 f2 f3).1 hk) hb ⟨by omega, Nat.dvd_of_mod_eq_zero (by omega), h32, hl⟩, hch, hdec⟩
    rw [e2]; simp only [List.append_assoc]
  · rintro ⟨c, key, ct, check, hl, hch, hdec⟩
    obtain ⟨len, hlen, e⟩ := decrypt_locked hl
    rw [e, open_ok.2 ⟨hlen, check, hch, hdec⟩]; rfl

/-! ### Padding -/

theorem range_shift (i n : Nat) : (List.range' i (n + 1)) = i :: List.range' (i + 1) n := by
  simp [List.range'_succ]

theorem padding_eq (n : Nat) : padding n = (List.range' 0 n).map fun i => UInt8.ofNat (i + 1) := by
  rw [padding, List.range_eq_range']

theorem byte_eq (c : UInt8) (i : Nat) : c.toNat = (i + 1) &&& 0xff ↔ c = UInt8.ofNat (i + 1) := by
  have e : (i + 1) &&& 0xff = (i + 1) % 256 := Nat.and_two_pow_sub_one_eq_mod (i + 1) 8
  rw [e, ← UInt8.toNat_inj, UInt8.toNat_ofNat']

theorem check_iff (i : Nat) (r : Bytes) : checkPadding i r = true ↔
    r = (List.range' i r.length).map fun i => UInt8.ofNat (i + 1) := by
  induction r generalizing i with
  | nil => simp [checkPadding]
  | cons c r ih =>
    rw [List.length_cons, range_shift, List.map_cons, List.cons.injEq, ← ih, ← byte_eq, checkPadding]
    split
    · rename_i h; simp [h]
    · rename_i h; simp only [ne_eq, Decidable.not_not] at h; simp [h]

theorem check_padding {r : Bytes} : checkPadding 0 r = true ↔ ∃ n, r = padding n := by
  rw [check_iff]
  constructor
  · intro h; exact ⟨r.length, by rw [padding_eq]; exact h⟩
  · rintro ⟨n, rfl⟩
    rw [padding_eq]; simp

theorem pad_spec (block : Nat) (hb : 0 < block) (fuel n i : Nat) (hf : (block - n % block) % block ≤ fuel) :
    ∃ m, pad block fuel n i = (List.range' i m).map (fun i => UInt8.ofNat (i + 1)) ∧ block ∣ n + m ∧ m < block := by
  induction fuel generalizing n i with
  | zero =>
    refine ⟨0, rfl, ?_, hb⟩
    have := Nat.mod_lt n hb
    by_cases h0 : n % block = 0
    · exact Nat.dvd_of_mod_eq_zero h0
    · rw [Nat.mod_eq_of_lt (by omega)] at hf; omega
  | succ fuel ih =>
    rw [pad]
    split
    · rename_i h; exact ⟨0, rfl, Nat.dvd_of_mod_eq_zero h, hb⟩
    · rename_i h
      have h1 := Nat.mod_lt n hb
      rw [Nat.mod_eq_of_lt (by omega)] at hf
      have h2 : (n + 1) % block = (n % block + 1) % block := by rw [Nat.add_mod, Nat.mod_add_mod]; simp [Nat.add_mod]
      by_cases h3 : n % block + 1 = block
      · have h4 : (n + 1) % block = 0 := by rw [h2, h3, Nat.mod_self]
        refine ⟨1, ?_, Nat.dvd_of_mod_eq_zero h4, by omega⟩
        have : pad block fuel (n + 1) (i + 1) = [] := by
          cases fuel with
          | zero => rfl
          | succ f => rw [pad, if_pos h4]
        rw [this]; rfl
      · have h4 : (n + 1) % block = n % block + 1 := by rw [h2, Nat.mod_eq_of_lt (by omega)]
        obtain ⟨m, e, d, l⟩ := ih (n + 1) (i + 1) (by rw [h4, Nat.mod_eq_of_lt (by omega)]; omega)
        refine ⟨m + 1, by rw [e, range_shift]; rfl, by rwa [show n + (m + 1) = n + 1 + m by omega], ?_⟩
        -- the padding ends before a whole block
        obtain ⟨q, hq⟩ := d
        rcases Nat.lt_or_ge (m + 1) block with h6 | h6
        · exact h6
        · exfalso
          have hm : m + 1 = block := by omega
          have : n + (m + 1) = block * q := by omega
          rw [hm] at this
          have : n % block = 0 := by
            have h5 : (n + block) % block = 0 := by rw [this]; simp
            simpa using h5
          exact h this

/-! ### Reading -/

/-- **C48 (reading).**  A private key file is accepted exactly if it is the text of an envelope whose ciphertext, opened
with the key the passphrase gives, holds two equal check words, the key and its comment, and the padding 1, 2, 3, ... to
the end; and the public key outside is that of the private key. -/
theorem C48_parse {s pass comment : Bytes} {type : Option Nat} {k : K} : parse w s type pass = .ok (k, comment) ↔
    ∃ d c key ct pub p, Text s d ∧ Locked w d pass c key ct pub ∧ c.dec key ct = .ok p ∧ Says w p k comment ∧
      w.equal pub k = true ∧ (∀ t, type = some t → t = w.type pub) := by
  constructor
  · intro h
    unfold parse at h
    split at h
    · simp at h
    rename_i b hu
    split at h
    · simp at h
    rename_i p pub hd
    split at h
    · simp at h
    rename_i ht
    split at h
    · simp at h
    rename_i k' r e1
    split at h
    · simp at h
    rename_i cm r' e2
    split at h
    · simp at h
    rename_i hp
    split at h
    · simp at h
    rename_i he
    simp only [Except.ok.injEq, Prod.mk.injEq] at h
    obtain ⟨rfl, rfl⟩ := h
    obtain ⟨c, key, ct, check, hl, hch, hdec⟩ := decrypt_ok.1 hd
    obtain ⟨cb, a1, b1, c1⟩ := getCstr_named e2
    obtain ⟨n, hn⟩ := check_padding.1 (by simpa using hp)
    refine ⟨_, c, key, ct, pub, _, uudecode_ok.1 hu, hl, hdec, .mk check p cb n rfl hch (by rw [e1, b1, hn]) ⟨a1, c1⟩,
      by simpa using he, ?_⟩
    intro t e
    subst e
    by_cases x : t = w.type pub
    · exact x
    · exact absurd ⟨by simp, by simpa using x⟩ ht
  · rintro ⟨d, c, key, ct, pub, p, ht, hl, hdec, ⟨check, r, cb, n, rfl, hch, hk, hn, hcl⟩, he, hty⟩
    obtain ⟨b, rfl⟩ : ∃ b, d = MAGIC ++ b := by
      cases hl with | mk cb cn kb kn opts blob len shape => exact ⟨_, by rw [shape]; simp only [List.append_assoc]; rfl⟩
    unfold parse
    simp only [uudecode_ok.2 ht, decrypt_ok.2 ⟨c, key, ct, check, hl, hch, hdec⟩]
    rw [if_neg (by
      rintro ⟨x, y⟩
      cases type with
      | none => exact x rfl
      | some t => exact y (by rw [hty t rfl]))]
    simp only [hk, getCstr_of_named hn _ hcl, check_padding.2 ⟨n, rfl⟩, he]
    simp

/-- **C48 (check words).**  If the decrypted part does not begin with two equal words, the answer is that the passphrase
is wrong, whatever else the file holds. -/
theorem C48_check {s d pass ct key r : Bytes} {type : Option Nat} {c : Cipher} {pub : K} {a b : Nat} (ht : Text s d)
    (hl : Locked w d pass c key ct pub) (hd : c.dec key ct = .ok (be 4 a ++ be 4 b ++ r)) (ha : a < 2 ^ 32) (hb : b < 2 ^ 32)
    (hab : a ≠ b) : parse w s type pass = .error .wrongPassphrase := by
  obtain ⟨d', rfl⟩ : ∃ b, d = MAGIC ++ b := by
    cases hl with | mk cb cn kb kn opts blob len shape => exact ⟨_, by rw [shape]; simp only [List.append_assoc]; rfl⟩
  obtain ⟨len, hlen, e⟩ := decrypt_locked hl
  have : open_ c key len ct = .error .wrongPassphrase := by
    unfold open_
    rw [if_neg (by omega), ← hlen, List.take_length, hd]
    simp only [List.drop_length, List.length_nil, ne_eq, not_true_eq_false, if_false, List.append_assoc]
    simp [getInt_append 4 _ _ ha, getInt_append 4 _ _ hb, hab]
  unfold parse
  simp only [uudecode_ok.2 ht, e, this, Except.map]

/-- **C48 (padding).**  If what follows the key and the comment is not 1, 2, 3, ..., the file is refused. -/
theorem C48_padding {s d pass ct key r cb rest comment : Bytes} {type : Option Nat} {c : Cipher} {pub k : K} {check : Nat}
    (ht : Text s d) (hl : Locked w d pass c key ct pub) (hd : c.dec key ct = .ok (be 4 check ++ be 4 check ++ r))
    (hc : check < 2 ^ 32) (hk : w.deser r = some (k, str cb ++ rest)) (hcb : Named cb comment) (hcl : cb.length ≤ maxString)
    (hp : ∀ n, rest ≠ padding n) : ∃ e, parse w s type pass = .error e := by
  obtain ⟨d', rfl⟩ : ∃ b, d = MAGIC ++ b := by
    cases hl with | mk cb cn kb kn opts blob len shape => exact ⟨_, by rw [shape]; simp only [List.append_assoc]; rfl⟩
  unfold parse
  simp only [uudecode_ok.2 ht, decrypt_ok.2 ⟨c, key, ct, check, hl, hc, hd⟩]
  split
  · exact ⟨_, rfl⟩
  · simp only [hk, getCstr_of_named hcb _ hcl]
    rw [if_pos]
    · exact ⟨_, rfl⟩
    · cases h : checkPadding 0 rest with
      | false => rfl
      | true => obtain ⟨n, hn⟩ := check_padding.1 h; exact absurd hn (hp n)

/-- **C48 (tampering).**  A bad tag is answered as a wrong passphrase. -/
theorem C48_tag {s d pass ct key : Bytes} {type : Option Nat} {c : Cipher} {pub : K} (ht : Text s d)
    (hl : Locked w d pass c key ct pub) (hd : c.dec key ct = .badMac) : parse w s type pass = .error .wrongPassphrase := by
  obtain ⟨d', rfl⟩ : ∃ b, d = MAGIC ++ b := by
    cases hl with | mk cb cn kb kn opts blob len shape => exact ⟨_, by rw [shape]; simp only [List.append_assoc]; rfl⟩
  obtain ⟨len, hlen, e⟩ := decrypt_locked hl
  have : open_ c key len ct = .error .wrongPassphrase := by
    unfold open_
    rw [if_neg (by omega), ← hlen, List.take_length, hd]
  unfold parse
  simp only [uudecode_ok.2 ht, e, this, Except.map]

/-- **C48 (passphrase needed).**  A file that is opened without a passphrase is one that names "none" as its cipher and
as its key derivation. -/
theorem C48_needs_passphrase {s comment cb kb rest : Bytes} {type : Option Nat} {k : K} (h : parse w s type [] = .ok (k, comment))
    (ht : Text s (MAGIC ++ (str cb ++ (str kb ++ rest)))) (h1 : cb.length ≤ maxString) (h2 : kb.length ≤ maxString) :
    Named cb b!"none" ∧ Named kb b!"none" := by
  obtain ⟨d, c, key, ct, pub, p, ht', hl, hdec, -⟩ := C48_parse.1 h
  obtain ⟨cb', cn, kb', kn, opts, blob, len, e, ⟨l1, l2, -⟩, n1, n2, hc, hd, hp, -⟩ := hl
  rw [e] at ht'
  have := text_unique ht ht'
  simp only [List.append_assoc, List.append_cancel_left_eq] at this
  have a1 := getStr_append cb (str kb ++ rest) h1
  rw [this, getStr_append cb' _ l1] at a1
  simp only [Option.some.injEq, Prod.mk.injEq] at a1
  have a2 := getStr_append kb rest h2
  rw [← a1.2, getStr_append kb' _ l2] at a2
  simp only [Option.some.injEq, Prod.mk.injEq] at a2
  rw [← a1.1, ← a2.1]
  cases hd with
  | none a b => subst a b; exact ⟨n1, n2⟩
  | bcrypt _ a => exact absurd rfl a

/-- **C48 (public half).**  Of a file that can be opened, the public key can be read without the passphrase, and it is the
private key's. -/
theorem C48_public {s pass comment : Bytes} {type : Option Nat} {k : K} (h : parse w s type pass = .ok (k, comment)) :
    ∃ pub, parsePub w s type = .ok pub ∧ w.equal pub k = true := by
  obtain ⟨d, c, key, ct, pub, p, ht, hl, hdec, -, he, hty⟩ := C48_parse.1 h
  obtain ⟨cb, cn, kb, kn, opts, blob, len, e, ⟨c1, c2, c3, c4⟩, -, -, hc, hd, hp, -⟩ := hl
  refine ⟨pub, ?_, he⟩
  have e' : d = MAGIC ++ (str cb ++ (str kb ++ (str opts ++ (be 4 1 ++ (str blob ++ (be 4 len ++ ct)))))) := by
    rw [e]; simp only [List.append_assoc]
  rw [e'] at ht
  unfold parsePub
  simp only [uudecode_ok.2 ht]
  have : skipTo (str cb ++ (str kb ++ (str opts ++ (be 4 1 ++ (str blob ++ (be 4 len ++ ct)))))) = some blob := by
    unfold skipTo
    simp only [getStr_append _ _ c1, getStr_append _ _ c2, getStr_append _ _ c3, getInt_append 4 1 _ (by omega),
      getStr_append _ _ c4]
    simp
  simp only [this, hp]
  rw [if_neg]
  rintro ⟨x, y⟩
  cases type with
  | none => exact x rfl
  | some t => exact y (by rw [hty t rfl])

/-- **C48 (public half, exactly).**  Without the passphrase a public key is read from just those files that are the text
of an envelope with one key. -/
theorem C48_public_exact {s : Bytes} {type : Option Nat} {pub : K} : parsePub w s type = .ok pub ↔
    ∃ d cb kb opts blob rest, Text s d ∧
      d = b!"openssh-key-v1" ++ [0] ++ (str cb ++ (str kb ++ (str opts ++ (be 4 1 ++ (str blob ++ rest))))) ∧
      (cb.length ≤ maxString ∧ kb.length ≤ maxString ∧ opts.length ≤ maxString ∧ blob.length ≤ maxString) ∧
      w.fromBlob blob = some pub ∧ (∀ t, type = some t → t = w.type pub) := by
  constructor
  · intro h
    unfold parsePub at h
    split at h
    · simp at h
    rename_i b hu
    split at h
    · simp at h
    rename_i blob hs
    split at h
    · simp at h
    rename_i pub' hp
    split at h
    · simp at h
    rename_i ht
    injection h with h
    subst h
    unfold skipTo at hs
    split at hs
    · simp at hs
    rename_i cb r1 e1
    split at hs
    · simp at hs
    rename_i kb r2 e2
    split at hs
    · simp at hs
    rename_i opts r3 e3
    split at hs
    · simp at hs
    rename_i n r4 e4
    split at hs
    · simp at hs
    rename_i hn
    simp only [ne_eq, Decidable.not_not] at hn
    subst hn
    simp only [Option.map_eq_some_iff] at hs
    obtain ⟨⟨bl, rest⟩, e5, rfl⟩ := hs
    obtain ⟨b1, c1⟩ := getStr_some e1
    obtain ⟨b2, c2⟩ := getStr_some e2
    obtain ⟨b3, c3⟩ := getStr_some e3
    obtain ⟨b4, c4⟩ := getInt_some e4
    obtain ⟨b5, c5⟩ := getStr_some e5
    refine ⟨_, cb, kb, opts, bl, rest, uudecode_ok.1 hu, by rw [b1, b2, b3, b4, b5], ⟨c1, c2, c3, c5⟩, hp, ?_⟩
    intro t hty
    exact Decidable.byContradiction fun hc => ht ⟨by simp [hty], by rw [hty]; simpa using hc⟩
  · rintro ⟨d, cb, kb, opts, blob, rest, ht, rfl, ⟨c1, c2, c3, c4⟩, hp, hty⟩
    unfold parsePub
    simp only [uudecode_ok.2 ht]
    have : skipTo (str cb ++ (str kb ++ (str opts ++ (be 4 1 ++ (str blob ++ rest))))) = some blob := by
      unfold skipTo
      simp only [getStr_append _ _ c1, getStr_append _ _ c2, getStr_append _ _ c3, getInt_append 4 1 _ (by omega),
        getStr_append _ _ c4]
      simp
    simp only [this, hp]
    rw [if_neg]
    rintro ⟨x, y⟩
    cases type with
    | none => exact x rfl
    | some t => exact y (by rw [hty t rfl])

/-! ### Round trip -/

theorem wrap_tail (i : Nat) (s : Bytes) (hs : s ≠ []) : ∃ f, Misc.Base64.wrapLoop i s = f ++ [10] := by
  induction s generalizing i with
  | nil => exact absurd rfl hs
  | cons c r ih =>
    rw [Misc.Base64.wrapLoop]
    cases r with
    | nil =>
      split
      · rename_i h
        refine ⟨[c], ?_⟩
        rw [Misc.Base64.wrapLoop, if_neg (by omega), if_neg (by simp; omega)]; rfl
      · rename_i h
        refine ⟨[c], ?_⟩
        rw [Misc.Base64.wrapLoop, if_neg (by omega), if_pos (by simp; omega)]; rfl
    | cons d r =>
      obtain ⟨f, hf⟩ := ih (i + 1) (by simp)
      split
      · exact ⟨c :: 10 :: f, by rw [hf]; rfl⟩
      · exact ⟨c :: f, by rw [hf]; rfl⟩

/-- Bytes made text are the bytes of the text. -/
theorem toText_text {d : Bytes} (hd : d ≠ []) : ∃ s, toText d = .ok s ∧ Text s d := by
  have hl : d.length ≠ 0 := fun h => hd (List.length_eq_zero_iff.1 h)
  obtain ⟨t, h1, -, h3⟩ := Misc.Base64.C63_roundtrip d true
  have hend : ∃ f, t = f ++ [10] := by
    have h1' := h1
    unfold Misc.Base64.dtob64 at h1'
    rw [if_neg hl] at h1'
    split at h1'
    · simp at h1'
    · rename_i e he
      simp only [Option.some.injEq, if_true] at h1'
      rw [← h1']
      refine wrap_tail 0 e ?_
      rintro rfl
      have := ((Misc.Base64.C63_encode d [] _).1 he).1
      cases this
      exact hd rfl
  obtain ⟨f, rfl⟩ := hend
  refine ⟨BEGIN ++ (f ++ [10]) ++ END, by unfold toText; rw [h1], .mk f [] [] (by simp) (.inl rfl) ?_⟩
  have : Misc.Base64.squeeze (f ++ [10]) = Misc.Base64.squeeze f := by
    simp [Misc.Base64.squeeze, Num.isSpace]
  rwa [this] at h3

/-- **C48 (round trip).**  What is written for a key can be read back with the same passphrase: the same key and the same
comment.  The cipher must be one that works; the key's own encoding must be readable. -/
theorem C48_roundtrip {k pub : K} {pass comment salt kd : Bytes} {name : Option Bytes} {rounds check : Nat} {c : Cipher}
    {type : Option Nat}
    (hc : w.cipher (cipherName pass name) = some c) (hw : Works c)
    (hkdf : pass ≠ [] → w.kdf pass salt (if rounds = 0 then 24 else rounds) c.need = some kd)
    (hblob : w.fromBlob (w.toBlob k) = some pub) (heq : w.equal pub k = true) (htype : ∀ t, type = some t → t = w.type pub)
    (hser : ∀ r, w.deser (w.ser k ++ r) = some (k, r))
    (hname : ∀ n, name = some n → 0 ∉ n ∧ n.length ≤ maxString) (hcomment : 0 ∉ comment ∧ comment.length ≤ maxString)
    (hsalt : salt.length ≤ 1000) (hrounds : rounds < 2 ^ 32) (hcheck : check < 2 ^ 32)
    (hbl : (w.toBlob k).length ≤ maxString) (hsize : (w.ser k).length + comment.length + c.block + 12 < 2 ^ 32)
    (hbig : c.block ≤ (w.ser k).length + comment.length + 12) :
    ∃ s, write w k pass comment name rounds salt check = .ok s ∧ parse w s type pass = .ok (k, comment) := by
  have hder : ∃ key kdf, deriveNew w c pass salt (if rounds = 0 then 24 else rounds) = .ok (key, kdf) ∧ kdf.length ≤ maxString ∧
      Derived w c (cipherName pass name) (kdfName pass) kdf pass key := by
    unfold deriveNew
    by_cases hp : pass = []
    · subst hp
      exact ⟨List.replicate c.need 0, [], by rw [if_neg (by decide)], by simp, .none rfl rfl⟩
    · have e1 : kdfName pass = b!"bcrypt" := by rw [kdfName, if_neg hp]
      rw [if_pos e1, hkdf hp]
      refine ⟨kd, _, rfl, by simp only [List.length_append, str, be_length]; omega,
        .bcrypt (extra := []) e1 hp (by rw [List.append_nil]) (by omega) (by split <;> omega) (hkdf hp)⟩
  obtain ⟨key, kdf, h1, h2, h3⟩ := hder
  obtain ⟨m, p1, p2, p3⟩ := pad_spec c.block hw.block c.block
    (be 4 check ++ be 4 check ++ w.ser k ++ str comment).length 0 (Nat.le_of_lt (Nat.mod_lt _ hw.block))
  have hsec : secret w c.block check k comment = be 4 check ++ be 4 check ++ (w.ser k ++ (str comment ++ padding m)) := by
    rw [secret, p1, ← padding_eq]; simp only [List.append_assoc]
  have hseclen : (secret w c.block check k comment).length = (be 4 check ++ be 4 check ++ w.ser k ++ str comment).length + m := by
    rw [hsec]; simp [padding]; omega
  have hl0 : (be 4 check ++ be 4 check ++ w.ser k ++ str comment).length = (w.ser k).length + comment.length + 12 := by
    simp [str]; omega
  obtain ⟨ct, q1, q2, q3⟩ := hw.inverse key (secret w c.block check k comment) (by rw [hseclen]; exact p2)
  have hn : 0 ∉ cipherName pass name ∧ (cipherName pass name).length ≤ maxString := by
    unfold cipherName
    split
    · decide
    · cases name with
      | none => decide
      | some n => exact hname n rfl
  have hk : 0 ∉ kdfName pass ∧ (kdfName pass).length ≤ maxString := by
    unfold kdfName; split <;> decide
  obtain ⟨s, t1, t2⟩ := toText_text (d := MAGIC ++ str (cipherName pass name) ++ str (kdfName pass) ++ str kdf ++ be 4 1 ++
    str (w.toBlob k) ++ be 4 (secret w c.block check k comment).length ++ ct) (by simp)
  refine ⟨s, ?_, ?_⟩
  · unfold write
    simp only [hc, h1]
    unfold encode
    simp only [q1]
    exact t1
  · refine C48_parse.2 ⟨_, c, key, ct, pub, _, t2, ?_, q3, ?_, heq, htype⟩
    · exact .mk _ _ _ _ kdf _ _ rfl ⟨hn.2, hk.2, h2, hbl⟩ ⟨.inl rfl, hn.1⟩ ⟨.inl rfl, hk.1⟩ hc h3 hblob
        ⟨by omega, by rw [hseclen]; exact p2, by omega, q2⟩
    · exact .mk check _ comment m hsec hcheck (hser _) ⟨⟨.inl rfl, hcomment.1⟩, hcomment.2⟩

/-! ### Ed25519 -/

/-- The key's own encoding is readable. -/
theorem ed_deser {k : Ed} {sk r : Bytes} (h1 : k.pk.length = 32) (h2 : k.sk = some sk) (h3 : sk.length = 64) :
    edDeser (edSer k ++ r) = some (k, r) := by
  unfold edDeser edSer
  rw [List.append_assoc, List.append_assoc, getCstr_append _ _ (by decide) (by decide)]
  simp only [edName, decide_true, if_true, edPub]
  rw [getStr_append _ _ (by omega)]
  simp only [h1, ne_eq, not_true_eq_false, if_false, h2, Option.getD_some]
  rw [getStr_append _ _ (by omega)]
  simp only [h3, not_true_eq_false, if_false]
  rw [← h2]

theorem ed_blob {k : Ed} (h1 : k.pk.length = 32) : edFromBlob (edToBlob k) = some ⟨k.pk, none⟩ := by
  unfold edFromBlob edToBlob
  rw [getCstr_append _ _ (by decide) (by decide)]
  simp only [edName, decide_true, if_true, edPub]
  rw [← List.append_nil (str k.pk), getStr_append _ _ (by omega)]
  simp [h1]

/-- **C48 (Ed25519).**  Ed25519 keys survive being written and read, with any passphrase, any comment without NUL and any
cipher that works. -/
theorem C48_ed25519 {cipher : Bytes → Option Cipher} {kdf : Bytes → Bytes → Nat → Nat → Option Bytes} {k : Ed}
    {pass comment salt sk kd : Bytes} {name : Option Bytes} {rounds check : Nat} {c : Cipher}
    (hc : cipher (cipherName pass name) = some c) (hw : Works c) (hblock : c.block ≤ 100)
    (hkdf : pass ≠ [] → kdf pass salt (if rounds = 0 then 24 else rounds) c.need = some kd)
    (h1 : k.pk.length = 32) (h2 : k.sk = some sk) (h3 : sk.length = 64)
    (hname : ∀ n, name = some n → 0 ∉ n ∧ n.length ≤ maxString) (hcomment : 0 ∉ comment ∧ comment.length ≤ maxString)
    (hsalt : salt.length ≤ 1000) (hrounds : rounds < 2 ^ 32) (hcheck : check < 2 ^ 32) :
    ∃ s, write (ed cipher kdf) k pass comment name rounds salt check = .ok s ∧
      parse (ed cipher kdf) s none pass = .ok (k, comment) := by
  have hl : (edSer k).length = 119 := by
    simp only [edSer, str, List.length_append, be_length, h1, h2, Option.getD_some, h3]
    rfl
  have hl2 : (edToBlob k).length = 51 := by
    simp only [edToBlob, str, List.length_append, be_length, h1]
    rfl
  have hb : (ed cipher kdf).fromBlob ((ed cipher kdf).toBlob k) = some ⟨k.pk, none⟩ := by
    simp only [ed]; exact ed_blob h1
  have hs : ∀ r, (ed cipher kdf).deser ((ed cipher kdf).ser k ++ r) = some (k, r) := by
    intro r; simp only [ed]; exact ed_deser h1 h2 h3
  refine C48_roundtrip (w := ed cipher kdf) (pub := ⟨k.pk, none⟩) (kd := kd) hc hw hkdf hb (by simp [ed, edEqual])
    (by simp) hs hname hcomment hsalt hrounds hcheck ?_ ?_ ?_
  · show (edToBlob k).length ≤ _
    rw [hl2]; decide
  · show (edSer k).length + _ + _ + _ < _
    rw [hl]; omega
  · show _ ≤ (edSer k).length + _ + _
    rw [hl]; omega

/-! ### Cases -/

/-- **C48 (Ed25519, public half).**  The public key in front of an Ed25519 key that can be opened is that key's, byte for
byte. -/
theorem C48_ed_public {cipher : Bytes → Option Cipher} {kdf : Bytes → Bytes → Nat → Nat → Option Bytes} {s pass comment : Bytes}
    {type : Option Nat} {k : Ed} (h : parse (ed cipher kdf) s type pass = .ok (k, comment)) :
    parsePub (ed cipher kdf) s type = .ok ⟨k.pk, none⟩ := by
  obtain ⟨pub, hp, he⟩ := C48_public h
  obtain ⟨d, cb, kb, opts, blob, rest, -, -, -, hb, -⟩ := C48_public_exact.1 hp
  have hpk : pub.pk = k.pk := by simpa [ed, edEqual] using he
  have hsk : pub.sk = none := by
    simp only [ed, edFromBlob] at hb
    split at hb
    · cases hb
    · split at hb
      · split at hb
        · cases hb
        · split at hb
          · cases hb
          · cases hb; rfl
      · cases hb
  rw [hp, ← hpk, ← hsk]


/-- `cipher_by_name("none")`: blocks of eight bytes, nothing is done (cipher.c). -/
def noCipher : Cipher := ⟨8, 8, 0, fun _ p => some p, fun _ c => .ok c⟩

theorem noCipher_works : Works noCipher := ⟨by decide, fun _ p _ => ⟨p, rfl, rfl, rfl⟩⟩

/-- Only "none" is known; deriving keys gives zeros. -/
def plainWorld : World Ed := ed (fun n => if n = b!"none" then some noCipher else none) (fun _ _ _ n => some (List.replicate n 0))

def someKey : Ed := ⟨List.replicate 32 7, some (List.replicate 64 9)⟩

example : ∃ s, write plainWorld someKey [] b!"me@here" none 0 [] 5 = .ok s ∧ parse plainWorld s none [] = .ok (someKey, b!"me@here") :=
  C48_ed25519 (sk := List.replicate 64 9) (c := noCipher) (kd := []) rfl noCipher_works (by decide) (by simp) rfl rfl rfl (by simp)
    (by decide) (by decide) (by decide) (by decide)

/-- **C48 (what is not checked).**  The private half of an Ed25519 key holds the public key a second time (its last 32
bytes); nothing compares it with the public key of the file.  Here the two differ, and the file is accepted. -/
theorem C48_halves_false : ∃ s k sk, parse plainWorld s none [] = .ok (k, b!"c") ∧ k.sk = some sk ∧ sk.drop 32 ≠ k.pk := by
  obtain ⟨s, -, h⟩ := C48_ed25519 (cipher := fun n => if n = b!"none" then some noCipher else none)
    (kdf := fun _ _ _ n => some (List.replicate n 0)) (k := someKey) (pass := []) (comment := b!"c") (salt := []) (name := none)
    (rounds := 0) (check := 5) (sk := List.replicate 64 9) (c := noCipher) (kd := []) rfl noCipher_works (by decide) (by simp)
    rfl rfl rfl (by simp) (by decide) (by decide) (by decide) (by decide)
  exact ⟨s, someKey, _, h, rfl, by decide⟩

def errOf {α : Type} : Except Err α → Option Err
  | .error e => some e
  | .ok _ => none

/-- A file that names no key derivation but a cipher is refused. -/
example : errOf (decrypt plainWorld (str b!"aes256-ctr" ++ str b!"none" ++ str [] ++ be 4 1 ++ str (edToBlob someKey) ++ be 4 8 ++
    List.replicate 8 0) []) = some .unknownCipher := by decide +kernel
example : checkPadding 0 [1, 2, 3] = true ∧ checkPadding 0 [1, 2, 4] = false := by decide

end Verif.PrivKey
