/-
Signatures: exactly which are accepted, and for what they stand.
-/
import Verif.PubKey.Certs

namespace Verif.PubKey
open Verif Wire
open _root_.Verif.Exch (getMpint numBits twos)
open _root_.Verif.Misc.Base64 (Rfc rfcLetter dtob64)

/-! ### Lemmas -/

theorem getRS_iff {s : Bytes} {a b : Nat} : getRS s = some (a, b) ↔ RS s a b := by
  constructor
  · intro h
    unfold getRS at h
    split at h
    · cases h
    · rename_i a' r ha
      split at h
      · cases h
      · rename_i b' r' hb
        split at h
        · cases h
        · rename_i hr
          cases h
          obtain ⟨x, nx, rfl⟩ := getMpint_iff.mp ha
          obtain ⟨y, ny, rfl⟩ := getMpint_iff.mp hb
          have : r' = [] := List.length_eq_zero_iff.mp (by omega)
          subst this
          exact ⟨x, y, by simp, nx, ny⟩
  · rintro ⟨x, y, rfl, nx, ny⟩
    unfold getRS
    rw [getMpint_iff.mpr ⟨x, nx, rfl⟩]
    simp only
    rw [getMpint_iff.mpr ⟨y, ny, (List.append_nil _).symm⟩]
    simp

theorem rsaHash_iff {n : Bytes} {h : Hash} : rsaHash n = some h ↔ RsaAlg n h := by
  constructor
  · intro e
    unfold rsaHash at e
    split at e
    · cases e; rename_i hn; rw [hn]; exact .sha1
    · split at e
      · cases e; rename_i hn; rw [hn]; exact .sha256
      · split at e
        · cases e; rename_i hn; rw [hn]; exact .sha512
        · cases e
  · intro e
    cases e <;> decide

theorem wanted_iff {alg : Option Bytes} {n : Bytes} {h : Hash} (hn : RsaAlg n h) :
    ¬ (alg ≠ none ∧ alg ≠ some nRsaCert ∧ alg.bind rsaHashOfKeyname ≠ some h) ↔ RsaWanted alg n := by
  constructor
  · intro e
    cases alg with
    | none => exact .any
    | some a =>
      by_cases ha : a = nRsaCert
      · rw [ha]; exact .old
      · have e : rsaHashOfKeyname a = some h := by
          by_cases hh : rsaHashOfKeyname a = some h
          · exact hh
          · exact absurd ⟨by simp, by simpa using ha, by simpa using hh⟩ e
        unfold rsaHashOfKeyname at e
        split at e
        · rename_i h' e'
          cases e
          have := rsaHash_iff.mp e'
          cases hn <;> cases this
          · exact .sha1
          · exact .sha256
          · exact .sha512
        · rw [if_neg ha] at e
          split at e
          · rename_i ha; cases e; cases hn; rw [ha]; exact .sha256Cert
          · split at e
            · rename_i ha; cases e; cases hn; rw [ha]; exact .sha512Cert
            · cases e
  · intro e
    cases e with
    | any => simp
    | old => simp [nRsaCert]
    | sha1 => cases hn; decide
    | sha256 => cases hn; decide
    | sha256Cert => cases hn; decide
    | sha512 => cases hn; decide
    | sha512Cert => cases hn; decide

theorem verifyRsa_iff {W : World} {e n : Nat} {sig data : Bytes} {alg : Option Bytes} :
    verifyRsa W e n sig data alg = true ↔ Accepts W alg data (.rsa e n) sig none := by
  constructor
  · intro h
    unfold verifyRsa at h
    split at h; · cases h
    rename_i hbits
    split at h; · cases h
    rename_i t r ht
    split at h; · cases h
    rename_i hh hhash
    have hr := rsaHash_iff.mp hhash
    by_cases hw : alg ≠ none ∧ alg ≠ some nRsaCert ∧ alg.bind rsaHashOfKeyname ≠ some hh
    · rw [if_pos hw] at h; cases h
    rw [if_neg hw] at h
    split at h; · cases h
    rename_i s r' hs
    split at h; · cases h
    rename_i hc
    obtain ⟨v, hv, rfl⟩ := getCstr_iff.mp ht
    obtain ⟨rfl, hl⟩ := getStr_iff.mp hs
    have : r' = [] := List.length_eq_zero_iff.mp (by omega)
    subst this
    unfold modLen at hc h
    have := Accepts.rsa (W := W) (alg := alg) (data := data) (e := e) (n := n) hv hr ((wanted_iff hr).mp hw) (by omega) (by omega)
      (by omega) h
    simpa using this
  · intro h
    cases h with
    | @rsa _ _ v name s hh hv hr hw h1 h2 h3 h4 =>
      unfold verifyRsa
      rw [if_neg (by omega), getCstr_iff.mpr ⟨v, hv, rfl⟩]
      simp only
      rw [rsaHash_iff.mpr hr]
      simp only
      rw [if_neg ((wanted_iff hr).mpr hw)]
      have : getStr (str s) = some (s, []) := getStr_iff.mpr ⟨by simp, by omega⟩
      rw [this]
      simp only
      unfold modLen
      rw [if_neg (by simp; omega)]
      exact h4

theorem edOpen_iff {W : World} {pk s m : Bytes} (h : s.length ≤ 64) :
    edOpen W pk (s ++ m) = some m.length ↔ s.length = 64 ∧ W.ed pk s m = true := by
  unfold edOpen
  rw [List.length_append]
  constructor
  · intro e
    split at e; · cases e
    split at e
    · rename_i h2
      have h1 : s.length + m.length - 64 = m.length := by simpa using e
      have hs : s.length = 64 := by omega
      rw [← hs, List.take_left' rfl, List.drop_left' rfl] at h2
      exact ⟨hs, h2⟩
    · cases e
  · rintro ⟨hs, h2⟩
    rw [if_neg (by omega), List.take_left' hs, List.drop_left' hs, if_pos h2]
    congr 1
    omega

theorem verifyEd25519_iff {W : World} {pk sig data : Bytes} {alg : Option Bytes} :
    verifyEd25519 W pk sig data = true ↔ Accepts W alg data (.ed25519 pk) sig none := by
  constructor
  · intro h
    unfold verifyEd25519 at h
    split at h; · cases h
    rename_i t r ht
    split at h; · cases h
    rename_i s r' hs
    by_cases hc : t ≠ nEd25519 ∨ r'.length ≠ 0 ∨ s.length > 64
    · rw [if_pos hc] at h; cases h
    rw [if_neg hc] at h
    have hk : t = nEd25519 := Decidable.not_not.mp fun e => hc (.inl e)
    have hlen : ¬ (r'.length ≠ 0 ∨ s.length > 64) := fun e => hc (.inr e)
    obtain ⟨v, hv, rfl⟩ := getCstr_iff.mp ht
    obtain ⟨rfl, hl⟩ := getStr_iff.mp hs
    have : r' = [] := List.length_eq_zero_iff.mp (by omega)
    subst this
    have := (edOpen_iff (by omega)).mp (of_decide_eq_true h)
    rw [hk] at hv
    have := Accepts.ed25519 (alg := alg) hv this.1 this.2
    simpa using this
  · intro h
    cases h with
    | @ed25519 _ v s hv h1 h2 =>
      unfold verifyEd25519
      rw [getCstr_iff.mpr ⟨v, hv, rfl⟩]
      simp only
      have : getStr (str s) = some (s, []) := getStr_iff.mpr ⟨by simp, by rw [h1]; decide⟩
      rw [this]
      simp only
      rw [if_neg (by simp [nEd25519, h1])]
      exact decide_eq_true ((edOpen_iff (by omega)).mpr ⟨h1, h2⟩)

theorem ecdsa_name (c : Curve) (n : Bytes) : sshName .ecdsa false (some c) = some n ↔ n ∈ names .ecdsa (some c) false := by
  have : sshName .ecdsa false (some c) = (names .ecdsa (some c) false).head? ∧ (names .ecdsa (some c) false).length = 1 := by
    cases c <;> decide +kernel
  rw [this.1]
  obtain ⟨x, hx⟩ := List.length_eq_one_iff.mp this.2
  rw [hx]
  simp [eq_comm]

theorem hash_rfc (c : Curve) : curveHash c = rfcHash c := by cases c <;> rfl

theorem verifyEcdsa_iff {W : World} {c : Curve} {q sig data : Bytes} {alg : Option Bytes} :
    verifyEcdsa W c q sig data = true ↔ Accepts W alg data (.ecdsa c q) sig none := by
  constructor
  · intro h
    unfold verifyEcdsa at h
    split at h; · cases h
    rename_i t r ht
    split at h; · cases h
    rename_i s r' hs
    by_cases hc : sshName .ecdsa false (some c) ≠ some t ∨ r'.length ≠ 0
    · rw [if_pos hc] at h; cases h
    rw [if_neg hc] at h
    split at h; · cases h
    rename_i a b hab
    have hk : sshName .ecdsa false (some c) = some t := Decidable.not_not.mp fun e => hc (.inl e)
    have hlen : ¬ (r'.length ≠ 0) := fun e => hc (.inr e)
    obtain ⟨v, hv, rfl⟩ := getCstr_iff.mp ht
    obtain ⟨rfl, hl⟩ := getStr_iff.mp hs
    have : r' = [] := List.length_eq_zero_iff.mp (by omega)
    subst this
    rw [hash_rfc] at h
    have := Accepts.ecdsa (alg := alg) hv ((ecdsa_name c t).mp hk) hl (getRS_iff.mp hab) h
    simpa using this
  · intro h
    cases h with
    | @ecdsa _ _ v name s a b hv hn hl hab h2 =>
      unfold verifyEcdsa
      rw [getCstr_iff.mpr ⟨v, hv, rfl⟩]
      simp only
      have : getStr (str s) = some (s, []) := getStr_iff.mpr ⟨by simp, hl⟩
      rw [this]
      simp only
      rw [if_neg (by rw [(ecdsa_name c name).mpr hn]; simp), getRS_iff.mpr hab]
      simp only
      rw [hash_rfc]
      exact h2

theorem verifyEd25519Sk_iff {W : World} {pk app sig data : Bytes} {d : Details} {alg : Option Bytes} :
    verifyEd25519Sk W pk app sig data = some d ↔ Accepts W alg data (.ed25519Sk pk app) sig (some d) := by
  constructor
  · intro h
    unfold verifyEd25519Sk at h
    split at h; · cases h
    rename_i t r ht
    split at h; · cases h
    rename_i s r' hs
    split at h; · cases h
    rename_i flags r2 hfl
    split at h; · cases h
    rename_i counter r3 hco
    by_cases hc : t ≠ nEd25519Sk ∨ r3.length ≠ 0 ∨ s.length > 64
    · rw [if_pos hc] at h; cases h
    rw [if_neg hc] at h
    have hk : t = nEd25519Sk := Decidable.not_not.mp fun e => hc (.inl e)
    have hlen : ¬ (r3.length ≠ 0 ∨ s.length > 64) := fun e => hc (.inr e)
    split at h
    · rename_i ho
      cases h
      obtain ⟨v, hv, rfl⟩ := getCstr_iff.mp ht
      obtain ⟨rfl, hl⟩ := getStr_iff.mp hs
      obtain ⟨rfl, lfl⟩ := getInt_iff.mp hfl
      obtain ⟨rfl, lco⟩ := getInt_iff.mp hco
      have : r3 = [] := List.length_eq_zero_iff.mp (by omega)
      subst this
      have := (edOpen_iff (by omega)).mp ho
      rw [hk] at hv
      have := Accepts.ed25519Sk (alg := alg) (W := W) (data := data) hv this.1 lfl lco this.2
      simpa using this
    · cases h
  · intro h
    cases h with
    | @ed25519Sk _ _ v s flags counter hv h1 hf hc h2 =>
      unfold verifyEd25519Sk
      have e : str v ++ str s ++ be 1 flags ++ be 4 counter = str v ++ (str s ++ (be 1 flags ++ (be 4 counter ++ []))) := by simp
      rw [e, getCstr_iff.mpr ⟨v, hv, rfl⟩]
      simp only
      rw [getStr_iff.mpr ⟨rfl, by rw [h1]; decide⟩]
      simp only
      rw [getInt_iff.mpr ⟨rfl, hf⟩]
      simp only
      rw [getInt_iff.mpr ⟨rfl, hc⟩]
      simp only
      rw [if_neg (by simp [nEd25519Sk, h1])]
      exact if_pos ((edOpen_iff (by omega)).mpr ⟨h1, h2⟩)

/-! ### The challenge of webauthn -/

theorem rfc_split {d t : Bytes} (h : Rfc d t) (hd : d ≠ []) : ∃ l p, t = l ++ List.replicate p 61 ∧ p ≤ 2 ∧
    (∀ c ∈ l, ∃ x, x < 64 ∧ c = rfcLetter x) ∧ 2 ≤ l.length ∧ t.length % 4 = 0 := by
  induction h with
  | nil => exact absurd rfl hd
  | @group a b c r t v hv h ih =>
    have ha := a.toNat_lt; have hb := b.toNat_lt; have hc := c.toNat_lt
    have hv2 : v / 262144 < 64 := by omega
    have four : ∀ x ∈ [rfcLetter (v / 262144), rfcLetter (v / 4096 % 64), rfcLetter (v / 64 % 64), rfcLetter (v % 64)],
        ∃ y, y < 64 ∧ x = rfcLetter y := by
      intro x hx
      simp only [List.mem_cons, List.not_mem_nil, or_false] at hx
      rcases hx with rfl | rfl | rfl | rfl
      · exact ⟨_, hv2, rfl⟩
      · exact ⟨_, Nat.mod_lt _ (by decide), rfl⟩
      · exact ⟨_, Nat.mod_lt _ (by decide), rfl⟩
      · exact ⟨_, Nat.mod_lt _ (by decide), rfl⟩
    by_cases hr : r = []
    · subst hr
      cases h
      exact ⟨_, 0, (List.append_nil _).symm, by decide, four, by simp, by simp⟩
    · obtain ⟨l, p, rfl, hp, hl, h2, h4⟩ := ih hr
      refine ⟨[rfcLetter (v / 262144), rfcLetter (v / 4096 % 64), rfcLetter (v / 64 % 64), rfcLetter (v % 64)] ++ l, p, by simp,
        hp, ?_, by simp, ?_⟩
      · intro c hc
        rcases List.mem_append.mp hc with hc | hc
        · exact four c hc
        · exact hl c hc
      · simp only [List.length_cons]; omega
  | @two a b v hv =>
    have ha := a.toNat_lt; have hb := b.toNat_lt
    refine ⟨[rfcLetter (v / 262144), rfcLetter (v / 4096 % 64), rfcLetter (v / 64 % 64)], 1, rfl, by decide, ?_, by simp, by simp⟩
    intro x hx
    simp only [List.mem_cons, List.not_mem_nil, or_false] at hx
    rcases hx with rfl | rfl | rfl
    · exact ⟨_, by omega, rfl⟩
    · exact ⟨_, Nat.mod_lt _ (by decide), rfl⟩
    · exact ⟨_, Nat.mod_lt _ (by decide), rfl⟩
  | @one a v hv =>
    have ha := a.toNat_lt
    refine ⟨[rfcLetter (v / 262144), rfcLetter (v / 4096 % 64)], 2, rfl, by decide, ?_, by simp, by simp⟩
    intro x hx
    simp only [List.mem_cons, List.not_mem_nil, or_false] at hx
    rcases hx with rfl | rfl
    · exact ⟨_, by omega, rfl⟩
    · exact ⟨_, Nat.mod_lt _ (by decide), rfl⟩

theorem letters_ne {l : Bytes} (h : ∀ c ∈ l, ∃ x, x < 64 ∧ c = rfcLetter x) : ∀ c ∈ l, c ≠ 61 := by
  intro c hc
  obtain ⟨x, hx, rfl⟩ := h c hc
  exact (Misc.Base64.value_letter hx).2.1

theorem filter_pad {l : Bytes} {p : Nat} (h : ∀ c ∈ l, c ≠ 61) : (l ++ List.replicate p 61).filter (· ≠ 61) = l := by
  rw [List.filter_append]
  have a : l.filter (· ≠ 61) = l := by
    rw [List.filter_eq_self]
    intro c hc
    simpa using h c hc
  have b : (List.replicate p (61 : UInt8)).filter (· ≠ 61) = [] := by
    rw [List.filter_eq_nil_iff]
    intro c hc
    simp [List.eq_of_mem_replicate hc]
  rw [a, b, List.append_nil]

theorem unpad_pad {l : Bytes} (h : ∀ c ∈ l, c ≠ 61) (hl : 2 ≤ l.length) : ∀ p fuel, p < fuel →
    unpad fuel (l ++ List.replicate p 61) = some l := by
  intro p
  induction p with
  | zero =>
    intro fuel hf
    cases fuel with
    | zero => omega
    | succ fuel =>
      rw [unpad, List.replicate_zero, List.append_nil, if_neg (by omega), if_pos]
      intro e
      exact h 61 (List.mem_of_getLast? e) rfl
  | succ p ih =>
    intro fuel hf
    cases fuel with
    | zero => omega
    | succ fuel =>
      rw [unpad, if_neg (by rw [List.length_append]; omega), List.replicate_succ', ← List.append_assoc, if_neg (by simp),
        List.dropLast_concat]
      exact ih fuel (by omega)

theorem urlb64_iff {d s : Bytes} : urlb64 d = some s ↔ Url d s := by
  have enc : ∀ (hd : d ≠ []), dtob64 d false = some (Misc.Base64.encode d) := by
    intro hd
    unfold dtob64
    rw [if_neg (fun e => hd (List.length_eq_zero_iff.mp e)),
      (Misc.Base64.C63_encode d _ _).2 ⟨Misc.Base64.encode_rfc d, by rw [Misc.Base64.encode_length]; omega⟩]
    rfl
  by_cases hd : d = []
  · subst hd
    constructor
    · intro h
      cases h
    · intro h
      exact absurd rfl h.ne
  · have hr := Misc.Base64.encode_rfc d
    obtain ⟨l, p, e, hp, hl, h2, h4⟩ := rfc_split hr hd
    have hu : urlb64 d = some (l.map urlChar) := by
      unfold urlb64
      rw [enc hd]
      simp only
      rw [e, unpad_pad (letters_ne hl) h2 p _ (by rw [List.length_append, List.length_replicate]; omega)]
      rfl
    rw [hu]
    constructor
    · intro h
      cases h
      refine ⟨hd, _, hr, ?_⟩
      rw [e, filter_pad (letters_ne hl)]
      rfl
    · rintro ⟨-, t, ht, rfl⟩
      rw [Misc.Base64.rfc_encode ht, e, filter_pad (letters_ne hl)]
      rfl

theorem webHash_iff {W : World} {data origin wrapper exts h : Bytes} {flags : Nat} :
    webHash W data origin wrapper flags exts = some h ↔ 34 ∉ origin ∧ flags.testBit 6 = false ∧
      (flags.testBit 7 = true ↔ exts ≠ []) ∧ Challenge wrapper data origin ∧ h = W.sha256 wrapper := by
  have hx : (¬ (34 ∈ origin ∨ flags.testBit 6 = true ∨ (flags.testBit 7 = false ∧ exts.length ≠ 0) ∨
      (flags.testBit 7 = true ∧ exts.length = 0))) ↔ 34 ∉ origin ∧ flags.testBit 6 = false ∧
      (flags.testBit 7 = true ↔ exts ≠ []) := by
    have : exts.length = 0 ↔ exts = [] := List.length_eq_zero_iff
    cases flags.testBit 6 <;> cases flags.testBit 7 <;> by_cases he : exts = [] <;> simp [he]
  have hc : ∀ c, (wrapper.take (web0 ++ c ++ web1 ++ origin ++ [34]).length = web0 ++ c ++ web1 ++ origin ++ [34]) ↔
      ∃ rest, wrapper = web0 ++ c ++ web1 ++ origin ++ b!"\"" ++ rest := by
    intro c
    constructor
    · intro e
      refine ⟨wrapper.drop (web0 ++ c ++ web1 ++ origin ++ [34]).length, ?_⟩
      have := List.take_append_drop (web0 ++ c ++ web1 ++ origin ++ [34]).length wrapper
      rw [e] at this
      exact this.symm
    · rintro ⟨rest, rfl⟩
      exact List.take_left' rfl
  unfold webHash
  constructor
  · intro e
    split at e; · cases e
    rename_i h1
    obtain ⟨a, b, c⟩ := hx.mp h1
    unfold webPrefix at e
    split at e; · cases e
    rename_i m hm
    cases hu : urlb64 data with
    | none => rw [hu] at hm; cases hm
    | some u =>
      rw [hu] at hm
      cases hm
      split at e
      · rename_i ht
        cases e
        obtain ⟨rest, hw⟩ := (hc u).mp ht
        exact ⟨a, b, c, ⟨u, rest, urlb64_iff.mp hu, hw⟩, rfl⟩
      · cases e
  · rintro ⟨a, b, c, ⟨u, rest, hu, hw⟩, rfl⟩
    rw [if_neg (hx.mpr ⟨a, b, c⟩)]
    unfold webPrefix
    rw [urlb64_iff.mpr hu]
    simp only [Option.map_some]
    rw [if_pos ((hc u).mpr ⟨rest, hw⟩)]

theorem verifyEcdsaSk_iff {W : World} {c : Curve} {q app sig data : Bytes} {d : Details} {alg : Option Bytes} :
    verifyEcdsaSk W c q app sig data = some d ↔ Accepts W alg data (.ecdsaSk c q app) sig (some d) := by
  constructor
  · intro h
    unfold verifyEcdsaSk at h
    split at h; · cases h
    rename_i hcurve
    have hcurve : c = .p256 := Decidable.not_not.mp hcurve
    subst hcurve
    split at h; · cases h
    rename_i t r ht
    split at h; · cases h
    rename_i hk
    split at h; · cases h
    rename_i s r' hs
    split at h; · cases h
    rename_i flags r2 hfl
    split at h; · cases h
    rename_i counter r3 hco
    obtain ⟨v, hv, rfl⟩ := getCstr_iff.mp ht
    obtain ⟨rfl, hl⟩ := getStr_iff.mp hs
    obtain ⟨rfl, lfl⟩ := getInt_iff.mp hfl
    obtain ⟨rfl, lco⟩ := getInt_iff.mp hco
    split at h; · cases h
    rename_i origin wrapper exts hparts
    split at h; · cases h
    rename_i a b hab
    have hab := getRS_iff.mp hab
    by_cases hw : t = nWebauthn
    · subst hw
      rw [if_pos rfl] at h
      split at h; · cases h
      rename_i hh hhash
      obtain ⟨w1, w2, w3, w4, rfl⟩ := webHash_iff.mp hhash
      split at h
      · rename_i ho
        cases h
        unfold webParts at hparts
        rw [if_neg (by simp)] at hparts
        split at hparts; · cases hparts
        rename_i o1 r4 ho1
        split at hparts; · cases hparts
        rename_i o2 r5 ho2
        split at hparts; · cases hparts
        rename_i o3 r6 ho3
        split at hparts; · cases hparts
        rename_i hr6
        cases hparts
        obtain ⟨o, ho, rfl⟩ := getCstr_iff.mp ho1
        obtain ⟨rfl, hl2⟩ := getStr_iff.mp ho2
        obtain ⟨rfl, hl3⟩ := getStr_iff.mp ho3
        have : r6 = [] := List.length_eq_zero_iff.mp (by omega)
        subst this
        have := Accepts.webauthn (alg := alg) (W := W) (data := data) hv hl hab lfl lco w2 w3 ho w1 hl2 hl3 w4 ‹_›
        simpa using this
      · cases h
    · rw [if_neg hw] at h
      simp only at h
      have ht : t = nSk := by
        by_cases e : t = nSk
        · exact e
        · exact absurd ⟨hw, e⟩ hk
      subst ht
      unfold webParts at hparts
      rw [if_pos (by simpa using hw)] at hparts
      split at hparts; · cases hparts
      rename_i hr3
      cases hparts
      have : r3 = [] := List.length_eq_zero_iff.mp (by omega)
      subst this
      split at h
      · rename_i ho
        cases h
        have := Accepts.ecdsaSk (alg := alg) (W := W) (data := data) hv hl hab lfl lco ho
        simpa using this
      · cases h
  · intro h
    cases h with
    | @ecdsaSk _ _ v s flags counter a b hv hl hab hf hc h2 =>
      unfold verifyEcdsaSk
      have e : str v ++ str s ++ be 1 flags ++ be 4 counter = str v ++ (str s ++ (be 1 flags ++ (be 4 counter ++ []))) := by simp
      rw [if_neg (by simp), e, getCstr_iff.mpr ⟨v, hv, rfl⟩]
      simp only
      rw [if_neg (by decide +kernel), getStr_iff.mpr ⟨rfl, hl⟩]
      simp only
      rw [getInt_iff.mpr ⟨rfl, hf⟩]
      simp only
      rw [getInt_iff.mpr ⟨rfl, hc⟩]
      simp only
      have : webParts (decide (b!"sk-ecdsa-sha2-nistp256@openssh.com" = nWebauthn)) [] = some ([], [], []) := by decide +kernel
      rw [this]
      simp only
      rw [getRS_iff.mpr hab]
      simp only
      rw [if_neg (by decide +kernel)]
      exact if_pos h2
    | @webauthn _ _ v s o origin wrapper exts flags counter a b hv hl hab hf hc w2 w3 ho w1 hl2 hl3 w4 h2 =>
      unfold verifyEcdsaSk
      have e : str v ++ str s ++ be 1 flags ++ be 4 counter ++ str o ++ str wrapper ++ str exts =
        str v ++ (str s ++ (be 1 flags ++ (be 4 counter ++ (str o ++ (str wrapper ++ (str exts ++ [])))))) := by simp
      rw [if_neg (by simp), e, getCstr_iff.mpr ⟨v, hv, rfl⟩]
      simp only
      rw [if_neg (by decide +kernel), getStr_iff.mpr ⟨rfl, hl⟩]
      simp only
      rw [getInt_iff.mpr ⟨rfl, hf⟩]
      simp only
      rw [getInt_iff.mpr ⟨rfl, hc⟩]
      simp only
      have : webParts (decide (b!"webauthn-sk-ecdsa-sha2-nistp256@openssh.com" = nWebauthn)) (str o ++ (str wrapper ++ (str exts ++ []))) =
          some (origin, wrapper, exts) := by
        unfold webParts
        rw [if_neg (by decide +kernel), getCstr_iff.mpr ⟨o, ho, rfl⟩]
        simp only
        rw [getStr_iff.mpr ⟨rfl, hl2⟩]
        simp only
        rw [getStr_iff.mpr ⟨rfl, hl3⟩]
        simp
      rw [this]
      simp only
      rw [getRS_iff.mpr hab]
      simp only
      rw [if_pos (by decide +kernel), webHash_iff.mpr ⟨w1, w2, w3, w4, rfl⟩]
      exact if_pos h2

/-! ### The theorems -/

theorem str_length_ne (a : Bytes) : (str a).length ≠ 0 := by
  have := str_ne_nil a
  omega

theorem accepts_ne {W : World} {alg : Option Bytes} {data : Bytes} {k : Pub} {sig : Bytes} {d : Option Details}
    (h : Accepts W alg data k sig d) : sig.length ≠ 0 := by
  cases h with
  | @rsa _ _ v => have := str_length_ne v; simp only [List.length_append]; omega
  | @ecdsa _ _ v => have := str_length_ne v; simp only [List.length_append]; omega
  | @ed25519 _ v => have := str_length_ne v; simp only [List.length_append]; omega
  | @ed25519Sk _ _ v => have := str_length_ne v; simp only [List.length_append]; omega
  | @ecdsaSk _ _ v => have := str_length_ne v; simp only [List.length_append]; omega
  | @webauthn _ _ v => have := str_length_ne v; simp only [List.length_append]; omega

/-- A signature is accepted just if it is in the form its algorithm prescribes, to the last byte, and the signature proper
is right for the key and the data. -/
theorem C91_verify (W : World) (k : Pub) (sig data : Bytes) (alg : Option Bytes) (d : Option Details) :
    verify W k sig data alg = some d ↔ data.length ≤ 1048576 ∧ Accepts W alg data k sig d := by
  have flag : ∀ {b : Bool} {P : Option Details → Prop}, (∀ d, P d → d = none) → (b = true ↔ P none) →
      ((if b = true then some none else none) = some d ↔ P d) := by
    intro b P h0 h
    by_cases hb : b = true
    · rw [if_pos hb]
      constructor
      · intro e; cases e; exact h.mp hb
      · intro e; rw [h0 d e]
    · rw [if_neg hb]
      constructor
      · intro e; cases e
      · intro e
        have := h0 d e
        subst this
        exact absurd (h.mpr e) hb
  have opt : ∀ {o : Option Details} {P : Option Details → Prop}, (∀ d, P d → d ≠ none) → (∀ x, o = some x ↔ P (some x)) →
      (o.map some = some d ↔ P d) := by
    intro o P h0 h
    constructor
    · intro e
      cases o with
      | none => cases e
      | some x => cases e; exact (h x).mp rfl
    · intro e
      cases d with
      | none => exact absurd rfl (h0 _ e)
      | some x => rw [(h x).mpr e]; rfl
  have key : (match k with
    | .rsa e n => if verifyRsa W e n sig data alg then some none else none
    | .ecdsa c q => if verifyEcdsa W c q sig data then some none else none
    | .ed25519 pk => if verifyEd25519 W pk sig data then some none else none
    | .ecdsaSk c q app => (verifyEcdsaSk W c q app sig data).map some
    | .ed25519Sk pk app => (verifyEd25519Sk W pk app sig data).map some) = some d ↔ Accepts W alg data k sig d := by
    cases k with
    | rsa e n => exact flag (fun d h => by cases h; rfl) verifyRsa_iff
    | ecdsa c q => exact flag (fun d h => by cases h; rfl) verifyEcdsa_iff
    | ed25519 pk => exact flag (fun d h => by cases h; rfl) verifyEd25519_iff
    | ecdsaSk c q app => exact opt (fun d h => by cases h <;> simp) (fun x => verifyEcdsaSk_iff)
    | ed25519Sk pk app => exact opt (fun d h => by cases h; simp) (fun x => verifyEd25519Sk_iff)
  unfold verify
  constructor
  · intro h
    split at h; · cases h
    rename_i hc
    exact ⟨by omega, key.mp h⟩
  · rintro ⟨h1, h2⟩
    have := accepts_ne h2
    rw [if_neg (by omega)]
    exact key.mpr h2

/-- What a security key signs stands for one application, one set of flags, one counter, one text of extensions and one
message, up to collisions of SHA-256. -/
theorem C91_token (W : World) (hW : ∀ x, (W.sha256 x).length = 32) (app app' exts exts' m m' : Bytes) (f f' c c' : Nat)
    (hf : f < 256) (hf' : f' < 256) (hc : c < 4294967296) (hc' : c' < 4294967296)
    (h : tokenData W app f c exts (W.sha256 m) = tokenData W app' f' c' exts' (W.sha256 m')) :
    W.sha256 app = W.sha256 app' ∧ f = f' ∧ c = c' ∧ exts = exts' ∧ W.sha256 m = W.sha256 m' := by
  unfold tokenData at h
  simp only [List.append_assoc] at h
  obtain ⟨e1, h⟩ := List.append_inj h (by rw [hW, hW])
  obtain ⟨e2, h⟩ := be_unique (n := 1) hf hf' h
  obtain ⟨e3, h⟩ := be_unique (n := 4) hc hc' h
  obtain ⟨e4, e5⟩ := List.append_inj' h (by rw [hW, hW])
  exact ⟨e1, e2, e3, e4, e5⟩

theorem urlChar_inj : ∀ x < 64, ∀ y < 64, urlChar (rfcLetter x) = urlChar (rfcLetter y) → rfcLetter x = rfcLetter y := by
  decide +kernel

theorem urlChar_quote : ∀ x < 64, urlChar (rfcLetter x) ≠ 34 := by decide +kernel

theorem map_url_inj : ∀ (l l' : Bytes), (∀ c ∈ l, ∃ x, x < 64 ∧ c = rfcLetter x) → (∀ c ∈ l', ∃ x, x < 64 ∧ c = rfcLetter x) →
    l.map urlChar = l'.map urlChar → l = l' := by
  intro l
  induction l with
  | nil =>
    intro l' _ _ h
    cases l' with
    | nil => rfl
    | cons => simp at h
  | cons a l ih =>
    intro l' h1 h2 h
    cases l' with
    | nil => simp at h
    | cons b l' =>
      rw [List.map_cons, List.map_cons, List.cons.injEq] at h
      obtain ⟨x, hx, ex⟩ := h1 a (by simp)
      obtain ⟨y, hy, ey⟩ := h2 b (by simp)
      have : a = b := by
        have := h.1
        rw [ex, ey] at this
        rw [ex, ey]
        exact urlChar_inj x hx y hy this
      rw [this, ih l' (fun c hc => h1 c (by simp [hc])) (fun c hc => h2 c (by simp [hc])) h.2]

theorem url_unique {d d' s : Bytes} (h : Url d s) (h' : Url d' s) : d = d' := by
  obtain ⟨ne, t, ht, es⟩ := h
  obtain ⟨ne', t', ht', es'⟩ := h'
  obtain ⟨l, p, e, hp, hl, h2, h4⟩ := rfc_split ht ne
  obtain ⟨l', p', e', hp', hl', h2', h4'⟩ := rfc_split ht' ne'
  rw [e, filter_pad (letters_ne hl)] at es
  rw [e', filter_pad (letters_ne hl')] at es'
  have hll : l = l' := map_url_inj l l' hl hl' (es.symm.trans es')
  subst hll
  have hpp : p = p' := by
    rw [e, List.length_append, List.length_replicate] at h4
    rw [e', List.length_append, List.length_replicate] at h4'
    omega
  subst hpp
  have htt : t = t' := e.trans e'.symm
  subst htt
  have a := (Misc.Base64.C63_b64tod t d).mpr (by rw [Misc.Base64.squeeze_of_tight (Misc.Base64.rfc_tight ht)]; exact ht)
  have b := (Misc.Base64.C63_b64tod t d').mpr (by rw [Misc.Base64.squeeze_of_tight (Misc.Base64.rfc_tight ht')]; exact ht')
  rw [a] at b
  simpa using b

theorem url_quote {d s : Bytes} (h : Url d s) : 34 ∉ s := by
  obtain ⟨ne, t, ht, es⟩ := h
  obtain ⟨l, p, e, hp, hl, h2, h4⟩ := rfc_split ht ne
  rw [e, filter_pad (letters_ne hl)] at es
  rw [es]
  intro h
  obtain ⟨c, hc, e⟩ := List.mem_map.mp h
  obtain ⟨x, hx, rfl⟩ := hl c hc
  exact urlChar_quote x hx e

theorem before_quote : ∀ (a b : Bytes) {x y : Bytes}, 34 ∉ a → 34 ∉ b → a ++ 34 :: x = b ++ 34 :: y → a = b ∧ x = y := by
  intro a
  induction a with
  | nil =>
    intro b x y _ hb h
    cases b with
    | nil => simpa using h
    | cons c b =>
      rw [List.nil_append, List.cons_append, List.cons.injEq] at h
      exact absurd (by rw [← h.1]; simp) hb
  | cons c a ih =>
    intro b x y ha hb h
    cases b with
    | nil =>
      rw [List.nil_append, List.cons_append, List.cons.injEq] at h
      exact absurd (by rw [h.1]; simp) ha
    | cons d b =>
      rw [List.cons_append, List.cons_append, List.cons.injEq] at h
      have := ih b (fun e => ha (by simp [e])) (fun e => hb (by simp [e])) h.2
      exact ⟨by rw [h.1, this.1], this.2⟩

/-- The client data of webauthn stand for one text to be signed and one origin. -/
theorem C91_challenge (w d d' o o' : Bytes) (h : Challenge w d o) (h' : Challenge w d' o') (ho : 34 ∉ o) (ho' : 34 ∉ o') :
    d = d' ∧ o = o' := by
  obtain ⟨c, r, hu, e⟩ := h
  obtain ⟨c', r', hu', e'⟩ := h'
  rw [e] at e'
  have e2 : web0 ++ (c ++ 34 :: (b!",\"origin\":\"" ++ (o ++ 34 :: r))) = web0 ++ (c' ++ 34 :: (b!",\"origin\":\"" ++ (o' ++ 34 :: r'))) := by
    simpa [web0] using e'
  have e3 := List.append_cancel_left e2
  obtain ⟨rfl, e4⟩ := before_quote c c' (url_quote hu) (url_quote hu') e3
  have e5 := List.append_cancel_left e4
  obtain ⟨rfl, -⟩ := before_quote o o' ho ho' e5
  exact ⟨url_unique hu hu', rfl⟩

/-! ### Which algorithm -/

/-- The signature algorithm that belongs to the name of a key or certificate type or of a signature algorithm. -/
def algorithms : List (Bytes × Bytes) :=
  [(b!"ssh-ed25519", b!"ssh-ed25519"), (b!"ssh-ed25519-cert-v01@openssh.com", b!"ssh-ed25519"),
   (b!"sk-ssh-ed25519@openssh.com", b!"sk-ssh-ed25519@openssh.com"),
   (b!"sk-ssh-ed25519-cert-v01@openssh.com", b!"sk-ssh-ed25519@openssh.com"),
   (b!"ecdsa-sha2-nistp256", b!"ecdsa-sha2-nistp256"), (b!"ecdsa-sha2-nistp256-cert-v01@openssh.com", b!"ecdsa-sha2-nistp256"),
   (b!"ecdsa-sha2-nistp384", b!"ecdsa-sha2-nistp384"), (b!"ecdsa-sha2-nistp384-cert-v01@openssh.com", b!"ecdsa-sha2-nistp384"),
   (b!"ecdsa-sha2-nistp521", b!"ecdsa-sha2-nistp521"), (b!"ecdsa-sha2-nistp521-cert-v01@openssh.com", b!"ecdsa-sha2-nistp521"),
   (b!"sk-ecdsa-sha2-nistp256@openssh.com", b!"sk-ecdsa-sha2-nistp256@openssh.com"),
   (b!"sk-ecdsa-sha2-nistp256-cert-v01@openssh.com", b!"sk-ecdsa-sha2-nistp256@openssh.com"),
   (b!"webauthn-sk-ecdsa-sha2-nistp256@openssh.com", b!"webauthn-sk-ecdsa-sha2-nistp256@openssh.com"),
   (b!"ssh-rsa", b!"ssh-rsa"), (b!"ssh-rsa-cert-v01@openssh.com", b!"ssh-rsa"),
   (b!"rsa-sha2-256", b!"rsa-sha2-256"), (b!"rsa-sha2-256-cert-v01@openssh.com", b!"rsa-sha2-256"),
   (b!"rsa-sha2-512", b!"rsa-sha2-512"), (b!"rsa-sha2-512-cert-v01@openssh.com", b!"rsa-sha2-512")]

theorem sigalg_row : ∀ i ∈ keyimpls, ∃ e, sigalgByName i.name = some e ∧ (i.name, e) ∈ algorithms := by
  have : ∀ i ∈ keyimpls, (sigalgByName i.name).isSome = true ∧ (i.name, (sigalgByName i.name).getD []) ∈ algorithms := by
    decide +kernel
  intro i hi
  obtain ⟨h1, h2⟩ := this i hi
  obtain ⟨e, he⟩ := Option.isSome_iff_exists.mp h1
  rw [he] at h2
  exact ⟨e, he, h2⟩

theorem sigalg_iff {a e : Bytes} : sigalgByName a = some e ↔ (a, e) ∈ algorithms := by
  constructor
  · intro h
    have h0 := h
    unfold sigalgByName at h
    split at h
    · cases h
    · rename_i i hi
      have hm := List.mem_of_find?_eq_some hi
      have hn : i.name = a := by simpa using List.find?_some hi
      obtain ⟨e', h1, h2⟩ := sigalg_row i hm
      rw [hn, h0] at h1
      cases h1
      rw [← hn]
      exact h2
  · intro h
    have : ∀ p ∈ algorithms, sigalgByName p.1 = some p.2 := by decide +kernel
    exact this _ h

/-- The check of the type of a signature passes just if the signature names the algorithm that belongs to the one asked
for. -/
theorem C91_sigtype (sig a : Bytes) : checkSigtype sig (some a) = true ↔
    ∃ v r e, sig = str v ++ r ∧ Text v e ∧ (a, e) ∈ algorithms := by
  constructor
  · intro h
    unfold checkSigtype at h
    simp only at h
    split at h; · cases h
    rename_i e he
    split at h; · cases h
    rename_i t r ht
    have : t = e := by simpa using h
    subst this
    obtain ⟨v, hv, rfl⟩ := getCstr_iff.mp ht
    exact ⟨v, r, t, rfl, hv, sigalg_iff.mp he⟩
  · rintro ⟨v, r, e, rfl, hv, ha⟩
    unfold checkSigtype
    simp only
    rw [sigalg_iff.mpr ha]
    simp only
    rw [getCstr_iff.mpr ⟨v, hv, rfl⟩]
    simp

theorem algorithms_kind : ∀ p ∈ algorithms, ∀ k ∈ [Kind.rsa, .ecdsa, .ed25519, .ecdsaSk, .ed25519Sk],
    ∀ c ∈ [none, some Curve.p256, some .p384, some .p521], p.2 ∈ names k c false → p.1 ∈ names k c false ∨ p.1 ∈ names k c true := by
  decide +kernel

theorem accepts_name {W : World} {alg : Option Bytes} {data : Bytes} {k : Pub} {sig : Bytes} {d : Option Details}
    (h : Accepts W alg data k sig d) : ∃ v r name, sig = str v ++ r ∧ Text v name ∧ name ∈ names k.kind k.nid false := by
  cases h with
  | rsa hv hr => exact ⟨_, _, _, rfl, hv, by show _ ∈ names .rsa none false; cases hr <;> decide +kernel⟩
  | ecdsa hv hn => exact ⟨_, _, _, rfl, hv, hn⟩
  | ed25519 hv => exact ⟨_, _, _, rfl, hv, by show _ ∈ names .ed25519 none false; decide +kernel⟩
  | ed25519Sk hv => exact ⟨_, _, _, by simp only [List.append_assoc]; rfl, hv, by show _ ∈ names .ed25519Sk none false; decide +kernel⟩
  | ecdsaSk hv => exact ⟨_, _, _, by simp only [List.append_assoc]; rfl, hv, by show _ ∈ names .ecdsaSk (some .p256) false; decide +kernel⟩
  | webauthn hv => exact ⟨_, _, _, by simp only [List.append_assoc]; rfl, hv, by show _ ∈ names .ecdsaSk (some .p256) false; decide +kernel⟩

/-- The algorithm named in a signature that is accepted belongs to the key. -/
theorem C91_named (W : World) (k : Pub) (sig data : Bytes) (alg : Option Bytes) (h : (verify W k sig data alg).isSome) :
    ∃ v r name, sig = str v ++ r ∧ Text v name ∧ name ∈ names k.kind k.nid false := by
  obtain ⟨d, hd⟩ := Option.isSome_iff_exists.mp h
  exact accepts_name ((C91_verify W k sig data alg d).mp hd).2

/-- If the type of the signature is checked as well, then the algorithm asked for is one of the key's. -/
theorem C91_both (W : World) (k : Pub) (sig data a : Bytes) (h : (verify W k sig data (some a)).isSome)
    (hs : checkSigtype sig (some a) = true) : a ∈ names k.kind k.nid false ∨ a ∈ names k.kind k.nid true := by
  obtain ⟨v, r, n, rfl, hv, hn⟩ := C91_named W k sig data _ h
  obtain ⟨v', r', e, e1, hv', ha⟩ := (C91_sigtype _ a).mp hs
  obtain ⟨rfl, -⟩ := str_unique hv.2 hv'.2 e1
  obtain rfl := text_unique hv hv'
  exact algorithms_kind (a, n) ha k.kind (by cases k.kind <;> decide) k.nid
    (by rcases k.nid with _ | c; · decide
        · cases c <;> decide) hn

/-- Of RSA keys only signatures by the algorithm asked for are accepted, unless that is the old name of certificates. -/
theorem C91_rsa (W : World) (e n : Nat) (sig data a : Bytes) (h : (verify W (.rsa e n) sig data (some a)).isSome)
    (ha : a ≠ b!"ssh-rsa-cert-v01@openssh.com") : checkSigtype sig (some a) = true := by
  obtain ⟨d, hd⟩ := Option.isSome_iff_exists.mp h
  obtain ⟨-, hx⟩ := (C91_verify W _ sig data _ d).mp hd
  cases hx with
  | @rsa _ _ v name s hh hv hr hw =>
    refine (C91_sigtype _ a).mpr ⟨v, _, name, rfl, hv, ?_⟩
    cases hw with
    | old => exact absurd rfl ha
    | sha1 => decide +kernel
    | sha256 => decide +kernel
    | sha256Cert => decide +kernel
    | sha512 => decide +kernel
    | sha512Cert => decide +kernel

end Verif.PubKey
