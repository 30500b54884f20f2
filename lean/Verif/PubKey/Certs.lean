/-
C90: public keys and certificates.
-/
import Verif.PubKey.Lemmas

namespace Verif.PubKey
open Verif Wire
open _root_.Verif.Exch (twos numBits getMpint mpint str_inj mpintBytes mpint_str ofBE_mpintBytes)

theorem getPrincipals_some (n : Nat) : ∀ (b : Bytes) (l : List Bytes), getPrincipals n b = some l →
    l.length ≤ n ∧ ∃ ps : List Bytes, b = ps.flatMap str ∧ ps.length = l.length ∧ ∀ x ∈ ps.zip l, Text x.1 x.2 := by
  induction n with
  | zero =>
    intro b l h
    unfold getPrincipals at h
    split at h
    · cases h
      rename_i hb
      exact ⟨Nat.le_refl _, [], by simpa using hb, rfl, by simp⟩
    · cases h
  | succ n ih =>
    intro b l h
    unfold getPrincipals at h
    split at h
    · cases h
      rename_i hb
      exact ⟨Nat.zero_le _, [], by simpa using hb, rfl, by simp⟩
    · split at h
      · cases h
      · rename_i p r hp
        cases hr : getPrincipals n r with
        | none => rw [hr] at h; cases h
        | some t =>
          rw [hr] at h
          cases h
          obtain ⟨v, hv, rfl⟩ := getCstr_iff.mp hp
          obtain ⟨h1, ps, rfl, h3, h4⟩ := ih _ _ hr
          refine ⟨by simpa using h1, v :: ps, by simp, by simpa using h3, ?_⟩
          intro x hx
          rw [List.zip_cons_cons, List.mem_cons] at hx
          rcases hx with rfl | hx
          · exact hv
          · exact h4 x hx

theorem str_ne_nil (v : Bytes) : (str v).length ≠ 0 := by
  unfold str; simp [be_length]

theorem getPrincipals_of (ps l : List Bytes) : ∀ n, l.length ≤ n → ps.length = l.length → (∀ x ∈ ps.zip l, Text x.1 x.2) →
    getPrincipals n (ps.flatMap str) = some l := by
  induction ps generalizing l with
  | nil =>
    intro n _ hl _
    have : l = [] := List.eq_nil_of_length_eq_zero hl.symm
    subst this
    cases n <;> simp [getPrincipals]
  | cons v ps ih =>
    intro n hn hl hx
    cases l with
    | nil => simp at hl
    | cons p l =>
      cases n with
      | zero => simp at hn
      | succ n =>
        have hv : Text v p := hx (v, p) (by simp)
        unfold getPrincipals
        rw [if_neg (by rw [List.flatMap_cons, List.length_append]; have := str_ne_nil v; omega), List.flatMap_cons,
          getCstr_iff.mpr ⟨v, hv, rfl⟩]
        simp only
        rw [ih l n (by simpa using hn) (by simpa using hl) (fun x h => hx x (by simp [h]))]
        rfl

theorem pairsOk_iff (n : Nat) : ∀ b : Bytes, b.length ≤ n → (pairsOk n b = true ↔ Pairs b) := by
  induction n with
  | zero =>
    intro b hb
    have : b = [] := List.eq_nil_of_length_eq_zero (by omega)
    subst this
    exact ⟨fun _ => .nil, fun _ => rfl⟩
  | succ n ih =>
    intro b hb
    constructor
    · intro h
      unfold pairsOk at h
      split at h
      · rename_i h0
        rw [List.eq_nil_of_length_eq_zero h0]
        exact .nil
      · split at h
        · cases h
        · rename_i x r hx
          split at h
          · cases h
          · rename_i y r' hy
            obtain ⟨rfl, lx⟩ := getStr_iff.mp hx
            obtain ⟨rfl, ly⟩ := getStr_iff.mp hy
            rw [← List.append_assoc]
            refine .cons lx ly ((ih r' ?_).mp h)
            have := str_ne_nil x
            rw [List.length_append, List.length_append] at hb
            omega
    · intro h
      cases h with
      | nil => rfl
      | @cons x y r lx ly hr =>
        unfold pairsOk
        have := str_ne_nil x
        rw [if_neg (by rw [List.length_append, List.length_append]; omega), List.append_assoc, getStr_append _ _ lx]
        simp only
        rw [getStr_append _ _ ly]
        rw [List.length_append, List.length_append] at hb
        exact (ih r (by omega)).mpr hr

/-! ### Certificates -/

theorem take_body (body s : Bytes) : (body ++ s).take ((body ++ s).length - s.length) = body := by
  rw [List.length_append, Nat.add_sub_cancel, List.take_left']
  rfl

theorem certParse_some {W : World} {blob b pre : Bytes} {c : Cert} (hp : blob = pre ++ b) (h : certParse W blob b = some (c, [])) :
    ∃ keyId princ reserved ca sig : Bytes, ∃ ps : List Bytes,
      b = be 8 c.serial ++ be 4 c.type ++ str keyId ++ str princ ++ be 8 c.validAfter ++
        be 8 c.validBefore ++ str c.critical ++ str c.extensions ++ str reserved ++ str ca ++ str sig ∧
      Text keyId c.keyId ∧
      princ = ps.flatMap str ∧ princ.length ≤ maxString ∧ ps.length = c.principals.length ∧
      (∀ x ∈ ps.zip c.principals, Text x.1 x.2) ∧ reserved.length ≤ maxString ∧ ca.length ≤ maxString ∧
      PlainBlob W ca c.signatureKey ∧
      (c.serial < 256 ^ 8 ∧ c.validAfter < 256 ^ 8 ∧ c.validBefore < 256 ^ 8) ∧ (c.type = 1 ∨ c.type = 2) ∧
      c.principals.length ≤ 256 ∧
      (Pairs c.critical ∧ c.critical.length ≤ maxString ∧ Pairs c.extensions ∧ c.extensions.length ≤ maxString) ∧
      (verify W c.signatureKey sig (blob.take (blob.length - (str sig).length)) none).isSome ∧ sig.length ≤ maxString ∧
      (∃ v r, sig = str v ++ r ∧ Text v c.signatureType) ∧ c.blob = blob := by
  unfold certParse at h
  split at h; · cases h
  rename_i serial r1 h1
  split at h; · cases h
  rename_i type r2 h2
  split at h; · cases h
  rename_i keyId r3 h3
  split at h; · cases h
  rename_i princ r4 h4
  split at h; · cases h
  rename_i after r5 h5
  split at h; · cases h
  rename_i before r6 h6
  split at h; · cases h
  rename_i crit r7 h7
  split at h; · cases h
  rename_i exts r8 h8
  split at h; · cases h
  rename_i res r9 h9
  split at h; · cases h
  rename_i ca r10 h10
  split at h; · cases h
  rename_i sig r11 h11
  split at h; · cases h
  rename_i ht
  split at h; · cases h
  rename_i principals hps
  split at h; · cases h
  rename_i hpairs
  split at h; · cases h
  rename_i key hkey
  split at h; · cases h
  rename_i d hver
  split at h; · cases h
  rename_i st rr hst
  cases h
  obtain ⟨rfl, l1⟩ := getInt_iff.mp h1
  obtain ⟨rfl, l2⟩ := getInt_iff.mp h2
  obtain ⟨kv, hk, rfl⟩ := getCstr_iff.mp h3
  obtain ⟨rfl, l4⟩ := getStr_iff.mp h4
  obtain ⟨rfl, l5⟩ := getInt_iff.mp h5
  obtain ⟨rfl, l6⟩ := getInt_iff.mp h6
  obtain ⟨rfl, l7⟩ := getStr_iff.mp h7
  obtain ⟨rfl, l8⟩ := getStr_iff.mp h8
  obtain ⟨rfl, l9⟩ := getStr_iff.mp h9
  obtain ⟨rfl, l10⟩ := getStr_iff.mp h10
  obtain ⟨rfl, l11⟩ := getStr_iff.mp h11
  obtain ⟨g1, ps, g2, g3, g4⟩ := getPrincipals_some _ _ _ hps
  obtain ⟨sv, hsv, hse⟩ := getCstr_iff.mp hst
  refine ⟨kv, princ, res, ca, sig, ps, by simp only [List.append_assoc, List.append_nil], hk, g2, l4, g3, g4, l9, l10,
    plainFromBlob_iff.mp hkey, ⟨l1, l5, l6⟩, ?_, g1, ?_, ?_, l11, ⟨sv, rr, hse, hsv⟩, rfl⟩
  · show type = 1 ∨ type = 2
    by_cases e : type = 1
    · exact .inl e
    · right
      by_cases e' : type = 2
      · exact e'
      · exact absurd ⟨e, e'⟩ ht
  · refine ⟨(pairsOk_iff _ _ (Nat.le_refl _)).mp ?_, l7, (pairsOk_iff _ _ (Nat.le_refl _)).mp ?_, l8⟩
    · cases e : pairsOk crit.length crit
      · exact absurd (.inl e) hpairs
      · rfl
    · cases e : pairsOk exts.length exts
      · exact absurd (.inr e) hpairs
      · rfl
  · show (verify W key sig _ none).isSome
    rw [List.append_nil] at hver
    rw [hver]; rfl

/-- A blob is read as a plain key just if it has the layout of one. -/
theorem C90_plain (W : World) (b : Bytes) (k : Pub) : fromBlob W b = some ⟨k, none⟩ ↔ PlainBlob W b k := by
  rw [← plainFromBlob_iff]
  unfold fromBlob plainFromBlob
  split
  · simp
  · rename_i name r hn
    split
    · rename_i ht; rw [ht]; simp
    · rename_i kind ht
      rw [ht]
      simp only [Bool.false_eq_true, if_false]
      split
      · simp
      · split
        · simp
        · simp
    · rename_i kind ht
      rw [ht]
      simp only [if_true]
      split
      · simp
      · split
        · simp
        · split
          · simp
          · split <;> simp

/-- A blob is read as a certificate just if its body says what is read and is signed by the key it names. -/
theorem C90_certificate (W : World) (b : Bytes) (k : Pub) (c : Cert) :
    fromBlob W b = some ⟨k, some c⟩ ↔ ∃ body sig, b = body ++ str sig ∧ Certificate W body sig k c := by
  constructor
  · intro h
    unfold fromBlob at h
    split at h; · cases h
    rename_i name r hn
    split at h
    · cases h
    · split at h
      · cases h
      · split at h
        · cases h
        · cases h
    · rename_i kind ht
      split at h; · cases h
      rename_i nonce r1 hnonce
      split at h; · cases h
      rename_i k' r2 hd
      split at h; · cases h
      rename_i c' r3 hc
      split at h
      · cases h
      · rename_i hr
        cases h
        have hr : r3 = [] := List.eq_nil_of_length_eq_zero (Decidable.not_not.mp hr)
        subst hr
        obtain ⟨nid, hm⟩ := to_names ht
        obtain ⟨v, hv, rfl⟩ := getCstr_iff.mp hn
        obtain ⟨rfl, ln⟩ := getStr_iff.mp hnonce
        obtain ⟨rfl, rfl, f, hf, rfl⟩ := (deserPublic_iff hm).mp hd
        obtain ⟨keyId, princ, res, ca, sig, ps, e, g1, g2, g3, g4, g5, g6, g7, g8, g9, g10, g11, g12, g13, g14, g15, g16⟩ :=
          certParse_some (pre := str v ++ str nonce ++ f) (by simp only [List.append_assoc]) hc
        subst e
        have eb : str v ++ (str nonce ++ (f ++ (be 8 c.serial ++ be 4 c.type ++ str keyId ++ str princ ++ be 8 c.validAfter ++
            be 8 c.validBefore ++ str c.critical ++ str c.extensions ++ str res ++ str ca ++ str sig))) =
            (str v ++ str nonce ++ f ++ be 8 c.serial ++ be 4 c.type ++ str keyId ++ str princ ++ be 8 c.validAfter ++
            be 8 c.validBefore ++ str c.critical ++ str c.extensions ++ str res ++ str ca) ++ str sig := by
          simp only [List.append_assoc]
        rw [eb] at g13 g16 ⊢
        rw [take_body] at g13
        exact ⟨_, sig, rfl, ⟨⟨v, name, nonce, f, keyId, princ, res, ca, ps, rfl, hv, hm, ln, hf, g1, g2, g3, g4, g5, g6, g7, g8⟩,
          g9, g10, g11, g12, g13, g14, g15, g16⟩⟩
  · rintro ⟨body, sig, rfl, h⟩
    obtain ⟨v, name, nonce, f, keyId, princ, res, ca, ps, eb, hv, hm, ln, hf, g1, g2, g3, g4, g5, g6, g7, g8⟩ := h.layout
    have eb' : body ++ str sig = str v ++ (str nonce ++ (f ++ (be 8 c.serial ++ (be 4 c.type ++ (str keyId ++ (str princ ++
        (be 8 c.validAfter ++ (be 8 c.validBefore ++ (str c.critical ++ (str c.extensions ++ (str res ++ (str ca ++
        (str sig ++ []))))))))))))) := by
      rw [eb]; simp only [List.append_assoc, List.append_nil]
    have hcp : certParse W (body ++ str sig) (be 8 c.serial ++ (be 4 c.type ++ (str keyId ++ (str princ ++
        (be 8 c.validAfter ++ (be 8 c.validBefore ++ (str c.critical ++ (str c.extensions ++ (str res ++ (str ca ++
        (str sig ++ [])))))))))) ) = some (c, []) := by
      unfold certParse
      rw [getInt_append _ _ _ h.numbers.1]
      simp only
      rw [getInt_append _ _ _ (by rcases h.type with e | e <;> rw [e] <;> decide)]
      simp only
      rw [getCstr_iff.mpr ⟨_, g1, rfl⟩]
      simp only
      rw [getStr_append _ _ g3]
      simp only
      rw [getInt_append _ _ _ h.numbers.2.1]
      simp only
      rw [getInt_append _ _ _ h.numbers.2.2]
      simp only
      rw [getStr_append _ _ h.options.2.1]
      simp only
      rw [getStr_append _ _ h.options.2.2.2]
      simp only
      rw [getStr_append _ _ g6]
      simp only
      rw [getStr_append _ _ g7]
      simp only
      rw [getStr_append _ _ h.short]
      simp only
      rw [if_neg (by have := h.type; omega), g2, getPrincipals_of _ _ _ h.few g4 g5]
      simp only
      rw [if_neg (by
        rw [(pairsOk_iff _ _ (Nat.le_refl _)).mpr h.options.1, (pairsOk_iff _ _ (Nat.le_refl _)).mpr h.options.2.2.1]
        simp), plainFromBlob_iff.mpr g8]
      simp only
      rw [List.append_nil, take_body]
      obtain ⟨d, hd⟩ := Option.isSome_iff_exists.mp h.signed
      obtain ⟨sv, sr, hs, hsv⟩ := h.algorithm
      rw [hd]
      simp only
      rw [getCstr_iff.mpr ⟨sv, hsv, hs⟩]
      simp only
      rw [← h.blob]
    unfold fromBlob
    rw [getCstr_iff.mpr ⟨v, hv, eb'⟩]
    simp only
    rw [(of_names hm).1]
    simp only
    rw [getStr_append _ _ ln]
    simp only
    rw [(deserPublic_iff hm).mpr ⟨rfl, rfl, f, hf, rfl⟩]
    simp only
    rw [hcp]
    simp

theorem be_unique {n a b : Nat} {x y : Bytes} (ha : a < 256 ^ n) (hb : b < 256 ^ n) (h : be n a ++ x = be n b ++ y) :
    a = b ∧ x = y := by
  have h1 := List.append_inj h (by rw [be_length, be_length])
  exact ⟨be_inj ha hb h1.1, h1.2⟩

theorem str_unique {a b x y : Bytes} (ha : a.length ≤ maxString) (hb : b.length ≤ maxString) (h : str a ++ x = str b ++ y) :
    a = b ∧ x = y := str_inj (by omega) (by omega) h

theorem flatMap_unique : ∀ (ps qs : List Bytes), (∀ p ∈ ps, p.length ≤ maxString) → (∀ q ∈ qs, q.length ≤ maxString) →
    ps.flatMap str = qs.flatMap str → ps = qs := by
  intro ps
  induction ps with
  | nil =>
    intro qs _ _ h
    cases qs with
    | nil => rfl
    | cons q qs =>
      have h1 := congrArg List.length h
      rw [List.flatMap_cons, List.length_append, List.flatMap_nil, List.length_nil] at h1
      have h2 := str_ne_nil q
      omega
  | cons p ps ih =>
    intro qs hp hq h
    cases qs with
    | nil =>
      have h1 := congrArg List.length h
      rw [List.flatMap_cons, List.length_append, List.flatMap_nil, List.length_nil] at h1
      have h2 := str_ne_nil p
      omega
    | cons q qs =>
      rw [List.flatMap_cons, List.flatMap_cons] at h
      obtain ⟨e, h3⟩ := str_unique (hp p (by simp)) (hq q (by simp)) h
      rw [e, ih qs (fun x hx => hp x (by simp [hx])) (fun x hx => hq x (by simp [hx])) h3]

theorem texts_unique : ∀ (ps as bs : List Bytes), ps.length = as.length → ps.length = bs.length →
    (∀ x ∈ ps.zip as, Text x.1 x.2) → (∀ x ∈ ps.zip bs, Text x.1 x.2) → as = bs := by
  intro ps
  induction ps with
  | nil =>
    intro as bs ha hb _ _
    rw [List.eq_nil_of_length_eq_zero ha.symm, List.eq_nil_of_length_eq_zero hb.symm]
  | cons p ps ih =>
    intro as bs ha hb h1 h2
    cases as with
    | nil => simp at ha
    | cons a as =>
      cases bs with
      | nil => simp at hb
      | cons b bs =>
        have e : a = b := text_unique (h1 (p, a) (by simp)) (h2 (p, b) (by simp))
        rw [e, ih as bs (by simpa using ha) (by simpa using hb) (fun x hx => h1 x (by simp [hx])) (fun x hx => h2 x (by simp [hx]))]

theorem zip_short {ps l : List Bytes} (hl : ps.length = l.length) (h : ∀ x ∈ ps.zip l, Text x.1 x.2) :
    ∀ p ∈ ps, p.length ≤ maxString := by
  intro p hp
  obtain ⟨i, hi, rfl⟩ := List.mem_iff_getElem.mp hp
  have : (ps[i], l[i]'(by omega)) ∈ ps.zip l := by
    rw [List.mem_iff_getElem]
    exact ⟨i, by rw [List.length_zip]; omega, by rw [List.getElem_zip]⟩
  exact (h _ this).2

theorem plain_unique {W : World} {b : Bytes} {k k' : Pub} (h : PlainBlob W b k) (h' : PlainBlob W b k') : k = k' := by
  rw [← plainFromBlob_iff] at h h'
  rw [h] at h'
  simpa using h'

/-- The bytes that are signed determine the key and everything the certificate says. -/
theorem C90_signed (W : World) (body s s' : Bytes) (k k' : Pub) (c c' : Cert) (h : Certificate W body s k c)
    (h' : Certificate W body s' k' c') : k = k' ∧ sayings c = sayings c' := by
  obtain ⟨v, name, nonce, f, keyId, princ, res, ca, ps, eb, hv, hm, ln, hf, g1, g2, g3, g4, g5, g6, g7, g8⟩ := h.layout
  obtain ⟨v', name', nonce', f', keyId', princ', res', ca', ps', eb', hv', hm', ln', hf', g1', g2', g3', g4', g5', g6', g7', g8'⟩ :=
    h'.layout
  have e : str v ++ (str nonce ++ (f ++ (be 8 c.serial ++ (be 4 c.type ++ (str keyId ++ (str princ ++
        (be 8 c.validAfter ++ (be 8 c.validBefore ++ (str c.critical ++ (str c.extensions ++ (str res ++ (str ca ++ [])))))))))))) =
      str v' ++ (str nonce' ++ (f' ++ (be 8 c'.serial ++ (be 4 c'.type ++ (str keyId' ++ (str princ' ++
        (be 8 c'.validAfter ++ (be 8 c'.validBefore ++ (str c'.critical ++ (str c'.extensions ++ (str res' ++ (str ca' ++ [])))))))))))) := by
    have := eb.symm.trans eb'
    simpa only [List.append_assoc, List.append_nil] using this
  obtain ⟨rfl, q1⟩ := str_unique hv.2 hv'.2 e
  obtain rfl := text_unique hv hv'
  obtain ⟨rfl, q2⟩ := str_unique ln ln' q1
  obtain ⟨rfl, q3⟩ := fields_unique hf hf' hm hm' q2
  obtain ⟨e1, q4⟩ := be_unique h.numbers.1 h'.numbers.1 q3
  have ht : c.type < 256 ^ 4 := by rcases h.type with e | e <;> rw [e] <;> decide
  have ht' : c'.type < 256 ^ 4 := by rcases h'.type with e | e <;> rw [e] <;> decide
  obtain ⟨e2, q5⟩ := be_unique ht ht' q4
  obtain ⟨rfl, q6⟩ := str_unique g1.2 g1'.2 q5
  obtain ⟨e4, q7⟩ := str_unique g3 g3' q6
  obtain ⟨e5, q8⟩ := be_unique h.numbers.2.1 h'.numbers.2.1 q7
  obtain ⟨e6, q9⟩ := be_unique h.numbers.2.2 h'.numbers.2.2 q8
  obtain ⟨e7, q10⟩ := str_unique h.options.2.1 h'.options.2.1 q9
  obtain ⟨e8, q11⟩ := str_unique h.options.2.2.2 h'.options.2.2.2 q10
  obtain ⟨-, q12⟩ := str_unique g6 g6' q11
  obtain ⟨rfl, -⟩ := str_unique g7 g7' q12
  rw [g2, g2'] at e4
  obtain rfl := flatMap_unique ps ps' (zip_short g4 g5) (zip_short g4' g5') e4
  refine ⟨rfl, ?_⟩
  unfold sayings
  rw [e1, e2, e5, e6, e7, e8, text_unique g1 g1', texts_unique ps _ _ g4 g4' g5 g5', plain_unique g8 g8']

/-- A certificate is passed on as it was received. -/
theorem C90_kept (W : World) (b : Bytes) (k : Pub) (c : Cert) (h : fromBlob W b = some ⟨k, some c⟩) :
    toBlob ⟨k, some c⟩ false = some b := by
  obtain ⟨body, sig, rfl, hc⟩ := (C90_certificate W b k c).mp h
  unfold toBlob
  simp only [Bool.false_eq_true, if_false]
  rw [hc.blob, if_neg]
  rw [List.length_append]
  have := str_ne_nil sig
  omega

/-! ### Writing and reading back -/

/-- The key can be written: numbers of at most 16384 bits, names that are C strings, points and lengths as they should be. -/
inductive Sound (W : World) : Pub → Prop
  | rsa {e n : Nat} : e < 256 ^ 2048 → n < 256 ^ 2048 → 1024 ≤ numBits n → Sound W (.rsa e n)
  | ecdsa {c : Curve} {q : Bytes} : Point W c q → Sound W (.ecdsa c q)
  | ed25519 {pk : Bytes} : pk.length = 32 → Sound W (.ed25519 pk)
  | ecdsaSk {q app : Bytes} : Point W .p256 q → 0 ∉ app → app.length ≤ maxString → Sound W (.ecdsaSk .p256 q app)
  | ed25519Sk {pk app : Bytes} : pk.length = 32 → 0 ∉ app → app.length ≤ maxString → Sound W (.ed25519Sk pk app)

theorem text_self {s : Bytes} (h : 0 ∉ s) (hl : s.length ≤ maxString) : Text s s := ⟨⟨.inl rfl, h⟩, hl⟩

theorem text_curve (c : Curve) : Text (curveName c) (curveName c) := by
  refine text_self ?_ ?_ <;> cases c <;> decide

theorem magnitude_head (n : Nat) : Wire.ofBE (Exch.magnitude n) = n ∧ (Exch.magnitude n).length = (numBits n + 7) / 8 :=
  ⟨Exch.ofBE_magnitude n, by unfold Exch.magnitude; rw [be_length]⟩

theorem numBits_le {n k : Nat} (h : n < 256 ^ k) : numBits n ≤ 8 * k := by
  unfold numBits
  split
  · omega
  · rename_i h0
    have : n < 2 ^ (8 * k) := by rw [Nat.pow_mul]; exact h
    have := (Nat.log2_lt h0).mpr this
    omega

theorem number_mpint {n : Nat} (h : n < 256 ^ 2048) : Number (mpintBytes n) n := by
  have hb := numBits_le h
  have hm := magnitude_head n
  have hlen : (mpintBytes n).length ≤ 2049 ∧ ((mpintBytes n).length = 2049 → (mpintBytes n).headD 0 = 0) ∧
      ((mpintBytes n).headD 0).toNat < 128 := by
    unfold mpintBytes
    split
    · refine ⟨by simp, by simp, by decide⟩
    · rename_i x l e
      rw [e] at hm
      have hl : (x :: l).length ≤ 2048 := by omega
      split
      · refine ⟨by simpa using hl, fun _ => rfl, ?_⟩
        show (0 : UInt8).toNat < 128
        decide
      · rename_i hx
        refine ⟨by omega, fun h => by omega, ?_⟩
        simpa using hx
  refine ⟨?_, hlen.1, hlen.2.1⟩
  rw [twos_pos hlen.2.2, ofBE_mpintBytes]

theorem serPublic_fields {W : World} {k : Pub} (h : Sound W k) : Fields W k (serPublic k) := by
  cases h with
  | rsa h1 h2 h3 => exact .rsa (number_mpint h1) (number_mpint h2) h3
  | ecdsa h => exact .ecdsa (text_curve _) h
  | ed25519 h => exact .ed25519 h
  | ecdsaSk h1 h2 h3 => exact .ecdsaSk (text_curve _) h1 (text_self h2 h3)
  | ed25519Sk h1 h2 h3 => exact .ed25519Sk h1 (text_self h2 h3)

theorem sshName_some {W : World} {k : Pub} (h : Sound W k) (cert : Bool) :
    ∃ n, sshName k.kind cert k.nid = some n ∧ n ∈ names k.kind k.nid cert ∧ Text n n := by
  have key : ∀ kind nid, (sshName kind cert nid).all (fun n => n ∈ names kind nid cert ∧ (0 : UInt8) ∉ n ∧ n.length ≤ maxString) = true →
      (sshName kind cert nid).isSome = true → ∃ n, sshName kind cert nid = some n ∧ n ∈ names kind nid cert ∧ Text n n := by
    intro kind nid h1 h2
    obtain ⟨n, hn⟩ := Option.isSome_iff_exists.mp h2
    rw [hn] at h1
    have h1 : n ∈ names kind nid cert ∧ (0 : UInt8) ∉ n ∧ n.length ≤ maxString := by simpa using h1
    exact ⟨n, hn, h1.1, text_self h1.2.1 h1.2.2⟩
  cases h with
  | rsa => exact key .rsa none (by cases cert <;> decide +kernel) (by cases cert <;> decide +kernel)
  | @ecdsa c => exact key .ecdsa (some c) (by cases cert <;> cases c <;> decide +kernel) (by cases cert <;> cases c <;> decide +kernel)
  | ed25519 => exact key .ed25519 none (by cases cert <;> decide +kernel) (by cases cert <;> decide +kernel)
  | ecdsaSk => exact key .ecdsaSk (some .p256) (by cases cert <;> decide +kernel) (by cases cert <;> decide +kernel)
  | ed25519Sk => exact key .ed25519Sk none (by cases cert <;> decide +kernel) (by cases cert <;> decide +kernel)

/-- A plain key that is written is read back. -/
theorem C90_plain_roundtrip (W : World) (k : Pub) (c : Option Cert) (h : Sound W k) :
    ∃ b, toBlob ⟨k, c⟩ true = some b ∧ fromBlob W b = some ⟨k, none⟩ := by
  obtain ⟨n, hn, hm, ht⟩ := sshName_some h false
  refine ⟨str n ++ serPublic k, ?_, ?_⟩
  · unfold toBlob
    simp only [if_true]
    rw [hn]; rfl
  · exact (C90_plain W _ k).mpr ⟨n, n, _, rfl, ht, hm, serPublic_fields h⟩

/-- What the caller of the signing function fills in makes sense. -/
structure Fit (W : World) (k : Pub) (c : Cert) (ca : Key) (caBlob : Bytes) : Prop where
  key : Sound W k
  ca : Sound W ca.pub
  caShort : caBlob.length ≤ maxString
  numbers : c.serial < 256 ^ 8 ∧ c.validAfter < 256 ^ 8 ∧ c.validBefore < 256 ^ 8
  type : c.type = 1 ∨ c.type = 2
  keyId : 0 ∉ c.keyId ∧ c.keyId.length ≤ maxString
  few : c.principals.length ≤ 256
  principals : ∀ p ∈ c.principals, 0 ∉ p ∧ p.length ≤ maxString
  total : (c.principals.flatMap str).length ≤ maxString
  options : Pairs c.critical ∧ c.critical.length ≤ maxString ∧ Pairs c.extensions ∧ c.extensions.length ≤ maxString

theorem zip_self {l : List Bytes} (x : Bytes × Bytes) (h : x ∈ l.zip l) : x.1 = x.2 ∧ x.1 ∈ l := by
  induction l with
  | nil => simp at h
  | cons a l ih =>
    rw [List.zip_cons_cons, List.mem_cons] at h
    rcases h with rfl | h
    · exact ⟨rfl, by simp⟩
    · exact ⟨(ih h).1, by simp [(ih h).2]⟩

/-- A certificate that is issued is read back as it was meant, if the signature the authority gives is right. -/
theorem C90_issued (W : World) (k : Pub) (c : Cert) (ca : Key) (nonce : Bytes) (wanted : Option Bytes)
    (signer : Bytes → Option Bytes → Option Bytes) (b caBlob : Bytes) (hca : toBlob ca false = some caBlob)
    (hf : Fit W k c ca caBlob) (hn : nonce.length ≤ maxString) (h : certify k c ca nonce wanted signer = some b)
    (hs : ∀ body alg sig, signer body alg = some sig → sig.length ≤ maxString ∧ (verify W ca.pub sig body none).isSome) :
    ∃ c', fromBlob W b = some ⟨k, some c'⟩ ∧ sayings c' = sayings { c with signatureKey := ca.pub } ∧
      ∀ a, wanted = some a → c'.signatureType = a := by
  unfold certify at h
  split at h; · cases h
  rename_i hc
  rw [hca] at h
  simp only at h
  obtain ⟨name, hname, hm, ht⟩ := sshName_some hf.key true
  obtain ⟨cname, hcname, hcm, hct⟩ := sshName_some hf.ca false
  have hc : ca.cert = none := Decidable.not_not.mp hc
  have hcb : caBlob = str cname ++ serPublic ca.pub := by
    unfold toBlob at hca
    simp only [Bool.false_eq_true, if_false] at hca
    rw [hc] at hca
    simp only at hca
    rw [hcname] at hca
    cases hca
    rfl
  obtain ⟨body, hb, eb⟩ : ∃ body, certBody k c nonce caBlob = some body ∧ body = str name ++ str nonce ++ serPublic k ++
      be 8 c.serial ++ be 4 c.type ++ str c.keyId ++ str (c.principals.flatMap str) ++ be 8 c.validAfter ++
      be 8 c.validBefore ++ str c.critical ++ str c.extensions ++ str [] ++ str caBlob := by
    unfold certBody
    rw [hname]
    exact ⟨_, rfl, rfl⟩
  rw [hb] at h
  simp only at h
  generalize hA : (if wanted = none ∧ ca.pub.kind = .rsa then some nRsa512 else wanted) = A at h
  split at h; · cases h
  rename_i sig hsig
  split at h; · cases h
  rename_i t r hst
  by_cases hw : A.any (fun x => decide (x ≠ t)) = true
  · rw [if_pos hw] at h; cases h
  rw [if_neg hw] at h
  cases h
  obtain ⟨hl, hv⟩ := hs _ _ _ hsig
  obtain ⟨sv, hsv, hse⟩ := getCstr_iff.mp hst
  refine ⟨{ c with signatureKey := ca.pub, signatureType := t, blob := body ++ str sig },
    (C90_certificate W _ _ _).mpr ⟨body, sig, rfl, ?_⟩, rfl, ?_⟩
  · refine ⟨⟨name, name, nonce, serPublic k, c.keyId, c.principals.flatMap str, [], caBlob, c.principals, eb, ht, hm, hn,
      serPublic_fields hf.key, text_self hf.keyId.1 hf.keyId.2, rfl, hf.total, rfl, ?_, by simp, hf.caShort,
      ⟨cname, cname, _, hcb, hct, hcm, serPublic_fields hf.ca⟩⟩, hf.numbers, hf.type, hf.few, hf.options, hv, hl,
      ⟨sv, r, hse, hsv⟩, rfl⟩
    intro x hx
    obtain ⟨e, hi⟩ := zip_self x hx
    rw [← e]
    exact text_self (hf.principals _ hi).1 (hf.principals _ hi).2
  · intro a ha
    subst ha
    rw [if_neg (by simp)] at hA
    subst hA
    simp at hw
    exact hw.symm

end Verif.PubKey
