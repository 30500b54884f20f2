/-
C47: a file signature is accepted only for the namespace, hash and message it was made for.
-/
import Verif.Sig.Spec

namespace Verif.Sig
open Verif Wire Spec

/-! ### Lists of plain names -/

theorem glob_plain {p s : Bytes} (h : ∀ c ∈ p, c ≠ 42 ∧ c ≠ 63) : Match.Glob p s ↔ s = p := by
  induction p generalizing s with
  | nil =>
    constructor
    · intro hg; cases hg; rfl
    · rintro rfl; exact .nil
  | cons c p ih =>
    have hc := h c (by simp)
    have hp := ih (fun x hx => h x (by simp [hx])) (s := s.tail)
    constructor
    · intro hg
      cases hg with
      | star u _ => exact absurd rfl hc.1
      | any x _ => exact absurd rfl hc.2
      | lit _ _ _ hg => exact congrArg (c :: ·) (hp.1 hg)
    · rintro rfl
      exact .lit c hc.1 hc.2 (hp.2 rfl)

/-- a list of two plain names -/
theorem plain_list {s a b : Bytes} {l : Bytes} (he : Match.entries l = [a, b])
    (ha : ∀ c ∈ a, c ≠ 42 ∧ c ≠ 63 ∧ c ≠ 33) (hb : ∀ c ∈ b, c ≠ 42 ∧ c ≠ 63 ∧ c ≠ 33)
    (la : a.length < 1023) (lb : b.length < 1023) : Match.matchPatternList s l false = 1 ↔ s = a ∨ s = b := by
  have hh : ∀ e : Bytes, (∀ c ∈ e, c ≠ 42 ∧ c ≠ 63 ∧ c ≠ 33) → ¬ Match.isNeg e ∧ Match.body e = e ∧
      (Match.hits s false e ↔ s = e) := by
    intro e he
    have h1 : ¬ e.head? = some 33 := by
      intro h
      exact (he _ (List.mem_of_mem_head? h)).2.2 rfl
    have h2 : Match.body e = e := by simp [Match.body, h1]
    refine ⟨h1, h2, ?_⟩
    simp only [Match.hits, h2, Bool.false_eq_true, if_false]
    exact glob_plain fun c hc => ⟨(he c hc).1, (he c hc).2.1⟩
  rw [Match.C06_positive_iff, he]
  obtain ⟨a1, a2, a3⟩ := hh a ha
  obtain ⟨b1, b2, b3⟩ := hh b hb
  simp only [List.mem_cons, List.not_mem_nil, or_false, forall_eq_or_imp, forall_eq, Match.short, a2, b2, la, lb, a1, b1, false_and,
    not_false_eq_true, and_self, true_and, exists_eq_or_imp, exists_eq_left, a3, b3]

theorem hashAllowed_iff {h : Bytes} : hashAllowed h = true ↔ h = b!"sha256" ∨ h = b!"sha512" := by
  unfold hashAllowed
  rw [decide_eq_true_iff]
  exact plain_list (by decide) (by decide) (by decide) (by decide) (by decide)

theorem rsaAlg_iff {t : Bytes} : Match.matchPatternList t b!"rsa-sha2-512,rsa-sha2-256" false = 1 ↔
    t = b!"rsa-sha2-512" ∨ t = b!"rsa-sha2-256" :=
  plain_list (by decide) (by decide) (by decide) (by decide) (by decide)

/-! ### The signed data -/

theorem toSign_eq (ns h hm : Bytes) : toSign ns h hm = Signed ns h hm := by
  simp [toSign, Signed, str]

/-- **C47 (what is signed).**  The data determines the namespace, the hash's name and the message's hash. -/
theorem C47_determined {ns h hm ns' h' hm' : Bytes} (h1 : ns.length < 2 ^ 32) (h2 : ns'.length < 2 ^ 32)
    (h3 : h.length < 2 ^ 32) (h4 : h'.length < 2 ^ 32) (h5 : hm.length < 2 ^ 32) (h6 : hm'.length < 2 ^ 32)
    (e : toSign ns h hm = toSign ns' h' hm') : ns = ns' ∧ h = h' ∧ hm = hm' := by
  have key : ∀ {a b r r' : Bytes}, a.length < 2 ^ 32 → b.length < 2 ^ 32 → be 4 a.length ++ (a ++ r) = be 4 b.length ++ (b ++ r') →
      a = b ∧ r = r' := by
    intro a b r r' ha hb h
    have hl := List.append_inj h (by simp)
    have hn : a.length = b.length := be_inj (by omega) (by omega) hl.1
    exact List.append_inj hl.2 hn
  simp only [toSign_eq, Signed, List.append_assoc, List.append_cancel_left_eq] at e
  obtain ⟨e1, r1⟩ := key h1 h2 e
  have r2 := (List.append_inj r1 (by simp)).2
  obtain ⟨e2, r3⟩ := key h3 h4 r2
  have r4 := List.append_inj r3 (by simp [be_length])
  exact ⟨e1, e2, r4.2⟩

/-- **C47 (no other use).**  What ssh signs elsewhere (login requests, certificates, session bindings) starts with a
length-prefixed string shorter than 2^24 bytes and is never the data of a file signature. -/
theorem C47_separate {ns h hm x rest : Bytes} (hx : x.length < 2 ^ 24) : toSign ns h hm ≠ str x ++ rest := by
  intro e
  have h0 : (str x ++ rest).head? = some 0 := by
    have : be 4 x.length = 0 :: be 3 x.length := by
      rw [show (4 : Nat) = 3 + 1 from rfl, be]
      congr 1
      rw [Nat.div_eq_of_lt (by omega)]; rfl
    simp [str, this]
  rw [← e] at h0
  simp [toSign] at h0

/-! ### Verifying -/

theorem preamble_some {b r : Bytes} (h : preamble b = some r) :
    ∃ v, v ≤ 1 ∧ b = [83, 83, 72, 83, 73, 71] ++ be 4 v ++ r := by
  unfold preamble at h
  split at h
  · rename_i h6
    split at h
    · simp at h
    · rename_i v r' hv
      split at h
      · simp at h
      · rename_i hle
        simp only [Option.some.injEq] at h
        subst h
        refine ⟨v, by omega, ?_⟩
        rw [List.append_assoc, ← (getInt_some hv).1, ← h6, List.take_append_drop]
  · simp at h

theorem preamble_of {v : Nat} (hv : v ≤ 1) (r : Bytes) :
    preamble ([83, 83, 72, 83, 73, 71] ++ be 4 v ++ r) = some r := by
  unfold preamble
  have : getInt 4 (be 4 v ++ r) = some (v, r) := getInt_append _ _ _ (by omega)
  simp only [List.append_assoc, List.cons_append, List.nil_append, List.take_succ_cons, List.take_zero, if_true,
    List.drop_succ_cons, List.drop_zero, this]
  rw [if_neg (by omega)]

variable {K : Type} {w : World K}

theorem rsaOk_iff {k : K} {sig : Bytes} : rsaOk w k sig = true ↔
    (w.isRsa k = true → ∃ alg a rest, sig = str alg ++ rest ∧ alg.length ≤ maxString ∧ Named alg a ∧
        (a = b!"rsa-sha2-256" ∨ a = b!"rsa-sha2-512")) := by
  unfold rsaOk
  cases hr : w.isRsa k with
  | false => simp
  | true =>
    simp only [if_true, true_implies]
    constructor
    · intro h
      split at h
      · simp at h
      · rename_i t rest ht
        obtain ⟨v, hv, hs, hl⟩ := getCstr_named ht
        rw [decide_eq_true_iff, rsaAlg_iff] at h
        exact ⟨v, t, rest, hs, hl, hv, h.symm⟩
    · rintro ⟨alg, a, rest, hs, hl, hv, ha⟩
      rw [hs, getCstr_of_named hv rest hl]
      simp only [decide_eq_true_iff]
      rw [rsaAlg_iff]
      exact ha.symm

theorem parseSig_some {r : Bytes} {k : K} {ns h sig rest : Bytes} (hp : parseSig w r = some (k, ns, h, sig, rest)) :
    ∃ kb nsb res hb, r = str kb ++ str nsb ++ str res ++ str hb ++ str sig ++ rest ∧
      (kb.length ≤ maxString ∧ nsb.length ≤ maxString ∧ res.length ≤ maxString ∧ hb.length ≤ maxString ∧ sig.length ≤ maxString) ∧
      w.fromBlob kb = some k ∧ Named nsb ns ∧ Named hb h := by
  unfold parseSig at hp
  split at hp
  · simp at hp
  rename_i kb r1 e1
  split at hp
  · simp at hp
  rename_i k' ek
  split at hp
  · simp at hp
  rename_i ns' r2 e2
  split at hp
  · simp at hp
  rename_i res r3 e3
  split at hp
  · simp at hp
  rename_i h' r4 e4
  split at hp
  · simp at hp
  rename_i sig' r5 e5
  simp only [Option.some.injEq, Prod.mk.injEq] at hp
  obtain ⟨rfl, rfl, rfl, rfl, rfl⟩ := hp
  obtain ⟨a1, b1⟩ := getStr_some e1
  obtain ⟨nsb, n2, a2, b2⟩ := getCstr_named e2
  obtain ⟨a3, b3⟩ := getStr_some e3
  obtain ⟨hb, n4, a4, b4⟩ := getCstr_named e4
  obtain ⟨a5, b5⟩ := getStr_some e5
  exact ⟨kb, nsb, res, hb, by rw [a1, a2, a3, a4, a5]; simp, ⟨b1, b2, b3, b4, b5⟩, ek, n2, n4⟩

theorem parseSig_of {k : K} {ns h sig kb nsb res hb : Bytes} (h1 : kb.length ≤ maxString) (h2 : nsb.length ≤ maxString)
    (h3 : res.length ≤ maxString) (h4 : hb.length ≤ maxString) (h5 : sig.length ≤ maxString) (hk : w.fromBlob kb = some k)
    (hn : Named nsb ns) (hh : Named hb h) :
    parseSig w (str kb ++ (str nsb ++ (str res ++ (str hb ++ str sig)))) = some (k, ns, h, sig, []) := by
  unfold parseSig
  have e5 := getStr_append sig [] h5
  rw [List.append_nil] at e5
  simp only [getStr_append kb _ h1, hk, getCstr_of_named hn _ h2, getStr_append res _ h3, getCstr_of_named hh _ h4, e5]

theorem peekHash_of {v : Nat} {h sig kb nsb res hb : Bytes} (hv : v ≤ 1) (h1 : kb.length ≤ maxString) (h2 : nsb.length ≤ maxString)
    (h3 : res.length ≤ maxString) (h4 : hb.length ≤ maxString) (h5 : sig.length ≤ maxString) (hh : Named hb h) :
    peekHash ([83, 83, 72, 83, 73, 71] ++ be 4 v ++ (str kb ++ (str nsb ++ (str res ++ (str hb ++ str sig))))) = some h := by
  unfold peekHash
  have e5 := getStr_append sig [] h5
  rw [List.append_nil] at e5
  simp only [preamble_of hv, getStr_append kb _ h1, getStr_append nsb _ h2, getStr_append res _ h3, getCstr_of_named hh _ h4, e5]

theorem wrapVerify_some {b h hm ns : Bytes} {k : K} (hv : wrapVerify w b h hm ns = some k) :
    ∃ v kb nsb res hb sig, v ≤ 1 ∧
      b = [83, 83, 72, 83, 73, 71] ++ be 4 v ++ (str kb ++ (str nsb ++ (str res ++ (str hb ++ str sig)))) ∧
      (kb.length ≤ maxString ∧ nsb.length ≤ maxString ∧ res.length ≤ maxString ∧ hb.length ≤ maxString ∧ sig.length ≤ maxString) ∧
      w.fromBlob kb = some k ∧ Named nsb ns ∧ Named hb h ∧ rsaOk w k sig = true ∧ w.verify k sig (Signed ns h hm) = true := by
  unfold wrapVerify at hv
  split at hv
  · simp at hv
  rename_i r0 e0
  split at hv
  · simp at hv
  rename_i k' ns' h' sig rest ep
  split at hv
  · simp at hv
  rename_i c1
  split at hv
  · simp at hv
  rename_i c2
  split at hv
  · simp at hv
  rename_i c3
  split at hv
  · simp at hv
  rename_i c4
  split at hv
  · simp at hv
  rename_i c5
  simp only [Option.some.injEq] at hv
  subst hv
  simp only [ne_eq, Decidable.not_not] at c1 c2 c3
  subst c2 c3
  rw [List.length_eq_zero_iff] at c1
  subst c1
  obtain ⟨v, hv1, e1⟩ := preamble_some e0
  obtain ⟨kb, nsb, res, hb, e2, hl, hk, hn, hh⟩ := parseSig_some ep
  refine ⟨v, kb, nsb, res, hb, sig, hv1, ?_, hl, hk, hn, hh, by simpa using c4, ?_⟩
  · rw [e1, e2]; simp
  · rw [← toSign_eq]; simpa using c5

/-- **C47 (verification).**  A signature is accepted for a message and a namespace, as made by a key, exactly when it
is a good signature: well formed with nothing behind it, for this very namespace, with one of the two hashes, by that
key over exactly the data for this namespace, hash and message, and (for RSA) not with SHA-1. -/
theorem C47_verify {b m ns : Bytes} {k : K} : verifyb w b m ns = some k ↔ Good w b m ns k := by
  constructor
  · intro h
    unfold verifyb at h
    split at h
    · simp at h
    rename_i hh eh
    split at h
    · simp at h
    rename_i hm em
    unfold hashBuffer at em
    split at em
    · rename_i ha
      simp only [Option.some.injEq] at em
      subst em
      obtain ⟨v, kb, nsb, res, hb, sig, hv, e, hl, hk, hn, hn2, hr, hs⟩ := wrapVerify_some h
      exact .mk v kb nsb res hb sig hh (by rw [e]; simp) hv hl hk hn hn2 (hashAllowed_iff.1 ha) (rsaOk_iff.1 hr) hs
    · simp at em
  · rintro ⟨v, kb, nsb, res, hb, sig, h, e, hv, ⟨h1, h2, h3, h4, h5⟩, hk, hn, hh, ha, hr, hs⟩
    have e' : b = [83, 83, 72, 83, 73, 71] ++ be 4 v ++ (str kb ++ (str nsb ++ (str res ++ (str hb ++ str sig)))) := by
      rw [e]; simp
    rw [← toSign_eq] at hs
    rw [e']
    simp only [verifyb, peekHash_of hv h1 h2 h3 h4 h5 hh, hashBuffer, hashAllowed_iff.2 ha, if_true, wrapVerify, preamble_of hv,
      parseSig_of h1 h2 h3 h4 h5 hk hn hh, hs, rsaOk_iff.2 hr]
    simp

theorem named_unique {a b v w' : Bytes} (ha : Named v a) (hb : Named w' b) (e : v = w') : a = b := by
  subst e
  obtain ⟨h1 | h1, n1⟩ := ha <;> obtain ⟨h2 | h2, n2⟩ := hb
  · rw [← h1, ← h2]
  · rw [h1] at h2; rw [h2] at n1; simp at n1
  · rw [h1] at h2; rw [← h2] at n2; simp at n2
  · rw [h1] at h2; exact (List.append_inj_left' h2 rfl)

theorem str_inj {a b r r' : Bytes} (ha : a.length ≤ maxString) (hb : b.length ≤ maxString) (e : str a ++ r = str b ++ r') :
    a = b ∧ r = r' := by
  have h1 := getStr_append a r ha
  rw [e, getStr_append b r' hb] at h1
  simp only [Option.some.injEq, Prod.mk.injEq] at h1
  exact ⟨h1.1.symm, h1.2.symm⟩

/-- **C47 (one namespace).**  One signature is never accepted for two namespaces, nor as made by two keys, whatever
the messages. -/
theorem C47_one_namespace {b m m' ns ns' : Bytes} {k k' : K} (h : verifyb w b m ns = some k)
    (h' : verifyb w b m' ns' = some k') : ns = ns' ∧ k = k' := by
  obtain ⟨v, kb, nsb, res, hb, sig, hh, e, hv, ⟨h1, h2, h3, h4, h5⟩, hk, hn, hh2, ha, hr, hs⟩ := C47_verify.1 h
  obtain ⟨v', kb', nsb', res', hb', sig', hh', e', hv', ⟨h1', h2', h3', h4', h5'⟩, hk', hn', hh2', ha', hr', hs'⟩ := C47_verify.1 h'
  rw [e] at e'
  simp only [List.append_assoc, List.append_cancel_left_eq] at e'
  have e1 := (List.append_inj e' (by simp)).2
  obtain ⟨rfl, e2⟩ := str_inj h1 h1' e1
  obtain ⟨e3, -⟩ := str_inj h2 h2' e2
  rw [hk] at hk'
  exact ⟨named_unique hn hn' e3, Option.some.inj hk'⟩

/-- **C47 (only what the holder signed).**  Suppose signatures by key `k` verify only over data the holder signed, and
that the holder made file signatures for the listed triples (namespace, hash, message) and otherwise only signed
protocol data.  Then an accepted signature means the holder signed a message with the same digest for this namespace. -/
theorem C47_holder {b m ns : Bytes} {k : K} {asked : List (Bytes × Bytes × Bytes)} {other : List Bytes}
    (hsig : ∀ sig data, w.verify k sig data = true → (∃ r ∈ asked, data = toSign r.1 r.2.1 (w.digest r.2.1 r.2.2)) ∨ data ∈ other)
    (hother : ∀ d ∈ other, ∃ x rest, d = str x ++ rest ∧ x.length < 2 ^ 24)
    (hlen : ∀ r ∈ asked, r.1.length < 2 ^ 32 ∧ r.2.1.length < 2 ^ 32)
    (hdig : ∀ h m, (w.digest h m).length < 2 ^ 32)
    (h : verifyb w b m ns = some k) :
    ∃ hash m', (ns, hash, m') ∈ asked ∧ w.digest hash m' = w.digest hash m ∧ (hash = b!"sha256" ∨ hash = b!"sha512") := by
  obtain ⟨v, kb, nsb, res, hb, sig, hh, e, hv, ⟨h1, h2, h3, h4, h5⟩, hk, hn, hh2, ha, hr, hs⟩ := C47_verify.1 h
  rw [← toSign_eq] at hs
  have hnl : ns.length < 2 ^ 32 := by
    have : ns.length ≤ nsb.length := by rcases hn.1 with e | e <;> rw [e] <;> simp
    omega
  have hhl : hh.length < 2 ^ 32 := by rcases ha with rfl | rfl <;> decide
  rcases hsig _ _ hs with ⟨r, hr, e⟩ | ho
  · obtain ⟨r1, r2, r3⟩ := r
    obtain ⟨l1, l2⟩ := hlen _ hr
    obtain ⟨e1, e2, e3⟩ := C47_determined hnl l1 hhl l2 (hdig _ _) (hdig _ _) e
    simp only at e1 e2 e3
    subst e1 e2
    exact ⟨hh, r3, hr, e3.symm, ha⟩
  · obtain ⟨x, rest, e, hx⟩ := hother _ ho
    exact absurd e (C47_separate hx)

/-- The signature scheme works: what a key signs verifies, and RSA signatures say which algorithm was asked for. -/
structure Works (w : World K) (k : K) : Prop where
  blob : w.fromBlob (w.toBlob k) = some k
  verifies : ∀ alg data sig, w.sign k alg data = some sig → w.verify k sig data = true
  named : ∀ alg data sig, w.sign k (some alg) data = some sig → alg.length ≤ 20 → ∃ rest, sig = str alg ++ rest
  short : (w.toBlob k).length ≤ maxString ∧ ∀ alg data sig, w.sign k alg data = some sig → sig.length ≤ maxString

/-- **C47 (round trip).**  What is signed verifies, for the same message and namespace. -/
theorem C47_sign_verify {b m ns : Bytes} {k : K} {hash : Option Bytes} (hw : Works w k) (hn : (0 : UInt8) ∉ ns)
    (hl : ns.length ≤ maxString) (h : signb w k hash m ns = some b) : verifyb w b m ns = some k := by
  unfold signb at h
  generalize hash.getD b!"sha512" = hh at h
  split at h
  · simp at h
  rename_i hm em
  unfold hashBuffer at em
  split at em
  · rename_i ha
    have ha' := hashAllowed_iff.1 ha
    simp only [Option.some.injEq] at em
    subst em
    unfold wrapSign at h
    split at h
    · simp at h
    rename_i sig es
    simp only [Option.some.injEq] at h
    subst h
    have hz : (0 : UInt8) ∉ hh := by rcases ha' with rfl | rfl <;> decide
    rw [C47_verify]
    refine .mk 1 (w.toBlob k) ns [] hh sig hh rfl (by omega)
      ⟨hw.short.1, hl, Nat.zero_le _, by rcases ha' with rfl | rfl <;> decide, hw.short.2 _ _ _ es⟩ hw.blob ⟨.inl rfl, hn⟩ ⟨.inl rfl, hz⟩ ha' ?_ ?_
    · intro hr
      rcases ha' with rfl | rfl
      · have : signAlg w k b!"sha256" = some b!"rsa-sha2-256" := by simp [signAlg, hr]
        rw [this] at es
        obtain ⟨rest, e⟩ := hw.named _ _ _ es (by decide)
        exact ⟨_, _, rest, e, by decide, ⟨.inl rfl, by decide⟩, .inl rfl⟩
      · have : signAlg w k b!"sha512" = some b!"rsa-sha2-512" := by simp [signAlg, hr]
        rw [this] at es
        obtain ⟨rest, e⟩ := hw.named _ _ _ es (by decide)
        exact ⟨_, _, rest, e, by decide, ⟨.inl rfl, by decide⟩, .inr rfl⟩
    · rw [← toSign_eq]
      exact hw.verifies _ _ _ es
  · simp at em

/-! ### The text form -/

theorem findFront_some {p s f : Bytes} (h : findFront p s = some f) : ∃ t, s = f ++ p ++ t := by
  induction s generalizing f with
  | nil =>
    unfold findFront at h
    split at h
    · rename_i hp
      simp only [Option.some.injEq] at h
      subst h hp
      exact ⟨[], rfl⟩
    · simp at h
  | cons c r ih =>
    unfold findFront at h
    split at h
    · rename_i hp
      simp only [Option.some.injEq] at h
      subst h
      exact ⟨(c :: r).drop p.length, by conv => lhs; rw [← List.take_append_drop p.length (c :: r), hp]
                                        simp⟩
    · obtain ⟨f', hf, rfl⟩ := Option.map_eq_some_iff.1 h
      obtain ⟨t, ht⟩ := ih hf
      exact ⟨t, by rw [ht]; simp⟩

theorem findFront_of {p t : Bytes} (f : Bytes) (hf : (45 : UInt8) ∉ f) :
    findFront (10 :: 45 :: p) (f ++ (10 :: 45 :: p) ++ t) = some f := by
  induction f with
  | nil =>
    rw [List.nil_append, List.cons_append, findFront, if_pos]
    rw [← List.cons_append, List.take_left]
  | cons c f ih =>
    have h1 : (45 : UInt8) ∉ f := fun h => hf (by simp [h])
    rw [List.cons_append, List.cons_append, findFront, if_neg, ih h1]
    · rfl
    · intro h
      simp only [List.length_cons, List.take_succ_cons, List.cons.injEq] at h
      have h2 := h.2
      cases f with
      | nil => simp at h2
      | cons d f => simp at h2; exact h1 (by simp [h2.1])

theorem rfc_no {d s : Bytes} (c : UInt8) (hc : ∀ x : Fin 64, Misc.Base64.rfcLetter x.val ≠ c) (h61 : c ≠ 61) (hs : Num.isSpace c = false)
    (h : Misc.Base64.Rfc d (Misc.Base64.squeeze s)) : c ∉ s := by
  intro hm
  have : c ∈ Misc.Base64.squeeze s := by simp [Misc.Base64.squeeze, hm, hs]
  rcases Misc.Base64.rfc_chars h c this with h1 | ⟨x, hx, h1⟩
  · exact h61 h1
  · exact hc ⟨x, hx⟩ h1.symm

theorem cstr_some {b t : Bytes} (h : cstr b = some t) : b = t ∨ b = t ++ [0] := by
  unfold cstr at h
  split at h
  · simp at h
  · split at h
    · rename_i hl
      simp only [Option.some.injEq] at h
      subst h
      obtain ⟨ys, hys⟩ := List.getLast?_eq_some_iff.1 hl
      subst hys
      simp
    · simp only [Option.some.injEq] at h
      exact .inl h

theorem eol_some {s r : Bytes} (h : eol s = some r) : ∃ cr : Bool, s = (if cr then [13, 10] else [10]) ++ r := by
  unfold eol at h
  split at h
  · rename_i h2
    simp only [Option.some.injEq] at h
    subst h
    refine ⟨true, ?_⟩
    rw [if_pos rfl, ← h2, List.take_append_drop]
  · split at h
    · rename_i h2
      simp only [Option.some.injEq] at h
      subst h
      refine ⟨false, ?_⟩
      rw [if_neg (by simp), ← h2, List.take_append_drop]
    · simp at h

theorem eol_of (cr : Bool) (r : Bytes) : eol ((if cr then [13, 10] else [10]) ++ r) = some r := by
  cases cr <;> simp [eol]

/-- **C47 (reading the text form).**  A text is read as the bytes `d` exactly when it is a header line, the base64 of
`d` and a footer on a line of its own. -/
theorem C47_dearmor {s d : Bytes} : dearmor s = some d ↔ Spec.Text s d := by
  constructor
  · intro h
    unfold dearmor at h
    split at h
    · simp at h
    rename_i hb
    simp only [ne_eq, Decidable.not_not] at hb
    split at h
    · simp at h
    rename_i r er
    split at h
    · simp at h
    rename_i body eb
    split at h
    · simp at h
    rename_i t et
    obtain ⟨cr, e1⟩ := eol_some er
    obtain ⟨tail, e2⟩ := findFront_some eb
    have hr := (Misc.Base64.C63_b64tod t d).1 h
    have e0 : s = BEGIN ++ ((if cr then [13, 10] else [10]) ++ r) := by
      rw [← e1]
      have := List.take_append_drop (BEGIN).length s
      rw [hb] at this
      exact this.symm
    rcases cstr_some et with e3 | e3
    · refine .mk cr t [] tail ?_ (.inl rfl) hr
      rw [e0, e2, e3]; simp
    · refine .mk cr t [0] tail ?_ (.inr rfl) hr
      rw [e0, e2, e3]; simp
  · rintro ⟨cr, body, nul, tail, e, hn, hr⟩
    have h45 : (45 : UInt8) ∉ body := rfc_no 45 (by decide) (by decide) (by decide) hr
    have h0 : (0 : UInt8) ∉ body := rfc_no 0 (by decide) (by decide) (by decide) hr
    have e' : s = BEGIN ++ ((if cr then [13, 10] else [10]) ++ ((body ++ nul) ++ (10 :: END) ++ tail)) := by
      rw [e]; simp
    have hf : findFront (10 :: END) ((body ++ nul) ++ (10 :: END) ++ tail) = some (body ++ nul) := by
      refine findFront_of _ ?_
      intro hm
      rcases List.mem_append.1 hm with h | h
      · exact h45 h
      · rcases hn with rfl | rfl <;> simp at h
    have hc : cstr (body ++ nul) = some body := by
      rcases hn with rfl | rfl
      · rw [List.append_nil]; exact cstr_of_no_nul h0
      · simp [cstr, h0]
    unfold dearmor
    rw [e', List.take_left, if_neg (by simp), List.drop_left, eol_of]
    simp only [hf, hc]
    exact (Misc.Base64.C63_b64tod body d).2 hr

theorem wrap_ends (i : Nat) (s : Bytes) (hs : s ≠ []) : ∃ f, Misc.Base64.wrapLoop i s = f ++ [10] := by
  induction s generalizing i with
  | nil => exact absurd rfl hs
  | cons c r ih =>
    unfold Misc.Base64.wrapLoop
    cases r with
    | nil =>
      unfold Misc.Base64.wrapLoop
      by_cases h : i % 70 = 69
      · simp only [h, if_true, Nat.add_sub_cancel, ne_eq, not_true_eq_false, if_false]
        refine ⟨[c], ?_⟩
        split <;> rfl
      · simp only [h, if_false, Nat.add_sub_cancel, ne_eq, not_false_eq_true, if_true]
        exact ⟨[c], by rw [if_neg (by omega)]; rfl⟩
    | cons d r =>
      obtain ⟨f, hf⟩ := ih (i + 1) (by simp)
      rw [hf]
      split
      · exact ⟨c :: 10 :: f, rfl⟩
      · exact ⟨c :: f, rfl⟩

/-- **C47 (text round trip).**  A signature written as text is read back unchanged. -/
theorem C47_armor {d : Bytes} (hd : d ≠ []) : ∃ s, armor d = some s ∧ dearmor s = some d := by
  have hl : d.length ≠ 0 := fun h => hd (List.length_eq_zero_iff.1 h)
  obtain ⟨t, h1, -, h3⟩ := Misc.Base64.C63_roundtrip d true
  have hend : ∃ f, t = f ++ [10] := by
    unfold Misc.Base64.dtob64 at h1
    rw [if_neg hl] at h1
    split at h1
    · simp at h1
    · rename_i e he
      simp only [Option.some.injEq, if_true] at h1
      rw [← h1]
      refine wrap_ends 0 e ?_
      rintro rfl
      have := ((Misc.Base64.C63_encode d [] _).1 he).1
      cases this
      exact hd rfl
  obtain ⟨f, rfl⟩ := hend
  refine ⟨_, by rw [armor, h1], ?_⟩
  rw [C47_dearmor]
  refine .mk false f [] [10] (by simp) (.inl rfl) ?_
  have e : Misc.Base64.squeeze (f ++ [10]) = Misc.Base64.squeeze f := by
    have : Num.isSpace 10 = true := by decide
    simp [Misc.Base64.squeeze, List.filter_append, this]
  rwa [e] at h3

/-! ### A concrete case -/

/-- a toy scheme with one key: a signature is the data reversed -/
def toy : World Unit where
  fromBlob b := if b = b!"K" then some () else none
  toBlob _ := b!"K"
  isRsa _ := false
  sign _ _ d := some d.reverse
  verify _ s d := decide (s = d.reverse)
  digest _ m := m.take 64

/-- a toy scheme that satisfies `Works`: a signature names the algorithm, then the first bytes of the data -/
def toy2 : World Unit where
  fromBlob b := if b = b!"K" then some () else none
  toBlob _ := b!"K"
  isRsa _ := true
  sign _ a d := if (a.getD []).length ≤ 20 then some (str (a.getD []) ++ d.take 200) else none
  verify _ s d := match getStr s with | some (_, r) => decide (r = d.take 200) | none => false
  digest _ m := m.take 64

example : Works toy2 () where
  blob := rfl
  verifies a d s h := by
    simp only [toy2] at h ⊢
    split at h
    · simp only [Option.some.injEq] at h
      subst h
      rw [getStr_append _ _ (by omega)]
      simp
    · simp at h
  named a d s h hl := by
    simp only [toy2, Option.getD_some, hl, if_true, Option.some.injEq] at h
    exact ⟨_, h.symm⟩
  short := ⟨by decide, fun a d s h => by
    simp only [toy2] at h
    split at h
    · simp only [Option.some.injEq] at h
      subst h
      simp only [str, List.length_append, be_length, List.length_take]
      omega
    · simp at h⟩

example : ∃ b, signb toy () none b!"hello" b!"file" = some b ∧ verifyb toy b b!"hello" b!"file" = some () ∧
    verifyb toy b b!"hello" b!"git" = none ∧ verifyb toy b b!"hullo" b!"file" = none :=
  ⟨_, rfl, by decide +kernel, by decide +kernel, by decide +kernel⟩

end Verif.Sig
