/-
Lemmas for C90 and C91: readers and layouts.
-/
import Verif.PubKey.Spec
import Verif.Exch.Hash

namespace Verif.PubKey
open Verif Wire
open _root_.Verif.Exch (twos numBits getMpint mpint str_inj)

theorem getStr_iff {l v r : Bytes} : getStr l = some (v, r) ↔ l = str v ++ r ∧ v.length ≤ maxString :=
  ⟨getStr_some, fun h => by rw [h.1]; exact getStr_append _ _ h.2⟩

theorem getInt_iff {n : Nat} {l r : Bytes} {v : Nat} : getInt n l = some (v, r) ↔ l = be n v ++ r ∧ v < 256 ^ n :=
  ⟨getInt_some, fun h => by rw [h.1]; exact getInt_append _ _ _ h.2⟩

theorem getCstr_iff {l s r : Bytes} : getCstr l = some (s, r) ↔ ∃ v, Text v s ∧ l = str v ++ r := by
  constructor
  · intro h
    obtain ⟨v, h1, h2, h3⟩ := getCstr_named h
    exact ⟨v, ⟨h1, h3⟩, h2⟩
  · rintro ⟨v, ⟨h1, h3⟩, rfl⟩
    exact getCstr_of_named h1 _ h3

theorem text_unique {v s t : Bytes} (h1 : Text v s) (h2 : Text v t) : s = t := by
  have a : getCstr (str v ++ []) = some (s, []) := getCstr_iff.mpr ⟨v, h1, rfl⟩
  have b : getCstr (str v ++ []) = some (t, []) := getCstr_iff.mpr ⟨v, h2, rfl⟩
  rw [a] at b
  simpa using b

theorem twos_nonneg {d : Bytes} {n : Nat} (h : twos d = (n : Int)) : (d.headD 0).toNat < 128 ∧ Wire.ofBE d = n := by
  cases d with
  | nil =>
    refine ⟨by decide, ?_⟩
    have : (0 : Int) = (n : Int) := h
    rw [ofBE_nil]; omega
  | cons x l =>
    rw [twos] at h
    have hl := ofBE_lt l
    have hx : x.toNat < 128 := by
      by_cases hx : x.toNat < 128
      · exact hx
      · exfalso
        rw [if_neg hx] at h
        have h256 := x.toNat_lt
        have e1 : ((x.toNat : Int) - 256) * 256 ^ l.length ≤ -1 * 256 ^ l.length :=
          Int.mul_le_mul_of_nonneg_right (by omega) (Int.le_of_lt (Int.pow_pos (by decide)))
        have e2 : ((256 : Int) ^ l.length) = ((256 ^ l.length : Nat) : Int) := by rw [Int.natCast_pow]; rfl
        rw [e2] at e1 h
        omega
    refine ⟨hx, ?_⟩
    rw [if_pos hx] at h
    rw [ofBE_cons]
    have e2 : ((256 : Int) ^ l.length) = ((256 ^ l.length : Nat) : Int) := by rw [Int.natCast_pow]; rfl
    rw [e2] at h
    have h' : ((x.toNat * 256 ^ l.length + Wire.ofBE l : Nat) : Int) = (n : Int) := by
      rw [Int.natCast_add, Int.natCast_mul]; exact h
    omega

theorem twos_pos {d : Bytes} (h : (d.headD 0).toNat < 128) : twos d = (Wire.ofBE d : Int) := by
  cases d with
  | nil => rfl
  | cons x t =>
    have hx : x.toNat < 128 := h
    rw [twos, if_pos hx, ofBE_cons, Int.natCast_add, Int.natCast_mul, Int.natCast_pow]
    rfl

theorem getMpint_iff {l r : Bytes} {n : Nat} : getMpint l = some (n, r) ↔ ∃ d, Number d n ∧ l = str d ++ r := by
  constructor
  · intro h
    unfold getMpint at h
    split at h
    · cases h
    · rename_i d r' hd
      split at h
      · cases h
      · rename_i h1
        split at h
        · cases h
        · rename_i h2
          cases h
          have h3 : ¬ d.length > 2049 := fun e => h2 (.inl e)
          refine ⟨d, ⟨twos_pos (by omega), by omega, fun e => ?_⟩, (getStr_iff.mp hd).1⟩
          by_cases hz : d.headD 0 = 0
          · exact hz
          · exact absurd (.inr ⟨e, hz⟩) h2
  · rintro ⟨d, hd, rfl⟩
    unfold getMpint
    rw [getStr_append _ _ (by have := hd.short; omega)]
    have h1 := twos_nonneg hd.value
    simp only
    rw [if_neg (by omega), if_neg ?_, h1.2]
    rintro (h | ⟨h, hz⟩)
    · have := hd.short; omega
    · exact hz (hd.top h)

theorem number_unique {d : Bytes} {n m : Nat} (h1 : Number d n) (h2 : Number d m) : n = m := by
  have := h1.value.symm.trans h2.value
  omega

/-! ### Names -/

theorem table : ∀ i ∈ keyimpls, i.name ∈ names i.kind i.nid i.cert ∧ typeFromName i.name = some (i.kind, i.cert) ∧
    nidFromName i.name = i.nid := by decide +kernel

instance : DecidableEq Impl := fun a b => by
  cases a; cases b
  simp only [Impl.mk.injEq]
  exact inferInstance

theorem listed (kind : Kind) (nid : Option Curve) (cert : Bool) : ∀ n ∈ names kind nid cert,
    ∃ i ∈ keyimpls, i.name = n ∧ i.kind = kind ∧ i.nid = nid ∧ i.cert = cert := by
  cases kind <;> rcases nid with _ | nid <;> (try cases nid) <;> cases cert <;> decide +kernel

theorem of_names {kind : Kind} {nid : Option Curve} {cert : Bool} {n : Bytes} (h : n ∈ names kind nid cert) :
    typeFromName n = some (kind, cert) ∧ nidFromName n = nid := by
  obtain ⟨i, hi, rfl, rfl, rfl, rfl⟩ := listed _ _ _ _ h
  exact (table i hi).2

theorem to_names {kind : Kind} {cert : Bool} {n : Bytes} (h : typeFromName n = some (kind, cert)) :
    ∃ nid, n ∈ names kind nid cert := by
  unfold typeFromName at h
  cases hf : keyimpls.find? (fun i => i.name = n) with
  | none => rw [hf] at h; cases h
  | some i =>
    rw [hf] at h
    simp only [Option.map_some, Option.some.injEq, Prod.mk.injEq] at h
    have hn : i.name = n := by simpa using List.find?_some hf
    refine ⟨i.nid, ?_⟩
    rw [← h.1, ← h.2, ← hn]
    exact (table i (List.mem_of_find?_eq_some hf)).1

theorem curveFromName_iff {n : Bytes} {c : Curve} : curveFromName n = some c ↔ n = curveName c := by
  constructor
  · intro h
    unfold curveFromName at h
    split at h
    · cases h; assumption
    · split at h
      · cases h; assumption
      · split at h
        · cases h; assumption
        · cases h
  · rintro rfl
    cases c <;> decide

/-! ### Public keys -/

theorem getPoint_iff {W : World} {c : Curve} {b q r : Bytes} : getPoint W c b = some (q, r) ↔ Point W c q ∧ b = str q ++ r := by
  constructor
  · intro h
    unfold getPoint at h
    split at h
    · cases h
    · rename_i q' r' hq
      split at h
      · cases h
      · rename_i hn
        cases h
        obtain ⟨h1, h2⟩ := getStr_iff.mp hq
        refine ⟨⟨?_, ?_, ?_⟩, h1⟩
        · by_cases hz : q.headD 0 = 4
          · exact hz
          · exact absurd (.inr (.inr (.inl hz))) hn
        · have a : ¬ q.length = 0 := fun e => hn (.inl e)
          have b : ¬ q.length > 133 := fun e => hn (.inr (.inl e))
          omega
        · cases ho : W.onCurve c q
          · exact absurd (.inr (.inr (.inr ho))) hn
          · rfl
  · rintro ⟨h, rfl⟩
    unfold getPoint
    rw [getStr_append _ _ (by have := h.short; omega)]
    simp only
    rw [if_neg]
    rintro (e | e | e | e)
    · have := h.short; omega
    · have := h.short; omega
    · exact e h.form
    · rw [h.on] at e; cases e

theorem deserEcdsa_iff {W : World} {name b q r : Bytes} {c nid : Curve} (hn : nidFromName name = some nid) :
    deserEcdsa W name b = some (c, q, r) ↔ c = nid ∧ ∃ v, Text v (curveName c) ∧ Point W c q ∧ b = str v ++ str q ++ r := by
  constructor
  · intro h
    unfold deserEcdsa at h
    rw [hn] at h
    simp only at h
    split at h
    · cases h
    · rename_i cv r1 hc
      split at h
      · cases h
      · rename_i hcv
        split at h
        · cases h
        · rename_i q' r2 hp
          cases h
          obtain ⟨v, hv, rfl⟩ := getCstr_iff.mp hc
          obtain ⟨hq, rfl⟩ := getPoint_iff.mp hp
          have hcv := curveFromName_iff.mp (Decidable.not_not.mp hcv)
          subst hcv
          exact ⟨rfl, v, hv, hq, by rw [List.append_assoc]⟩
  · rintro ⟨rfl, v, hv, hq, rfl⟩
    unfold deserEcdsa
    rw [hn]
    simp only
    rw [getCstr_iff.mpr ⟨v, hv, by rw [List.append_assoc]⟩]
    simp only
    rw [if_neg (Decidable.not_not.mpr (curveFromName_iff.mpr rfl)), getPoint_iff.mpr ⟨hq, rfl⟩]

theorem deserEd25519_iff {b pk r : Bytes} : deserEd25519 b = some (pk, r) ↔ pk.length = 32 ∧ b = str pk ++ r := by
  constructor
  · intro h
    unfold deserEd25519 at h
    split at h
    · cases h
    · rename_i pk' r' hp
      split at h
      · cases h
      · rename_i hl
        cases h
        exact ⟨Decidable.not_not.mp hl, (getStr_iff.mp hp).1⟩
  · rintro ⟨h, rfl⟩
    unfold deserEd25519
    rw [getStr_append _ _ (by omega)]
    simp only
    rw [if_neg (by omega)]

theorem deserRsa_iff {b r : Bytes} {e n : Nat} : deserRsa b = some (e, n, r) ↔
    ∃ x y, Number x e ∧ Number y n ∧ 1024 ≤ numBits n ∧ b = str x ++ str y ++ r := by
  constructor
  · intro h
    unfold deserRsa at h
    split at h
    · cases h
    · rename_i e' r1 he
      split at h
      · cases h
      · rename_i n' r2 hn
        split at h
        · cases h
        · rename_i hl
          cases h
          obtain ⟨x, hx, rfl⟩ := getMpint_iff.mp he
          obtain ⟨y, hy, rfl⟩ := getMpint_iff.mp hn
          exact ⟨x, y, hx, hy, by omega, by rw [List.append_assoc]⟩
  · rintro ⟨x, y, hx, hy, hl, rfl⟩
    unfold deserRsa
    rw [getMpint_iff.mpr ⟨x, hx, by rw [List.append_assoc]⟩]
    simp only
    rw [getMpint_iff.mpr ⟨y, hy, rfl⟩]
    simp only
    rw [if_neg (by omega)]

theorem deserPublic_iff {W : World} {kind : Kind} {nid : Option Curve} {cert : Bool} {name b r : Bytes} {k : Pub}
    (hn : name ∈ names kind nid cert) : deserPublic W kind name b = some (k, r) ↔
      k.kind = kind ∧ k.nid = nid ∧ ∃ f, Fields W k f ∧ b = f ++ r := by
  have hnid := (of_names hn).2
  cases kind with
  | rsa =>
    have h0 : nid = none := by rcases nid with _ | nid; rfl; cases nid <;> cases cert <;> cases hn
    subst h0
    unfold deserPublic
    simp only
    constructor
    · intro h
      cases hd : deserRsa b with
      | none => rw [hd] at h; cases h
      | some t =>
        obtain ⟨e, n, r'⟩ := t
        rw [hd] at h
        cases h
        obtain ⟨x, y, hx, hy, hl, rfl⟩ := deserRsa_iff.mp hd
        exact ⟨rfl, rfl, _, .rsa hx hy hl, rfl⟩
    · rintro ⟨hk, -, f, hf, rfl⟩
      cases hf <;> cases hk
      rename_i hx hy hl
      rw [deserRsa_iff.mpr ⟨_, _, hx, hy, hl, rfl⟩]
      rfl
  | ed25519 =>
    have h0 : nid = none := by rcases nid with _ | nid; rfl; cases nid <;> cases cert <;> cases hn
    subst h0
    unfold deserPublic
    simp only
    constructor
    · intro h
      cases hd : deserEd25519 b with
      | none => rw [hd] at h; cases h
      | some t =>
        obtain ⟨pk, r'⟩ := t
        rw [hd] at h
        cases h
        obtain ⟨hl, rfl⟩ := deserEd25519_iff.mp hd
        exact ⟨rfl, rfl, _, .ed25519 hl, rfl⟩
    · rintro ⟨hk, -, f, hf, rfl⟩
      cases hf <;> cases hk
      rename_i hl
      rw [deserEd25519_iff.mpr ⟨hl, rfl⟩]
      rfl
  | ed25519Sk =>
    have h0 : nid = none := by rcases nid with _ | nid; rfl; cases nid <;> cases cert <;> cases hn
    subst h0
    unfold deserPublic
    simp only
    constructor
    · intro h
      cases hd : deserEd25519 b with
      | none => rw [hd] at h; cases h
      | some t =>
        obtain ⟨pk, r'⟩ := t
        rw [hd] at h
        simp only at h
        cases hg : getCstr r' with
        | none => rw [hg] at h; cases h
        | some t =>
          obtain ⟨app, r2⟩ := t
          rw [hg] at h
          cases h
          obtain ⟨hl, rfl⟩ := deserEd25519_iff.mp hd
          obtain ⟨a, ha, rfl⟩ := getCstr_iff.mp hg
          exact ⟨rfl, rfl, _, .ed25519Sk hl ha, by rw [List.append_assoc]⟩
    · rintro ⟨hk, -, f, hf, rfl⟩
      cases hf <;> cases hk
      rename_i hl ha
      rw [deserEd25519_iff.mpr ⟨hl, by rw [List.append_assoc]⟩]
      simp only
      rw [getCstr_iff.mpr ⟨_, ha, rfl⟩]
      rfl
  | ecdsa =>
    rcases nid with _ | nid
    · cases cert <;> cases hn
    unfold deserPublic
    simp only
    constructor
    · intro h
      cases hd : deserEcdsa W name b with
      | none => rw [hd] at h; cases h
      | some t =>
        obtain ⟨c, q, r'⟩ := t
        rw [hd] at h
        cases h
        obtain ⟨rfl, v, hv, hq, rfl⟩ := (deserEcdsa_iff hnid).mp hd
        exact ⟨rfl, rfl, _, .ecdsa hv hq, rfl⟩
    · rintro ⟨hk, hc, f, hf, rfl⟩
      cases hf <;> cases hk
      rename_i hv hq
      cases hc
      rw [(deserEcdsa_iff hnid).mpr ⟨rfl, _, hv, hq, rfl⟩]
      rfl
  | ecdsaSk =>
    rcases nid with _ | nid
    · cases cert <;> cases hn
    unfold deserPublic
    simp only
    constructor
    · intro h
      cases hd : deserEcdsa W name b with
      | none => rw [hd] at h; cases h
      | some t =>
        obtain ⟨c, q, r'⟩ := t
        rw [hd] at h
        simp only at h
        cases hg : getCstr r' with
        | none => rw [hg] at h; cases h
        | some t =>
          obtain ⟨app, r2⟩ := t
          rw [hg] at h
          cases h
          obtain ⟨rfl, v, hv, hq, rfl⟩ := (deserEcdsa_iff hnid).mp hd
          obtain ⟨a, ha, rfl⟩ := getCstr_iff.mp hg
          exact ⟨rfl, rfl, _, .ecdsaSk hv hq ha, by simp only [List.append_assoc]⟩
    · rintro ⟨hk, hc, f, hf, rfl⟩
      cases hf <;> cases hk
      rename_i hv hq ha
      cases hc
      rw [(deserEcdsa_iff hnid).mpr ⟨rfl, _, hv, hq, List.append_assoc _ _ _⟩]
      simp only
      rw [getCstr_iff.mpr ⟨_, ha, rfl⟩]
      rfl

/-- The fields of a key can be told from what follows. -/
theorem fields_unique {W : World} {k k' : Pub} {f f' x y name : Bytes} {cert : Bool} (h : Fields W k f) (h' : Fields W k' f')
    (hn : name ∈ names k.kind k.nid cert) (hn' : name ∈ names k'.kind k'.nid cert) (e : f ++ x = f' ++ y) :
    k = k' ∧ x = y := by
  have a := (deserPublic_iff (W := W) (r := x) (b := f ++ x) hn).mpr ⟨rfl, rfl, f, h, rfl⟩
  have b := (deserPublic_iff (W := W) (r := y) (b := f' ++ y) hn').mpr ⟨rfl, rfl, f', h', rfl⟩
  have hk : k.kind = k'.kind := by
    have := (of_names hn).1.symm.trans (of_names hn').1
    simp only [Option.some.injEq, Prod.mk.injEq] at this
    exact this.1
  rw [e, hk, b] at a
  simp only [Option.some.injEq, Prod.mk.injEq] at a
  exact ⟨a.1.symm, a.2.symm⟩

theorem plainFromBlob_iff {W : World} {b : Bytes} {k : Pub} : plainFromBlob W b = some k ↔ PlainBlob W b k := by
  constructor
  · intro h
    unfold plainFromBlob at h
    split at h
    · cases h
    · rename_i name r hn
      split at h
      · cases h
      · rename_i kind cert ht
        split at h
        · cases h
        · rename_i hc
          split at h
          · cases h
          · rename_i k' r' hd
            split at h
            · cases h
            · rename_i hr
              cases h
              have hr : r' = [] := List.eq_nil_of_length_eq_zero (Decidable.not_not.mp hr)
              subst hr
              cases cert with
              | true => exact absurd rfl hc
              | false =>
                obtain ⟨nid, hm⟩ := to_names ht
                obtain ⟨v, hv, rfl⟩ := getCstr_iff.mp hn
                obtain ⟨rfl, rfl, f, hf, rfl⟩ := (deserPublic_iff hm).mp hd
                exact ⟨v, name, f, by simp, hv, hm, hf⟩
  · rintro ⟨v, name, f, rfl, hv, hm, hf⟩
    unfold plainFromBlob
    rw [getCstr_iff.mpr ⟨v, hv, rfl⟩]
    simp only
    rw [(of_names hm).1]
    simp only
    rw [if_neg (by decide), (deserPublic_iff (r := []) hm).mpr ⟨rfl, rfl, f, hf, by simp⟩]
    simp

end Verif.PubKey
