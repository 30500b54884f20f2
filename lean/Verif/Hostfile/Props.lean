/-
C38: a revoked host key is never accepted; what a check against known_hosts answers.
-/
import Verif.Hostfile.Lemmas
import Verif.Misc.Base64Props

namespace Verif.Hostfile
open Verif

/-! ## The check against loaded entries -/

/-- The entry marks the key, or the key that signed the certificate, as revoked. -/
def Revokes (e : Entry) (k : Key) : Prop :=
  e.marker = .revoke ∧ (e.key.pub = k.pub ∨ ∃ blob signer, k.cert = some (blob, signer) ∧ signer = e.key.pub)

/-- The entry vouches for the key: the same plain key, or for a certificate its authority. -/
def Vouches (e : Entry) (k : Key) : Prop :=
  (k.cert = none ∧ e.marker = .none ∧ e.key.type = k.type ∧ e.key.pub = k.pub) ∨
  (∃ blob signer, k.cert = some (blob, signer) ∧ e.marker = .ca ∧ e.key.pub = signer)

theorem revoked_iff (es : List Entry) (k : Key) : isRevoked es (some k) = true ↔ ∃ e ∈ es, Revokes e k := by
  unfold isRevoked Revokes equalPublic
  simp only [List.any_eq_true, Bool.and_eq_true, decide_eq_true_eq, Bool.or_eq_true]
  constructor
  · rintro ⟨e, he, hm, h⟩
    refine ⟨e, he, hm, ?_⟩
    rcases h with h | h
    · exact .inl h.symm
    · cases hc : k.cert with
      | none => rw [hc] at h; simp at h
      | some c => rw [hc] at h; simp at h; exact .inr ⟨c.1, c.2, rfl, h⟩
  · rintro ⟨e, he, hm, h⟩
    refine ⟨e, he, hm, ?_⟩
    rcases h with h | ⟨blob, signer, hc, hs⟩
    · exact .inl h.symm
    · right; rw [hc]; simp [hs]

theorem equal_plain {k x : Key} (h : k.cert = none) : equal k x = true ↔ (x.type = k.type ∧ x.pub = k.pub) := by
  simp only [equal, equalPublic, Key.isCert, h, Option.isSome_none, Bool.not_false, Bool.true_or, Bool.and_true,
    Bool.and_eq_true, decide_eq_true_eq]
  constructor
  · rintro ⟨a, b⟩; exact ⟨a.symm, b.symm⟩
  · rintro ⟨a, b⟩; exact ⟨a.symm, b.symm⟩

theorem keyLoop_spec (k : Key) (es : List Entry) (acc : HostStatus × Option Entry)
    (hacc : acc.1 = .new ∨ acc.1 = .changed) :
    ((keyLoop k es acc).1 = .ok ↔ ∃ e ∈ es, Vouches e k) ∧
    ((keyLoop k es acc).1 = .changed ↔ (¬ ∃ e ∈ es, Vouches e k) ∧
      (acc.1 = .changed ∨ (k.cert = none ∧ ∃ e ∈ es, e.marker = .none))) ∧
    ((keyLoop k es acc).1 = .ok ∨ (keyLoop k es acc).1 = .new ∨ (keyLoop k es acc).1 = .changed) ∧
    ((keyLoop k es acc).1 = .ok → ∃ e ∈ es, (keyLoop k es acc).2 = some e ∧ Vouches e k) := by
  induction es generalizing acc with
  | nil =>
    have h1 : keyLoop k [] acc = acc := rfl
    rw [h1]
    refine ⟨?_, ?_, ?_, ?_⟩
    · constructor
      · intro h; rcases hacc with h' | h' <;> rw [h'] at h <;> cases h
      · rintro ⟨e, he, _⟩; cases he
    · simp
    · rcases hacc with h | h
      · exact .inr (.inl h)
      · exact .inr (.inr h)
    · intro h; rcases hacc with h' | h' <;> rw [h'] at h <;> cases h
  | cons e es ih =>
    cases hc : k.cert with
    | none =>
      have hcert : k.isCert = false := by simp [Key.isCert, hc]
      unfold keyLoop
      simp only [hcert, Bool.false_eq_true, if_false]
      by_cases hm : e.marker ≠ .none
      · rw [if_pos hm]
        obtain ⟨i1, i2, i3, i4⟩ := ih acc hacc
        have hv : ¬ Vouches e k := by
          rintro (⟨_, h, _⟩ | ⟨b, s, h, _⟩)
          · exact hm h
          · rw [hc] at h; cases h
        refine ⟨?_, ?_, i3, ?_⟩
        · rw [i1]; simp [hv]
        · rw [i2, hc]; simp [hv, hm]
        · intro h; obtain ⟨x, hx, r⟩ := i4 h; exact ⟨x, by simp [hx], r⟩
      · rw [if_neg hm]
        have hm' : e.marker = .none := Decidable.not_not.1 hm
        by_cases he : equal k e.key = true
        · rw [if_pos he]
          have hv : Vouches e k := by
            have := (equal_plain hc).1 he
            exact .inl ⟨hc, hm', this.1, this.2⟩
          refine ⟨?_, ?_, .inl rfl, fun _ => ⟨e, by simp, rfl, hv⟩⟩
          · simp [hv]
          · simp [hv]
        · rw [if_neg he]
          obtain ⟨i1, i2, i3, i4⟩ := ih (.changed, some e) (.inr rfl)
          have hv : ¬ Vouches e k := by
            rintro (⟨_, _, h1, h2⟩ | ⟨b, s, h, _⟩)
            · exact he ((equal_plain hc).2 ⟨h1, h2⟩)
            · rw [hc] at h; cases h
          refine ⟨?_, ?_, i3, ?_⟩
          · rw [i1]; simp [hv]
          · rw [i2]; simp [hv, hm']
          · intro h; obtain ⟨x, hx, r⟩ := i4 h; exact ⟨x, by simp [hx], r⟩
    | some c =>
      have hcert : k.isCert = true := by simp [Key.isCert, hc]
      unfold keyLoop
      simp only [hcert, if_true]
      by_cases hm : e.marker ≠ .ca
      · rw [if_pos hm]
        obtain ⟨i1, i2, i3, i4⟩ := ih acc hacc
        have hv : ¬ Vouches e k := by
          rintro (⟨h, _⟩ | ⟨b, s, _, h, _⟩)
          · rw [hc] at h; cases h
          · exact hm h
        refine ⟨?_, ?_, i3, ?_⟩
        · rw [i1]; simp [hv]
        · rw [i2, hc]; simp [hv]
        · intro h; obtain ⟨x, hx, r⟩ := i4 h; exact ⟨x, by simp [hx], r⟩
      · rw [if_neg hm]
        have hm' : e.marker = .ca := Decidable.not_not.1 hm
        by_cases he : (k.cert.any fun c => decide (c.2 = e.key.pub)) = true
        · rw [if_pos he]
          have hv : Vouches e k := by
            rw [hc] at he; simp at he
            exact .inr ⟨c.1, c.2, hc, hm', he.symm⟩
          refine ⟨?_, ?_, .inl rfl, fun _ => ⟨e, by simp, rfl, hv⟩⟩
          · simp [hv]
          · simp [hv]
        · rw [if_neg he]
          obtain ⟨i1, i2, i3, i4⟩ := ih acc hacc
          have hv : ¬ Vouches e k := by
            rintro (⟨h, _⟩ | ⟨b, s, h, _, h2⟩)
            · rw [hc] at h; cases h
            · apply he; rw [h]; simp [h2]
          refine ⟨?_, ?_, i3, ?_⟩
          · rw [i1]; simp [hv]
          · rw [i2, hc]; simp [hv]
          · intro h; obtain ⟨x, hx, r⟩ := i4 h; exact ⟨x, by simp [hx], r⟩

/-- **C38 (revocation comes first).**  The check reports "revoked" exactly when some loaded entry marks the
key (or the key that signed it) as revoked, wherever that entry stands and whatever the others say. -/
theorem C38_revoked (es : List Entry) (k : Key) : (checkKey es k).1 = .revoked ↔ ∃ e ∈ es, Revokes e k := by
  unfold checkKey
  rw [← revoked_iff]
  cases h : isRevoked es (some k) with
  | true => simp
  | false =>
    simp only [Bool.false_eq_true, if_false, iff_false]
    rcases (keyLoop_spec k es (.new, none) (.inl rfl)).2.2.1 with h | h | h <;> rw [h] <;> decide

/-- **C38 (otherwise).**  A key that is not revoked is reported as OK exactly when an entry vouches for it,
as changed exactly when none does but it is a plain key and there is some plain entry, and as new
otherwise; the entry reported with OK vouches for the key. -/
theorem C38_otherwise (es : List Entry) (k : Key) (h : ¬ ∃ e ∈ es, Revokes e k) :
    ((checkKey es k).1 = .ok ↔ ∃ e ∈ es, Vouches e k) ∧
    ((checkKey es k).1 = .changed ↔ (¬ ∃ e ∈ es, Vouches e k) ∧ k.cert = none ∧ ∃ e ∈ es, e.marker = .none) ∧
    ((checkKey es k).1 = .new ↔ (¬ ∃ e ∈ es, Vouches e k) ∧ ¬ (k.cert = none ∧ ∃ e ∈ es, e.marker = .none)) ∧
    ((checkKey es k).1 = .ok → ∃ e ∈ es, (checkKey es k).2 = some e ∧ Vouches e k) := by
  have hr : isRevoked es (some k) = false := Bool.eq_false_iff.2 fun h' => h ((revoked_iff es k).1 h')
  unfold checkKey
  simp only [hr, Bool.false_eq_true, if_false]
  obtain ⟨i1, i2, i3, i4⟩ := keyLoop_spec k es (.new, none) (.inl rfl)
  simp only [reduceCtorEq, false_or] at i2
  refine ⟨i1, i2, ?_, i4⟩
  constructor
  · intro hn
    refine ⟨fun hv => ?_, fun hp => ?_⟩
    · rw [i1.2 hv] at hn; cases hn
    · by_cases hv : ∃ e ∈ es, Vouches e k
      · rw [i1.2 hv] at hn; cases hn
      · rw [i2.2 ⟨hv, hp⟩] at hn; cases hn
  · rintro ⟨hv, hp⟩
    rcases i3 with h | h | h
    · exact absurd (i1.1 h) hv
    · exact h
    · exact absurd (i2.1 h).2 hp

/-- In particular: a plain entry of the same type with another key, and no entry that vouches, is "changed". -/
theorem C38_changed (es : List Entry) (k : Key) (h : ¬ ∃ e ∈ es, Revokes e k) (hk : k.cert = none)
    (hv : ¬ ∃ e ∈ es, Vouches e k) (e : Entry) (he : e ∈ es) (hm : e.marker = .none) :
    (checkKey es k).1 = .changed :=
  (C38_otherwise es k h).2.1.2 ⟨hv, hk, e, he, hm⟩

/-- **C38 (lookup by type).**  A key offered as "known of this type" is a plain entry's, of that type, and
not revoked. -/
theorem C38_lookup (es : List Entry) (type : Nat) (nid : Int) (ecdsa : Bool) (e : Entry)
    (h : lookupType es type nid ecdsa = some e) :
    e ∈ es ∧ e.marker = .none ∧ e.key.type = type ∧ (ecdsa = true → nid ≠ -1 → e.key.nid = nid) ∧
      ¬ ∃ r ∈ es, Revokes r e.key := by
  unfold lookupType at h
  split at h
  · cases h
  · rename_i hr
    have hr' : ¬ ∃ r ∈ es, Revokes r e.key := by
      intro hx; apply hr; rw [h]; exact (revoked_iff es e.key).2 hx
    clear hr
    have : ∀ l : List Entry, (typeLoop type nid ecdsa l).2 = some e →
        e ∈ l ∧ e.marker = .none ∧ e.key.type = type ∧ (ecdsa = true → nid ≠ -1 → e.key.nid = nid) := by
      intro l
      induction l with
      | nil => intro h; cases h
      | cons x xs ih =>
        intro h
        unfold typeLoop at h
        split at h
        · have := ih h; exact ⟨by simp [this.1], this.2⟩
        · rename_i h1
          split at h
          · have := ih h; exact ⟨by simp [this.1], this.2⟩
          · rename_i h2
            split at h
            · have := ih h; exact ⟨by simp [this.1], this.2⟩
            · rename_i h3
              simp only [Option.some.injEq] at h
              subst h
              refine ⟨by simp, Decidable.not_not.1 h1, Decidable.not_not.1 h2, fun he hn => ?_⟩
              simp only [ne_eq, Bool.and_eq_true, decide_eq_true_eq, not_and, Decidable.not_not] at h3
              exact h3 ⟨hn, he⟩
    have := this es h
    exact ⟨this.1, this.2.1, this.2.2.1, this.2.2.2, hr'⟩

/-! ## The check against a file -/

theorem load_eq {P : Prims} {host : Bytes} {mems ls : List Bytes} (h : Terminated mems ls) :
    load P host mems = some (mems.filterMap (contributes P host)) := by
  unfold load
  induction mems generalizing ls with
  | nil => rfl
  | cons mem mems ih =>
    cases ls with
    | nil => exact absurd h id
    | cons l ls =>
      obtain ⟨⟨h0, h10, stale, rfl⟩, h⟩ := h
      have ih := ih h
      have hne := round_terminated P host none true l stale h0 h10
      simp only [List.filterMap_cons]
      cases hr : round P host none true (l ++ 10 :: 0 :: stale) with
      | overrun => exact absurd hr hne
      | skip => simp only [foreach, contributes, hr]; exact ih
      | line ln =>
        cases hf : foreach P host none true mems with
        | none => rw [hf] at ih; cases ih
        | some lns =>
          rw [hf] at ih
          simp only [Option.map_some, Option.some.injEq] at ih
          simp only [foreach, hr, hf, contributes, Option.map_some, List.filterMap_cons]
          cases record ln <;> simp [ih]

/-- **C38 (reading).**  Loading a file whose lines all end in a newline never reads outside the line, and
the entries loaded for a host are exactly those its lines state. -/
theorem C38_load {P : Prims} (hP : Base64Ok P) {host : Bytes} {mems ls : List Bytes} (h : Terminated mems ls) :
    ∃ es, load P host mems = some es ∧ ∀ e : Entry, e ∈ es ↔ Lists P ls host e.marker e.key := by
  refine ⟨_, load_eq h, fun e => ?_⟩
  rw [List.mem_filterMap]
  unfold Lists
  induction mems generalizing ls with
  | nil =>
    cases ls with
    | nil => simp
    | cons l ls => exact absurd h id
  | cons mem mems ih =>
    cases ls with
    | nil => exact absurd h id
    | cons l ls =>
      obtain ⟨⟨h0, h10, stale, rfl⟩, h⟩ := h
      have ih := ih h
      have hc := contributes_iff hP host l stale h0 h10 e
      constructor
      · rintro ⟨mem, hm, hx⟩
        rcases List.mem_cons.1 hm with rfl | hm
        · exact ⟨l, by simp, hc.1 hx⟩
        · obtain ⟨l', hl', r⟩ := ih.1 ⟨mem, hm, hx⟩
          exact ⟨l', by simp [hl'], r⟩
      · rintro ⟨l', hl', r⟩
        rcases List.mem_cons.1 hl' with rfl | hl'
        · exact ⟨_, by simp, hc.2 r⟩
        · obtain ⟨mem, hm, hx⟩ := ih.2 ⟨l', hl', r⟩
          exact ⟨mem, by simp [hm], hx⟩

/-- **C38 (a file).**  A plain key is reported as revoked exactly when some line of the file that names the
host is marked `@revoked` and holds the key, regardless of all other lines; otherwise it is accepted exactly
when some unmarked line that names the host holds it. -/
theorem C38_file {P : Prims} (hP : Base64Ok P) {host : Bytes} {mems ls : List Bytes} (h : Terminated mems ls)
    (k : Key) (hk : k.cert = none) :
    ∃ es, load P host mems = some es ∧
      ((checkKey es k).1 = .revoked ↔ ∃ r, Lists P ls host .revoke r ∧ r.pub = k.pub) ∧
      ((checkKey es k).1 = .ok ↔ (¬ ∃ r, Lists P ls host .revoke r ∧ r.pub = k.pub) ∧
        ∃ x, Lists P ls host .none x ∧ x.type = k.type ∧ x.pub = k.pub) := by
  obtain ⟨es, hl, hes⟩ := C38_load hP h
  have hrev : (∃ e ∈ es, Revokes e k) ↔ ∃ r, Lists P ls host .revoke r ∧ r.pub = k.pub := by
    constructor
    · rintro ⟨e, he, hm, h⟩
      have := (hes e).1 he
      rw [hm] at this
      rcases h with h | ⟨_, _, hc, _⟩
      · exact ⟨e.key, this, h⟩
      · rw [hk] at hc; cases hc
    · rintro ⟨r, hr, hp⟩
      exact ⟨⟨r, .revoke⟩, (hes ⟨r, .revoke⟩).2 hr, rfl, .inl hp⟩
  have hvou : (∃ e ∈ es, Vouches e k) ↔ ∃ x, Lists P ls host .none x ∧ x.type = k.type ∧ x.pub = k.pub := by
    constructor
    · rintro ⟨e, he, ⟨_, hm, h1, h2⟩ | ⟨_, _, hc, _⟩⟩
      · have := (hes e).1 he
        rw [hm] at this
        exact ⟨e.key, this, h1, h2⟩
      · rw [hk] at hc; cases hc
    · rintro ⟨x, hx, h1, h2⟩
      exact ⟨⟨x, .none⟩, (hes ⟨x, .none⟩).2 hx, .inl ⟨hk, rfl, h1, h2⟩⟩
  refine ⟨es, hl, by rw [C38_revoked, hrev], ?_⟩
  constructor
  · intro ho
    have hnr : ¬ ∃ e ∈ es, Revokes e k := by
      intro hr
      have := (C38_revoked es k).2 hr
      rw [ho] at this; cases this
    exact ⟨fun hx => hnr (hrev.2 hx), hvou.1 ((C38_otherwise es k hnr).1.1 ho)⟩
  · rintro ⟨hnr, hx⟩
    exact (C38_otherwise es k (fun hr => hnr (hrev.1 hr))).1.2 (hvou.2 hx)

/-- **C38 (a file, certificates).**  A host certificate is accepted exactly when a `@cert-authority` line
that names the host holds the key that signed it and no `@revoked` line that names the host holds that key or
the certified one. -/
theorem C38_file_cert {P : Prims} (hP : Base64Ok P) {host : Bytes} {mems ls : List Bytes} (h : Terminated mems ls)
    (k : Key) (blob signer : Bytes) (hk : k.cert = some (blob, signer)) :
    ∃ es, load P host mems = some es ∧
      ((checkKey es k).1 = .revoked ↔ ∃ r, Lists P ls host .revoke r ∧ (r.pub = k.pub ∨ r.pub = signer)) ∧
      ((checkKey es k).1 = .ok ↔ (¬ ∃ r, Lists P ls host .revoke r ∧ (r.pub = k.pub ∨ r.pub = signer)) ∧
        ∃ x, Lists P ls host .ca x ∧ x.pub = signer) := by
  obtain ⟨es, hl, hes⟩ := C38_load hP h
  have hrev : (∃ e ∈ es, Revokes e k) ↔ ∃ r, Lists P ls host .revoke r ∧ (r.pub = k.pub ∨ r.pub = signer) := by
    constructor
    · rintro ⟨e, he, hm, h⟩
      have := (hes e).1 he
      rw [hm] at this
      rcases h with h | ⟨_, _, hc, hs⟩
      · exact ⟨e.key, this, .inl h⟩
      · rw [hk] at hc; cases hc; exact ⟨e.key, this, .inr hs.symm⟩
    · rintro ⟨r, hr, hp⟩
      refine ⟨⟨r, .revoke⟩, (hes ⟨r, .revoke⟩).2 hr, rfl, ?_⟩
      rcases hp with hp | hp
      · exact .inl hp
      · exact .inr ⟨blob, signer, hk, hp.symm⟩
  have hvou : (∃ e ∈ es, Vouches e k) ↔ ∃ x, Lists P ls host .ca x ∧ x.pub = signer := by
    constructor
    · rintro ⟨e, he, ⟨hc, _⟩ | ⟨_, _, hc, hm, h1⟩⟩
      · rw [hk] at hc; cases hc
      · rw [hk] at hc; cases hc
        have := (hes e).1 he
        rw [hm] at this
        exact ⟨e.key, this, h1⟩
    · rintro ⟨x, hx, h1⟩
      exact ⟨⟨x, .ca⟩, (hes ⟨x, .ca⟩).2 hx, .inr ⟨blob, signer, hk, rfl, h1⟩⟩
  refine ⟨es, hl, by rw [C38_revoked, hrev], ?_⟩
  constructor
  · intro ho
    have hnr : ¬ ∃ e ∈ es, Revokes e k := by
      intro hr
      have := (C38_revoked es k).2 hr
      rw [ho] at this; cases this
    exact ⟨fun hx => hnr (hrev.2 hx), hvou.1 ((C38_otherwise es k hnr).1.1 ho)⟩
  · rintro ⟨hnr, hx⟩
    exact (C38_otherwise es k (fun hr => hnr (hrev.1 hr))).1.2 (hvou.2 hx)

/-- **The base64 of the code will do.**  What the theorems assume of base64 holds of `b64_ntop` and of
`b64_pton` with the 256-byte target that `host_hash` uses, whatever the hash and the key parser are. -/
theorem C38_base64 (P : Prims) :
    Base64Ok { P with b64enc := Misc.Base64.encode, b64dec := fun s => Misc.Base64.decode s 256 } where
  back s h := by
    show Misc.Base64.decode (Misc.Base64.encode s) 256 = some s
    have hr := Misc.Base64.encode_rfc s
    rw [Misc.Base64.C63_decode, Misc.Base64.squeeze_of_tight (Misc.Base64.rfc_tight hr)]
    exact ⟨hr, by unfold Misc.Base64.Room; omega⟩
  sep s hc := by
    rcases Misc.Base64.rfc_chars (Misc.Base64.encode_rfc s) 124 hc with h | ⟨x, hx, h⟩
    · cases h
    · have : ∀ n : Fin 64, Misc.Base64.rfcLetter n.val ≠ 124 := by decide +kernel
      exact this ⟨x, hx⟩ h.symm
  size s h := by
    have hl := Misc.Base64.encode_length s
    show Misc.Base64.encode s ≠ [] ∧ (Misc.Base64.encode s).length ≤ 1024
    refine ⟨fun e => ?_, by omega⟩
    rw [e] at hl; simp at hl; omega

/-! ## Concrete cases and two surprises -/

/-- A toy set of primitives: keys are texts `t <name>`, "base64" writes each byte as two letters. -/
def toyEnc : Bytes → Bytes
  | [] => []
  | c :: r => (65 + c / 16) :: (65 + c % 16) :: toyEnc r
def toyDec : Bytes → Option Bytes
  | [] => some []
  | [_] => none
  | a :: b :: r => (toyDec r).map (((a - 65) * 16 + (b - 65)) :: ·)
def toy : Prims where
  readKey s := if s.take 2 = b!"t " then some { pub := s.drop 2, type := 1 } else none
  writeKey k := b!"t " ++ k.pub
  b64dec := toyDec
  b64enc := toyEnc
  hmac salt host := salt ++ host

theorem toy_nibbles (c : UInt8) : (65 + c / 16 - 65) * 16 + (65 + c % 16 - 65) = c ∧ 65 + c / 16 ≠ 124 ∧
    65 + c % 16 ≠ 124 := by
  have : ∀ n : Fin 256, let c := UInt8.ofNat n.val
      (65 + c / 16 - 65) * 16 + (65 + c % 16 - 65) = c ∧ 65 + c / 16 ≠ 124 ∧ 65 + c % 16 ≠ 124 := by decide +kernel
  have h := this ⟨c.toNat, c.toNat_lt⟩
  simpa using h

theorem toy_ok : Base64Ok toy where
  back s h := by
    clear h
    show toyDec (toyEnc s) = some s
    induction s with
    | nil => rfl
    | cons c r ih => simp [toyEnc, toyDec, ih, (toy_nibbles c).1]
  sep s := by
    show 124 ∉ toyEnc s
    induction s with
    | nil => simp [toyEnc]
    | cons c r ih =>
      simp only [toyEnc, List.mem_cons, not_or]
      exact ⟨(toy_nibbles c).2.1.symm, (toy_nibbles c).2.2.symm, ih⟩
  size s h := by
    have : ∀ s : Bytes, (toyEnc s).length = 2 * s.length := by
      intro s; induction s with
      | nil => rfl
      | cons c r ih => simp [toyEnc, ih]; omega
    show toyEnc s ≠ [] ∧ (toyEnc s).length ≤ 1024
    refine ⟨fun e => ?_, by rw [this]; omega⟩
    have h2 := this s
    rw [e] at h2; simp at h2; omega

/-- The status of key `name` for `host` after loading the given lines. -/
def toyCheck (lines : List Bytes) (host name : Bytes) : Option HostStatus :=
  (load toy host (lines.map (· ++ [10, 0]))).map fun es => (checkKey es { pub := name, type := 1 }).1

example : toyCheck [b!"a,b t K", b!"@revoked * t K"] b!"a" b!"K" = some .revoked := by decide +kernel
example : toyCheck [b!"# comment", b!"", b!" a,b\tt K comment", b!"@revoked c t K comment"] b!"B" b!"K comment" = some .ok := by
  decide +kernel
example : toyCheck [b!"*,!a t K"] b!"a" b!"K" = some .new ∧ toyCheck [b!"* t L"] b!"a" b!"K" = some .changed := by
  decide +kernel
example : Terminated ([b!"a t K", b!"@revoked * t K"].map (· ++ [10, 0])) [b!"a t K", b!"@revoked * t K"] :=
  ⟨⟨by decide, by decide, [], by decide⟩, ⟨by decide, by decide, [], by decide⟩, trivial⟩

/-- A revocation whose marker is followed by a tab is silently ignored when the line has a space further on
(the code takes everything up to the first space for the marker). -/
theorem C38_tab_ignored : toyCheck [b!"a t K", b!"@revoked\t* t K"] b!"a" b!"K" = some .ok := by decide +kernel

/-- ... and so is any line with a malformed key or hash: nothing is reported, the line does not count. -/
theorem C38_malformed_ignored : toyCheck [b!"a t K", b!"@revoked * x K"] b!"a" b!"K" = some .ok := by decide +kernel

/-- A last line without a newline that consists of host names only makes the code step over the end of the
text: what an earlier, longer line left in the buffer is taken for the key.  Here the file is
`abcd t K\nhost` (no newline at the end): `host` gets the key of `abcd`. -/
theorem C38_stale_buffer :
    load toy b!"host" [b!"abcd t K" ++ [10, 0], b!"host" ++ [0] ++ b!"t K" ++ [0, 0]] =
      some [⟨{ pub := b!"K", type := 1 }, .none⟩] := by decide +kernel

end Verif.Hostfile
