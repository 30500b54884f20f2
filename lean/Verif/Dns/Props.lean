/-
C117: what fingerprints in the DNS say of a host key.  C118: what is written into a zone.
-/
import Verif.Dns.Spec
import Verif.HostKey.Props
import Verif.Scp.Trip

namespace Verif.Dns
open Verif Verif.Wire
open _root_.Verif.Scp (dec decF)

theorem algorithm_iff (k : Kind) (a : UInt8) : (k, a) ∈ numbers ↔ algorithm k = a ∧ a ≠ 0 := by
  cases k <;> simp [numbers, algorithm] <;> first | (constructor <;> intro h <;> simp_all) | (intro h; exact h.symm)

theorem digests_iff (t : UInt8) : t ∈ digests ↔ t = 1 ∨ t = 2 := by simp [digests]

/-- The loop, for a key with a number whose fingerprints can be computed. -/
theorem records_spec {k : Key} (hk : algorithm k.kind ≠ 0) (hc : Computable k) : ∀ (l : List Bytes) (f : Flags),
    (¬ Understood l → records k f l = .error) ∧
    (Understood l → ∃ g, records k f l = .ok g ∧ g.found = f.found ∧ g.secure = f.secure ∧
      (g.matched = true ↔ f.matched = true ∨ ∃ r ∈ l, Confirms k r) ∧
      (g.failed = true ↔ f.failed = true ∨ ∃ r ∈ l, Contradicts k r)) := by
  intro l
  induction l with
  | nil => intro f; exact ⟨fun h => absurd (fun a t d h => by cases h) h, fun _ => ⟨f, rfl, rfl, rfl, by simp, by simp⟩⟩
  | cons r l ih =>
    intro f
    have short_ : readRdata r = none → (∀ a t d, r ≠ [a, t] ++ d) := by
      intro h a t d e
      subst e
      cases h
    cases hr : readRdata r with
    | none =>
      have hs := short_ hr
      have hu : Understood (r :: l) ↔ Understood l := by
        constructor
        · exact fun h a t d hm => h a t d (List.mem_cons_of_mem _ hm)
        · intro h a t d hm
          rcases List.mem_cons.1 hm with e | hm
          · exact absurd e.symm (hs a t d)
          · exact h a t d hm
      have h1 : ¬ Confirms k r := by rintro ⟨a, t, d, _, _, _, e⟩; exact hs _ _ _ e
      have h2 : ¬ Contradicts k r := by rintro ⟨a, t, d, d', _, _, _, e, _⟩; exact hs _ _ _ e
      rw [records, hr, hu]
      simpa [h1, h2] using ih f
    | some x =>
      obtain ⟨a, t, d⟩ := x
      have er : r = [a, t] ++ d := by
        match r, hr with
        | _ :: _ :: _, hr => cases hr; rfl
      subst er
      by_cases ht : t ∈ digests
      · obtain ⟨v, hv⟩ := hc t ht
        have hkey : readKey k t = .ok (algorithm k.kind) v := by
          rw [readKey, if_pos ⟨hk, (digests_iff t).1 ht⟩, hv]
        have hu : Understood (([a, t] ++ d) :: l) ↔ Understood l := by
          constructor
          · exact fun h a t d hm => h a t d (List.mem_cons_of_mem _ hm)
          · intro h a' t' d' hm
            rcases List.mem_cons.1 hm with e | hm
            · simp only [List.cons_append, List.nil_append, List.cons.injEq] at e
              rw [e.2.1]; exact ht
            · exact h a' t' d' hm
        have h1 : Confirms k ([a, t] ++ d) ↔ algorithm k.kind = a ∧ v = d := by
          constructor
          · rintro ⟨a', t', d', h, _, h3, e⟩
            simp only [List.cons_append, List.nil_append, List.cons.injEq] at e
            obtain ⟨rfl, rfl, rfl⟩ := e
            rw [hv] at h3
            exact ⟨((algorithm_iff _ _).1 h).1, by cases h3; rfl⟩
          · rintro ⟨rfl, rfl⟩
            exact ⟨_, t, v, (algorithm_iff _ _).2 ⟨rfl, hk⟩, ht, hv, rfl⟩
        have h2 : Contradicts k ([a, t] ++ d) ↔ algorithm k.kind = a ∧ v.length = d.length ∧ v ≠ d := by
          constructor
          · rintro ⟨a', t', e1, e2, h, _, h3, e, hl, hne⟩
            simp only [List.cons_append, List.nil_append, List.cons.injEq] at e
            obtain ⟨rfl, rfl, rfl⟩ := e
            rw [hv] at h3
            cases h3
            exact ⟨((algorithm_iff _ _).1 h).1, hl.symm, fun h => hne h.symm⟩
          · rintro ⟨rfl, hl, hne⟩
            exact ⟨_, t, v, d, (algorithm_iff _ _).2 ⟨rfl, hk⟩, ht, hv, rfl, hl.symm, fun h => hne h.symm⟩
        have step : records k f (([a, t] ++ d) :: l) = records k (compare (algorithm k.kind) v a d f) l := by
          rw [records, hr]
          simp only [hkey]
        rw [step, hu]
        obtain ⟨i1, i2⟩ := ih (compare (algorithm k.kind) v a d f)
        refine ⟨i1, fun h => ?_⟩
        obtain ⟨g, hg, g1, g2, g3, g4⟩ := i2 h
        refine ⟨g, hg, ?_, ?_, ?_, ?_⟩
        · rw [g1]; unfold compare; repeat' split
          all_goals rfl
        · rw [g2]; unfold compare; repeat' split
          all_goals rfl
        · rw [g3]
          simp only [List.mem_cons, exists_eq_or_imp, h1]
          unfold compare
          by_cases c1 : algorithm k.kind = a <;> by_cases c2 : v = d <;> by_cases c3 : v.length = d.length <;>
            simp_all
        · rw [g4]
          simp only [List.mem_cons, exists_eq_or_imp, h2]
          unfold compare
          by_cases c1 : algorithm k.kind = a <;> by_cases c2 : v = d <;> by_cases c3 : v.length = d.length <;>
            simp_all
      · have hkey : readKey k t = .no := by
          rw [readKey, if_neg]
          rintro ⟨_, h⟩
          exact ht ((digests_iff t).2 h)
        refine ⟨fun _ => ?_, fun h => absurd (h a t d (List.mem_cons_self)) ht⟩
        rw [records, hr]
        simp only [hkey]

/-- The loop, for a key without a number. -/
theorem records_other {k : Key} (hk : algorithm k.kind = 0) : ∀ (l : List Bytes) (f : Flags),
    (Relevant l → records k f l = .error) ∧ (¬ Relevant l → records k f l = .ok f) := by
  intro l
  induction l with
  | nil => intro f; exact ⟨fun ⟨_, _, _, h⟩ => (by cases h), fun _ => rfl⟩
  | cons r l ih =>
    intro f
    match r with
    | a :: t :: d =>
      refine ⟨fun _ => ?_, fun h => absurd ⟨a, t, d, List.mem_cons_self⟩ h⟩
      rw [records]
      simp only [readRdata, readKey, hk]
      simp
    | [] =>
      rw [records]
      simp only [readRdata]
      simpa [Relevant] using ih f
    | [c] =>
      rw [records]
      simp only [readRdata]
      simpa [Relevant] using ih f

theorem conclude_flags (f : Flags) : (conclude f).found = f.found ∧ (conclude f).secure = f.secure ∧
    (conclude f).failed = f.failed ∧ ((conclude f).matched = true ↔ f.matched = true ∧ f.failed = false) := by
  unfold conclude
  cases h : f.failed <;> simp [h]

/-- C117: what the check returns.  It fails for numerical addresses, if there is no answer, and if the answer has a record
that cannot be understood, however many others there are; otherwise the flags say what is in the answer. -/
theorem C117_flags {k : Key} {n : UInt8} (hk : (k.kind, n) ∈ numbers) (hc : Computable k) (numeric : Bool)
    (answer : Option (Bool × List Bytes)) (f : Flags) :
    verifyDns numeric answer k = .ok f ↔
      numeric = false ∧ ∃ l, answer = some (f.secure, l) ∧ Understood l ∧
        (f.found = true ↔ l ≠ []) ∧ (f.failed = true ↔ ∃ r ∈ l, Contradicts k r) ∧
        (f.matched = true ↔ (∃ r ∈ l, Confirms k r) ∧ ¬ ∃ r ∈ l, Contradicts k r) := by
  obtain ⟨hk1, hk2⟩ := (algorithm_iff _ _).1 hk
  have hk' : algorithm k.kind ≠ 0 := by rw [hk1]; exact hk2
  cases numeric with
  | true => simp [verifyDns]
  | false =>
    cases answer with
    | none => simp [verifyDns]
    | some x =>
      obtain ⟨valid, l⟩ := x
      simp only [verifyDns]
      obtain ⟨h1, h2⟩ := records_spec hk' hc l ⟨decide (l ≠ []), false, valid, false⟩
      by_cases hu : Understood l
      · obtain ⟨g, hg, g1, g2, g3, g4⟩ := h2 hu
        rw [hg]
        obtain ⟨c1, c2, c3, c4⟩ := conclude_flags g
        simp only [Bool.false_eq_true, if_false, Res.ok.injEq, Option.some.injEq, Prod.mk.injEq, true_and]
        have hf : g.failed = false ↔ ¬ ∃ r ∈ l, Contradicts k r := by
          rw [← Bool.not_eq_true, g4]; simp
        constructor
        · rintro rfl
          refine ⟨l, ⟨by rw [c2, g2], rfl⟩, hu, ?_, ?_, ?_⟩
          · rw [c1, g1]; simp
          · rw [c3, g4]; simp
          · rw [c4, g3, hf]; simp
        · rintro ⟨l', ⟨e1, rfl⟩, _, f1, f2, f3⟩
          have x1 : (conclude g).found = f.found := by
            rw [Bool.eq_iff_iff, f1, c1, g1]; simp
          have x2 : (conclude g).failed = f.failed := by
            rw [Bool.eq_iff_iff, f2, c3, g4]; simp
          have x3 : (conclude g).matched = f.matched := by
            rw [Bool.eq_iff_iff, f3, c4, g3, hf]; simp
          have x4 : (conclude g).secure = f.secure := by rw [c2, g2]; exact e1
          cases f
          cases hh : conclude g
          simp_all
      · rw [h1 hu]
        simp only [Bool.false_eq_true, if_false, reduceCtorEq, false_iff]
        rintro ⟨_, l', e, hu', _⟩
        cases e
        exact hu hu'

/-- C117: nothing is ever said of a key whose kind has no number, unless no record has two bytes. -/
theorem C117_other {k : Key} (hk : ∀ n, (k.kind, n) ∉ numbers) (numeric : Bool) (answer : Option (Bool × List Bytes))
    (f : Flags) (h : verifyDns numeric answer k = .ok f) : f.matched = false ∧ f.failed = false := by
  have hk' : algorithm k.kind = 0 := by
    apply Classical.byContradiction
    intro h
    exact hk _ ((algorithm_iff _ _).2 ⟨rfl, h⟩)
  unfold verifyDns at h
  cases numeric with
  | true => cases h
  | false =>
    cases answer with
    | none => cases h
    | some x =>
      obtain ⟨valid, l⟩ := x
      simp only [Bool.false_eq_true, if_false] at h
      obtain ⟨h1, h2⟩ := records_other hk' l ⟨decide (l ≠ []), false, valid, false⟩
      by_cases hr : Relevant l
      · rw [h1 hr] at h; cases h
      · rw [h2 hr] at h
        cases h
        exact ⟨rfl, rfl⟩

/-- C117: the DNS alone lets a key pass exactly with `VerifyHostKeyDNS yes`, a name, a validated answer that can be
understood, a record that confirms the key, and none that contradicts it. -/
theorem C117_accepted {k : Key} {n : UInt8} (hk : (k.kind, n) ∈ numbers) (hc : Computable k) (o : Opt) (numeric : Bool)
    (answer : Option (Bool × List Bytes)) : dnsSays o (verifyDns numeric answer k) = .accept ↔
      o = .yes ∧ numeric = false ∧ ∃ l, answer = some (true, l) ∧ Understood l ∧ (∃ r ∈ l, Confirms k r) ∧
        ¬ ∃ r ∈ l, Contradicts k r := by
  constructor
  · intro h
    cases hv : verifyDns numeric answer k with
    | fatal => rw [hv] at h; unfold dnsSays at h; split at h <;> cases h
    | error => rw [hv] at h; unfold dnsSays at h; split at h <;> cases h
    | ok f =>
      rw [hv] at h
      obtain ⟨h1, l, h2, h3, h4, h5, h6⟩ := (C117_flags hk hc numeric answer f).1 hv
      have hh : o = .yes ∧ f.matched = true ∧ f.secure = true := by
        cases o <;> cases h7 : f.found <;> cases h8 : f.matched <;> cases h9 : f.secure <;> simp_all [dnsSays]
      obtain ⟨ho, hm, hs⟩ := hh
      rw [hs] at h2
      obtain ⟨h6a, h6b⟩ := h6.1 hm
      exact ⟨ho, h1, l, h2, h3, h6a, h6b⟩
  · rintro ⟨rfl, h1, l, h2, h3, h4, h5⟩
    have hl : l ≠ [] := by obtain ⟨r, hr, _⟩ := h4; intro e; rw [e] at hr; cases hr
    have := (C117_flags hk hc numeric answer ⟨true, true, true, false⟩).2
      ⟨h1, l, h2, h3, by simp [hl], by simpa using h5, by simp only [true_iff]; exact ⟨h4, h5⟩⟩
    rw [this]
    rfl

/-- C117: the user is warned exactly if the answer has records that can all be understood and either none confirms the key
or one contradicts it.  So a record that cannot be understood silences the warning: see `C117_silenced`. -/
theorem C117_warned {k : Key} {n : UInt8} (hk : (k.kind, n) ∈ numbers) (hc : Computable k) (o : Opt) (numeric : Bool)
    (answer : Option (Bool × List Bytes)) : dnsSays o (verifyDns numeric answer k) = .warned ↔
      o ≠ .no ∧ numeric = false ∧ ∃ valid l, answer = some (valid, l) ∧ l ≠ [] ∧ Understood l ∧
        ¬ ((∃ r ∈ l, Confirms k r) ∧ ¬ ∃ r ∈ l, Contradicts k r) := by
  constructor
  · intro h
    cases hv : verifyDns numeric answer k with
    | fatal => rw [hv] at h; unfold dnsSays at h; split at h <;> cases h
    | error => rw [hv] at h; unfold dnsSays at h; split at h <;> cases h
    | ok f =>
      rw [hv] at h
      obtain ⟨h1, l, h2, h3, h4, h5, h6⟩ := (C117_flags hk hc numeric answer f).1 hv
      have hh : o ≠ .no ∧ f.found = true ∧ f.matched = false := by
        cases o <;> cases h7 : f.found <;> cases h8 : f.matched <;> cases h9 : f.secure <;> simp_all [dnsSays]
      obtain ⟨ho, hf, hm⟩ := hh
      refine ⟨ho, h1, _, l, h2, h4.1 hf, h3, fun hx => ?_⟩
      rw [h6.2 hx] at hm
      cases hm
  · rintro ⟨ho, h1, valid, l, h2, hl, h3, h4⟩
    obtain ⟨b, hb⟩ : ∃ b : Bool, b = true ↔ ∃ r ∈ l, Contradicts k r := by
      by_cases h : ∃ r ∈ l, Contradicts k r
      · exact ⟨true, by simpa using h⟩
      · exact ⟨false, by simpa using h⟩
    have := (C117_flags hk hc numeric answer ⟨true, false, valid, b⟩).2
      ⟨h1, l, h2, h3, by simp [hl], hb, by simpa using h4⟩
    rw [this]
    cases o
    · exact absurd rfl ho
    · rfl
    · rfl

/-- C117: with `VerifyHostKeyDNS ask` a match, validated or not, is only noted for the question to the user; with `yes` one
that is not validated. -/
theorem C117_noted {k : Key} {n : UInt8} (hk : (k.kind, n) ∈ numbers) (hc : Computable k) (o : Opt) (numeric : Bool)
    (answer : Option (Bool × List Bytes)) : dnsSays o (verifyDns numeric answer k) = .noted ↔
      numeric = false ∧ ∃ valid l, answer = some (valid, l) ∧ (o = .ask ∨ o = .yes ∧ valid = false) ∧ Understood l ∧
        (∃ r ∈ l, Confirms k r) ∧ ¬ ∃ r ∈ l, Contradicts k r := by
  constructor
  · intro h
    cases hv : verifyDns numeric answer k with
    | fatal => rw [hv] at h; unfold dnsSays at h; split at h <;> cases h
    | error => rw [hv] at h; unfold dnsSays at h; split at h <;> cases h
    | ok f =>
      rw [hv] at h
      obtain ⟨h1, l, h2, h3, h4, h5, h6⟩ := (C117_flags hk hc numeric answer f).1 hv
      have hh : (o = .ask ∨ o = .yes ∧ f.secure = false) ∧ f.matched = true := by
        cases o <;> cases h7 : f.found <;> cases h8 : f.matched <;> cases h9 : f.secure <;> simp_all [dnsSays]
      obtain ⟨h6a, h6b⟩ := h6.1 hh.2
      exact ⟨h1, _, l, h2, hh.1, h3, h6a, h6b⟩
  · rintro ⟨h1, valid, l, h2, ho, h3, h4, h5⟩
    have hl : l ≠ [] := by obtain ⟨r, hr, _⟩ := h4; intro e; rw [e] at hr; cases hr
    have := (C117_flags hk hc numeric answer ⟨true, true, valid, false⟩).2
      ⟨h1, l, h2, h3, by simp [hl], by simpa using h5, by simp only [true_iff]; exact ⟨h4, h5⟩⟩
    rw [this]
    rcases ho with rfl | ⟨rfl, rfl⟩ <;> rfl

/-- C117, in the whole check of the host key (C81): a server's key is accepted only if it was accepted before in this
connection, or is not revoked and either the known-hosts check accepts it, or a validated answer confirms the plain key
and nothing in it contradicts.  `f` says of every key its kind and its fingerprints. -/
theorem C117_connected (C : HostKey.Cfg) (W : HostKey.World) (H : HostKey.Srv) (clean : Option (Hostfile.Key → Bool))
    (f : Hostfile.Key → Key) (o : Opt) (numeric : Bool) (answer : Option (Bool × List Bytes))
    (hf : ∀ k, (∃ n, ((f k).kind, n) ∈ numbers) → Computable (f k))
    (prev p' : Option Hostfile.Key) (k : Hostfile.Key) (s s' : HostKey.St)
    (h : HostKey.verify C W H ⟨clean, fun k => decide (dnsSays o (verifyDns numeric answer (f k)) = .accept)⟩ prev k s =
      (.accept, p', s')) :
    (∃ p, prev = some p ∧ p.type = k.type ∧ p.pub = k.pub) ∨
    (∀ g, clean = some g → g k = true) ∧
      (HostKey.check C W H k s = (.accept, s') ∨
        o = .yes ∧ numeric = false ∧ ∃ p l, HostKey.Form k p ∧ p.cert = none ∧ answer = some (true, l) ∧
          (∃ r ∈ l, Confirms (f p) r) ∧ ¬ ∃ r ∈ l, Contradicts (f p) r) := by
  obtain ⟨_, ⟨p, h1, h2, h3, _⟩ | ⟨h1, ⟨p, h2, h3, h4⟩ | h2⟩⟩ := HostKey.C81_verify _ _ _ _ _ _ _ _ _ h
  · exact .inl ⟨p, h1, h2, h3⟩
  · refine .inr ⟨h1, .inr ?_⟩
    have hd : dnsSays o (verifyDns numeric answer (f p)) = .accept := by simpa using h2
    by_cases hk : ∃ n, ((f p).kind, n) ∈ numbers
    · obtain ⟨n, hn⟩ := hk
      obtain ⟨h5, h6, l, h7, _, h8, h9⟩ := (C117_accepted hn (hf p ⟨n, hn⟩) _ _ _).1 hd
      exact ⟨h5, h6, p, l, h3, h4, h7, h8, h9⟩
    · exfalso
      cases hv : verifyDns numeric answer (f p) with
      | fatal => rw [hv] at hd; unfold dnsSays at hd; split at hd <;> cases hd
      | error => rw [hv] at hd; unfold dnsSays at hd; split at hd <;> cases hd
      | ok g =>
        have := (C117_other (fun n hn => hk ⟨n, hn⟩) numeric answer g hv).1
        rw [hv] at hd
        cases o <;> cases h7 : g.found <;> cases h9 : g.secure <;> simp_all [dnsSays]
  · exact .inr ⟨h1, .inl h2⟩

/-! ## Zones -/

theorem hexDigit_value : ∀ n < 16, hexValue (hexDigit n) = some n := by decide +kernel

theorem hex_ok (d : Bytes) : Hex (hex d) d := by
  induction d with
  | nil => exact .nil
  | cons c d ih =>
    have := c.toNat_lt
    exact .cons (hexDigit_value _ (by omega)) (hexDigit_value _ (by omega)) (by omega) ih

theorem hex_unique {s a b : Bytes} (ha : Hex s a) (hb : Hex s b) : a = b := by
  induction ha generalizing b with
  | nil => cases hb; rfl
  | cons h1 h2 h3 _ ih =>
    cases hb with
    | cons g1 g2 g3 g4 =>
      rw [h1] at g1
      rw [h2] at g2
      cases g1
      cases g2
      rw [ih g4, UInt8.toNat.inj (h3.trans g3.symm)]

theorem value_snoc (l : Bytes) (c : UInt8) : value (l ++ [c]) = value l * 10 + (c.toNat - 48) := by
  simp [value]

theorem digit (n : Nat) (h : n < 10) : (48 ≤ UInt8.ofNat (48 + n) ∧ UInt8.ofNat (48 + n) ≤ 57) ∧
    (UInt8.ofNat (48 + n)).toNat - 48 = n := by
  have : ∀ n < 10, (48 ≤ UInt8.ofNat (48 + n) ∧ UInt8.ofNat (48 + n) ≤ 57) ∧ (UInt8.ofNat (48 + n)).toNat - 48 = n := by
    decide
  exact this n h

theorem decF_ok : ∀ (f n : Nat), n < f → Decimal (decF f n) n := by
  intro f
  induction f with
  | zero => intro n h; omega
  | succ f ih =>
    intro n h
    rw [decF]
    split
    · rename_i hn
      obtain ⟨h1, h2⟩ := digit n hn
      refine ⟨by simp, ?_, ?_⟩
      · intro c hc
        rw [List.mem_singleton.1 hc]
        exact h1
      · simpa [value] using h2
    · rename_i hn
      obtain ⟨h1, h2⟩ := digit (n % 10) (by omega)
      obtain ⟨i1, i2, i3⟩ := ih (n / 10) (by omega)
      refine ⟨by simp, ?_, ?_⟩
      · intro c hc
        rcases List.mem_append.1 hc with hc | hc
        · exact i2 c hc
        · rw [List.mem_singleton.1 hc]
          exact h1
      · rw [value_snoc, i3, h2]
        omega

theorem dec_ok (n : Nat) : Decimal (dec n) n := decF_ok _ _ (by omega)

/-- The record for the digest `t` of a key. -/
def recordFor (k : Key) (a t : UInt8) (r : Bytes) : Prop := ∃ d, k.fp t.toNat = some d ∧ r = [a, t] ++ d

/-- Lines and records, one for one. -/
inductive Lines (host : Bytes) (generic : Bool) : List Bytes → List Bytes → Prop where
  | nil : Lines host generic [] []
  | cons {s r : Bytes} {ss rs : List Bytes} :
      (generic = true → GenericLine host s r) → (generic = false → ZoneLine host s r) → Lines host generic ss rs →
      Lines host generic (s :: ss) (r :: rs)

theorem zoneLine_ok (host : Bytes) (generic : Bool) (a t : UInt8) (d : Bytes) :
    (generic = true → GenericLine host (zoneLine host generic a t d) ([a, t] ++ d)) ∧
    (generic = false → ZoneLine host (zoneLine host generic a t d) ([a, t] ++ d)) := by
  constructor
  · rintro rfl
    refine ⟨a, t, d, dec (2 + d.length), hex [a], hex [t], hex d, rfl, ?_, ?_, hex_ok _, hex_ok _, hex_ok _⟩
    · rw [zoneLine, if_pos rfl, show dec 44 = b!"44" from by decide]
      have : (b!" IN TYPE44 \\# " : Bytes) = b!" IN TYPE" ++ b!"44" ++ b!" \\# " := by decide
      rw [this]
      simp only [List.append_assoc]
    · have := dec_ok (2 + d.length)
      rwa [show ([a, t] ++ d).length = 2 + d.length from by simp; omega]
  · rintro rfl
    exact ⟨a, t, d, dec a.toNat, dec t.toNat, hex d, rfl, by rw [zoneLine, if_neg (by decide)], dec_ok _, dec_ok _, hex_ok _⟩

/-- C118: what is printed for a key: a line for each digest asked for, each the record that is confirmed by this key. -/
theorem C118_printed {k : Key} {n : UInt8} (hk : (k.kind, n) ∈ numbers) (hc : Computable k) (host : Bytes) (generic : Bool)
    (only : Option Nat) : ∃ ls rs, exportRR host k generic only = some ls ∧ Lines host generic ls rs ∧
      ∀ r, r ∈ rs ↔ ∃ t ∈ digests, (∀ o, only = some o → t.toNat = o) ∧ recordFor k n t r := by
  obtain ⟨hk1, hk2⟩ := (algorithm_iff _ _).1 hk
  have gen : ∀ ts : List UInt8, (∀ t ∈ ts, t ∈ digests) → ∃ ls rs, zoneLines host k generic only ts = some ls ∧
      Lines host generic ls rs ∧ ∀ r, r ∈ rs ↔ ∃ t ∈ ts, (∀ o, only = some o → t.toNat = o) ∧ recordFor k n t r := by
    intro ts
    induction ts with
    | nil => intro _; exact ⟨[], [], rfl, .nil, by simp⟩
    | cons t ts ih =>
      intro hts
      obtain ⟨ls, rs, i1, i2, i3⟩ := ih fun x hx => hts x (List.mem_cons_of_mem _ hx)
      have ht := hts t List.mem_cons_self
      obtain ⟨d, hd⟩ := hc t ht
      rw [zoneLines]
      by_cases ho : ∀ o, only = some o → t.toNat = o
      · have hn : ¬ (only.any fun a => decide (t.toNat ≠ a)) = true := by
          cases only with
          | none => simp
          | some o => simpa using ho o rfl
        have hkey : readKey k t = .ok n d := by
          rw [readKey, if_pos ⟨by rw [hk1]; exact hk2, (digests_iff t).1 ht⟩, hd, hk1]
        rw [if_neg hn, hkey]
        refine ⟨zoneLine host generic n t d :: ls, ([n, t] ++ d) :: rs, by simp [i1], ?_, ?_⟩
        · exact .cons (zoneLine_ok host generic n t d).1 (zoneLine_ok host generic n t d).2 i2
        · intro r
          rw [List.mem_cons, i3]
          constructor
          · rintro (rfl | ⟨t', h1, h2, h3⟩)
            · exact ⟨t, List.mem_cons_self, ho, d, hd, rfl⟩
            · exact ⟨t', List.mem_cons_of_mem _ h1, h2, h3⟩
          · rintro ⟨t', h1, h2, h3⟩
            rcases List.mem_cons.1 h1 with rfl | h1
            · obtain ⟨d', hd', rfl⟩ := h3
              rw [hd] at hd'
              cases hd'
              exact .inl rfl
            · exact .inr ⟨t', h1, h2, h3⟩
      · have hn : (only.any fun a => decide (t.toNat ≠ a)) = true := by
          cases only with
          | none => exact absurd (fun o h => by cases h) ho
          | some o =>
            simp only [Option.any_some, decide_eq_true_eq]
            intro e
            exact ho fun o' h => by cases h; exact e
        rw [if_pos hn]
        refine ⟨ls, rs, i1, i2, fun r => ?_⟩
        rw [i3]
        constructor
        · rintro ⟨t', h1, h2⟩; exact ⟨t', List.mem_cons_of_mem _ h1, h2⟩
        · rintro ⟨t', h1, h2, h3⟩
          rcases List.mem_cons.1 h1 with rfl | h1
          · exact absurd h2 ho
          · exact ⟨t', h1, h2, h3⟩
  exact gen [1, 2] (by simp [digests])

/-- C118: if a fingerprint that is asked for cannot be computed, the program ends: there are no incomplete zones. -/
theorem C118_complete {k : Key} {n : UInt8} (hk : (k.kind, n) ∈ numbers) (host : Bytes) (generic : Bool) {only : Option Nat} {t : UInt8}
    (ht : t ∈ digests) (ho : ∀ o, only = some o → t.toNat = o) (hf : k.fp t.toNat = none) : exportRR host k generic only = none := by
  obtain ⟨hk1, hk2⟩ := (algorithm_iff _ _).1 hk
  have hkey : readKey k t = .fatal := by
    rw [readKey, if_pos ⟨by rw [hk1]; exact hk2, (digests_iff t).1 ht⟩, hf]
  have hn : ¬ (only.any fun a => decide (t.toNat ≠ a)) = true := by
    cases only with
    | none => simp
    | some o => simpa using ho o rfl
  have gen : ∀ ts : List UInt8, t ∈ ts → zoneLines host k generic only ts = none := by
    intro ts
    induction ts with
    | nil => simp
    | cons x ts ih =>
      intro hm
      rw [zoneLines]
      by_cases hx : x = t
      · rw [hx, if_neg hn, hkey]
      · have := ih ((List.mem_cons.1 hm).resolve_left fun h => hx h.symm)
        split
        · exact this
        · split
          · rfl
          · exact this
          · rw [this]; rfl
  exact gen [1, 2] (by simpa [digests] using ht)

/-- C118: nothing is printed for a key whose kind has no number. -/
theorem C118_other {k : Key} (hk : ∀ n, (k.kind, n) ∉ numbers) (host : Bytes) (generic : Bool) (only : Option Nat) :
    exportRR host k generic only = some [] := by
  have hk' : algorithm k.kind = 0 := by
    apply Classical.byContradiction
    intro h
    exact hk _ ((algorithm_iff _ _).2 ⟨rfl, h⟩)
  have key : ∀ t, readKey k t = .no := by
    intro t
    rw [readKey, if_neg]
    rintro ⟨h, _⟩
    exact h hk'
  simp [exportRR, zoneLines, key]

/-- C118: records printed for a key, all or those for one digest, in a validated answer let the key pass. -/
theorem C118_accepted {k : Key} {n : UInt8} (hk : (k.kind, n) ∈ numbers) (hc : Computable k) {l : List Bytes} (hl : l ≠ [])
    (h : ∀ r ∈ l, ∃ t ∈ digests, recordFor k n t r) : dnsSays .yes (verifyDns false (some (true, l)) k) = .accept := by
  refine (C117_accepted hk hc _ _ _).2 ⟨rfl, rfl, l, rfl, ?_, ?_, ?_⟩
  · intro a t d hm
    obtain ⟨t', ht', d', _, e⟩ := h _ hm
    simp only [List.cons_append, List.nil_append, List.cons.injEq] at e
    rw [e.2.1]; exact ht'
  · obtain ⟨r, hr⟩ := List.exists_mem_of_ne_nil l hl
    obtain ⟨t, ht, d, hd, e⟩ := h r hr
    exact ⟨r, hr, n, t, d, hk, ht, hd, e⟩
  · rintro ⟨r, hr, a, t, d, d', ha, ht, hd, e, _, hne⟩
    obtain ⟨t', ht', d2, hd2, e2⟩ := h r hr
    rw [e] at e2
    simp only [List.cons_append, List.nil_append, List.cons.injEq] at e2
    obtain ⟨_, rfl, rfl⟩ := e2
    rw [hd] at hd2
    cases hd2
    exact hne rfl

/-- C118: another key passes with them only if it is of the same algorithm and its fingerprints for all digests in the
answer are the same. -/
theorem C118_others {k k' : Key} {n n' : UInt8} (hk' : (k'.kind, n') ∈ numbers) (hc' : Computable k')
    (hlen : ∀ t ∈ digests, ∀ d d', k.fp t.toNat = some d → k'.fp t.toNat = some d' → d.length = d'.length)
    {o : Opt} {numeric valid : Bool} {l : List Bytes} (h : ∀ r ∈ l, ∃ t ∈ digests, recordFor k n t r)
    (ha : dnsSays o (verifyDns numeric (some (valid, l)) k') = .accept) :
    n' = n ∧ ∀ t d, [n, t] ++ d ∈ l → k'.fp t.toNat = k.fp t.toNat := by
  obtain ⟨_, _, l', e, hu, ⟨r, hr, a, t, d, h1, h2, h3, h4⟩, hno⟩ := (C117_accepted hk' hc' _ _ _).1 ha
  cases e
  have ean : a = n' := ((algorithm_iff _ _).1 h1).1.symm.trans ((algorithm_iff _ _).1 hk').1
  obtain ⟨t', ht', d', hd', e'⟩ := h r hr
  rw [h4] at e'
  simp only [List.cons_append, List.nil_append, List.cons.injEq] at e'
  have en : n' = n := ean.symm.trans e'.1
  refine ⟨en, fun t d hm => ?_⟩
  obtain ⟨t2, ht2, d2, hd2, e2⟩ := h _ hm
  simp only [List.cons_append, List.nil_append, List.cons.injEq] at e2
  obtain ⟨_, rfl, rfl⟩ := e2
  obtain ⟨d3, hd3⟩ := hc' t ht2
  rw [hd3, hd2]
  apply Classical.byContradiction
  intro hne
  exact hno ⟨_, hm, n, t, d3, d, by rw [← en]; exact hk', ht2, hd3, rfl, hlen t ht2 d d3 hd2 hd3, fun e => hne (by rw [e])⟩

end Verif.Dns
