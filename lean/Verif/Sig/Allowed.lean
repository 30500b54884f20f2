/-
C67: who may sign, according to an allowed signers file.
-/
import Verif.Sig.Options
import Verif.Sig.Props

namespace Verif.Sig
open Verif Spec
open _root_.Verif.Misc.Delim (isWs brk strdelim delimQuoted delimRest)

/-! ### Taking the names off a line -/

theorem isWs_iff {c : UInt8} : isWs c = true ↔ Ws c := by
  simp [isWs, Ws, or_assoc]

theorem tw_cons {p : UInt8 → Bool} {a : Bytes} {c : UInt8} {r : Bytes} (h : ∀ x ∈ a, p x = true) (hc : p c = false) :
    (a ++ c :: r).takeWhile p = a := by
  induction a with
  | nil => simp [hc]
  | cons x a ih => simp [h x (by simp), ih (fun y hy => h y (by simp [hy]))]

theorem dw_cons {p : UInt8 → Bool} {a : Bytes} {c : UInt8} {r : Bytes} (h : ∀ x ∈ a, p x = true) (hc : p c = false) :
    (a ++ c :: r).dropWhile p = c :: r := by
  induction a with
  | nil => simp [hc]
  | cons x a ih => simp [h x (by simp), ih (fun y hy => h y (by simp [hy]))]

theorem dw_any {p : UInt8 → Bool} {a r : Bytes} (h : ∀ x ∈ a, p x = true) (hr : ∀ x t, r = x :: t → p x = false) :
    (a ++ r).dropWhile p = r := by
  cases r with
  | nil =>
    rw [List.append_nil]
    induction a with
    | nil => rfl
    | cons x a ih => rw [List.dropWhile_cons, if_pos (h x (by simp))]; exact ih fun y hy => h y (by simp [hy])
  | cons c r => exact dw_cons h (hr c r rfl)

theorem dw_split (p : UInt8 → Bool) (s : Bytes) : ∃ a, s = a ++ s.dropWhile p ∧ (∀ x ∈ a, p x = true) ∧
    ∀ x t, s.dropWhile p = x :: t → p x = false := by
  induction s with
  | nil => exact ⟨[], rfl, by simp, by simp⟩
  | cons c s ih =>
    obtain ⟨a, h1, h2, h3⟩ := ih
    rw [List.dropWhile_cons]
    split
    · rename_i hc
      exact ⟨c :: a, by rw [List.cons_append, ← h1], by simpa [hc] using h2, h3⟩
    · rename_i hc
      exact ⟨[], rfl, by simp, fun x t e => by simp only [List.cons.injEq] at e; rw [← e.1]; simpa using hc⟩

theorem tw_split (p : UInt8 → Bool) (s : Bytes) : s = s.takeWhile p ++ s.dropWhile p ∧ ∀ x ∈ s.takeWhile p, p x = true := by
  refine ⟨List.takeWhile_append_dropWhile.symm, ?_⟩
  induction s with
  | nil => simp
  | cons c s ih =>
    intro x hx
    rw [List.takeWhile_cons] at hx
    split at hx
    · rename_i hc
      rcases List.mem_cons.1 hx with rfl | hx
      · exact hc
      · exact ih x hx
    · simp at hx

theorem names_iff {line names rest : Bytes} : Names line names rest ↔
    ¬ ((line.dropWhile isWs).head? = some 35 ∨ line.dropWhile isWs = []) ∧
    strdelim false (line.dropWhile isWs) = some (names, some rest) := by
  have hP : (fun c : UInt8 => !(isWs c || c == 34 || (false && c == 61))) = fun c => !(isWs c || c == 34) := by
    funext c; simp
  have hN : ∀ x : UInt8, (!(isWs x || x == 34)) = true ↔ ¬ Ws x ∧ x ≠ 34 := by
    intro x
    rw [← isWs_iff]; simp
  have hw : ∀ x : UInt8, isWs x = false ↔ ¬ Ws x := by intro x; rw [← isWs_iff]; simp
  constructor
  · rintro (⟨lead, gap, c, e, hl, hne, hcom, hn, hc, hg, hr⟩ | ⟨lead, pre, q, gap, e, en, hl, hcom, hn, hq, hg, hr⟩)
    · have hb : line.dropWhile isWs = names ++ c :: (gap ++ rest) := by
        rw [e, List.append_assoc]
        refine dw_any (fun x hx => isWs_iff.2 (hl x hx)) ?_
        intro x t ex
        cases names with
        | nil => exact absurd rfl hne
        | cons y names =>
          simp only [List.cons_append, List.cons.injEq] at ex
          rw [← ex.1, hw]; exact (hn y (by simp)).1
      have h34 : c ≠ 34 := by rcases hc with h | h | h | h <;> rw [h] <;> decide
      have hcf : (!(isWs c || c == 34)) = false := by rw [isWs_iff.2 hc]; rfl
      have hns : ∀ x ∈ names, (!(isWs x || x == 34)) = true := fun x hx => (hN x).2 (hn x hx)
      rw [hb]
      refine ⟨?_, ?_⟩
      · rintro (h | h)
        · cases names with
          | nil => exact absurd rfl hne
          | cons y names => simp at h hcom; exact hcom h
        · simp at h
      · unfold strdelim brk
        simp only [hP, tw_cons hns hcf, dw_cons hns hcf, h34, if_false]
        unfold delimRest
        simp only [Bool.false_and, Bool.false_eq_true, if_false]
        rw [dw_any (fun x hx => isWs_iff.2 (hg x hx)) (fun x t e => (hw x).2 (hr x t e))]
    · have hb : line.dropWhile isWs = pre ++ 34 :: (q ++ 34 :: (gap ++ rest)) := by
        rw [e, List.append_assoc]
        refine dw_any (fun x hx => isWs_iff.2 (hl x hx)) ?_
        intro x t ex
        cases pre with
        | nil =>
          simp only [List.nil_append, List.cons.injEq] at ex
          rw [← ex.1]; decide
        | cons y pre =>
          simp only [List.cons_append, List.cons.injEq] at ex
          rw [← ex.1, hw]; exact (hn y (by simp)).1
      have hcf : (!(isWs 34 || (34 : UInt8) == 34)) = false := by decide
      have hns : ∀ x ∈ pre, (!(isWs x || x == 34)) = true := fun x hx => (hN x).2 (hn x hx)
      have hqs : ∀ x ∈ q, (!(x == (34 : UInt8))) = true := by
        intro x hx
        simp only [Bool.not_eq_true', beq_eq_false_iff_ne, ne_eq]
        rintro rfl; exact hq hx
      rw [hb]
      refine ⟨?_, ?_⟩
      · rintro (h | h)
        · cases pre with
          | nil => simp at h
          | cons y pre => simp at h hcom; exact hcom h
        · simp at h
      · unfold strdelim brk
        simp only [hP, tw_cons hns hcf, dw_cons hns hcf, if_true]
        unfold delimQuoted brk
        have h2 : (!((34 : UInt8) == 34)) = false := by decide
        simp only [tw_cons hqs h2, dw_cons hqs h2]
        rw [dw_any (fun x hx => isWs_iff.2 (hg x hx)) (fun x t e => (hw x).2 (hr x t e)), en]
  · rintro ⟨hh, hs⟩
    obtain ⟨lead, e1, hl, hnw⟩ := dw_split isWs line
    generalize line.dropWhile isWs = body at *
    unfold strdelim brk at hs
    simp only [hP] at hs
    obtain ⟨e2, ht⟩ := tw_split (fun c => !(isWs c || c == 34)) body
    split at hs
    · simp at hs
    rename_i c r hd
    rw [hd] at e2
    have hcP : (!(isWs c || c == 34)) = false := by
      obtain ⟨_, _, _, h3⟩ := dw_split (fun c => !(isWs c || c == 34)) body
      exact h3 c r hd
    generalize hpre : body.takeWhile (fun c => !(isWs c || c == 34)) = pre at *
    have hpn : ∀ x ∈ pre, ¬ Ws x ∧ x ≠ 34 := fun x hx => (hN x).1 (ht x hx)
    have hcom : pre.head? ≠ some 35 := by
      intro h
      refine hh (.inl ?_)
      cases pre with
      | nil => simp at h
      | cons y pre => rw [e2]; simpa using h
    split at hs
    · rename_i hc
      subst hc
      unfold delimQuoted brk at hs
      split at hs
      · simp at hs
      rename_i d rest' hd2
      simp only at hd2
      simp only [Option.some.injEq, Prod.mk.injEq] at hs
      obtain ⟨h1, h2⟩ := hs
      obtain ⟨e3, ht2⟩ := tw_split (fun c => !(c == (34 : UInt8))) r
      rw [hd2] at e3
      have hd34 : d = 34 := by
        obtain ⟨_, _, _, h3⟩ := dw_split (fun c => !(c == (34 : UInt8))) r
        have := h3 d rest' hd2
        simpa using this
      subst hd34
      obtain ⟨gap, e4, hg, hgn⟩ := dw_split isWs rest'
      rw [h2] at e4 hgn
      refine .quoted lead pre (r.takeWhile fun c => !(c == (34 : UInt8))) gap ?_ h1.symm (fun x hx => isWs_iff.1 (hl x hx)) hcom hpn ?_
        (fun x hx => isWs_iff.1 (hg x hx)) (fun x t e => (hw x).1 (hgn x t e))
      · rw [e1, e2, List.append_assoc]
        congr 3
        rw [← e4]; exact e3
      · intro hm
        have := ht2 _ hm
        simp at this
    · rename_i hc
      simp only [Option.some.injEq, Prod.mk.injEq] at hs
      obtain ⟨h1, h2⟩ := hs
      unfold delimRest at h2
      simp only [Bool.false_and, Bool.false_eq_true, if_false] at h2
      obtain ⟨gap, e4, hg, hgn⟩ := dw_split isWs r
      rw [h2] at e4 hgn
      subst h1
      have hcw : Ws c := by
        rw [← isWs_iff]
        cases h : isWs c with
        | true => rfl
        | false => rw [h] at hcP; simp at hcP; exact absurd hcP hc
      refine .plain lead gap c ?_ (fun x hx => isWs_iff.1 (hl x hx)) ?_ hcom hpn hcw
        (fun x hx => isWs_iff.1 (hg x hx)) (fun x t e => (hw x).1 (hgn x t e))
      · rw [e1, e2, List.append_assoc, ← e4]
      · rintro rfl
        have := hnw c r (by rw [e2]; rfl)
        rw [isWs_iff.2 hcw] at this
        simp at this

/-! ### Entries -/

theorem skipSpace_split (s : Bytes) : ∃ gap, s = gap ++ KeyOpts.skipSpace s ∧ (∀ x ∈ gap, x = 32 ∨ x = 9) ∧
    ∀ x r, KeyOpts.skipSpace s = x :: r → ¬ (x = 32 ∨ x = 9) := by
  obtain ⟨a, h1, h2, h3⟩ := dw_split KeyOpts.isBlank s
  exact ⟨a, h1, fun x hx => KeyOpts.isBlank_iff.1 (h2 x hx), fun x r e h => by
    have := h3 x r e
    rw [KeyOpts.isBlank_iff.2 h] at this; simp at this⟩

theorem parseLine_entry {rd : Reader} {req : Option Bytes} {line names : Bytes} {k : KeyId} {o : SigOpts} :
    parseLine rd req line = .entry names k o ↔
      (∃ is, Entry rd line names is k ∧ Means rd.time is o ∧ Consistent o) ∧ notListed req names = false := by
  constructor
  · intro h
    unfold parseLine at h
    split at h
    · simp at h
    rename_i hc
    split at h
    · rename_i nm cp hs
      split at h
      · simp at h
      rename_i hl
      split at h
      · simp at h
      rename_i opts k' hk
      split at h
      · simp at h
      rename_i o' ho
      simp only [Line.entry.injEq] at h
      obtain ⟨rfl, rfl, rfl⟩ := h
      have hnames := names_iff.2 ⟨hc, hs⟩
      refine ⟨?_, by simpa using hl⟩
      unfold keyAndOpts at hk
      split at hk
      · rename_i k2 hr
        simp only [Option.some.injEq, Prod.mk.injEq] at hk
        obtain ⟨rfl, rfl⟩ := hk
        obtain ⟨is, h1, h2, h3⟩ := (C67_options (s := []) rfl).1 ho
        have : is = [] := by
          generalize hn : ([] : Bytes) = e at h1
          cases h1 with
          | none => rfl
          | last hw => obtain ⟨c, r, e, -⟩ := written_head hw; rw [e] at hn; simp at hn
          | empty => simp at hn
          | more => simp at hn
        subst this
        exact ⟨[], .bare cp hnames hr rfl, h2, h3⟩
      · rename_i hr
        split at hk
        · simp at hk
        · simp at hk
        rename_i c r ha
        split at hk
        · simp at hk
        rename_i k2 hr2
        simp only [Option.some.injEq, Prod.mk.injEq] at hk
        obtain ⟨rfl, rfl⟩ := hk
        obtain ⟨t, e, he⟩ := advance_suffix _ _ _ _ (Nat.lt_succ_self _) ha
        have hblank : c = 32 ∨ c = 9 := by
          rcases he with he | ⟨c', r', e', hc'⟩
          · simp at he
          · simp only [List.cons.injEq] at e'; rw [e'.1]; exact hc'
        have et : cp.take (cp.length - (r.length + 1)) = t := by
          rw [e]; simp
        rw [et] at ho
        have hone : ∀ is rest, Upto is t rest → rest = [] := by
          intro is rest hu
          -- the text in front of the first blank has no end of options inside
          have key : ∀ {is s rest}, Upto is s rest → rest ≠ [] → ∀ x, KeyOpts.advance false (s ++ x) = some (rest ++ x) := by
            intro is s rest hu hne x
            induction hu with
            | @done rest he =>
              rcases he with rfl | ⟨c, r, rfl, hc⟩
              · exact absurd rfl hne
              · exact advance_ends (.inr ⟨c, r ++ x, rfl, hc⟩)
            | last hw he =>
              rw [List.append_assoc, advance_written _ hw]
              rcases he with rfl | ⟨c, r, rfl, hc⟩
              · exact absurd rfl hne
              · exact advance_ends (.inr ⟨c, r ++ x, rfl, hc⟩)
            | empty _ _ ih => rw [List.cons_append, advance_comma]; exact ih hne
            | more hw _ _ ih =>
              rw [List.append_assoc, advance_written _ hw, List.cons_append, advance_comma]; exact ih hne
          by_cases hne : rest = []
          · exact hne
          · have := key hu hne (c :: r)
            rw [← e, ha] at this
            have := congrArg List.length (Option.some.inj this)
            simp at this
            exact this
        obtain ⟨is, h1, h2, h3⟩ := (sigOpts_iff hone).1 ho
        obtain ⟨gap, eg, hg, hgn⟩ := skipSpace_split r
        exact ⟨is, .opts cp t gap (KeyOpts.skipSpace r) c hnames hr (by rw [← eg]; exact e) h1 hblank hg hgn hr2, h2, h3⟩
    · simp at h
  · rintro ⟨⟨is, he, hm, hc⟩, hl⟩
    rcases he with ⟨rest, hn, hr, rfl⟩ | ⟨rest, t, gap, kt, c, hn, hr, e, ho, hb, hg, hkt, hrd⟩
    · obtain ⟨h1, h2⟩ := names_iff.1 hn
      have := (C67_options (pt := rd.time) (s := []) (o := o) rfl).2 ⟨[], .none, hm, hc⟩
      simp [parseLine, h1, h2, hl, keyAndOpts, hr, this]
    · obtain ⟨h1, h2⟩ := names_iff.1 hn
      have ha : KeyOpts.advance false rest = some (c :: (gap ++ kt)) := by
        rw [e, advance_options ho]
        exact advance_ends (.inr ⟨c, _, rfl, hb⟩)
      have hsk : KeyOpts.skipSpace (gap ++ kt) = kt := by
        refine dw_any (fun x hx => KeyOpts.isBlank_iff.2 (hg x hx)) fun x r ex => ?_
        have := hkt x r ex
        rw [← KeyOpts.isBlank_iff] at this
        simpa using this
      have et : rest.take (rest.length - ((gap ++ kt).length + 1)) = t := by
        rw [e]
        have : (t ++ c :: (gap ++ kt)).length - ((gap ++ kt).length + 1) = t.length := by simp
        rw [this]
        exact List.take_left
      have hadv : KeyOpts.advance false t = some [] := by
        have := advance_options (x := []) ho
        rw [List.append_nil] at this
        rw [this]; rfl
      have := (C67_options (pt := rd.time) (s := t) (o := o) hadv).2 ⟨is, ho, hm, hc⟩
      simp only [parseLine, h1, h2, hl, keyAndOpts, hr, ha, hsk, hrd, et, this, if_false, Bool.false_eq_true]

theorem optsAllow_iff {o : SigOpts} {ns : Option Bytes} {t : Nat} : optsAllow o ns t = true ↔ Allows o ns t := by
  have hn : nsRefused o.namespaces ns = false ↔ ∀ l n, o.namespaces = some l → ns = some n → Match.matchPatternList n l false = 1 := by
    unfold nsRefused
    cases h1 : o.namespaces with
    | none => simp
    | some l =>
      cases ns with
      | none => simp
      | some n => simp
  unfold optsAllow
  constructor
  · intro h
    split at h
    · simp at h
    rename_i c1
    split at h
    · simp at h
    rename_i c2
    split at h
    · simp at h
    rename_i c3
    exact ⟨hn.1 (by simpa using c1), fun h => by omega, fun h => by omega⟩
  · rintro ⟨h1, h2, h3⟩
    rw [hn.2 h1]
    simp only [Bool.false_eq_true, if_false]
    rw [if_neg (by omega), if_neg (by omega)]

theorem certCheck_name {c : KeyOpts.Cert} {t : Nat} {p : Bytes} : KeyOpts.certCheck c false true false t (some p) = true ↔
    CertValid c t ∧ p ∈ c.principals := by
  unfold KeyOpts.certCheck KeyOpts.nameOk CertValid
  simp only [Bool.false_eq_true, if_false, Bool.not_true]
  constructor
  · intro h
    split at h
    · simp at h
    rename_i c1
    split at h
    · simp at h
    rename_i c2
    split at h
    · simp at h
    rename_i c3
    split at h
    · simp at h
    rename_i c4
    simp only [ne_eq, Decidable.not_not] at c1
    simp only [List.any_eq_true, decide_eq_true_eq] at h
    obtain ⟨x, hx, rfl⟩ := h
    exact ⟨⟨c1, by omega, by omega, c4⟩, hx⟩
  · rintro ⟨⟨h1, h2, h3, h4⟩, h5⟩
    rw [if_neg (by simp [h1]), if_neg (by omega), if_neg (by omega), if_neg h4]
    simp only [List.any_eq_true, decide_eq_true_eq]
    exact ⟨p, h5, rfl⟩

theorem certCheck_any {c : KeyOpts.Cert} {t : Nat} : KeyOpts.certCheck c false true false t none = true ↔ CertValid c t := by
  unfold KeyOpts.certCheck KeyOpts.nameOk CertValid
  simp only [Bool.false_eq_true, if_false, Bool.not_true]
  constructor
  · intro h
    split at h
    · simp at h
    rename_i c1
    split at h
    · simp at h
    rename_i c2
    split at h
    · simp at h
    rename_i c3
    split at h
    · simp at h
    rename_i c4
    simp only [ne_eq, Decidable.not_not] at c1
    exact ⟨c1, by omega, by omega, c4⟩
  · rintro ⟨h1, h2, h3, h4⟩
    rw [if_neg (by simp [h1]), if_neg (by omega), if_neg (by omega), if_neg h4]

theorem checkLine_permits {rd : Reader} {s : Signer} {p : Bytes} {ns : Option Bytes} {t : Nat} {line : Bytes} :
    (checkLine rd s (some p) ns t line).isSome = true ↔ Permits rd s p ns t line := by
  unfold Permits
  constructor
  · intro h
    obtain ⟨x, hx⟩ := Option.isSome_iff_exists.1 h
    unfold checkLine at hx
    split at hx
    · rename_i names k o hp
      obtain ⟨⟨is, h1, h2, h3⟩, h4⟩ := parseLine_entry.1 hp
      simp only [notListed, decide_eq_false_iff_not, ne_eq, Decidable.not_not] at h4
      split at hx
      · simp at hx
      rename_i r hr
      split at hx
      · rename_i ha
        refine ⟨names, is, k, o, h1, h2, h3, h4, optsAllow_iff.1 ha, ?_⟩
        unfold entryKey at hr
        split at hr
        · rename_i hk
          simp only [Bool.and_eq_true, Bool.not_eq_true', decide_eq_true_eq] at hk
          refine .inl ⟨fun hm => ?_, hk.2⟩
          rw [h2.ca.2 hm] at hk; simp at hk
        · split at hr
          · simp at hr
          rename_i c hcert
          split at hr
          · rename_i hca
            simp only [Bool.and_eq_true, decide_eq_true_eq] at hca
            simp only at hr
            split at hr
            · rename_i hcc
              exact .inr ⟨h2.ca.1 hca.1, c, hcert, hca.2, certCheck_name.1 hcc⟩
            · simp at hr
          · simp at hr
      · simp at hx
    · simp at hx
  · rintro ⟨names, is, k, o, h1, h2, h3, h4, h5, h6⟩
    have hp := parseLine_entry.2 ⟨⟨is, h1, h2, h3⟩, (by simp [notListed, h4] : notListed (some p) names = false)⟩
    have hk : ∃ r, entryKey s (some p) t names k o = some r := by
      unfold entryKey
      rcases h6 with ⟨hc, hf⟩ | ⟨hc, c, e, hca, hv⟩
      · have : o.ca = false := by
          cases h : o.ca with
          | false => rfl
          | true => exact absurd (h2.ca.1 h) hc
        exact ⟨names, by rw [if_pos (by simp [this, hf])]⟩
      · have : o.ca = true := h2.ca.2 hc
        refine ⟨names, ?_⟩
        rw [if_neg (by simp [this]), e]
        simp only [this, hca, decide_true, Bool.and_self, if_true, certCheck_name.2 hv]
    obtain ⟨r, hr⟩ := hk
    simp [checkLine, hp, hr, optsAllow_iff.2 h5]

/-- **C67: who may sign.**  A key is accepted for a principal, a namespace and a time exactly when some line of the
file permits it; no other line matters, be it malformed or for somebody else. -/
theorem C67_allowed {rd : Reader} {s : Signer} {p : Bytes} {ns : Option Bytes} {t : Nat} {lines : List Bytes} :
    checkAllowed rd s p ns t lines = true ↔ ∃ line ∈ lines, Permits rd s p ns t line := by
  induction lines with
  | nil => simp [checkAllowed]
  | cons l ls ih =>
    simp only [List.mem_cons, exists_eq_or_imp, ← checkLine_permits]
    unfold checkAllowed
    cases h : checkLine rd s (some p) ns t l with
    | none => simpa [checkLine_permits] using ih
    | some x => simp

/-- **C67: whole files.**  Hence a signature is accepted for a principal only if the blob is a good signature of this
message for this namespace by a key that some line permits for that principal, namespace and time. -/
theorem C67_signature {K : Type} {w : World K} {signer : K → Signer} {rd : Reader} {b m ns p : Bytes} {t : Nat} {k : K}
    {lines : List Bytes} (h1 : verifyb w b m ns = some k) (h2 : checkAllowed rd (signer k) p (some ns) t lines = true) :
    Good w b m ns k ∧ ∃ line ∈ lines, Permits rd (signer k) p (some ns) t line :=
  ⟨C47_verify.1 h1, C67_allowed.1 h2⟩

/-! ### Finding principals -/

theorem filterNames_mem {c : KeyOpts.Cert} {ps : List Bytes} {n : Bytes} (h : n ∈ filterNames c ps) :
    n ∈ c.principals ∧ ∃ p ∈ ps, Match.Glob p n := by
  induction ps with
  | nil => simp [filterNames] at h
  | cons p ps ih =>
    unfold filterNames at h
    split at h
    · simp at h
    · rcases List.mem_append.1 h with h | h
      · simp only [List.mem_filter] at h
        exact ⟨h.1, p, by simp, (Match.C05_match_pattern _ _).1 h.2⟩
      · obtain ⟨h1, q, h2, h3⟩ := ih h
        exact ⟨h1, q, by simp [h2], h3⟩

/-- joining as the code does, from what is there -/
theorem joined {l : List Bytes} {b : Bytes} (hb : b ≠ []) :
    l.foldl (fun b n => if b.length ≠ 0 then b ++ 44 :: n else n) b = Text.join 44 (b :: l) := by
  induction l generalizing b with
  | nil => rfl
  | cons n l ih =>
    rw [List.foldl_cons, if_pos (by simpa using hb), ih (by simp)]
    cases l with
    | nil => simp [Text.join]
    | cons => simp [Text.join]

/-- **C67: finding principals.**  Names are reported only from a line for the key: the line's own list for a plain
key; for a certificate made by the line's authority and valid at that time, names that are in the certificate and that
a pattern of the line matches (negated or not: see `C67_find_negated`). -/
theorem C67_find {rd : Reader} {s : Signer} {t : Nat} {lines : List Bytes} {r : Bytes}
    (h : findPrincipals rd s t lines = some r) :
    ∃ line ∈ lines, ∃ names is k o, Entry rd line names is k ∧ Means rd.time is o ∧ Consistent o ∧ Allows o none t ∧
      ((Item.ca ∉ is ∧ k.full = s.id.full ∧ r = names) ∨
       (Item.ca ∈ is ∧ ∃ c, s.cert = some c ∧ c.ca = k.pub ∧ CertValid c t ∧
         ∃ l : List Bytes, r = Text.join 44 l ∧ l ≠ [] ∧ ∀ n ∈ l, n ∈ c.principals ∧ ∃ p ∈ Text.split 44 names, Match.Glob p n)) := by
  induction lines with
  | nil => simp [findPrincipals] at h
  | cons l ls ih =>
    unfold findPrincipals at h
    split at h
    · rename_i x hx
      simp only [Option.some.injEq] at h
      subst h
      refine ⟨l, by simp, ?_⟩
      unfold checkLine at hx
      split at hx
      · rename_i names k o hp
        obtain ⟨⟨is, h1, h2, h3⟩, -⟩ := parseLine_entry.1 hp
        split at hx
        · simp at hx
        rename_i r hr
        split at hx
        · rename_i ha
          simp only [Option.some.injEq] at hx
          subst hx
          refine ⟨names, is, k, o, h1, h2, h3, optsAllow_iff.1 ha, ?_⟩
          unfold entryKey at hr
          split at hr
          · rename_i hk
            simp only [Bool.and_eq_true, Bool.not_eq_true', decide_eq_true_eq] at hk
            simp only [Option.some.injEq] at hr
            refine .inl ⟨fun hm => ?_, hk.2, hr.symm⟩
            rw [h2.ca.2 hm] at hk; simp at hk
          · split at hr
            · simp at hr
            rename_i c hcert
            split at hr
            · rename_i hca
              simp only [Bool.and_eq_true, decide_eq_true_eq] at hca
              simp only at hr
              unfold certFilter at hr
              split at hr
              · simp at hr
              rename_i hcc
              have hmem : ∀ n ∈ filterNames c (Text.split 44 names), n ∈ c.principals ∧ ∃ p ∈ Text.split 44 names, Match.Glob p n :=
                fun n hn => filterNames_mem hn
              generalize filterNames c (Text.split 44 names) = fl at hr hmem
              have hex : ∀ (fl : List Bytes), fl.foldl (fun b n => if b.length ≠ 0 then b ++ 44 :: n else n) [] ≠ [] →
                  ∃ l, l ≠ [] ∧ (∀ n ∈ l, n ∈ fl) ∧
                    fl.foldl (fun b n => if b.length ≠ 0 then b ++ 44 :: n else n) [] = Text.join 44 l := by
                intro fl
                induction fl with
                | nil => intro h; exact absurd rfl h
                | cons n fl ih =>
                  intro h
                  rw [List.foldl_cons, if_neg (by simp)] at h ⊢
                  by_cases hn : n = []
                  · subst hn
                    obtain ⟨l, a1, a2, a3⟩ := ih h
                    exact ⟨l, a1, fun x hx => by simp [a2 x hx], a3⟩
                  · exact ⟨n :: fl, by simp, fun x hx => hx, joined hn⟩
              simp only at hr
              split at hr
              · simp at hr
              rename_i hlen
              simp only [Option.some.injEq] at hr
              obtain ⟨l, a1, a2, a3⟩ := hex fl (by intro h; rw [h] at hlen; simp at hlen)
              exact .inr ⟨h2.ca.1 hca.1, c, hcert, hca.2, certCheck_any.1 (by simpa using hcc), l, by rw [← hr, a3], a1,
                fun n hn => hmem n (a2 n hn)⟩
            · simp at hr
        · simp at hx
      · simp at hx
    · obtain ⟨line, hl, hx⟩ := ih h
      exact ⟨line, by simp [hl], hx⟩

/-- **C67: matching principals.**  The lists reported are those of the entries that list the principal. -/
theorem C67_match {rd : Reader} {p : Bytes} {lines : List Bytes} {l : List Bytes}
    (h : matchPrincipals rd p lines = some l) (names : Bytes) :
    names ∈ l ↔ ∃ line ∈ lines, Match.matchPatternList p names false = 1 ∧
      ∃ is k o, Entry rd line names is k ∧ Means rd.time is o ∧ Consistent o := by
  induction lines generalizing l with
  | nil => simp [matchPrincipals] at h; subst h; simp
  | cons x xs ih =>
    have hx : (∃ line ∈ x :: xs, Match.matchPatternList p names false = 1 ∧
        ∃ is k o, Entry rd line names is k ∧ Means rd.time is o ∧ Consistent o) ↔
        ((∃ k o, parseLine rd (some p) x = .entry names k o) ∨ ∃ line ∈ xs, Match.matchPatternList p names false = 1 ∧
        ∃ is k o, Entry rd line names is k ∧ Means rd.time is o ∧ Consistent o) := by
      simp only [List.mem_cons, exists_eq_or_imp, parseLine_entry, notListed, decide_eq_false_iff_not, ne_eq, Decidable.not_not]
      constructor
      · rintro (⟨h1, is, k, o, h2⟩ | h)
        · exact .inl ⟨k, o, ⟨is, h2⟩, h1⟩
        · exact .inr h
      · rintro (⟨k, o, ⟨is, h2⟩, h1⟩ | h)
        · exact .inl ⟨h1, is, k, o, h2⟩
        · exact .inr h
    rw [hx]
    unfold matchPrincipals at h
    split at h
    · rename_i hp
      rw [ih h, hp]; simp
    · simp at h
    · rename_i nm k o hp
      obtain ⟨l', h1, rfl⟩ := Option.map_eq_some_iff.1 h
      rw [List.mem_cons, ih h1, hp]
      constructor
      · rintro (rfl | h)
        · exact .inl ⟨k, o, rfl⟩
        · exact .inr h
      · rintro (⟨k', o', e⟩ | h)
        · simp only [Line.entry.injEq] at e; exact .inl e.1.symm
        · exact .inr h

/-! ### Concrete cases -/

/-- keys are written "K" and a digit; times are not written -/
def toyReader : Reader where
  read s := match s with
    | 75 :: d :: _ => if Num.isDigit d then some ⟨d.toNat, d.toNat⟩ else none
    | _ => none
  time s := match s with
    | [d] => if Num.isDigit d then some (d.toNat - 48) else none
    | _ => none

def toySigner : Signer := ⟨⟨49, 49⟩, none⟩
def toyCert : Signer := ⟨⟨200, 49⟩, some ⟨.user, [b!"bob", b!"eve"], 3, 9, [], [], 50⟩⟩

example : checkAllowed toyReader toySigner b!"bob" (some b!"git") 5
    [b!"# comment", b!"broken", b!"ann K1\n", b!"bob,eve namespaces=\"git\",valid-before=\"6\" K1\n"] = true := by decide +kernel
example : checkAllowed toyReader toySigner b!"bob" (some b!"file") 5
    [b!"bob,eve namespaces=\"git\",valid-before=\"6\" K1\n"] = false := by decide +kernel
example : checkAllowed toyReader toySigner b!"bob" (some b!"git") 7
    [b!"bob,eve namespaces=\"git\",valid-before=\"6\" K1\n"] = false := by decide +kernel
example : checkAllowed toyReader toyCert b!"bob" none 5 [b!"*b cert-authority K2\n"] = true := by decide +kernel
example : checkAllowed toyReader toyCert b!"rob" none 5 [b!"*b cert-authority K2\n"] = false := by decide +kernel
example : checkAllowed toyReader toyCert b!"bob" none 9 [b!"*b cert-authority K2\n"] = false := by decide +kernel
example : checkAllowed toyReader toyCert b!"bob" none 5 [b!"*b K2\n"] = false := by decide +kernel

/-- **C67 (disagreement).**  `find-principals` ignores the `!` of a negated pattern: it reports a name that the same
line refuses when that name is asked for. -/
theorem C67_find_negated : findPrincipals toyReader toyCert 5 [b!"!bob,* cert-authority K2\n"] = some b!"bob,eve" ∧
    checkAllowed toyReader toyCert b!"bob" none 5 [b!"!bob,* cert-authority K2\n"] = false := by
  decide +kernel

end Verif.Sig
