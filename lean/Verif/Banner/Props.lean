/-
C88: the exchange of identification strings.
-/
import Verif.Banner.Spec
import Verif.Match.Props
import Verif.Sig.Props

namespace Verif.Banner
open Verif Text

/-! ### Lines -/

theorem readLine_crs (acc : Bytes) (nl : Bool) (k : Nat) (rest : Bytes) :
    readLine acc nl (List.replicate k 13 ++ 10 :: rest) = .line acc rest := by
  induction k generalizing nl with
  | zero => rw [List.replicate_zero, List.nil_append, readLine, if_neg (by decide), if_pos rfl]
  | succ k ih => rw [List.replicate_succ, List.cons_append, readLine, if_pos rfl, ih]

theorem readLine_body (body acc : Bytes) (k : Nat) (rest : Bytes) (ht : ∀ c ∈ body, c ≠ 0 ∧ c ≠ 10 ∧ c ≠ 13)
    (hl : acc.length + body.length ≤ 8192) :
    readLine acc false (body ++ (List.replicate k 13 ++ 10 :: rest)) = .line (acc ++ body) rest := by
  induction body generalizing acc with
  | nil => rw [List.nil_append, List.append_nil, readLine_crs]
  | cons c body ih =>
    have hc := ht c (by simp)
    rw [List.length_cons] at hl
    rw [List.cons_append, readLine, if_neg hc.2.2, if_neg hc.2.1, if_neg (by simp [hc.1]), if_neg (by omega),
      ih _ (fun x hx => ht x (by simp [hx])) (by rw [List.length_append]; simp only [List.length_cons, List.length_nil]; omega)]
    simp

theorem readLine_some {s acc l rest : Bytes} {nl : Bool} (h : readLine acc nl s = .line l rest) (ha : acc.length ≤ 8192) :
    ∃ body k, s = body ++ (List.replicate k 13 ++ 10 :: rest) ∧ l = acc ++ body ∧
      (∀ c ∈ body, c ≠ 0 ∧ c ≠ 10 ∧ c ≠ 13) ∧ acc.length + body.length ≤ 8192 ∧ (nl = true → body = []) := by
  induction s generalizing acc nl with
  | nil => rw [readLine] at h; cases h
  | cons c s ih =>
    rw [readLine] at h
    by_cases h1 : c = 13
    · rw [if_pos h1] at h
      obtain ⟨body, k, e, el, ht, hl, hb⟩ := ih h ha
      have := hb rfl
      subst this
      refine ⟨[], k + 1, ?_, el, by simp, by simpa using ha, fun _ => rfl⟩
      rw [e, h1, List.replicate_succ]; rfl
    rw [if_neg h1] at h
    by_cases h2 : c = 10
    · rw [if_pos h2] at h
      cases h
      exact ⟨[], 0, by rw [h2]; rfl, by simp, by simp, by simpa using ha, fun _ => rfl⟩
    rw [if_neg h2] at h
    by_cases h3 : c = 0 ∨ nl = true
    · rw [if_pos h3] at h; cases h
    rw [if_neg h3] at h
    by_cases h4 : acc.length + 1 > 8192
    · rw [if_pos h4] at h; cases h
    rw [if_neg h4] at h
    obtain ⟨body, k, e, el, ht, hl, hb⟩ := ih h (by rw [List.length_append]; simp only [List.length_cons, List.length_nil]; omega)
    rw [List.length_append] at hl
    simp only [List.length_cons, List.length_nil] at hl
    refine ⟨c :: body, k, by rw [e]; rfl, by rw [el]; simp, ?_, by rw [List.length_cons]; omega, ?_⟩
    · intro x hx
      rcases List.mem_cons.mp hx with rfl | hx
      · exact ⟨fun h => h3 (.inl h), h2, h1⟩
      · exact ht x hx
    · intro hn; exact absurd (.inr hn) h3

theorem isIdent_iff (l : Bytes) : isIdent l = true ↔ Ident l := by
  unfold isIdent Ident
  rw [Bool.and_eq_true, decide_eq_true_eq, decide_eq_true_eq]
  constructor
  · rintro ⟨hl, ht⟩
    refine ⟨l.drop 4, ?_, ?_⟩
    · intro h
      have := congrArg List.length h
      rw [List.length_drop] at this
      simp only [List.length_nil] at this
      omega
    · rw [← ht, List.take_append_drop]
  · rintro ⟨t, ht, rfl⟩
    refine ⟨?_, rfl⟩
    cases t with
    | nil => exact absurd rfl ht
    | cons x t => simp only [List.length_append, List.length_cons]; simp

/-- What stands on the connection if an identification string is found: lines that are none, fewer than 1024 of them
and none at all from a client, then the string, carriage returns and a newline.  Nothing after it is read. -/
theorem C88_read (server : Bool) (n : Nat) (s v rest : Bytes) :
    readBanner server n s = .got v rest ↔
      ∃ (pre : List (Bytes × Nat)) (k : Nat), s = pre.flatMap lineText ++ (v ++ (List.replicate k 13 ++ 10 :: rest)) ∧
        (∀ l ∈ pre, Clean l.1 ∧ ¬ Ident l.1) ∧ Clean v ∧ Ident v ∧ pre.length < n ∧ (server = true → pre = []) := by
  induction n generalizing s with
  | zero =>
    rw [readBanner]
    constructor
    · intro h; cases h
    · rintro ⟨_, _, _, _, _, _, h, _⟩; omega
  | succ n ih =>
    rw [readBanner]
    constructor
    · intro h
      split at h
      · cases h
      · cases h
      rename_i l r hl
      obtain ⟨body, k, e, el, ht, hlen, _⟩ := readLine_some hl (by simp)
      rw [List.nil_append] at el
      subst el
      have hcl : Clean l := ⟨ht, by simpa using hlen⟩
      by_cases hi : isIdent l = true
      · rw [if_pos hi] at h
        cases h
        exact ⟨[], k, by simpa using e, by simp, hcl, (isIdent_iff _).mp hi, by simp, fun _ => rfl⟩
      rw [if_neg hi] at h
      by_cases hs : server = true
      · rw [if_pos hs] at h; cases h
      rw [if_neg hs] at h
      obtain ⟨pre, k', e', hpre, hv, hiv, hn, _⟩ := (ih r).mp h
      refine ⟨(l, k) :: pre, k', ?_, ?_, hv, hiv, by rw [List.length_cons]; omega, fun h => absurd h hs⟩
      · rw [e, e', List.flatMap_cons]
        unfold lineText
        simp [List.append_assoc]
      · intro x hx
        rcases List.mem_cons.mp hx with rfl | hx
        · exact ⟨hcl, fun h => hi ((isIdent_iff _).mpr h)⟩
        · exact hpre x hx
    · rintro ⟨pre, k, e, hpre, hv, hiv, hn, hs⟩
      cases pre with
      | nil =>
        rw [e, List.flatMap_nil, List.nil_append, readLine_body v [] k rest hv.text (by simpa using hv.short), List.nil_append]
        simp only
        rw [if_pos ((isIdent_iff _).mpr hiv)]
      | cons x pre =>
        obtain ⟨l, kl⟩ := x
        have hx := hpre (l, kl) (by simp)
        have es : s = l ++ (List.replicate kl 13 ++ 10 :: (pre.flatMap lineText ++ (v ++ (List.replicate k 13 ++ 10 :: rest)))) := by
          rw [e, List.flatMap_cons]
          unfold lineText
          simp [List.append_assoc]
        rw [es, readLine_body l [] kl _ hx.1.text (by simpa using hx.1.short), List.nil_append]
        simp only
        rw [if_neg fun h => hx.2 ((isIdent_iff _).mp h)]
        have hsv : ¬ server = true := fun h => by have := hs h; cases this
        rw [if_neg hsv]
        exact (ih _).mpr ⟨pre, k, rfl, fun y hy => hpre y (by simp [hy]), hv, hiv,
          by rw [List.length_cons] at hn; omega, fun h => absurd h hsv⟩

/-! ### Versions -/

theorem digitsVal_eq (acc : Nat) (ds : Bytes) : Num.digitsVal acc ds = ds.foldl (fun a c => a * 10 + (c.toNat - 48)) acc := by
  induction ds generalizing acc with
  | nil => rfl
  | cons c ds ih => exact ih _

theorem spanDigits_append (ds r : Bytes) (hd : ∀ c ∈ ds, Num.isDigit c = true) (c : UInt8) (hc : Num.isDigit c = false) :
    Num.spanDigits (ds ++ c :: r) = (ds, c :: r) := by
  induction ds with
  | nil => rw [List.nil_append, Num.spanDigits, if_neg (by rw [hc]; decide)]
  | cons x ds ih => rw [List.cons_append, Num.spanDigits, if_pos (hd x (by simp)), ih fun y hy => hd y (by simp [hy])]

theorem digit_facts {c : UInt8} (h : Num.isDigit c = true) : Num.isSpace c = false ∧ c ≠ 45 ∧ c ≠ 43 := by
  unfold Num.isDigit at h
  rw [Bool.and_eq_true, decide_eq_true_eq, decide_eq_true_eq, UInt8.le_iff_toNat_le, UInt8.le_iff_toNat_le] at h
  have h1 : 48 ≤ c.toNat := h.1
  have h2 : c.toNat ≤ 57 := h.2
  refine ⟨?_, ?_, ?_⟩
  · unfold Num.isSpace
    rw [Bool.or_eq_false_iff, decide_eq_false_iff_not, Bool.and_eq_false_iff, decide_eq_false_iff_not, decide_eq_false_iff_not,
      UInt8.le_iff_toNat_le, UInt8.le_iff_toNat_le]
    refine ⟨fun e => ?_, .inr fun e => ?_⟩
    · subst e; exact absurd h1 (by decide)
    · have : c.toNat ≤ 13 := e
      omega
  · intro e; subst e; exact absurd h1 (by decide)
  · intro e; subst e; exact absurd h1 (by decide)

theorem strtoll_digits {ds r : Bytes} {c : UInt8} (hd : Digits ds) (hc : Num.isDigit c = false) :
    Num.strtoll (ds ++ c :: r) = some ((value ds : Int), c :: r) := by
  have hs := spanDigits_append ds r hd.2 c hc
  obtain ⟨x, t, rfl⟩ : ∃ x t, ds = x :: t := by
    cases ds with
    | nil => exact absurd rfl hd.1
    | cons x t => exact ⟨x, t, rfl⟩
  have hx := digit_facts (hd.2 x (by simp))
  unfold Num.strtoll
  rw [List.cons_append] at hs ⊢
  rw [List.dropWhile_cons, hx.1]
  simp only [Bool.false_eq_true, if_false]
  rw [if_neg hx.2.1, if_neg hx.2.2]
  simp only
  rw [hs]
  simp only
  rw [digitsVal_eq]
  rfl

theorem toInt32_small {n : Nat} (h : n < 2147483648) : toInt32 (saturate (n : Int)) = n := by
  unfold toInt32 saturate
  rw [if_neg (by omega), if_neg (by omega)]
  omega

theorem scanVersion_ident {a b sw : Bytes} (ha : Digits a) (hb : Digits b) (hva : value a < 2147483648)
    (hvb : value b < 2147483648) :
    scanVersion (identText a b sw) = if sw = [] then none else some ((value a : Int), (value b : Int), sw) := by
  unfold scanVersion identText
  have e : List.drop 4 (b!"SSH-" ++ a ++ 46 :: (b ++ 45 :: sw)) = a ++ 46 :: (b ++ 45 :: sw) := rfl
  rw [e]
  unfold scanInt
  rw [strtoll_digits ha (by decide)]
  simp only
  rw [toInt32_small hva, scanLit, if_pos rfl]
  simp only
  rw [strtoll_digits hb (by decide)]
  simp only
  rw [toInt32_small hvb, scanLit, if_pos rfl]

theorem ident_identText (a b sw : Bytes) : Ident (identText a b sw) := by
  refine ⟨a ++ 46 :: (b ++ 45 :: sw), by simp, ?_⟩
  unfold identText
  rw [List.append_assoc]

/-- A well-formed string leads to success exactly if it announces version 2, or 1.99, and does not come from a
scanner. -/
theorem C88_accept {server : Bool} {pre : List (Bytes × Nat)} {k : Nat} {a b sw rest : Bytes}
    (hpre : ∀ l ∈ pre, Clean l.1 ∧ ¬ Ident l.1) (hn : pre.length < 1024) (hs : server = true → pre = [])
    (hc : Clean (identText a b sw)) (ha : Digits a) (hb : Digits b) (hva : value a < 2147483648)
    (hvb : value b < 2147483648) (hsw : sw ≠ []) :
    exchange server (pre.flatMap lineText ++ (identText a b sw ++ (List.replicate k 13 ++ 10 :: rest))) =
      if value a = 2 ∨ (value a = 1 ∧ value b = 99) then
        if server = true ∧ (.probe ∈ compat sw ∨ .scanner ∈ compat sw) then .dropped
        else .ok (identText a b sw) (compat sw) rest
      else .mismatch := by
  have hr := (C88_read server 1024 _ (identText a b sw) rest).mpr ⟨pre, k, rfl, hpre, hc, ident_identText a b sw, hn, hs⟩
  unfold exchange
  rw [hr]
  simp only
  unfold judge
  rw [scanVersion_ident ha hb hva hvb, if_neg hsw]
  simp only
  have hv : versionOk (value a) (value b) = decide (value a = 2 ∨ (value a = 1 ∧ value b = 99)) := by
    unfold versionOk
    by_cases h2 : value a = 2
    · rw [if_pos (by omega)]; simp [h2]
    · rw [if_neg (by omega)]
      by_cases h1 : value a = 1
      · rw [if_pos (by omega)]
        by_cases h9 : value b = 99
        · simp [h1, h9]
        · have : ¬ (value b : Int) = 99 := by omega
          simp [h1, h9, this]
      · rw [if_neg (by omega)]; simp [h1, h2]
  rw [hv]
  by_cases hok : value a = 2 ∨ (value a = 1 ∧ value b = 99)
  · rw [if_pos hok, if_neg (by simp [hok])]
  · rw [if_neg hok, if_pos (by simp [hok])]

/-- Nothing else leads to success: what is stored is a whole line without NUL, CR or LF, the bytes left over are those
after it, and the version it announces was read as 2 or 1.99. -/
theorem C88_only {server : Bool} {s v rest : Bytes} {bugs : List Bug} (h : exchange server s = .ok v bugs rest) :
    (∃ (pre : List (Bytes × Nat)) (k : Nat), s = pre.flatMap lineText ++ (v ++ (List.replicate k 13 ++ 10 :: rest)) ∧
      (∀ l ∈ pre, Clean l.1 ∧ ¬ Ident l.1) ∧ Clean v ∧ Ident v ∧ pre.length < 1024 ∧ (server = true → pre = [])) ∧
    ∃ major minor sw, scanVersion v = some (major, minor, sw) ∧ (major = 2 ∨ (major = 1 ∧ minor = 99)) ∧
      bugs = compat sw ∧ (server = true → .probe ∉ bugs ∧ .scanner ∉ bugs) := by
  unfold exchange at h
  split at h
  · rename_i v' r' hr
    unfold judge at h
    split at h
    · cases h
    rename_i major minor sw hsc
    by_cases hv : versionOk major minor = false
    · rw [if_pos hv] at h; cases h
    rw [if_neg hv] at h
    by_cases hp : server = true ∧ (.probe ∈ compat sw ∨ .scanner ∈ compat sw)
    · rw [if_pos hp] at h; cases h
    rw [if_neg hp] at h
    cases h
    refine ⟨(C88_read server 1024 s v rest).mp hr, major, minor, sw, hsc, ?_, rfl, fun hs => ⟨fun h => hp ⟨hs, .inl h⟩, fun h => hp ⟨hs, .inr h⟩⟩⟩
    unfold versionOk at hv
    by_cases h2 : major = 2
    · exact .inl h2
    rw [if_neg h2] at hv
    by_cases h1 : major = 1
    · rw [if_pos h1] at hv
      exact .inr ⟨h1, by simpa using hv⟩
    · rw [if_neg h1] at hv; simp at hv
  all_goals cases h

theorem strtoll_length {s r : Bytes} {v : Int} (h : Num.strtoll s = some (v, r)) : r.length + 1 ≤ s.length := by
  have hspan : ∀ t : Bytes, (Num.spanDigits t).1.length + (Num.spanDigits t).2.length = t.length := by
    intro t
    induction t with
    | nil => rfl
    | cons x t ih =>
      rw [Num.spanDigits]
      split
      · simp only [List.length_cons]; omega
      · simp
  have hdrop : (s.dropWhile Num.isSpace).length ≤ s.length := (List.dropWhile_suffix _).length_le
  unfold Num.strtoll at h
  simp only at h
  generalize s.dropWhile Num.isSpace = t at h hdrop
  have key : ∀ (neg : Bool) (u : Bytes), u.length ≤ t.length →
      (match Num.spanDigits u with
        | ([], _) => none
        | (ds, rest) => some (if neg then -(Num.digitsVal 0 ds : Int) else (Num.digitsVal 0 ds : Int), rest)) = some (v, r) →
      r.length + 1 ≤ s.length := by
    intro neg u hu hh
    have hsp := hspan u
    generalize Num.spanDigits u = q at hh hsp
    obtain ⟨ds, rest⟩ := q
    cases ds with
    | nil => cases hh
    | cons d ds =>
      simp only [Option.some.injEq, Prod.mk.injEq] at hh
      rw [← hh.2]
      simp only [List.length_cons] at hsp
      omega
  cases t with
  | nil => exact key false [] (Nat.le_refl _) h
  | cons c t =>
    simp only at h
    by_cases h1 : c = 45
    · simp only [h1, if_true] at h
      exact key true t (by simp) h
    · by_cases h2 : c = 43
      · subst h2
        exact key false t (by simp) h
      · simp only [h1, h2, if_false] at h
        exact key false (c :: t) (Nat.le_refl _) h

/-- The software version always fits the buffer of the length of the whole string, its final NUL included. -/
theorem C88_buffer {v sw : Bytes} {major minor : Int} (h : scanVersion v = some (major, minor, sw)) :
    sw.length + 1 ≤ v.length := by
  unfold scanVersion scanInt at h
  split at h
  · cases h
  rename_i m1 r1 h1
  split at h1
  · cases h1
  rename_i m1' r1' e1
  cases h1
  have l1 := strtoll_length e1
  split at h
  · cases h
  rename_i r2 h2
  have l2 : r2.length + 1 = r1.length := by
    cases r1 with
    | nil => cases h2
    | cons x r =>
      rw [scanLit] at h2
      split at h2
      · cases h2; rfl
      · cases h2
  split at h
  · cases h
  rename_i m3 r3 h3
  split at h3
  · cases h3
  rename_i m3' r3' e3
  cases h3
  have l3 := strtoll_length e3
  split at h
  · cases h
  rename_i r4 h4
  have l4 : r4.length + 1 = r3.length := by
    cases r3 with
    | nil => cases h4
    | cons x r =>
      rw [scanLit] at h4
      split at h4
      · cases h4; rfl
      · cases h4
  split at h
  · cases h
  · cases h
    rw [List.length_drop] at l1
    omega

/-- Not so: numbers are cut to 32 bits, so that other major versions pass for 2. -/
theorem C88_overflow_false :
    ¬ ∀ (a b sw rest : Bytes), Digits a → Digits b → sw ≠ [] → Clean (identText a b sw) →
      (∃ bugs, exchange true (identText a b sw ++ 10 :: rest) = .ok (identText a b sw) bugs rest) →
      value a = 2 ∨ (value a = 1 ∧ value b = 99) := by
  intro h
  have := h b!"4294967298" b!"0" b!"x" [] ⟨by decide, by decide⟩ ⟨by decide, by decide⟩ (by decide)
    ⟨by decide, by decide⟩ ⟨[], by decide +kernel⟩
  revert this; decide

/-! ### Both ends -/

theorem compat_own (t : Bytes) : compat (software ++ t) = [.newOpenSSH] := rfl

/-- What one end sends the other accepts, and both keep the same string for the exchange hash. -/
theorem C88_both (server : Bool) (addendum : Option Bytes) (hc : Clean (ourVersion addendum)) (rest : Bytes) :
    exchange server (sent addendum ++ rest) = .ok (ourVersion addendum) [.newOpenSSH] rest := by
  obtain ⟨t, ht⟩ : ∃ t, ourVersion addendum = identText b!"2" b!"0" (software ++ t) := by
    unfold ourVersion
    cases addendum with
    | none => exact ⟨[], by rfl⟩
    | some a =>
      by_cases h0 : a = []
      · exact ⟨[], by simp [h0]; rfl⟩
      · exact ⟨32 :: a, by simp [h0]; rfl⟩
  have h := C88_accept (server := server) (pre := []) (k := 1) (a := b!"2") (b := b!"0") (sw := software ++ t)
    (rest := rest) (by simp) (by decide) (fun _ => rfl) (by rw [← ht]; exact hc) ⟨by decide, by decide⟩ ⟨by decide, by decide⟩
    (by decide) (by decide) (by simp [software])
  rw [← ht, compat_own, if_pos (.inl (by decide)), if_neg (by simp)] at h
  rw [← h]
  unfold sent
  simp

/-- A peer running this software at version 8 or later is taken for having no known defects. -/
theorem C88_recent (t : Bytes) :
    compat (b!"OpenSSH_8" ++ t) = [.newOpenSSH] ∧ compat (b!"OpenSSH_9" ++ t) = [.newOpenSSH] ∧
      compat (b!"OpenSSH_1" ++ t) = [.newOpenSSH] := ⟨rfl, rfl, rfl⟩

/-! ### Key exchange methods offered -/

theorem match_curve (n : Bytes) : Match.matchPatternList n curveName false = 1 ↔ n = curveName := by
  have he : Match.entries curveName = [curveName] := by decide +kernel
  have hb : Match.body curveName = curveName := by decide +kernel
  have hg : Match.Glob curveName n ↔ n = curveName := Sig.glob_plain (by decide)
  have hs : Match.short curveName := by unfold Match.short; rw [hb]; decide
  have hn : ¬ Match.isNeg curveName := by unfold Match.isNeg; decide
  have hh : Match.hits n false curveName ↔ n = curveName := by
    unfold Match.hits; rw [hb]; simp only [Bool.false_eq_true, if_false]; exact hg
  rw [Match.C06_positive_iff, he]
  simp only [List.mem_singleton, forall_eq, exists_eq_left]
  rw [hh]
  exact ⟨fun h => h.2.2, fun h => ⟨⟨hs, fun h => hn h.1⟩, hn, h⟩⟩

theorem match_gex (n : Bytes) : Match.matchPatternList n gexList false = 1 ↔ (n = gex256 ∨ n = gex1) := by
  have he : Match.entries gexList = [gex256, gex1] := by decide +kernel
  have hb : Match.body gex256 = gex256 := by decide +kernel
  have hb' : Match.body gex1 = gex1 := by decide +kernel
  have hg : Match.Glob gex256 n ↔ n = gex256 := Sig.glob_plain (by decide)
  have hg' : Match.Glob gex1 n ↔ n = gex1 := Sig.glob_plain (by decide)
  have hs : Match.short gex256 := by unfold Match.short; rw [hb]; decide
  have hs' : Match.short gex1 := by unfold Match.short; rw [hb']; decide
  have hn : ¬ Match.isNeg gex256 := by unfold Match.isNeg; decide
  have hn' : ¬ Match.isNeg gex1 := by unfold Match.isNeg; decide
  have hh : Match.hits n false gex256 ↔ n = gex256 := by
    unfold Match.hits; rw [hb]; simp only [Bool.false_eq_true, if_false]; exact hg
  have hh' : Match.hits n false gex1 ↔ n = gex1 := by
    unfold Match.hits; rw [hb']; simp only [Bool.false_eq_true, if_false]; exact hg'
  rw [Match.C06_positive_iff, he]
  constructor
  · rintro ⟨_, e, he, _, h⟩
    rcases List.mem_cons.mp he with rfl | he
    · exact .inl (hh.mp h)
    · rw [List.mem_singleton] at he; subst he; exact .inr (hh'.mp h)
  · intro h
    refine ⟨?_, ?_⟩
    · intro e he
      rcases List.mem_cons.mp he with rfl | he
      · exact ⟨hs, fun h => hn h.1⟩
      · rw [List.mem_singleton] at he; subst he; exact ⟨hs', fun h => hn' h.1⟩
    · rcases h with h | h
      · exact ⟨gex256, by simp, hn, hh.mpr h⟩
      · exact ⟨gex1, by simp, hn', hh'.mpr h⟩

theorem refused_iff (bugs : List Bug) (n : Bytes) :
    refused bugs n ↔ (.curve25519Pad ∈ bugs ∧ n = curveName) ∨ (.oldDhGex ∈ bugs ∧ (n = gex256 ∨ n = gex1)) := Iff.rfl

theorem names_filter (p f : Bytes) :
    (split 44 (Match.filterDenylist p f)).filter (· ≠ []) =
      ((split 44 p).filter (· ≠ [])).filter fun n => decide (Match.matchPatternList n f false ≠ 1) := by
  unfold Match.filterDenylist
  rw [Match.C08_filter_general, List.filter_filter, List.filter_filter]
  apply List.filter_congr
  intro n _
  unfold Match.kept
  simp only [if_true]
  rw [Bool.and_comm]

instance (bugs : List Bug) (n : Bytes) : Decidable (refused bugs n) := by unfold refused; infer_instance

/-- For a peer with defects exactly the methods it cannot do are left out, and the order is kept; the program ends
if nothing is left. -/
theorem C88_kex (bugs : List Bug) (p q : Bytes) (h : kexProposal bugs p = some q) :
    (split 44 q).filter (· ≠ []) = ((split 44 p).filter (· ≠ [])).filter fun n => decide (¬ refused bugs n) := by
  unfold kexProposal at h
  by_cases h0 : Bug.curve25519Pad ∉ bugs ∧ Bug.oldDhGex ∉ bugs
  · rw [if_pos h0] at h
    cases h
    symm
    rw [List.filter_eq_self]
    intro n _
    rw [decide_eq_true_eq]
    rintro (⟨h1, _⟩ | ⟨h1, _⟩)
    · exact h0.1 h1
    · exact h0.2 h1
  · rw [if_neg h0] at h
    have hq : q = kexProposal.dropDh bugs (kexProposal.dropCurve bugs p) := by
      unfold kexProposal.nonEmpty at h
      split at h
      · cases h
      · cases h; rfl
    rw [hq]
    unfold kexProposal.dropDh kexProposal.dropCurve
    have hd : ∀ n : Bytes, decide (¬ refused bugs n) =
        (decide (¬ (.curve25519Pad ∈ bugs ∧ n = curveName)) && decide (¬ (.oldDhGex ∈ bugs ∧ (n = gex256 ∨ n = gex1)))) := by
      intro n
      rw [← Bool.decide_and, decide_eq_decide, refused_iff, not_or]
    have hc : ∀ n : Bytes, decide (Match.matchPatternList n curveName false ≠ 1) = decide (¬ n = curveName) := by
      intro n; rw [decide_eq_decide, Ne, match_curve]
    have hx : ∀ n : Bytes, decide (Match.matchPatternList n gexList false ≠ 1) = decide (¬ (n = gex256 ∨ n = gex1)) := by
      intro n; rw [decide_eq_decide, Ne, match_gex]
    by_cases h1 : Bug.curve25519Pad ∈ bugs <;> by_cases h2 : Bug.oldDhGex ∈ bugs
    · rw [if_pos h2, if_pos h1, names_filter, names_filter, List.filter_filter]
      apply List.filter_congr
      intro n _
      rw [hd, hc, hx, Bool.and_comm]
      simp only [h1, h2, true_and]
    · rw [if_neg h2, if_pos h1, names_filter]
      apply List.filter_congr
      intro n _
      rw [hd, hc]
      simp only [h1, h2, true_and, false_and, not_false_eq_true, decide_true, Bool.and_true]
    · rw [if_pos h2, if_neg h1, names_filter]
      apply List.filter_congr
      intro n _
      rw [hd, hx]
      simp only [h1, h2, true_and, false_and, not_false_eq_true, decide_true, Bool.true_and]
    · exact absurd ⟨h1, h2⟩ h0

end Verif.Banner
