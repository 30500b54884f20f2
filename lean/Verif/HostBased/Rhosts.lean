/-
Property C99: which hosts are trusted.
-/
import Verif.HostBased.Spec
import Verif.UserKey.Path

namespace Verif.HostBased
open Verif Wire
open _root_.Verif.UserKey (Stat User badStat badStat_iff)

/-! ### Words -/

theorem words_word (w acc r : Bytes) (h : ∀ c ∈ w, Num.isSpace c = false) :
    words acc (w ++ r) = words (w.reverse ++ acc) r := by
  induction w generalizing acc with
  | nil => rfl
  | cons c w ih =>
    rw [List.cons_append, words, if_neg (by rw [h c (by simp)]; simp), ih _ fun d hd => h d (by simp [hd])]
    simp

theorem words_space (s r : Bytes) (h : ∀ c ∈ s, Num.isSpace c = true) : words [] (s ++ r) = words [] r := by
  induction s with
  | nil => rfl
  | cons c s ih => rw [List.cons_append, words, if_pos (h c (by simp)), if_pos rfl, ih fun d hd => h d (by simp [hd])]

theorem fields_words {l : Bytes} {ws : List Bytes} (h : Fields l ws) : words [] l = ws := by
  induction h with
  | @nil l hs =>
    have := words_space l [] hs
    rw [List.append_nil] at this
    rw [this]; rfl
  | @cons s w r ws hs hw hn hr _ ih =>
    rw [List.append_assoc, words_space _ _ hs, words_word _ _ _ hn]
    cases r with
    | nil =>
      simp only [List.append_nil, words] at *
      rw [if_neg (by simpa using hw), ← ih]
      simp
    | cons c r =>
      rw [words, if_pos (hr c rfl), if_neg (by simpa using hw)]
      rw [words, if_pos (hr c rfl), if_pos rfl] at ih
      rw [ih]
      simp

theorem words_fields (l acc : Bytes) (ha : ∀ c ∈ acc, Num.isSpace c = false) : Fields (acc.reverse ++ l) (words acc l) := by
  induction l generalizing acc with
  | nil =>
    rw [words]
    by_cases he : acc = []
    · rw [if_pos he, he]; exact .nil (by simp)
    · rw [if_neg he]
      have := Fields.cons (s := []) (w := acc.reverse) (r := []) (ws := []) (by simp) (by simpa using he)
        (by simpa using ha) (by simp) (.nil (by simp))
      simpa using this
  | cons c l ih =>
    rw [words]
    by_cases hc : Num.isSpace c = true
    · rw [if_pos hc]
      have h0 := ih [] (by simp)
      have h1 : Fields (c :: l) (words [] l) := by
        generalize words [] l = ws at h0
        rw [List.reverse_nil, List.nil_append] at h0
        cases h0 with
        | nil hs => exact .nil (by intro d hd; rcases List.mem_cons.1 hd with rfl | hd; exact hc; exact hs d hd)
        | @cons s w r ws hs hw hn hr hf =>
          have := Fields.cons (s := c :: s) (by intro d hd; rcases List.mem_cons.1 hd with rfl | hd; exact hc; exact hs d hd) hw hn hr hf
          simpa using this
      by_cases he : acc = []
      · rw [if_pos he, he]; exact h1
      · rw [if_neg he]
        have := Fields.cons (s := []) (w := acc.reverse) (r := c :: l) (by simp) (by simpa using he) (by simpa using ha)
          (by intro d hd; injection hd with hd; exact hd ▸ hc) h1
        simpa using this
    · rw [if_neg hc]
      have := ih (c :: acc) (by intro d hd; rcases List.mem_cons.1 hd with rfl | hd; simpa using hc; exact ha d hd)
      simpa using this

theorem fields_iff (l : Bytes) (ws : List Bytes) : Fields l ws ↔ words [] l = ws :=
  ⟨fields_words, fun h => h ▸ by simpa using words_fields l [] (by simp)⟩

/-! ### Lines -/

theorem blanks_split (l b r : Bytes) (hl : l = b ++ r) (hb : ∀ c ∈ b, c = 32 ∨ c = 9) (hr : ∀ c, r.head? = some c → c ≠ 32 ∧ c ≠ 9) :
    (l.dropWhile fun c => decide (c = 32 ∨ c = 9)) = r := by
  subst hl
  induction b with
  | nil =>
    cases r with
    | nil => rfl
    | cons c r =>
      have := hr c rfl
      rw [List.nil_append, List.dropWhile_cons_of_neg (by simpa using this)]
  | cons c b ih =>
    rw [List.cons_append, List.dropWhile_cons_of_pos (by simpa using hb c (by simp))]
    exact ih fun d hd => hb d (by simp [hd])

theorem skipped_iff (l : Bytes) : skipped (l.dropWhile fun c => c = 32 ∨ c = 9) = true ↔ Skipped l := by
  constructor
  · intro h
    refine ⟨l.takeWhile fun c => decide (c = 32 ∨ c = 9), l.dropWhile fun c => decide (c = 32 ∨ c = 9),
      (List.takeWhile_append_dropWhile).symm, ?_, ?_⟩
    · intro c hc
      have := List.all_eq_true.1 (List.all_takeWhile (p := fun c => decide (c = 32 ∨ c = 9)) (l := l)) c hc
      simpa using this
    · unfold skipped at h
      simp only [decide_eq_true_eq] at h
      rcases h with h | h | h | h
      · exact .inl h
      · obtain ⟨t, ht⟩ := List.head?_eq_some_iff.1 h
        exact .inr (.inl ⟨t, ht⟩)
      · obtain ⟨t, ht⟩ := List.head?_eq_some_iff.1 h
        exact .inr (.inr (.inl ⟨t, ht⟩))
      · obtain ⟨t, ht⟩ := List.isPrefixOf_iff_prefix.1 h
        exact .inr (.inr (.inr ⟨t, ht.symm⟩))
  · rintro ⟨b, r, hl, hb, hr⟩
    have e : (l.dropWhile fun c => decide (c = 32 ∨ c = 9)) = r := by
      refine blanks_split l b r hl hb fun c hc => ?_
      rcases hr with rfl | ⟨t, rfl⟩ | ⟨t, rfl⟩ | ⟨t, rfl⟩
      · cases hc
      · injection hc with hc; subst hc; decide
      · injection hc with hc; subst hc; decide
      · injection hc with hc; subst hc; decide
    rw [e]
    unfold skipped
    simp only [decide_eq_true_eq]
    rcases hr with rfl | ⟨t, rfl⟩ | ⟨t, rfl⟩ | ⟨t, rfl⟩
    · exact .inl rfl
    · exact .inr (.inl rfl)
    · exact .inr (.inr (.inl rfl))
    · exact .inr (.inr (.inr (List.isPrefixOf_iff_prefix.2 ⟨t, rfl⟩)))

theorem field_iff (w : Bytes) (x : Bool) (n : Bytes) : Field w x n ↔ sign w = (x, n) ∧ n ≠ [] := by
  constructor
  · intro h
    cases h with
    | bare h0 h1 h2 =>
      refine ⟨?_, h0⟩
      cases w with
      | nil => exact absurd rfl h0
      | cons c l =>
        rw [sign, if_neg (by simpa using h1), if_neg (by simpa using h2)]
    | plus h0 => exact ⟨rfl, h0⟩
    | minus h0 => exact ⟨rfl, h0⟩
  · rintro ⟨h, h0⟩
    cases w with
    | nil => rw [sign] at h; injection h with _ h; exact absurd h.symm h0
    | cons c l =>
      rw [sign] at h
      by_cases h1 : c = 45
      · rw [if_pos h1] at h; injection h with a b; subst a b h1; exact .minus h0
      rw [if_neg h1] at h
      by_cases h2 : c = 43
      · rw [if_pos h2] at h; injection h with a b; subst a b h2; exact .plus h0
      rw [if_neg h2] at h
      injection h with a b; subst a b
      exact .bare h0 (by simpa using h1) (by simpa using h2)

theorem head_cons {l : Bytes} {c : UInt8} : l.head? = some c ↔ ∃ t, l = c :: t := List.head?_eq_some_iff

theorem hostMatch_iff (G : Groups) (hostname ip n : Bytes) : hostMatch G hostname ip n = true ↔ HostIs G hostname ip n := by
  unfold hostMatch HostIs
  by_cases h : n.head? = some 64
  · rw [if_pos h]
    obtain ⟨t, rfl⟩ := head_cons.1 h
    simp
  · rw [if_neg h]
    have : ∀ g, n ≠ 64 :: g := fun g e => h (by rw [e]; rfl)
    simp [h, this]

theorem userMatch_iff (G : Groups) (client n : Bytes) : userMatch G client n = true ↔ UserIs G client n := by
  unfold userMatch UserIs
  by_cases h : n.head? = some 64
  · rw [if_pos h]
    obtain ⟨t, rfl⟩ := head_cons.1 h
    simp
  · rw [if_neg h]
    have : ∀ g, n ≠ 64 :: g := fun g e => h (by rw [e]; rfl)
    simp [h, this]

theorem verdict_iff (G : Groups) (hostname ip client h u : Bytes) (d : Bool) :
    lineVerdict G hostname ip client h u = some (!d) ↔
      ∃ x y n m, Field h x n ∧ Field u y m ∧ HostIs G hostname ip n ∧ UserIs G client m ∧ d = (x || y) := by
  unfold lineVerdict
  constructor
  · intro hv
    by_cases h0 : (sign h).2 = [] ∨ (sign u).2 = []
    · rw [if_pos h0] at hv; cases hv
    rw [if_neg h0] at hv
    by_cases h1 : hostMatch G hostname ip (sign h).2 = false
    · rw [if_pos h1] at hv; cases hv
    rw [if_neg h1] at hv
    by_cases h2 : userMatch G client (sign u).2 = false
    · rw [if_pos h2] at hv; cases hv
    rw [if_neg h2] at hv
    injection hv with hv
    refine ⟨(sign h).1, (sign u).1, (sign h).2, (sign u).2, (field_iff h _ _).2 ⟨rfl, fun e => h0 (.inl e)⟩,
      (field_iff u _ _).2 ⟨rfl, fun e => h0 (.inr e)⟩,
      (hostMatch_iff _ _ _ _).1 (by simpa using h1), (userMatch_iff _ _ _).1 (by simpa using h2), ?_⟩
    simpa using congrArg (!·) hv.symm
  · rintro ⟨x, y, n, m, h1, h2, h3, h4, rfl⟩
    obtain ⟨e1, n1⟩ := (field_iff _ _ _).1 h1
    obtain ⟨e2, n2⟩ := (field_iff _ _ _).1 h2
    rw [e1, e2]
    dsimp only
    rw [if_neg (by simp [n1, n2]), if_neg (by rw [(hostMatch_iff _ _ _ _).2 h3]; simp), if_neg (by rw [(userMatch_iff _ _ _).2 h4]; simp)]

theorem line_iff (G : Groups) (hostname ip client server l : Bytes) (d : Bool) :
    line G hostname ip client server l = some (!d) ↔ Entry G hostname ip client server l d := by
  unfold line
  constructor
  · intro h
    by_cases hs : skipped (l.dropWhile fun c => c = 32 ∨ c = 9) = true
    · rw [if_pos hs] at h; cases h
    rw [if_neg hs] at h
    have hs' : ¬ Skipped l := fun x => hs ((skipped_iff l).2 x)
    have hf := (fields_iff l (words [] l)).2 rfl
    generalize words [] l = ws at h hf
    match ws, h, hf with
    | [], h, _ => cases h
    | [a], h, hf =>
      obtain ⟨x, y, n, m, h1, h2, h3, h4, rfl⟩ := (verdict_iff G hostname ip client _ _ d).1 h
      exact .host hs' hf h1 h2 h3 h4
    | [a, b], h, hf =>
      obtain ⟨x, y, n, m, h1, h2, h3, h4, rfl⟩ := (verdict_iff G hostname ip client _ _ d).1 h
      exact .both hs' hf h1 h2 h3 h4
    | a :: b :: c :: t, h, _ => cases h
  · intro h
    cases h with
    | both hs hf h1 h2 h3 h4 =>
      rw [if_neg fun x => hs ((skipped_iff l).1 x), (fields_iff _ _).1 hf]
      exact (verdict_iff G hostname ip client _ _ _).2 ⟨_, _, _, _, h1, h2, h3, h4, rfl⟩
    | host hs hf h1 h2 h3 h4 =>
      rw [if_neg fun x => hs ((skipped_iff l).1 x), (fields_iff _ _).1 hf]
      exact (verdict_iff G hostname ip client _ _ _).2 ⟨_, _, _, _, h1, h2, h3, h4, rfl⟩

theorem lines_iff (G : Groups) (hostname ip client server : Bytes) (bs : List Bytes) :
    lines G hostname ip client server bs = true ↔ Grants G hostname ip client server (bs.map cut) := by
  induction bs with
  | nil =>
    rw [lines]
    refine ⟨nofun, ?_⟩
    rintro ⟨pre, l, post, e, _⟩
    simp at e
  | cons b bs ih =>
    rw [lines]
    cases h : line G hostname ip client server (cut b) with
    | some v =>
      dsimp only
      have hv : Entry G hostname ip client server (cut b) (!v) := (line_iff ..).1 (by rw [h]; simp)
      constructor
      · rintro rfl
        exact ⟨[], cut b, bs.map cut, rfl, hv, by simp⟩
      · rintro ⟨pre, l, post, e, he, hp⟩
        cases pre with
        | nil =>
          simp only [List.map_cons, List.nil_append, List.cons.injEq] at e
          obtain ⟨rfl, _⟩ := e
          have := (line_iff ..).2 he
          rw [h] at this
          simpa using this
        | cons p pre =>
          simp only [List.map_cons, List.cons_append, List.cons.injEq] at e
          obtain ⟨rfl, _⟩ := e
          exact absurd hv (hp _ (by simp) _)
    | none =>
      dsimp only
      have hn : ∀ d, ¬ Entry G hostname ip client server (cut b) d := by
        intro d hd
        have := (line_iff ..).2 hd
        rw [h] at this; cases this
      rw [ih]
      constructor
      · rintro ⟨pre, l, post, e, he, hp⟩
        refine ⟨cut b :: pre, l, post, by simp [e], he, ?_⟩
        intro p hp'
        rcases List.mem_cons.1 hp' with rfl | hp'
        · exact hn
        · exact hp p hp'
      · rintro ⟨pre, l, post, e, he, hp⟩
        cases pre with
        | nil =>
          simp only [List.map_cons, List.nil_append, List.cons.injEq] at e
          obtain ⟨rfl, _⟩ := e
          exact absurd he (hn _)
        | cons p pre =>
          simp only [List.map_cons, List.cons_append, List.cons.injEq] at e
          exact ⟨pre, l, post, e.2, he, fun q hq => hp q (by simp [hq])⟩

/-! ### Files -/

theorem checkFile_iff (F : Files) (G : Groups) (file hostname ip client server : Bytes) :
    checkFile F G file hostname ip client server = true ↔ FileGrants F G file hostname ip client server := by
  unfold checkFile FileGrants
  cases h : F.openf file with
  | none => simp
  | some v =>
    obtain ⟨st, content⟩ := v
    dsimp only
    cases hr : st.regular with
    | false =>
      rw [if_pos rfl]
      simp only [Bool.false_eq_true, Option.some.injEq, Prod.mk.injEq, false_iff]
      rintro ⟨st', c', ⟨rfl, _⟩, h, _⟩
      rw [hr] at h; cases h
    | true =>
      rw [if_neg (by simp), lines_iff]
      constructor
      · intro h; exact ⟨st, content, rfl, hr, h⟩
      · rintro ⟨st', c', e, _, h⟩
        injection e with e
        injection e with e1 e2
        subst e1 e2
        exact h

theorem private_iff (C : Conf) (pw : User) (st : Stat) :
    ¬ (C.strict = true ∧ badStat pw.uid st = true) ↔ Private C pw st := by
  unfold Private
  have := badStat_iff pw.uid st
  unfold UserKey.Owned at this
  rw [← this]
  cases C.strict <;> cases badStat pw.uid st <;> simp

theorem usable_iff (F : Files) (C : Conf) (pw : User) (n : Bytes) :
    usable F C pw n = true ↔ ∃ st, F.stat (pw.dir ++ b!"/" ++ n) = some st ∧ Private C pw st ∧
      (C.ignore = .no ∨ C.ignore = .shosts ∧ n = b!".shosts") := by
  unfold usable
  have e : pw.dir ++ b!"/" ++ n = pw.dir ++ 47 :: n := by simp
  rw [e]
  cases F.stat (pw.dir ++ 47 :: n) with
  | none => simp
  | some st =>
    dsimp only
    simp only [Option.some.injEq, exists_eq_left']
    rw [← private_iff]
    by_cases h : C.strict = true ∧ badStat pw.uid st = true
    · rw [if_pos h]
      simp [h]
    · rw [if_neg h]
      cases hi : C.ignore <;> simp [h]

/-- **C99 (who is trusted).**  Access is granted exactly if a file of the system does, unless the user is root, or a file of the
user that may be used, in each case by the first line that is an entry for this host and user; provided that files which can be
opened are found by `stat`. -/
theorem C99_trusted (F : Files) (G : Groups) (C : Conf) (pw : User) (client hostname ip : Bytes)
    (hs : ∀ f, (F.openf f).isSome = true → (F.stat f).isSome = true) :
    rhosts F G C pw client hostname ip = true ↔ Trusted F G C pw client hostname ip := by
  have e : ∀ n, pw.dir ++ b!"/" ++ n = pw.dir ++ 47 :: n := by simp
  have sys : systemFiles F G pw client hostname ip = true ↔ (pw.uid ≠ 0 ∧ ∃ f, (f = b!"/etc/hosts.equiv" ∨
      f = b!"/etc/ssh/shosts.equiv") ∧ FileGrants F G f hostname ip client pw.name) := by
    unfold systemFiles
    by_cases h : pw.uid = 0
    · rw [if_pos h]; simp [h]
    rw [if_neg h]
    cases h1 : checkFile F G b!"/etc/hosts.equiv" hostname ip client pw.name with
    | true =>
      rw [if_pos rfl]
      exact ⟨fun _ => ⟨h, _, .inl rfl, (checkFile_iff ..).1 h1⟩, fun _ => rfl⟩
    | false =>
      rw [if_neg (by simp), checkFile_iff]
      constructor
      · intro x; exact ⟨h, _, .inr rfl, x⟩
      · rintro ⟨_, f, rfl | rfl, x⟩
        · rw [(checkFile_iff ..).2 x] at h1; cases h1
        · exact x
  have user : userFiles F G C pw client hostname ip [b!".shosts", b!".rhosts"] = true ↔
      ∃ n st, (n = b!".shosts" ∧ C.ignore ≠ .yes ∨ n = b!".rhosts" ∧ C.ignore = .no) ∧
        F.stat (pw.dir ++ b!"/" ++ n) = some st ∧ Private C pw st ∧
        FileGrants F G (pw.dir ++ b!"/" ++ n) hostname ip client pw.name := by
    simp only [userFiles]
    constructor
    · intro h
      by_cases h1 : usable F C pw b!".shosts" = true ∧ checkFile F G (pw.dir ++ 47 :: b!".shosts") hostname ip client pw.name = true
      · obtain ⟨st, a1, a2, a3⟩ := (usable_iff F C pw _).1 h1.1
        refine ⟨b!".shosts", st, .inl ⟨rfl, ?_⟩, a1, a2, by rw [e]; exact (checkFile_iff ..).1 h1.2⟩
        rcases a3 with a3 | a3
        · rw [a3]; decide
        · rw [a3.1]; decide
      · rw [if_neg h1] at h
        by_cases h2 : usable F C pw b!".rhosts" = true ∧ checkFile F G (pw.dir ++ 47 :: b!".rhosts") hostname ip client pw.name = true
        · obtain ⟨st, a1, a2, a3⟩ := (usable_iff F C pw _).1 h2.1
          refine ⟨b!".rhosts", st, .inr ⟨rfl, ?_⟩, a1, a2, by rw [e]; exact (checkFile_iff ..).1 h2.2⟩
          rcases a3 with a3 | a3
          · exact a3
          · exact absurd a3.2 (by decide)
        · rw [if_neg h2] at h; cases h
    · rintro ⟨n, st, hn, h1, h2, h3⟩
      rw [e] at h3
      have hu : usable F C pw n = true := (usable_iff F C pw n).2 ⟨st, h1, h2, by
        rcases hn with ⟨rfl, hi⟩ | ⟨rfl, hi⟩
        · cases hc : C.ignore
          · exact .inl rfl
          · exact absurd hc hi
          · exact .inr ⟨rfl, rfl⟩
        · exact .inl hi⟩
      have hc := (checkFile_iff ..).2 h3
      rcases hn with ⟨rfl, _⟩ | ⟨rfl, _⟩
      · rw [if_pos ⟨hu, hc⟩]
      · by_cases hx : usable F C pw b!".shosts" = true ∧ checkFile F G (pw.dir ++ 47 :: b!".shosts") hostname ip client pw.name = true
        · rw [if_pos hx]
        · rw [if_neg hx, if_pos ⟨hu, hc⟩]
  have home : homeOk F C pw = true ↔ ∃ sh, F.stat pw.dir = some sh ∧ Private C pw sh := by
    unfold homeOk
    cases F.stat pw.dir with
    | none => simp
    | some st =>
      simp only [Option.some.injEq, exists_eq_left']
      rw [← private_iff]
      cases C.strict <;> cases badStat pw.uid st <;> simp
  have grants_stat : ∀ f, FileGrants F G f hostname ip client pw.name → F.stat f ≠ none := by
    rintro f ⟨st, c, h, _⟩ hn
    have := hs f (by rw [h]; rfl)
    rw [hn] at this; cases this
  unfold rhosts Trusted
  by_cases h0 : noFiles F pw = true
  · rw [if_pos h0]
    unfold noFiles at h0
    simp only [decide_eq_true_eq] at h0
    simp only [Bool.false_eq_true, false_iff]
    rintro (⟨_, f, rfl | rfl, h⟩ | ⟨sh, _, _, n, st, hn, h, _⟩)
    · exact grants_stat _ h h0.2.2.1
    · exact grants_stat _ h h0.2.2.2
    · rw [e] at h
      rcases hn with ⟨rfl, _⟩ | ⟨rfl, _⟩
      · rw [h0.1] at h; cases h
      · rw [h0.2.1] at h; cases h
  rw [if_neg h0]
  by_cases h1 : systemFiles F G pw client hostname ip = true
  · rw [if_pos h1]
    exact ⟨fun _ => .inl (sys.1 h1), fun _ => rfl⟩
  rw [if_neg h1]
  by_cases h2 : homeOk F C pw = false
  · rw [if_pos h2]
    simp only [Bool.false_eq_true, false_iff]
    rintro (h | ⟨sh, a, b, _⟩)
    · exact h1 (sys.2 h)
    · rw [home.2 ⟨sh, a, b⟩] at h2; cases h2
  rw [if_neg h2, user]
  obtain ⟨sh, a, b⟩ := home.1 (by simpa using h2)
  constructor
  · intro h; exact .inr ⟨sh, a, b, h⟩
  · rintro (h | ⟨_, _, _, h⟩)
    · exact absurd (sys.2 h) h1
    · exact h

/-! ### Pieces and lines -/

theorem pieces_line (l : Bytes) (n : Nat) (acc r : Bytes) (hl : ∀ c ∈ l, c ≠ 10) (hn : l.length ≤ n) :
    pieces n acc (l ++ 10 :: r) = (acc.reverse ++ l ++ [10]) :: pieces 1022 [] r := by
  induction l generalizing n acc with
  | nil =>
    cases n with
    | zero => simp [pieces]
    | succ n => simp [pieces]
  | cons c l ih =>
    cases n with
    | zero => simp at hn
    | succ n =>
      rw [List.cons_append, pieces, if_neg (hl c (by simp)), ih n _ (fun d hd => hl d (by simp [hd])) (by simp at hn; omega)]
      simp

/-- **C99 (lines).**  If no line has more than 1022 bytes besides the newline, the pieces are the lines. -/
theorem C99_lines (ls : List Bytes) (h : ∀ l ∈ ls, (10 : UInt8) ∉ l ∧ l.length ≤ 1022) :
    pieces 1022 [] (ls.flatMap fun l => l ++ [10]) = ls.map fun l => l ++ [10] := by
  induction ls with
  | nil => rfl
  | cons l ls ih =>
    obtain ⟨h1, h2⟩ := h l (by simp)
    rw [List.flatMap_cons, List.append_assoc, List.singleton_append,
      pieces_line l 1022 [] _ (fun c hc e => h1 (e ▸ hc)) h2, ih fun x hx => h x (by simp [hx])]
    simp

end Verif.HostBased
