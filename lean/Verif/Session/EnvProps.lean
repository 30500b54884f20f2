/-
Theorems about the environment of a session (C104).
-/
import Verif.Session.Spec
import Verif.Match.Props

namespace Verif.Session
open Verif

/-! ### The array -/

private def enc (a : Bytes × Bytes) : Bytes := a.1 ++ [61] ++ a.2

private def upsert (n v : Bytes) : List (Bytes × Bytes) → List (Bytes × Bytes)
  | [] => [(n, v)]
  | a :: l => if a.1 = n then (n, v) :: l else a :: upsert n v l

private def look (n : Bytes) : List (Bytes × Bytes) → Option Bytes
  | [] => none
  | a :: l => if a.1 = n then some a.2 else look n l

theorem isFor_enc (name n v : Bytes) (h1 : 61 ∉ name) (h2 : 61 ∉ n) : isFor name (n ++ [61] ++ v) = true ↔ n = name := by
  unfold isFor
  simp only [decide_eq_true_eq]
  constructor
  · rintro ⟨ht, hd⟩
    rcases Nat.lt_trichotomy name.length n.length with hlt | heq | hgt
    · exfalso
      rw [List.append_assoc, List.drop_append_of_le_length (by omega)] at hd
      cases hx : n.drop name.length with
      | nil => have := congrArg List.length hx; simp at this; omega
      | cons x l =>
        rw [hx] at hd
        have : x = 61 := by simpa using hd
        apply h2
        rw [← List.take_append_drop name.length n, hx, this]
        simp
    · rw [List.append_assoc, heq, List.take_left] at ht
      exact ht
    · exfalso
      apply h1
      rw [← ht]
      have : (n ++ [61] ++ v).take name.length = n ++ [61] ++ v.take (name.length - (n.length + 1)) := by
        rw [List.take_append, List.take_of_length_le (by simp; omega)]; simp
      rw [this]
      simp
  · rintro rfl
    rw [List.append_assoc, List.take_left, List.drop_left]
    simp

private theorem replace_enc (n v : Bytes) (hn : 61 ∉ n) (A : List (Bytes × Bytes)) (hA : ∀ a ∈ A, 61 ∉ a.1) :
    replace n v (A.map enc) = if n ∈ A.map (·.1) then some ((upsert n v A).map enc) else none := by
  induction A with
  | nil => simp [replace]
  | cons a A ih =>
    have ha := hA a List.mem_cons_self
    have ih := ih fun b hb => hA b (List.mem_cons_of_mem _ hb)
    simp only [List.map_cons, replace]
    by_cases he : a.1 = n
    · have : isFor n (enc a) = true := (isFor_enc n a.1 a.2 hn ha).2 he
      rw [if_pos this, if_pos (by simp [he]), upsert, if_pos he]; rfl
    · have : isFor n (enc a) = false := by
        cases hb : isFor n (enc a) with
        | false => rfl
        | true => exact absurd ((isFor_enc n a.1 a.2 hn ha).1 hb) he
      rw [this, ih]
      simp only [Bool.false_eq_true, if_false, upsert, he, List.mem_cons]
      by_cases hm : n ∈ A.map (·.1)
      · simp [hm]
      · simp only [hm, if_false]
        rw [if_neg]
        · rfl
        · rintro (h | h)
          · exact he h.symm
          · exact h

private theorem upsert_new (n v : Bytes) (A : List (Bytes × Bytes)) (h : n ∉ A.map (·.1)) : upsert n v A = A ++ [(n, v)] := by
  induction A with
  | nil => rfl
  | cons a A ih =>
    simp only [List.map_cons, List.mem_cons, not_or] at h
    rw [upsert, if_neg (fun e => h.1 e.symm), ih h.2]; rfl

private theorem upsert_len (n v : Bytes) (A : List (Bytes × Bytes)) (h : n ∈ A.map (·.1)) : (upsert n v A).length = A.length := by
  induction A with
  | nil => simp at h
  | cons a A ih =>
    rw [upsert]
    split
    · rfl
    · rename_i hne
      have : n ∈ A.map (·.1) := by
        simp only [List.map_cons, List.mem_cons] at h
        rcases h with h | h
        · exact absurd h.symm hne
        · exact h
      simp [ih this]

private theorem upsert_mem (n v : Bytes) (A : List (Bytes × Bytes)) : ∀ a ∈ upsert n v A, a = (n, v) ∨ a ∈ A := by
  induction A with
  | nil => intro a ha; left; simpa [upsert] using ha
  | cons b A ih =>
    intro a ha
    rw [upsert] at ha
    split at ha
    · rcases List.mem_cons.1 ha with h | h
      · exact Or.inl h
      · exact Or.inr (List.mem_cons_of_mem _ h)
    · rcases List.mem_cons.1 ha with h | h
      · exact Or.inr (h ▸ List.mem_cons_self)
      · rcases ih a h with h | h
        · exact Or.inl h
        · exact Or.inr (List.mem_cons_of_mem _ h)

private theorem upsert_names (n v : Bytes) (A : List (Bytes × Bytes)) (h : (A.map (·.1)).Nodup) :
    ((upsert n v A).map (·.1)).Nodup := by
  induction A with
  | nil => simp [upsert]
  | cons a A ih =>
    simp only [List.map_cons, List.nodup_cons] at h
    rw [upsert]
    split
    · rename_i he
      simp only [List.map_cons, List.nodup_cons]
      exact ⟨he ▸ h.1, h.2⟩
    · rename_i he
      simp only [List.map_cons, List.nodup_cons]
      refine ⟨?_, ih h.2⟩
      intro hm
      rw [List.mem_map] at hm
      obtain ⟨b, hb, hb'⟩ := hm
      rcases upsert_mem n v A b hb with h' | h'
      · subst h'; exact he hb'.symm
      · exact h.1 (List.mem_map.2 ⟨b, h', hb'⟩)

private theorem look_upsert (n v name : Bytes) (A : List (Bytes × Bytes)) :
    look name (upsert n v A) = if name = n then some v else look name A := by
  induction A with
  | nil => simp [upsert, look, eq_comm]
  | cons a A ih =>
    rw [upsert]
    by_cases he : a.1 = n
    · rw [if_pos he]
      by_cases hn : name = n
      · simp [look, hn]
      · have : ¬ a.1 = name := fun h => hn (h.symm.trans he)
        simp [look, hn, this, Ne.symm hn]
    · rw [if_neg he]
      by_cases ha : a.1 = name
      · have : ¬ name = n := fun h => he (ha.trans h)
        simp [look, ha, this]
      · simp [look, ha, ih]

private theorem getenv_enc (name : Bytes) (hn : 61 ∉ name) (A : List (Bytes × Bytes)) (hA : ∀ a ∈ A, 61 ∉ a.1) :
    getenv name (A.map enc) = look name A := by
  induction A with
  | nil => rfl
  | cons a A ih =>
    have ha := hA a List.mem_cons_self
    simp only [List.map_cons, getenv, look]
    by_cases he : a.1 = name
    · have : isFor name (enc a) = true := (isFor_enc name a.1 a.2 hn ha).2 he
      rw [if_pos this, if_pos he]
      subst he
      simp [enc, List.append_assoc, List.drop_append]
    · have : isFor name (enc a) = false := by
        cases hb : isFor name (enc a) with
        | false => rfl
        | true => exact absurd ((isFor_enc name a.1 a.2 hn ha).1 hb) he
      simp only [this, Bool.false_eq_true, if_false, if_neg he]
      exact ih fun b hb => hA b (List.mem_cons_of_mem _ hb)

/-- What holds of the array after the assignments `as`. -/
private structure Inv (as : List (Bytes × Bytes)) (E : Env) (A : List (Bytes × Bytes)) : Prop where
  slots : E.slots = A.map enc
  names : ∀ a ∈ A, 61 ∉ a.1
  once : (A.map (·.1)).Nodup
  room : A.length + 1 ≤ E.size
  fifty : E.size % 50 = 0
  most : E.size ≤ 1000
  few : A.length ≤ as.length
  last : ∀ name, 61 ∉ name → look name A = lastFor name as

private theorem lastFor_snoc (name n v : Bytes) (as : List (Bytes × Bytes)) :
    lastFor name (as ++ [(n, v)]) = if name = n then some v else lastFor name as := by
  unfold lastFor
  rw [List.filter_append]
  by_cases h : n = name
  · subst h; simp
  · simp [h, Ne.symm h]

private theorem setEnv_inv {as : List (Bytes × Bytes)} {E : Env} {A : List (Bytes × Bytes)} (h : Inv as E A) (n v : Bytes) :
    (setEnv n v E = .fatal ∧ 999 ≤ as.length) ∨ ∃ E' A', setEnv n v E = .ok E' ∧ Inv (as ++ [(n, v)]) E' A' := by
  unfold setEnv
  by_cases hn : 61 ∈ n
  · right
    refine ⟨E, A, by rw [if_pos hn], ⟨h.slots, h.names, h.once, h.room, h.fifty, h.most, ?_, ?_⟩⟩
    · have := h.few; simp; omega
    · intro name hname
      rw [lastFor_snoc, if_neg (by rintro rfl; exact hname hn)]
      exact h.last name hname
  · rw [if_neg hn, h.slots, replace_enc n v hn A h.names]
    have hlast : ∀ name, 61 ∉ name → look name (upsert n v A) = lastFor name (as ++ [(n, v)]) := by
      intro name hname
      rw [look_upsert, lastFor_snoc, h.last name hname]
    have hnames : ∀ a ∈ upsert n v A, 61 ∉ a.1 := by
      intro a ha
      rcases upsert_mem n v A a ha with rfl | ha
      · exact hn
      · exact h.names a ha
    by_cases hm : n ∈ A.map (·.1)
    · right
      simp only [hm, if_true]
      have hl := upsert_len n v A hm
      refine ⟨_, upsert n v A, rfl, ⟨rfl, hnames, upsert_names n v A h.once, ?_, h.fifty, h.most, ?_, hlast⟩⟩
      · rw [hl]; exact h.room
      · rw [hl]; have := h.few; simp; omega
    · simp only [hm, if_false]
      have hnew := upsert_new n v A hm
      have hl : (upsert n v A).length = A.length + 1 := by rw [hnew]; simp
      have henc : A.map enc ++ [n ++ [61] ++ v] = (upsert n v A).map enc := by rw [hnew, List.map_append]; rfl
      have hr := h.room
      have h5 := h.fifty
      have hmost := h.most
      have hfew := h.few
      rw [List.length_map]
      by_cases hge : A.length ≥ E.size - 1
      · rw [if_pos hge]
        by_cases hbig : E.size ≥ 1000
        · left; rw [if_pos hbig]; exact ⟨rfl, by omega⟩
        · right
          rw [if_neg hbig, if_neg (by omega)]
          refine ⟨_, upsert n v A, rfl, ⟨henc, hnames, upsert_names n v A h.once, ?_, ?_, ?_, ?_, hlast⟩⟩
          · show _ ≤ E.size + 50; omega
          · show (E.size + 50) % 50 = 0; omega
          · show E.size + 50 ≤ 1000; omega
          · rw [hl]; simp; omega
      · right
        rw [if_neg hge, if_neg (by omega)]
        refine ⟨_, upsert n v A, rfl, ⟨henc, hnames, upsert_names n v A h.once, ?_, h5, hmost, ?_, hlast⟩⟩
        · rw [hl]; show _ ≤ E.size; omega
        · rw [hl]; simp; omega

private theorem setAll_inv (l : List (Bytes × Bytes)) : ∀ {as : List (Bytes × Bytes)} {E : Env} {A : List (Bytes × Bytes)},
    Inv as E A → (setAll l E = .fatal ∧ 999 < as.length + l.length) ∨ ∃ E' A', setAll l E = .ok E' ∧ Inv (as ++ l) E' A' := by
  induction l with
  | nil => intro as E A h; right; exact ⟨E, A, rfl, by simpa using h⟩
  | cons a l ih =>
    intro as E A h
    obtain ⟨n, v⟩ := a
    rw [setAll]
    rcases setEnv_inv h n v with ⟨h1, h2⟩ | ⟨E1, A1, h1, h2⟩
    · left; rw [h1]; exact ⟨rfl, by simp; omega⟩
    · rw [h1]
      rcases ih h2 with ⟨g1, g2⟩ | ⟨E2, A2, g1, g2⟩
      · left; exact ⟨g1, by simp at g2 ⊢; omega⟩
      · right; exact ⟨E2, A2, g1, by simpa using g2⟩

private theorem inv0 : Inv [] ⟨[], 100⟩ [] :=
  ⟨rfl, by simp, by simp, by decide, by decide, by decide, by decide, fun _ _ => rfl⟩

/-! ### Where the variables come from -/

theorem cutEq_iff (l n v : Bytes) : cutEq l = some (n, v) ↔ l = n ++ [61] ++ v ∧ 61 ∉ n := by
  unfold cutEq
  constructor
  · intro h
    split at h
    · rename_i hm
      have hx := List.takeWhile_append_dropWhile (p := fun c => decide (c ≠ 61)) (l := l)
      have hn : 61 ∉ l.takeWhile (fun c => decide (c ≠ 61)) := by
        intro hc
        have := List.all_eq_true.1 (List.all_takeWhile (p := fun c : UInt8 => decide (c ≠ 61)) (l := l)) 61 hc
        simp at this
      cases hd : l.dropWhile (fun c => decide (c ≠ 61)) with
      | nil => rw [hd, List.append_nil] at hx; rw [hx] at hn; exact absurd hm hn
      | cons x t =>
        have hx61 : x = 61 := by
          have := List.head?_dropWhile_not (fun c : UInt8 => decide (c ≠ 61)) l
          rw [hd] at this
          simpa using this
        rw [hd] at h hx
        simp only [List.drop_succ_cons, List.drop_zero, Option.some.injEq, Prod.mk.injEq] at h
        obtain ⟨rfl, rfl⟩ := h
        exact ⟨by rw [hx61] at hx; rw [List.append_assoc]; exact hx.symm, hn⟩
    · cases h
  · rintro ⟨rfl, hn⟩
    rw [if_pos (by simp)]
    have hall : ∀ c ∈ n, decide (c ≠ 61) = true := by
      intro c hc; simp; rintro rfl; exact hn hc
    rw [List.append_assoc, List.takeWhile_append_of_pos hall, List.dropWhile_append_of_pos hall]
    simp

/-- **C104.** A variable from a key: `name=value`, the name allowed. -/
theorem C104_keyVar (allow : Option Bytes) (e n v : Bytes) :
    keyVar allow e = some (n, v) ↔ e = n ++ [61] ++ v ∧ 61 ∉ n ∧ (∀ pats, allow = some pats → Match.matchPatternList n pats false = 1) := by
  unfold keyVar
  constructor
  · intro h
    split at h
    · cases h
    · rename_i n' v' hc
      obtain ⟨h1, h2⟩ := (cutEq_iff e n' v').1 hc
      split at h
      · cases h; exact ⟨h1, h2, by simp⟩
      · split at h
        · rename_i hm; cases h; exact ⟨h1, h2, by rintro p hp; cases hp; exact hm⟩
        · cases h
  · rintro ⟨h1, h2, h3⟩
    rw [(cutEq_iff e n v).2 ⟨h1, h2⟩]
    simp only
    cases allow with
    | none => rfl
    | some pats => simp only [h3 pats rfl, if_true]

/-- **C104.** A variable from a line of a file. -/
theorem C104_line (allow : Option Bytes) (line n v : Bytes) : envLine allow line = some (n, v) ↔ Assigns allow line n v := by
  have key : ∀ t : Bytes, 0 ∉ t →
      ((∃ blanks, (∀ c ∈ blanks, c = 32 ∨ c = 9) ∧ t = blanks ++ n ++ [61] ++ v ∧ 61 ∉ n ∧
        (∀ c, n.head? = some c → c ≠ 32 ∧ c ≠ 9 ∧ c ≠ 35) ∧ (∀ pats, allow = some pats → Match.matchPatternList n pats false = 1)) ↔
      (match t.dropWhile (fun c => decide (c = 32 ∨ c = 9)) with
        | [] => none
        | c :: l => if c = 35 then none else keyVar allow (c :: l)) = some (n, v)) := by
    intro t _
    constructor
    · rintro ⟨blanks, hb, rfl, hn, hh, ha⟩
      have hall : ∀ c ∈ blanks, decide (c = 32 ∨ c = 9) = true := by intro c hc; simpa using hb c hc
      have hd : (blanks ++ n ++ [61] ++ v).dropWhile (fun c => decide (c = 32 ∨ c = 9)) = n ++ [61] ++ v := by
        rw [List.append_assoc, List.append_assoc, List.dropWhile_append_of_pos hall, ← List.append_assoc]
        cases n with
        | nil => simp
        | cons c n =>
          have := hh c rfl
          simp [this.1, this.2.1]
      rw [hd]
      have hk := (C104_keyVar allow (n ++ [61] ++ v) n v).2 ⟨rfl, hn, ha⟩
      cases n with
      | nil => simpa using hk
      | cons c n =>
        have := hh c rfl
        simp only [List.cons_append, this.2.2, if_false]
        exact hk
    · intro h
      have hx := List.takeWhile_append_dropWhile (p := fun c => decide (c = 32 ∨ c = 9)) (l := t)
      cases hd : t.dropWhile (fun c => decide (c = 32 ∨ c = 9)) with
      | nil => rw [hd] at h; cases h
      | cons c l =>
        have hc : ¬ (c = 32 ∨ c = 9) := by
          have := List.head?_dropWhile_not (fun c : UInt8 => decide (c = 32 ∨ c = 9)) t
          rw [hd] at this
          simpa using this
        rw [hd] at h hx
        simp only at h
        split at h
        · cases h
        · rename_i h35
          obtain ⟨h1, h2, h3⟩ := (C104_keyVar allow (c :: l) n v).1 h
          refine ⟨t.takeWhile (fun c => decide (c = 32 ∨ c = 9)), ?_, ?_, h2, ?_, h3⟩
          · intro d hd'
            have := List.all_eq_true.1 (List.all_takeWhile (p := fun c : UInt8 => decide (c = 32 ∨ c = 9)) (l := t)) d hd'
            simpa using this
          · rw [h1] at hx; simp only [List.append_assoc] at hx ⊢; exact hx.symm
          · intro d hd'
            have : d = c := by
              have := congrArg List.head? h1
              cases n with
              | nil => simp at hd'
              | cons x n => simp at this hd'; rw [← hd', this]
            rw [this]
            exact ⟨fun e => hc (Or.inl e), fun e => hc (Or.inr e), h35⟩
  have hmodel : envLine allow line = (match (line.takeWhile (· ≠ 0)).dropWhile (fun c => decide (c = 32 ∨ c = 9)) with
        | [] => none
        | c :: l => if c = 35 then none else keyVar allow (c :: l)) := by
    unfold envLine keyVar
    cases (line.takeWhile (· ≠ 0)).dropWhile (fun c => decide (c = 32 ∨ c = 9)) <;> rfl
  have h0 : 0 ∉ line.takeWhile (fun c => decide (c ≠ 0)) := by
    intro hc
    have := List.all_eq_true.1 (List.all_takeWhile (p := fun c : UInt8 => decide (c ≠ 0)) (l := line)) 0 hc
    simp at this
  rw [hmodel, ← key _ h0]
  unfold Assigns
  have hline : line = line.takeWhile (fun c => decide (c ≠ 0)) ∨ ∃ t, line = line.takeWhile (fun c => decide (c ≠ 0)) ++ 0 :: t := by
    have hx := List.takeWhile_append_dropWhile (p := fun c => decide (c ≠ 0)) (l := line)
    cases hd : line.dropWhile (fun c => decide (c ≠ 0)) with
    | nil => left; rw [hd, List.append_nil] at hx; exact hx.symm
    | cons c t =>
      right
      have : c = 0 := by
        have := List.head?_dropWhile_not (fun c : UInt8 => decide (c ≠ 0)) line
        rw [hd] at this
        simpa using this
      rw [hd, this] at hx
      exact ⟨t, hx.symm⟩
  constructor
  · rintro ⟨blanks, hb, he, hn, hh, ha⟩
    refine ⟨blanks, hb, ?_, ?_, ?_, hn, hh, ha⟩
    · rcases hline with h | ⟨t, h⟩
      · left; rw [h]; exact he
      · right; exact ⟨t, by rw [h, ← he]⟩
    · intro hm; apply h0; rw [he]; simp [hm]
    · intro hm; apply h0; rw [he]; simp [hm]
  · rintro ⟨blanks, hb, he, hn0, hv0, hn, hh, ha⟩
    have hb0 : 0 ∉ blanks := by intro hm; rcases hb 0 hm with h | h <;> revert h <;> decide
    have hno : ∀ c ∈ blanks ++ n ++ [61] ++ v, decide (c ≠ 0) = true := by
      intro c hc
      simp only [List.mem_append, List.mem_singleton] at hc
      simp only [ne_eq, decide_not, Bool.not_eq_eq_eq_not, Bool.not_true, decide_eq_false_iff_not]
      rintro rfl
      rcases hc with ((hc | hc) | hc) | hc
      · exact hb0 hc
      · exact hn0 hc
      · revert hc; decide
      · exact hv0 hc
    refine ⟨blanks, hb, ?_, hn, hh, ha⟩
    rcases he with rfl | ⟨t, rfl⟩
    · have := List.takeWhile_append_of_pos (l₂ := []) hno
      simpa using this
    · rw [List.takeWhile_append_of_pos hno]; simp

/-- The variables of the user: from the key, then from the file. -/
def userVars (S : Src) : List (Bytes × Bytes) :=
  if S.userEnv then
    S.keyEnv.filterMap (keyVar S.userEnvAllow) ++
    (match S.file (envFileName S) with
     | none => []
     | some t => (fileLines t).filterMap (envLine S.userEnvAllow))
  else []

/-- All assignments, in the order in which they are made. -/
def assignments (S : Src) (L : Launch) (admin : List (Bytes × Bytes)) : List (Bytes × Bytes) :=
  basic S L.s ++ userVars S ++ (if S.usePam then S.pam.filterMap pamVar else []) ++ admin ++ connVars S L

private theorem admin_iff (l : List Bytes) (as : List (Bytes × Bytes)) :
    adminVars l = some as ↔ l = as.map (fun a => a.1 ++ [61] ++ a.2) ∧ ∀ a ∈ as, 61 ∉ a.1 := by
  induction l generalizing as with
  | nil =>
    constructor
    · intro h; cases h; simp
    · rintro ⟨h, -⟩
      cases as with
      | nil => rfl
      | cons a as => cases h
  | cons e l ih =>
    rw [adminVars]
    constructor
    · intro h
      split at h
      · cases h
      · rename_i p hc
        obtain ⟨n, v⟩ := p
        rw [Option.map_eq_some_iff] at h
        obtain ⟨as', h1, rfl⟩ := h
        obtain ⟨h2, h3⟩ := (ih as').1 h1
        obtain ⟨h4, h5⟩ := (cutEq_iff e n v).1 hc
        refine ⟨by rw [List.map_cons, ← h2, ← h4], ?_⟩
        intro a ha
        rcases List.mem_cons.1 ha with rfl | ha
        · exact h5
        · exact h3 a ha
    · rintro ⟨h1, h2⟩
      cases as with
      | nil => cases h1
      | cons a as =>
        rw [List.map_cons] at h1
        injection h1 with h3 h4
        have hc := (cutEq_iff e a.1 a.2).2 ⟨h3, h2 a List.mem_cons_self⟩
        rw [hc]
        simp only
        rw [(ih as).2 ⟨h4, fun b hb => h2 b (List.mem_cons_of_mem _ hb)⟩]
        rfl

private theorem bind_ok (x : Env) (f : Env → R Env) : (R.ok x).bind f = f x := rfl

/-- What the setting up of an environment comes to. -/
private theorem setupEnv_inv (S : Src) (L : Launch) :
    setupEnv S L ≠ .overrun ∧
    (∀ E, setupEnv S L = .ok E → ∃ admin A, adminVars S.setenv = some admin ∧ Inv (assignments S L admin) E A) ∧
    (∀ admin, adminVars S.setenv = some admin → (assignments S L admin).length ≤ 999 →
      (∀ t, S.userEnv = true → S.file (envFileName S) = some t → (fileLines t).length ≤ 1000) → ∃ E, setupEnv S L = .ok E) := by
  unfold setupEnv
  have hlenA : ∀ admin, (assignments S L admin).length = (basic S L.s).length + (userVars S).length +
      (if S.usePam then S.pam.filterMap pamVar else []).length + admin.length + (connVars S L).length := by
    intro admin; unfold assignments; simp only [List.length_append]
  rcases setAll_inv (basic S L.s) inv0 with ⟨h1, h1'⟩ | ⟨E1, A1, h1, i1⟩
  · rw [h1]
    refine ⟨by simp [R.bind], fun E h => by simp [R.bind] at h, fun admin _ hl _ => ?_⟩
    rw [hlenA] at hl; simp at h1'; omega
  rw [h1]
  simp only [bind_ok]
  rw [List.nil_append] at i1
  -- the user's variables
  have huser : ((setAll (if S.userEnv then S.keyEnv.filterMap (keyVar S.userEnvAllow) else []) E1).bind fun E =>
      if S.userEnv then readEnvFile S.userEnvAllow (S.file (envFileName S)) E else .ok E) = .fatal ∧
        (999 < (basic S L.s).length + (userVars S).length ∨
          ∃ t, S.userEnv = true ∧ S.file (envFileName S) = some t ∧ 1000 < (fileLines t).length) ∨
      ∃ E A, ((setAll (if S.userEnv then S.keyEnv.filterMap (keyVar S.userEnvAllow) else []) E1).bind fun E =>
        if S.userEnv then readEnvFile S.userEnvAllow (S.file (envFileName S)) E else .ok E) = .ok E ∧
          Inv (basic S L.s ++ userVars S) E A := by
    cases hu : S.userEnv with
    | false => right; exact ⟨E1, A1, rfl, by simpa [userVars, hu] using i1⟩
    | true =>
      simp only [if_true]
      rcases setAll_inv (S.keyEnv.filterMap (keyVar S.userEnvAllow)) i1 with ⟨h2, h2'⟩ | ⟨E2, A2, h2, i2⟩
      · left
        rw [h2]
        refine ⟨rfl, Or.inl ?_⟩
        unfold userVars; rw [if_pos hu, List.length_append]; omega
      · rw [h2]
        simp only [bind_ok]
        unfold readEnvFile
        cases hf : S.file (envFileName S) with
        | none => right; exact ⟨E2, A2, rfl, by simpa [userVars, hu, hf] using i2⟩
        | some t =>
          simp only
          by_cases hl : (fileLines t).length > 1000
          · left
            rw [if_pos hl]
            refine ⟨?_, Or.inr ⟨t, by trivial, rfl, hl⟩⟩
            rcases setAll_inv (((fileLines t).take 1000).filterMap (envLine S.userEnvAllow)) i2 with ⟨h3, -⟩ | ⟨E3, A3, h3, i3⟩
            · rw [h3]; rfl
            · rw [h3]; rfl
          · rw [if_neg hl]
            rcases setAll_inv ((fileLines t).filterMap (envLine S.userEnvAllow)) i2 with ⟨h3, h3'⟩ | ⟨E3, A3, h3, i3⟩
            · left
              refine ⟨h3, Or.inl ?_⟩
              unfold userVars; rw [if_pos hu, hf, List.length_append]
              simp only [List.length_append] at h3' ⊢; omega
            · right
              exact ⟨E3, A3, h3, by simpa [userVars, hu, hf, List.append_assoc] using i3⟩
  have hassoc : ∀ (g : Env → R Env), ((setAll (if S.userEnv then S.keyEnv.filterMap (keyVar S.userEnvAllow) else []) E1).bind fun E =>
      (if S.userEnv then readEnvFile S.userEnvAllow (S.file (envFileName S)) E else .ok E).bind g) =
      ((setAll (if S.userEnv then S.keyEnv.filterMap (keyVar S.userEnvAllow) else []) E1).bind fun E =>
        if S.userEnv then readEnvFile S.userEnvAllow (S.file (envFileName S)) E else .ok E).bind g := by
    intro g
    cases setAll (if S.userEnv then S.keyEnv.filterMap (keyVar S.userEnvAllow) else []) E1 <;> rfl
  show _ ∧ _ ∧ _
  have hgoal := hassoc (fun E => (setAll (if S.usePam then S.pam.filterMap pamVar else []) E).bind fun E => finish S L E)
  rw [hgoal]
  rcases huser with ⟨h2, h2'⟩ | ⟨E2, A2, h2, i2⟩
  · rw [h2]
    refine ⟨by simp [R.bind], fun E h => by simp [R.bind] at h, fun admin _ hl hf => ?_⟩
    exfalso
    rcases h2' with h2' | ⟨t, ht, ht', h2'⟩
    · rw [hlenA] at hl; omega
    · have := hf t ht ht'; omega
  rw [h2]
  simp only [bind_ok]
  rcases setAll_inv (if S.usePam then S.pam.filterMap pamVar else []) i2 with ⟨h3, h3'⟩ | ⟨E3, A3, h3, i3⟩
  · rw [h3]
    refine ⟨by simp [R.bind], fun E h => by simp [R.bind] at h, fun admin _ hl _ => ?_⟩
    rw [hlenA] at hl; simp only [List.length_append] at h3'; omega
  rw [h3]
  simp only [bind_ok, finish]
  cases ha : adminVars S.setenv with
  | none => exact ⟨by simp, fun E h => by simp at h, fun admin h => by simp at h⟩
  | some admin =>
    simp only
    rcases setAll_inv admin i3 with ⟨h4, h4'⟩ | ⟨E4, A4, h4, i4⟩
    · rw [h4]
      refine ⟨by simp [R.bind], fun E h => by simp [R.bind] at h, fun admin' he hl _ => ?_⟩
      cases he
      rw [hlenA] at hl; simp only [List.length_append] at h4'; omega
    rw [h4]
    simp only [bind_ok]
    rcases setAll_inv (connVars S L) i4 with ⟨h5, h5'⟩ | ⟨E5, A5, h5, i5⟩
    · rw [h5]
      refine ⟨by simp, fun E h => by simp at h, fun admin' he hl _ => ?_⟩
      cases he
      rw [hlenA] at hl; simp only [List.length_append] at h5'; omega
    rw [h5]
    refine ⟨by simp, fun E h => ?_, fun _ _ _ _ => ⟨E5, rfl⟩⟩
    cases h
    exact ⟨admin, A5, rfl, i5⟩

/-! ### The theorems -/

/-- **C104.** Setting up the environment never writes beyond the array; it succeeds if there are at most 999 assignments, at most
1000 lines in the user's file, and every SetEnv has an `=`. -/
theorem C104_room (S : Src) (L : Launch) :
    setupEnv S L ≠ .overrun ∧
    (∀ admin, S.setenv = admin.map (fun a => a.1 ++ [61] ++ a.2) → (∀ a ∈ admin, 61 ∉ a.1) →
      (assignments S L admin).length ≤ 999 →
      (∀ t, S.userEnv = true → S.file (envFileName S) = some t → (fileLines t).length ≤ 1000) → ∃ E, setupEnv S L = .ok E) := by
  obtain ⟨h1, -, h3⟩ := setupEnv_inv S L
  exact ⟨h1, fun admin ha hb => h3 admin ((admin_iff _ _).2 ⟨ha, hb⟩)⟩

/-- **C104.** In the environment of the program run every name occurs once, and has the value assigned last: in the order the
client's variables, those of the account and the session, those of the key, of the user's file, of PAM, of the administrator, and
those about the connection. -/
theorem C104_last (S : Src) (L : Launch) (E : Env) (h : setupEnv S L = .ok E) :
    ∃ admin, S.setenv = admin.map (fun a => a.1 ++ [61] ++ a.2) ∧ (∀ a ∈ admin, 61 ∉ a.1) ∧
      (∀ name, 61 ∉ name → getenv name E.slots = lastFor name (assignments S L admin)) ∧
      ∃ A : List (Bytes × Bytes), E.slots = A.map (fun a => a.1 ++ [61] ++ a.2) ∧ (∀ a ∈ A, 61 ∉ a.1) ∧ (A.map (·.1)).Nodup := by
  obtain ⟨-, h2, -⟩ := setupEnv_inv S L
  obtain ⟨admin, A, ha, hi⟩ := h2 E h
  obtain ⟨ha1, ha2⟩ := (admin_iff _ _).1 ha
  refine ⟨admin, ha1, ha2, ?_, A, hi.slots, hi.names, hi.once⟩
  intro name hn
  rw [hi.slots, getenv_enc name hn A hi.names, hi.last name hn]

private theorem lastFor_append (name : Bytes) (a b : List (Bytes × Bytes)) :
    lastFor name (a ++ b) = if name ∈ b.map (·.1) then lastFor name b else lastFor name a := by
  unfold lastFor
  rw [List.filter_append]
  by_cases h : name ∈ b.map (·.1)
  · rw [if_pos h, List.getLast?_append]
    rw [List.mem_map] at h
    obtain ⟨x, hx, hx'⟩ := h
    have : b.filter (fun a => decide (a.1 = name)) ≠ [] := by
      intro he
      have : x ∈ b.filter (fun a => decide (a.1 = name)) := by rw [List.mem_filter]; exact ⟨hx, by simp [hx']⟩
      rw [he] at this; cases this
    cases hl : (b.filter (fun a => decide (a.1 = name))).getLast? with
    | none => exact absurd (List.getLast?_eq_none_iff.1 hl) this
    | some y => rfl
  · rw [if_neg h]
    have : b.filter (fun a => decide (a.1 = name)) = [] := by
      rw [List.filter_eq_nil_iff]
      intro x hx hx'
      apply h
      rw [List.mem_map]
      exact ⟨x, hx, by simpa using hx'⟩
    rw [this, List.append_nil]

/-- **C104.** What the environment says of the connection is what the server knows, whatever client, user, PAM and administrator
set. -/
theorem C104_connection (S : Src) (L : Launch) (E : Env) (h : setupEnv S L = .ok E) :
    getenv b!"SSH_CONNECTION" E.slots = some ((S.remoteIp.take 50) ++ [32] ++ dec S.remotePort ++ [32] ++ (S.localIp.take 50) ++ [32]
      ++ dec S.localPort) ∧
    getenv b!"SSH_CLIENT" E.slots = some ((S.remoteIp.take 50) ++ [32] ++ dec S.remotePort ++ [32] ++ dec S.localPort) ∧
    (∀ c, L.original = some c → getenv b!"SSH_ORIGINAL_COMMAND" E.slots = some c) ∧
    (∀ t, L.s.tty = some t → getenv b!"SSH_TTY" E.slots = some t) := by
  obtain ⟨admin, -, -, h4, -⟩ := C104_last S L E h
  have hopt : ∀ (name m : Bytes) (v : Option Bytes), m ≠ name → name ∉ (opt m v).map (·.1) := by
    intro name m v hm
    cases v <;> simp [opt, Ne.symm hm]
  refine ⟨?_, ?_, ?_, ?_⟩
  · rw [h4 _ (by decide), assignments, lastFor_append, if_pos (by simp [connVars]), connVars, lastFor_append, if_neg (hopt _ _ _ (by decide)),
      lastFor_append, if_neg (hopt _ _ _ (by decide)), lastFor_append, if_neg (hopt _ _ _ (by decide)), lastFor_append,
      if_neg (hopt _ _ _ (by decide))]
    rfl
  · rw [h4 _ (by decide), assignments, lastFor_append, if_pos (by simp [connVars]), connVars, lastFor_append, if_neg (hopt _ _ _ (by decide)),
      lastFor_append, if_neg (hopt _ _ _ (by decide)), lastFor_append, if_neg (hopt _ _ _ (by decide)), lastFor_append,
      if_neg (hopt _ _ _ (by decide))]
    rfl
  · intro c hc
    rw [h4 _ (by decide), assignments, lastFor_append, if_pos (by simp [connVars, hc, opt]), connVars, lastFor_append,
      if_pos (by simp [hc, opt]), hc]
    rfl
  · intro t ht
    rw [h4 _ (by decide), assignments, lastFor_append, if_pos (by simp [connVars, ht, opt]), connVars, lastFor_append,
      if_neg (hopt _ _ _ (by decide)), lastFor_append, if_pos (by simp [ht, opt]), ht]
    rfl

private theorem lastFor_front (name : Bytes) (a a' b : List (Bytes × Bytes)) (h : lastFor name a = lastFor name a') :
    lastFor name (a ++ b) = lastFor name (a' ++ b) := by
  rw [lastFor_append, lastFor_append, h]

private theorem lastFor_none (name : Bytes) (a : List (Bytes × Bytes)) (h : name ∉ a.map (·.1)) : lastFor name a = none := by
  have := lastFor_append name [] a
  rw [if_neg h] at this
  simpa [lastFor] using this

private theorem front_same (name : Bytes) (a a' b : List (Bytes × Bytes))
    (h : name ∈ b.map (·.1) ∨ (name ∉ a.map (·.1) ∧ name ∉ a'.map (·.1))) : lastFor name (a ++ b) = lastFor name (a' ++ b) := by
  rw [lastFor_append, lastFor_append]
  rcases h with h | ⟨h1, h2⟩
  · rw [if_pos h, if_pos h]
  · rw [lastFor_none name a h1, lastFor_none name a' h2]

/-- **C104.** The client has no influence on a variable that it was not allowed to set, nor on who the user is, the home directory,
the path and the shell. -/
theorem C104_client (S : Src) (L : Launch) (env : List (Bytes × Bytes)) (E E' : Env) (h : setupEnv S L = .ok E)
    (h' : setupEnv S { L with s := { L.s with env := env } } = .ok E') (name : Bytes) (hn : 61 ∉ name)
    (hfree : (name ∉ L.s.env.map (·.1) ∧ name ∉ env.map (·.1)) ∨
      name ∈ ([b!"USER", b!"LOGNAME", b!"HOME", b!"PATH", b!"SHELL"] : List Bytes)) :
    getenv name E.slots = getenv name E'.slots := by
  obtain ⟨admin, a1, a2, a3, -⟩ := C104_last S L E h
  obtain ⟨admin', b1, b2, b3, -⟩ := C104_last S _ E' h'
  have hadm : admin = admin' := by
    have h1 := (admin_iff _ _).2 ⟨a1, a2⟩
    have h2 := (admin_iff _ _).2 ⟨b1, b2⟩
    exact Option.some.inj (h1.symm.trans h2)
  subst hadm
  rw [a3 name hn, b3 name hn]
  unfold assignments
  have hc : connVars S { L with s := { L.s with env := env } } = connVars S L := rfl
  rw [hc]
  refine lastFor_front _ _ _ _ (lastFor_front _ _ _ _ (lastFor_front _ _ _ _ (lastFor_front _ _ _ _ ?_)))
  unfold basic
  simp only [List.append_assoc]
  refine front_same name _ _ _ ?_
  rcases hfree with hf | hf
  · exact Or.inr hf
  · left
    simp only [List.mem_cons, List.not_mem_nil, or_false] at hf
    simp only [List.map_append, List.map_cons, List.map_nil, List.mem_append, List.mem_cons]
    rcases hf with h | h | h | h | h <;> simp only [h, true_or, or_true]

/-- **C104.** Without PermitUserEnvironment the user has no influence; with a list of names, none on variables not in it. -/
theorem C104_user (S : Src) (L : Launch) (keyEnv : List Bytes) (file : Bytes → Option Bytes) (E E' : Env)
    (h : setupEnv S L = .ok E) (h' : setupEnv { S with keyEnv := keyEnv, file := file } L = .ok E') (name : Bytes) (hn : 61 ∉ name)
    (hno : S.userEnv = false ∨ ∃ pats, S.userEnvAllow = some pats ∧ Match.matchPatternList name pats false ≠ 1) :
    getenv name E.slots = getenv name E'.slots := by
  obtain ⟨admin, a1, a2, a3, -⟩ := C104_last S L E h
  obtain ⟨admin', b1, b2, b3, -⟩ := C104_last _ L E' h'
  have hadm : admin = admin' := by
    have h1 := (admin_iff _ _).2 ⟨a1, a2⟩
    have h2 := (admin_iff _ _).2 ⟨b1, b2⟩
    exact Option.some.inj (h1.symm.trans h2)
  subst hadm
  rw [a3 name hn, b3 name hn]
  unfold assignments
  have hb : basic { S with keyEnv := keyEnv, file := file } L.s = basic S L.s := rfl
  have hc : connVars { S with keyEnv := keyEnv, file := file } L = connVars S L := rfl
  rw [hb, hc]
  refine lastFor_front _ _ _ _ (lastFor_front _ _ _ _ (lastFor_front _ _ _ _ ?_))
  have huv : ∀ T : Src, (T.userEnv = false ∨ ∃ pats, T.userEnvAllow = some pats ∧ Match.matchPatternList name pats false ≠ 1) →
      name ∉ (userVars T).map (·.1) := by
    intro T hT hm
    rw [List.mem_map] at hm
    obtain ⟨⟨n, v⟩, hx, rfl⟩ := hm
    unfold userVars at hx
    rcases hT with hT | ⟨pats, hp, hT⟩
    · rw [if_neg (by simp [hT])] at hx; cases hx
    · split at hx
      · rcases List.mem_append.1 hx with hx | hx
        · rw [List.mem_filterMap] at hx
          obtain ⟨e, -, he⟩ := hx
          exact hT (((C104_keyVar _ _ _ _).1 he).2.2 pats hp)
        · split at hx
          · cases hx
          · rw [List.mem_filterMap] at hx
            obtain ⟨e, -, he⟩ := hx
            obtain ⟨bl, -, -, -, -, -, -, ha⟩ := (C104_line _ _ _ _).1 he
            exact hT (ha pats hp)
      · cases hx
  rw [lastFor_append, if_neg (huv S hno), lastFor_append, if_neg (huv { S with keyEnv := keyEnv, file := file } hno)]

/-- **C104.** A variable from PAM: `name=value`, but not what PAM itself was told of the connection. -/
theorem C104_pam (e n v : Bytes) :
    pamVar e = some (n, v) ↔ e = n ++ [61] ++ v ∧ 61 ∉ n ∧ ¬ Match.Glob b!"SSH_AUTH_INFO*" n ∧ ¬ Match.Glob b!"SSH_CONNECTION*" n := by
  have hm : Match.matchPatternList n b!"SSH_AUTH_INFO*,SSH_CONNECTION*" false = 1 ↔
      Match.Glob b!"SSH_AUTH_INFO*" n ∨ Match.Glob b!"SSH_CONNECTION*" n := by
    rw [Match.C06_positive_iff]
    have he : Match.entries b!"SSH_AUTH_INFO*,SSH_CONNECTION*" = [b!"SSH_AUTH_INFO*", b!"SSH_CONNECTION*"] := by decide +kernel
    rw [he]
    constructor
    · rintro ⟨-, e, he, -, hh⟩
      simp only [List.mem_cons, List.not_mem_nil, or_false] at he
      rcases he with rfl | rfl
      · exact Or.inl hh
      · exact Or.inr hh
    · intro h
      refine ⟨?_, ?_⟩
      · intro e he
        simp only [List.mem_cons, List.not_mem_nil, or_false] at he
        rcases he with rfl | rfl
        · exact ⟨by unfold Match.short; decide, fun h => absurd h.1 (by unfold Match.isNeg; decide)⟩
        · exact ⟨by unfold Match.short; decide, fun h => absurd h.1 (by unfold Match.isNeg; decide)⟩
      · rcases h with h | h
        · exact ⟨b!"SSH_AUTH_INFO*", by simp, by unfold Match.isNeg; decide, h⟩
        · exact ⟨b!"SSH_CONNECTION*", by simp, by unfold Match.isNeg; decide, h⟩
  unfold pamVar
  constructor
  · intro h
    split at h
    · cases h
    · rename_i n' v' hc
      obtain ⟨h1, h2⟩ := (cutEq_iff e n' v').1 hc
      split at h
      · cases h
      · rename_i hno
        cases h
        rw [hm] at hno
        exact ⟨h1, h2, fun h => hno (Or.inl h), fun h => hno (Or.inr h)⟩
  · rintro ⟨h1, h2, h3, h4⟩
    rw [(cutEq_iff e n v).2 ⟨h1, h2⟩]
    simp only
    rw [if_neg]
    rw [hm]
    rintro (h | h)
    · exact h3 h
    · exact h4 h

/-- **C104.** The lines of a file are what is between its newlines. -/
theorem C104_lines (content : Bytes) :
    (∀ l ∈ fileLines content, 10 ∉ l) ∧
    (((fileLines content).flatMap fun l => l ++ [10]) = content ∨
      (content.getLast? ≠ some 10 ∧ ((fileLines content).flatMap fun l => l ++ [10]) = content ++ [10])) := by
  have hj : ∀ l : List Bytes, l ≠ [] → (l.flatMap fun x => x ++ [10]) = Text.join 10 l ++ [10] := by
    intro l hl
    induction l with
    | nil => exact absurd rfl hl
    | cons a l ih =>
      cases l with
      | nil => simp [Text.join]
      | cons b l => rw [List.flatMap_cons, ih (by simp)]; simp [Text.join]
  unfold fileLines
  by_cases h0 : content = []
  · rw [if_pos h0]; simp [h0]
  · rw [if_neg h0]
    by_cases h1 : content.getLast? = some 10
    · rw [if_pos h1]
      refine ⟨fun l hl => Text.mem_split_no_sep hl, Or.inl ?_⟩
      rw [hj _ (Text.split_ne_nil _ _), Text.join_split]
      have := List.dropLast_concat_getLast h0
      rw [List.getLast?_eq_some_getLast h0] at h1
      injection h1 with h1
      rw [h1] at this
      exact this
    · rw [if_neg h1]
      refine ⟨fun l hl => Text.mem_split_no_sep hl, Or.inr ⟨h1, ?_⟩⟩
      rw [hj _ (Text.split_ne_nil _ _), Text.join_split]

/-- **C104.** What the server says of the account and the session, if nobody who comes later says otherwise. -/
theorem C104_account (S : Src) (L : Launch) (E : Env) (h : setupEnv S L = .ok E) (hu : S.userEnv = false) (hp : S.usePam = false)
    (ha : S.setenv = []) :
    getenv b!"USER" E.slots = some S.userName ∧ getenv b!"LOGNAME" E.slots = some S.userName ∧
    getenv b!"HOME" E.slots = some S.home ∧ getenv b!"SHELL" E.slots = some S.shell ∧
    getenv b!"PATH" E.slots = some (if S.root then S.superPath else S.stdPath) ∧
    (∀ t, L.s.term = some t → getenv b!"TERM" E.slots = some t) ∧
    (∀ t, L.s.display = some t → getenv b!"DISPLAY" E.slots = some t) ∧
    (∀ t, L.s.agentSock = some t → getenv b!"SSH_AUTH_SOCK" E.slots = some t) ∧
    (∀ e ∈ L.s.env, 61 ∉ e.1 → e.1 ∉ ([b!"USER", b!"LOGNAME", b!"HOME", b!"SHELL", b!"PATH", b!"MAIL", b!"TZ", b!"TERM", b!"DISPLAY",
        b!"KRB5CCNAME", b!"SSH_AUTH_SOCK", b!"SSH_CLIENT", b!"SSH_CONNECTION", b!"SSH_TUNNEL", b!"SSH_USER_AUTH", b!"SSH_TTY",
        b!"SSH_ORIGINAL_COMMAND"] : List Bytes) → getenv e.1 E.slots = lastFor e.1 L.s.env) := by
  obtain ⟨admin, ha1, -, h4, -⟩ := C104_last S L E h
  have hadm : admin = [] := by
    rw [ha] at ha1
    cases admin with
    | nil => rfl
    | cons a l => cases ha1
  subst hadm
  have has : assignments S L [] = basic S L.s ++ connVars S L := by
    unfold assignments userVars
    simp [hu, hp]
  rw [has] at h4
  have hopt : ∀ (name m : Bytes) (v : Option Bytes), m ≠ name → name ∉ (opt m v).map (·.1) := by
    intro name m v hm
    cases v <;> simp [opt, Ne.symm hm]
  have hone : ∀ (name m v : Bytes), m ≠ name → name ∉ ([(m, v)] : List (Bytes × Bytes)).map (·.1) := by
    intro name m v hm
    simp [Ne.symm hm]
  have hconn : ∀ name : Bytes, b!"SSH_CLIENT" ≠ name → b!"SSH_CONNECTION" ≠ name → b!"SSH_TUNNEL" ≠ name → b!"SSH_USER_AUTH" ≠ name →
      b!"SSH_TTY" ≠ name → b!"SSH_ORIGINAL_COMMAND" ≠ name → name ∉ (connVars S L).map (·.1) := by
    intro name h1 h2 h3 h4 h5 h6
    unfold connVars
    simp only [List.map_append, List.mem_append, not_or]
    exact ⟨⟨⟨⟨by simp [Ne.symm h1, Ne.symm h2], hopt _ _ _ h3⟩, hopt _ _ _ h4⟩, hopt _ _ _ h5⟩, hopt _ _ _ h6⟩
  have hb : basic S L.s = L.s.env ++ [(b!"USER", S.userName)] ++ [(b!"LOGNAME", S.userName)] ++ [(b!"HOME", S.home)] ++
      [(b!"PATH", if S.root then S.superPath else S.stdPath)] ++
      [(b!"MAIL", ((S.mailDir.take 200) ++ [47] ++ (S.userName.take 50)).take 255)] ++ [(b!"SHELL", S.shell)] ++ opt b!"TZ" S.tz ++
      opt b!"TERM" L.s.term ++ opt b!"DISPLAY" L.s.display ++ opt b!"KRB5CCNAME" S.krb5 ++ opt b!"SSH_AUTH_SOCK" L.s.agentSock := by
    unfold basic; simp [hp]
  have skip : ∀ (name : Bytes) (a b : List (Bytes × Bytes)), name ∉ b.map (·.1) → lastFor name (a ++ b) = lastFor name a := by
    intro name a b hn; rw [lastFor_append, if_neg hn]
  have here : ∀ (name v : Bytes) (a : List (Bytes × Bytes)), lastFor name (a ++ [(name, v)]) = some v := by
    intro name v a; rw [lastFor_snoc, if_pos rfl]
  have hereO : ∀ (name v : Bytes) (a : List (Bytes × Bytes)), lastFor name (a ++ opt name (some v)) = some v := here
  refine ⟨?_, ?_, ?_, ?_, ?_, ?_, ?_, ?_, ?_⟩
  · rw [h4 _ (by decide), skip _ _ _ (hconn _ (by decide) (by decide) (by decide) (by decide) (by decide) (by decide)), hb]
    repeat first | rw [here] | rw [skip _ _ _ (hopt _ _ _ (by decide))] | rw [skip _ _ _ (hone _ _ _ (by decide))]
  · rw [h4 _ (by decide), skip _ _ _ (hconn _ (by decide) (by decide) (by decide) (by decide) (by decide) (by decide)), hb]
    repeat first | rw [here] | rw [skip _ _ _ (hopt _ _ _ (by decide))] | rw [skip _ _ _ (hone _ _ _ (by decide))]
  · rw [h4 _ (by decide), skip _ _ _ (hconn _ (by decide) (by decide) (by decide) (by decide) (by decide) (by decide)), hb]
    repeat first | rw [here] | rw [skip _ _ _ (hopt _ _ _ (by decide))] | rw [skip _ _ _ (hone _ _ _ (by decide))]
  · rw [h4 _ (by decide), skip _ _ _ (hconn _ (by decide) (by decide) (by decide) (by decide) (by decide) (by decide)), hb]
    repeat first | rw [here] | rw [skip _ _ _ (hopt _ _ _ (by decide))] | rw [skip _ _ _ (hone _ _ _ (by decide))]
  · rw [h4 _ (by decide), skip _ _ _ (hconn _ (by decide) (by decide) (by decide) (by decide) (by decide) (by decide)), hb]
    repeat first | rw [here] | rw [skip _ _ _ (hopt _ _ _ (by decide))] | rw [skip _ _ _ (hone _ _ _ (by decide))]
  · intro t ht
    rw [h4 _ (by decide), skip _ _ _ (hconn _ (by decide) (by decide) (by decide) (by decide) (by decide) (by decide)), hb, ht]
    repeat first | rw [hereO] | rw [skip _ _ _ (hopt _ _ _ (by decide))] | rw [skip _ _ _ (hone _ _ _ (by decide))]
  · intro t ht
    rw [h4 _ (by decide), skip _ _ _ (hconn _ (by decide) (by decide) (by decide) (by decide) (by decide) (by decide)), hb, ht]
    repeat first | rw [hereO] | rw [skip _ _ _ (hopt _ _ _ (by decide))] | rw [skip _ _ _ (hone _ _ _ (by decide))]
  · intro t ht
    rw [h4 _ (by decide), skip _ _ _ (hconn _ (by decide) (by decide) (by decide) (by decide) (by decide) (by decide)), hb, ht]
    rw [hereO]
  · intro e he hne hno
    simp only [List.mem_cons, List.not_mem_nil, or_false, not_or] at hno
    obtain ⟨n1, n2, n3, n4, n5, n6, n7, n8, n9, n10, n11, n12, n13, n14, n15, n16, n17⟩ := hno
    rw [h4 _ hne, skip _ _ _ (hconn _ (Ne.symm n12) (Ne.symm n13) (Ne.symm n14) (Ne.symm n15) (Ne.symm n16) (Ne.symm n17)), hb,
      skip _ _ _ (hopt _ _ _ (Ne.symm n11)), skip _ _ _ (hopt _ _ _ (Ne.symm n10)), skip _ _ _ (hopt _ _ _ (Ne.symm n9)),
      skip _ _ _ (hopt _ _ _ (Ne.symm n8)), skip _ _ _ (hopt _ _ _ (Ne.symm n7)), skip _ _ _ (hone _ _ _ (Ne.symm n4)),
      skip _ _ _ (hone _ _ _ (Ne.symm n6)), skip _ _ _ (hone _ _ _ (Ne.symm n5)), skip _ _ _ (hone _ _ _ (Ne.symm n3)),
      skip _ _ _ (hone _ _ _ (Ne.symm n2)), skip _ _ _ (hone _ _ _ (Ne.symm n1))]

end Verif.Session
