/-
C26: what a line of a principals file must say to let a certificate in.
-/
import Verif.KeyOpts.Props
import Verif.Access.Props

namespace Verif.KeyOpts

open Match (splitLast)
open Access (splitLast_none splitLast_some)

/-- `l` is, but for blanks around it and a comment after it, the text `t`. -/
def Tidy (l t : Bytes) : Prop :=
  ∃ lead tail com, l = lead ++ (t ++ (tail ++ com)) ∧ (∀ x ∈ lead, x = 32 ∨ x = 9) ∧
    (∀ x ∈ tail, x = 10 ∨ x = 32 ∨ x = 9) ∧ (com = [] ∨ com.head? = some 35) ∧ 35 ∉ t ∧ t ≠ []

/-- `l` is a line for the name `n`, with the options text `opt` in front if there is one. -/
def PrincipalLine (l : Bytes) (opt : Option Bytes) (n : Bytes) : Prop :=
  ∃ t, Tidy l t ∧
    ((opt = none ∧ t = n ∧ 32 ∉ n ∧ 9 ∉ n) ∨
     (opt = some t ∧ ∃ pre gap, t = pre ++ (gap ++ n) ∧ gap ≠ [] ∧ (∀ x ∈ gap, x = 32 ∨ x = 9) ∧ 32 ∉ n))

theorem takeDrop (p : UInt8 → Bool) (l : Bytes) : l.takeWhile p ++ l.dropWhile p = l := List.takeWhile_append_dropWhile

theorem mem_takeWhile {p : UInt8 → Bool} {l : Bytes} {x : UInt8} (h : x ∈ l.takeWhile p) : p x = true := by
  induction l with
  | nil => simp at h
  | cons y l ih =>
    simp only [List.takeWhile_cons] at h
    split at h
    · rename_i hy
      rcases List.mem_cons.1 h with rfl | h
      · exact hy
      · exact ih h
    · simp at h

theorem blank_iff {x : UInt8} : isBlank x = true ↔ x = 32 ∨ x = 9 := by simp [isBlank]

theorem trimEnd_split (s : Bytes) : ∃ tail, s = trimEnd s ++ tail ∧ (∀ x ∈ tail, x = 10 ∨ x = 32 ∨ x = 9) ∧
    (s ≠ [] → trimEnd s ≠ []) := by
  cases s with
  | nil => exact ⟨[], rfl, by simp, by simp⟩
  | cons c r =>
    refine ⟨(r.reverse.takeWhile fun x => x == 10 || isBlank x).reverse, ?_, ?_, by simp [trimEnd]⟩
    · simp only [trimEnd, List.cons_append, List.cons.injEq, true_and]
      rw [← List.reverse_append, takeDrop, List.reverse_reverse]
    · intro x hx
      rw [List.mem_reverse] at hx
      have := mem_takeWhile hx
      simpa [isBlank] using this

theorem tidy_of (l : Bytes) (hne : (skipSpace l).takeWhile (· ≠ 35) ≠ []) :
    Tidy l (trimEnd ((skipSpace l).takeWhile (· ≠ 35))) := by
  obtain ⟨tail, h1, h2, h3⟩ := trimEnd_split ((skipSpace l).takeWhile (· ≠ 35))
  refine ⟨l.takeWhile isBlank, tail, (skipSpace l).dropWhile (· ≠ 35), ?_, ?_, h2, ?_, ?_, h3 hne⟩
  · rw [← List.append_assoc (trimEnd _), ← h1, takeDrop, skipSpace, takeDrop]
  · exact fun x hx => blank_iff.1 (mem_takeWhile hx)
  · cases hd : (skipSpace l).dropWhile (· ≠ 35) with
    | nil => exact Or.inl rfl
    | cons y ys =>
      right
      have := List.head?_dropWhile_not (fun x : UInt8 => decide (x ≠ 35)) (skipSpace l)
      rw [hd] at this
      simpa using this
  · intro hx
    have : (35 : UInt8) ∈ (skipSpace l).takeWhile (· ≠ 35) := by
      rw [h1]; exact List.mem_append_left _ hx
    simpa using mem_takeWhile this

theorem gap_of {c : UInt8} (hc : c = 32 ∨ c = 9) {t u n : Bytes} (h : t = u ++ c :: n) (h32 : 32 ∉ n) :
    ∃ pre gap, t = pre ++ (gap ++ n.dropWhile isBlank) ∧ gap ≠ [] ∧ (∀ x ∈ gap, x = 32 ∨ x = 9) ∧
      32 ∉ n.dropWhile isBlank := by
  refine ⟨u, c :: n.takeWhile isBlank, ?_, by simp, ?_, ?_⟩
  · rw [List.cons_append, takeDrop, h]
  · intro x hx
    rcases List.mem_cons.1 hx with rfl | hx
    · exact hc
    · exact blank_iff.1 (mem_takeWhile hx)
  · exact fun hx => h32 ((List.dropWhile_sublist _).subset hx)

theorem splitPrincipal_line (l : Bytes) (hne : (skipSpace l).takeWhile (· ≠ 35) ≠ []) :
    PrincipalLine l (splitPrincipal (trimEnd ((skipSpace l).takeWhile (· ≠ 35)))).1
      (splitPrincipal (trimEnd ((skipSpace l).takeWhile (· ≠ 35)))).2 := by
  refine ⟨_, tidy_of l hne, ?_⟩
  generalize trimEnd ((skipSpace l).takeWhile (· ≠ 35)) = t
  unfold splitPrincipal
  split
  · rename_i u n h
    obtain ⟨h1, h2⟩ := splitLast_some.1 h
    exact Or.inr ⟨rfl, gap_of (Or.inl rfl) h1 h2⟩
  · rename_i h
    rw [splitLast_none] at h
    split
    · rename_i u n h'
      obtain ⟨h1, h2⟩ := splitLast_some.1 h'
      exact Or.inr ⟨rfl, gap_of (Or.inr rfl) h1 fun hx => h (by rw [h1]; simp [hx])⟩
    · rename_i h'
      rw [splitLast_none] at h'
      exact Or.inl ⟨rfl, rfl, h, h'⟩

/-- A line that lets the certificate in. -/
def Lets (w : World) (c : Cert) (l : Bytes) (o : Opts) : Prop :=
  ∃ opt n, PrincipalLine l opt n ∧ n ∈ c.principals ∧ parse w opt = some o

theorem principalsFile_some {w : World} {c : Cert} {ls : List Bytes} {o : Opts}
    (h : principalsFile w c ls = some o) : ∃ l ∈ ls, Lets w c l o := by
  induction ls with
  | nil => simp [principalsFile] at h
  | cons l ls ih =>
    have tail : principalsFile w c ls = some o → ∃ x ∈ l :: ls, Lets w c x o := fun h => by
      obtain ⟨x, hx, hl⟩ := ih h
      exact ⟨x, by simp [hx], hl⟩
    simp only [principalsFile] at h
    split at h
    · exact tail h
    · rename_i hne
      split at h
      · rename_i o' hl
        simp only [Option.some.injEq] at h
        subst h
        unfold principalsLine at hl
        split at hl
        · simp at hl
        · rename_i o1 hp
          split at hl
          · rename_i hm
            simp only [Option.some.injEq] at hl
            subst hl
            exact ⟨l, by simp, _, _, splitPrincipal_line l (fun hx => hne (Or.inl hx)), hm, hp⟩
          · simp at hl
      · exact tail h

theorem principalsFiles_some {w : World} {c : Cert} {fs : List (List Bytes)} {o : Opts}
    (h : principalsFiles w c fs = some o) : ∃ f ∈ fs, ∃ l ∈ f, Lets w c l o := by
  induction fs with
  | nil => simp [principalsFiles] at h
  | cons f fs ih =>
    simp only [principalsFiles] at h
    split at h
    · rename_i o' hf
      simp only [Option.some.injEq] at h
      subst h
      exact ⟨f, by simp, principalsFile_some hf⟩
    · obtain ⟨f', hf', hl⟩ := ih h
      exact ⟨f', by simp [hf'], hl⟩

/-- **C26.** With principals files or a command configured, a certificate of a trusted CA is let in only
by a line, in one of the files or in the output of a command that succeeded, that names one of the
certificate's principals; the options of that line are the ones that apply. -/
theorem C26_principals {w : World} {c : Cert} {s : Sources} {o : Opts} (h : findPrincipal w c s = some o) :
    ∃ l, ((∃ fs, s.files = some fs ∧ ∃ f ∈ fs, l ∈ f) ∨ (∃ out, s.command = some (some out) ∧ l ∈ out)) ∧
      Lets w c l o := by
  unfold findPrincipal at h
  split at h
  · rename_i o' hf
    simp only [Option.some.injEq] at h
    subst h
    rw [Option.bind_eq_some_iff] at hf
    obtain ⟨fs, h1, h2⟩ := hf
    obtain ⟨f, hf, l, hl, hx⟩ := principalsFiles_some h2
    exact ⟨l, Or.inl ⟨fs, h1, f, hf, hl⟩, hx⟩
  · rw [Option.bind_eq_some_iff] at h
    obtain ⟨out, h1, h2⟩ := h
    rw [Option.bind_eq_some_iff] at h2
    obtain ⟨out', rfl, h3⟩ := h2
    obtain ⟨l, hl, hx⟩ := principalsFile_some h3
    exact ⟨l, Or.inr ⟨out', h1, hl⟩, hx⟩

theorem dropWhile_none {p : UInt8 → Bool} {l : Bytes} (h : ∀ x ∈ l, p x = false) : l.dropWhile p = l := by
  cases l with
  | nil => rfl
  | cons y l => simp [h y (by simp)]

theorem takeWhile_all {p : UInt8 → Bool} {l : Bytes} (h : ∀ x ∈ l, p x = true) : l.takeWhile p = l := by
  induction l with
  | nil => rfl
  | cons y l ih => rw [List.takeWhile_cons_of_pos (h y (by simp)), ih fun x hx => h x (by simp [hx])]

theorem plain_line {w : World} {c : Cert} {n : Bytes} (hn : n ∈ c.principals) (h0 : n ≠ [])
    (hp : ∀ x ∈ n, x ≠ 32 ∧ x ≠ 9 ∧ x ≠ 10 ∧ x ≠ 35) (ls : List Bytes) (hl : n ++ [10] ∈ ls) :
    principalsFile w c ls ≠ none := by
  induction ls with
  | nil => simp at hl
  | cons l ls ih =>
    simp only [principalsFile]
    rcases List.mem_cons.1 hl with rfl | hl
    · have hns : ∀ x ∈ n ++ [10], isBlank x = false := by
        intro x hx
        rcases List.mem_append.1 hx with hx | hx
        · obtain ⟨a, b, _⟩ := hp x hx; simp [isBlank, a, b]
        · rw [List.mem_singleton.1 hx]; rfl
      have h1 : (skipSpace (n ++ [10])).takeWhile (· ≠ 35) = n ++ [10] := by
        rw [skipSpace, dropWhile_none hns]
        apply takeWhile_all
        intro x hx
        rcases List.mem_append.1 hx with hx | hx
        · simpa using (hp x hx).2.2.2
        · rw [List.mem_singleton.1 hx]; rfl
      rw [h1]
      cases n with
      | nil => exact absurd rfl h0
      | cons a n =>
        have h2 : trimEnd (a :: n ++ [10]) = a :: n := by
          simp only [List.cons_append, trimEnd, List.reverse_append, List.reverse_cons, List.reverse_nil, List.nil_append]
          rw [List.dropWhile_cons_of_pos (by rfl), dropWhile_none, List.reverse_reverse]
          intro x hx
          obtain ⟨p1, p2, p3, _⟩ := hp x (List.mem_cons_of_mem _ (List.mem_reverse.1 hx))
          simp [isBlank, p1, p2, p3]
        have h3 : splitPrincipal (a :: n) = (none, a :: n) := by
          unfold splitPrincipal
          rw [splitLast_none.2 fun hx => (hp _ hx).1 rfl, splitLast_none.2 fun hx => (hp _ hx).2.1 rfl]
        have h4 : principalsLine w c (a :: n ++ [10]) = some keysDefaults := by
          simp only [principalsLine, h2, h3, parse, if_pos hn]
        rw [if_neg (by simp [(hp a (by simp)).2.2.1]), h4]
        simp
    · split
      · exact ih hl
      · split
        · simp
        · exact ih hl

/-- **C26.** A line that is just the name of one of the certificate's principals lets it in. -/
theorem C26_plain_principal {w : World} {c : Cert} {s : Sources} {n : Bytes} (hn : n ∈ c.principals) (h0 : n ≠ [])
    (hp : ∀ x ∈ n, x ≠ 32 ∧ x ≠ 9 ∧ x ≠ 10 ∧ x ≠ 35)
    (hl : (∃ fs, s.files = some fs ∧ ∃ f ∈ fs, n ++ [10] ∈ f) ∨ (∃ out, s.command = some (some out) ∧ n ++ [10] ∈ out)) :
    findPrincipal w c s ≠ none := by
  have hfiles : ∀ fs : List (List Bytes), (∃ f ∈ fs, n ++ [10] ∈ f) → principalsFiles w c fs ≠ none := by
    intro fs
    induction fs with
    | nil => simp
    | cons f fs ih =>
      rintro ⟨x, hx, hm⟩
      simp only [principalsFiles]
      rcases List.mem_cons.1 hx with rfl | hx
      · cases hq : principalsFile w c x with
        | none => exact absurd hq (plain_line hn h0 hp x hm)
        | some o => simp
      · split
        · simp
        · exact ih ⟨x, hx, hm⟩
  unfold findPrincipal
  rcases hl with ⟨fs, h1, h2⟩ | ⟨out, h1, h2⟩
  · rw [h1]
    simp only [Option.bind_some]
    cases hq : principalsFiles w c fs with
    | none => exact absurd hq (hfiles fs h2)
    | some o => simp
  · split
    · simp
    · rw [h1]
      exact plain_line hn h0 hp out h2

/-- Non-vacuity, with options in front of the name and a comment. -/
example : (findPrincipal exWorld (exCert [b!"ops"]) ⟨some [[b!"# x\n", b!" no-pty ops # y\n"]], none⟩).isSome = true ∧
    findPrincipal exWorld (exCert [b!"ops"]) ⟨some [[b!"ops2\n"]], some none⟩ = none ∧
    (findPrincipal exWorld (exCert [b!"ops"]) ⟨some [[b!"ops2\n"]], some (some [b!"ops\n"])⟩).isSome = true := by
  decide +kernel

end Verif.KeyOpts
