/-
C54: algorithm lists given in configuration files.
-/
import Verif.Kex.Spec
import Verif.Match.Props

namespace Verif.Kex
open Verif Wire Text
open scoped Verif.Match

theorem names_of_name {p : Bytes} (hp : COMMA ∉ p) (hne : p ≠ []) : Match.names p = [p] := by
  unfold Match.names
  rw [split_no_sep hp]; simp [hne]

theorem hasAnyAlg_single {ret p : Bytes} (hp : COMMA ∉ p) (hne : p ≠ []) :
    hasAnyAlg ret p = true ↔ p ∈ Match.names ret := by
  unfold hasAnyAlg
  rw [Match.C07_match_list, names_of_name hp hne]
  rw [List.find?_isSome]
  simp

/-- All names of the list are non-empty. -/
def Clean (s : Bytes) : Prop := ∀ n ∈ split COMMA s, n ≠ []

theorem clean_ne {s : Bytes} (h : Clean s) : s ≠ [] := by
  rintro rfl
  exact h [] (by simp [split]) rfl

theorem names_clean {s : Bytes} (h : Clean s) : Match.names s = split COMMA s := by
  unfold Match.names
  have h' := h
  unfold Clean at h'
  generalize split COMMA s = l at h'
  induction l with
  | nil => rfl
  | cons a t ih =>
    rw [List.takeWhile_cons, if_pos (by simpa using h' a (by simp)), ih (fun n hn => h' n (by simp [hn]))]

/-- Names of what is left to read. -/
def optNames : Option Bytes → List Bytes
  | none => []
  | some b => Match.names b

/-- Names of `l` not already in `seen`, without repetition. -/
def fresh (seen : List Bytes) : List Bytes → List Bytes
  | [] => []
  | a :: l => if a ∈ seen then fresh seen l else a :: fresh (seen ++ [a]) l

theorem catGo_spec (len fuel : Nat) (s : Option Bytes) (ret : Bytes) (hc : Clean ret)
    (hf : ∀ b, s = some b → b.length < fuel ∧ ret.length + 1 + b.length < len) :
    ∃ r, catGo len fuel s ret = some r ∧ Clean r ∧
      split COMMA r = split COMMA ret ++
        fresh (split COMMA ret) (optNames s) := by
  induction fuel generalizing s ret with
  | zero =>
    cases s with
    | none => exact ⟨ret, rfl, hc, by simp [fresh, optNames]⟩
    | some b => exact absurd (hf b rfl).1 (by omega)
  | succ fuel ih =>
    cases s with
    | none => exact ⟨ret, rfl, hc, by simp [fresh, optNames]⟩
    | some b =>
      obtain ⟨hf1, hf2⟩ := hf b rfl
      rw [catGo]
      rcases hs : strsep COMMA b with ⟨p, rest⟩
      have htok := strsep_token COMMA b
      rw [hs] at htok
      simp only at htok ⊢
      have hsplit := split_eq_rest COMMA b
      rw [hs] at hsplit
      have hlen : p.length ≤ b.length ∧ (∀ r, rest = some r → b.length = p.length + 1 + r.length) := by
        constructor
        · rcases hr : rest with _ | r
          · have := strsep_last (c := COMMA) (s := b) (by rw [hs]; exact hr)
            rw [hs] at this; simp only at this; rw [this]; exact Nat.le_refl _
          · have := strsep_length (c := COMMA) (s := b) (r := r) (by rw [hs]; exact hr)
            rw [hs] at this; simp only at this; omega
        · intro r hr
          have := strsep_length (c := COMMA) (s := b) (r := r) (by rw [hs]; exact hr)
          rw [hs] at this; exact this
      by_cases hp : p = []
      · rw [if_pos hp]
        refine ⟨ret, rfl, hc, ?_⟩
        have : Match.names b = [] := by
          unfold Match.names
          rw [hsplit, hp]; simp
        simp [this, fresh, optNames]
      · rw [if_neg hp]
        have hnames : Match.names b = p :: optNames rest := by
          unfold Match.names
          rw [hsplit]
          simp only
          rw [List.takeWhile_cons, if_pos (by simpa using hp)]
          cases rest <;> rfl
        by_cases hin : p ∈ Match.names ret
        · rw [if_pos ((hasAnyAlg_single htok hp).2 hin)]
          obtain ⟨r, h1, h2, h3⟩ := ih rest ret hc (by
            intro r hr
            have := hlen.2 r hr
            omega)
          refine ⟨r, h1, h2, ?_⟩
          rw [h3, optNames, hnames, fresh, if_pos (by rwa [names_clean hc] at hin)]
        · rw [if_neg (fun h => hin ((hasAnyAlg_single htok hp).1 h))]
          rw [if_neg (by omega), if_neg (by omega)]
          have hsp : split COMMA (ret ++ COMMA :: p) = split COMMA ret ++ [p] := by
            rw [split_sep_append, split_no_sep htok]
          have hc' : Clean (ret ++ COMMA :: p) := by
            intro n hn
            rw [hsp, List.mem_append, List.mem_singleton] at hn
            rcases hn with hn | rfl
            · exact hc n hn
            · exact hp
          obtain ⟨r, h1, h2, h3⟩ := ih rest (ret ++ COMMA :: p) hc' (by
            intro r hr
            have := hlen.2 r hr
            simp only [List.length_append, List.length_cons]
            omega)
          refine ⟨r, h1, h2, ?_⟩
          rw [h3, optNames, hnames, fresh, if_neg (by rwa [names_clean hc] at hin), hsp, List.append_assoc]
          rfl

/-- **C54** appending: the names of the first list, then those names of the second that are not already
there, each once, in order. -/
theorem C54_names_cat (a b : Bytes) (ha : Clean a) (hl : b.length ≤ 1024 * 1024) :
    ∃ r, namesCat a b = some r ∧ Clean r ∧ Match.names r = Match.names a ++ fresh (Match.names a) (Match.names b) := by
  unfold namesCat
  rw [if_neg (clean_ne ha)]
  by_cases hb : b = []
  · rw [if_pos hb]
    refine ⟨a, rfl, ha, ?_⟩
    subst hb
    simp [Match.names, split, fresh]
  rw [if_neg hb, if_neg (by omega)]
  obtain ⟨r, h1, h2, h3⟩ := catGo_spec (a.length + b.length + 2) (b.length + 1) (some b) a ha (by
    intro b' hb'; injection hb' with hb'; subst hb'; omega)
  exact ⟨r, h1, h2, by rw [names_clean h2, names_clean ha, h3]; rfl⟩

theorem fresh_eq (seen l : List Bytes) : fresh seen l = (firsts l).filter (· ∉ seen) := by
  induction l generalizing seen with
  | nil => rfl
  | cons a l ih =>
    rw [fresh, firsts]
    by_cases h : a ∈ seen
    · rw [if_pos h, ih, List.filter_cons, if_neg (by simpa using h), List.filter_filter]
      apply List.filter_congr
      intro x _
      by_cases hx : x = a
      · subst hx; simp [h]
      · simp [hx]
    · rw [if_neg h, ih, List.filter_cons, if_pos (by simpa using h), List.filter_filter]
      congr 1
      apply List.filter_congr
      intro x _
      by_cases hx : x = a
      · subst hx; simp
      · simp [hx]

theorem fresh_append (s l m : List Bytes) : fresh s (l ++ m) = fresh s l ++ fresh (s ++ fresh s l) m := by
  induction l generalizing s with
  | nil => simp [fresh]
  | cons a l ih =>
    rw [List.cons_append, fresh, fresh]
    by_cases h : a ∈ s
    · rw [if_pos h, if_pos h, ih]
    · rw [if_neg h, if_neg h, ih]; simp

theorem firsts_eq_fresh (l : List Bytes) : firsts l = fresh [] l := by
  rw [fresh_eq, List.filter_eq_self.2]; simp

theorem fresh_congr {s t : List Bytes} (h : ∀ x, x ∈ s ↔ x ∈ t) (l : List Bytes) : fresh s l = fresh t l := by
  rw [fresh_eq, fresh_eq]
  apply List.filter_congr
  intro x _
  simp [h x]

theorem mem_firsts (l : List Bytes) (x : Bytes) : x ∈ firsts l ↔ x ∈ l := by
  induction l with
  | nil => simp [firsts]
  | cons a l ih =>
    simp only [firsts, List.mem_cons, List.mem_filter, ih]
    by_cases h : x = a <;> simp [h]

theorem firsts_nodup {l : List Bytes} (h : l.Nodup) : firsts l = l := by
  induction l with
  | nil => rfl
  | cons a l ih =>
    rw [List.nodup_cons] at h
    rw [firsts, ih h.2, List.filter_eq_self.2]
    intro x hx
    simp only [ne_eq, decide_eq_true_eq]
    rintro rfl; exact h.1 hx

theorem firsts_append (l m : List Bytes) : firsts (l ++ m) = firsts l ++ fresh (firsts l) m := by
  rw [firsts_eq_fresh, fresh_append, ← firsts_eq_fresh]; simp

theorem join_length_le {c : UInt8} {l m : List Bytes} (h : List.Sublist l m) : (join c l).length ≤ (join c m).length := by
  have len : ∀ l : List Bytes, (join c l).length + (if l = [] then 0 else 1) = (l.map (fun x => x.length + 1)).sum := by
    intro l
    induction l with
    | nil => rfl
    | cons a t ih =>
      cases t with
      | nil => simp [join]
      | cons b t =>
        rw [join, List.map_cons, List.sum_cons, ← ih]
        simp; omega
  have hs : ∀ {l m : List Bytes}, List.Sublist l m →
      (l.map (fun x => x.length + 1)).sum ≤ (m.map (fun x => x.length + 1)).sum := by
    intro l m h
    induction h with
    | slnil => simp
    | cons a h ih => simp; omega
    | cons_cons a h ih => simp at ih ⊢; omega
  have h1 := len l
  have h2 := len m
  have h3 := hs h
  by_cases hl : l = []
  · subst hl; simp [join]
  · have hm : m ≠ [] := by rintro rfl; simp at h; exact hl h
    rw [if_neg hl] at h1; rw [if_neg hm] at h2; omega

/-- Names of `all` matched by one pattern. -/
def sel (all : List Bytes) (p : Bytes) : List Bytes := all.filter fun n => Match.matchPatternList n p false = 1

theorem filterAllow_eq (all cp : Bytes) (hc : Clean all) :
    Match.filterAllowlist all cp = join COMMA (sel (split COMMA all) cp) := by
  unfold Match.filterAllowlist sel
  rw [Match.C08_filter _ _ _ hc]
  congr 1

/-- The list built so far: empty, or a clean list of names. -/
def Holds (r : Bytes) (l : List Bytes) : Prop := (r = [] ∧ l = []) ∨ (Clean r ∧ split COMMA r = l)

theorem namesCat_holds {all r cp : Bytes} {l : List Bytes} (hc : Clean all) (hn : (split COMMA all).Nodup)
    (hl : all.length ≤ 1024 * 1024) (hr : Holds r l) :
    ∃ r', namesCat r (Match.filterAllowlist all cp) = some r' ∧ Holds r' (l ++ fresh l (sel (split COMMA all) cp)) := by
  rw [filterAllow_eq _ _ hc]
  generalize hm : sel (split COMMA all) cp = m
  have hmn : m.Nodup := by rw [← hm]; exact hn.filter _
  have hmc : ∀ x ∈ m, COMMA ∉ x ∧ x ≠ [] := by
    intro x hx
    rw [← hm] at hx
    have := (List.mem_filter.1 hx).1
    exact ⟨mem_split_no_sep this, hc x this⟩
  have hlen : (join COMMA m).length ≤ 1024 * 1024 := by
    have h1 : (join COMMA m).length ≤ (join COMMA (split COMMA all)).length :=
      join_length_le (by rw [← hm]; exact List.filter_sublist)
    rw [join_split] at h1; omega
  rcases hr with ⟨rfl, rfl⟩ | ⟨h1, h2⟩
  · refine ⟨join COMMA m, by simp [namesCat], ?_⟩
    rw [List.nil_append, ← firsts_eq_fresh, firsts_nodup hmn]
    by_cases hm0 : m = []
    · exact .inl ⟨by rw [hm0]; rfl, hm0⟩
    · have hs := split_join (c := COMMA) hm0 (fun f hf => (hmc f hf).1)
      exact .inr ⟨by intro n hn; rw [hs] at hn; exact (hmc n hn).2, hs⟩
  · by_cases hm0 : m = []
    · refine ⟨r, ?_, ?_⟩
      · subst hm0
        simp [namesCat, join, clean_ne h1]
      · rw [hm0]; simp [fresh]; exact .inr ⟨h1, h2⟩
    · have hs := split_join (c := COMMA) hm0 (fun f hf => (hmc f hf).1)
      have hjc : Clean (join COMMA m) := by intro n hn; rw [hs] at hn; exact (hmc n hn).2
      obtain ⟨r', h3, h4, h5⟩ := C54_names_cat r (join COMMA m) h1 hlen
      refine ⟨r', h3, .inr ⟨h4, ?_⟩⟩
      rw [names_clean h4, names_clean h1, names_clean hjc, hs, h2] at h5
      exact h5

theorem applyPats_spec {all : Bytes} (hc : Clean all) (hn : (split COMMA all).Nodup) (hl : all.length ≤ 1024 * 1024)
    (fuel : Nat) (s : Option Bytes) (r : Bytes) (l : List Bytes) (hr : Holds r l)
    (hf : ∀ b, s = some b → b.length < fuel) :
    ((∃ p ∈ splitRest COMMA s, p.head? = some 33) → applyPats all fuel s r = none) ∧
    ((∀ p ∈ splitRest COMMA s, p.head? ≠ some 33) →
      ∃ r', applyPats all fuel s r = some r' ∧
        Holds r' (l ++ fresh l ((splitRest COMMA s).flatMap (sel (split COMMA all))))) := by
  induction fuel generalizing s r l with
  | zero =>
    cases s with
    | none => exact ⟨by simp [splitRest], fun _ => ⟨r, rfl, by simpa [splitRest, fresh] using hr⟩⟩
    | some b => exact absurd (hf b rfl) (by omega)
  | succ fuel ih =>
    cases s with
    | none => exact ⟨by simp [splitRest], fun _ => ⟨r, rfl, by simpa [splitRest, fresh] using hr⟩⟩
    | some b =>
      have hsplit := split_eq_rest COMMA b
      rw [applyPats]
      rcases hs : strsep COMMA b with ⟨cp, rest⟩
      rw [hs] at hsplit
      simp only at hsplit ⊢
      show ((∃ p ∈ split COMMA b, _) → _) ∧ ((∀ p ∈ split COMMA b, _) → ∃ r', _ ∧ Holds r' (l ++ fresh l ((split COMMA b).flatMap _)))
      rw [hsplit]
      by_cases hb : cp.head? = some 33
      · rw [if_pos hb]
        exact ⟨fun _ => rfl, fun h => absurd hb (h cp (by simp))⟩
      · rw [if_neg hb]
        obtain ⟨r1, h1, h2⟩ := namesCat_holds (cp := cp) hc hn hl hr
        rw [h1]
        obtain ⟨i1, i2⟩ := ih rest r1 _ h2 (by
          intro r' hr'
          have := strsep_length (c := COMMA) (s := b) (r := r') (by rw [hs]; exact hr')
          have h3 := hf b rfl
          omega)
        constructor
        · rintro ⟨p, hp, hbang⟩
          rcases List.mem_cons.1 hp with rfl | hp
          · exact absurd hbang hb
          · exact i1 ⟨p, hp, hbang⟩
        · intro hall
          obtain ⟨r2, h3, h4⟩ := i2 (fun p hp => hall p (by simp [hp]))
          refine ⟨r2, h3, ?_⟩
          rw [List.flatMap_cons, fresh_append, ← List.append_assoc]
          exact h4

theorem applyList_spec {all list : Bytes} (hc : Clean all) (hn : (split COMMA all).Nodup) (hl : all.length ≤ 1024 * 1024) :
    (∀ r, applyList all list = some r ↔
      (∀ p ∈ split COMMA list, p.head? ≠ some 33) ∧ selected (split COMMA list) (split COMMA all) ≠ [] ∧
      r = join COMMA (selected (split COMMA list) (split COMMA all))) := by
  intro r
  obtain ⟨h1, h2⟩ := applyPats_spec hc hn hl (list.length + 1) (some list) [] [] (.inl ⟨rfl, rfl⟩) (by
    intro b hb; injection hb with hb; subst hb; omega)
  have h1 : (∃ p ∈ split COMMA list, p.head? = some 33) → _ := h1
  have h2 : (∀ p ∈ split COMMA list, p.head? ≠ some 33) → ∃ r', _ ∧ Holds r' ([] ++ fresh [] ((split COMMA list).flatMap _)) := h2
  unfold applyList
  by_cases hb : ∀ p ∈ split COMMA list, p.head? ≠ some 33
  · obtain ⟨r', h3, h4⟩ := h2 hb
    rw [h3]
    rw [List.nil_append, ← firsts_eq_fresh] at h4
    have h4 : Holds r' (selected (split COMMA list) (split COMMA all)) := h4
    rcases h4 with ⟨rfl, h5⟩ | ⟨h5, h6⟩
    · simp [h5]
    · simp only [clean_ne h5, if_false, Option.some.injEq]
      have hne : selected (split COMMA list) (split COMMA all) ≠ [] := by
        rw [← h6]; exact split_ne_nil _ _
      rw [← h6, join_split]
      constructor
      · rintro rfl; exact ⟨hb, by rw [h6]; exact hne, rfl⟩
      · rintro ⟨_, _, rfl⟩; rfl
  · have hb' : ∃ p ∈ split COMMA list, p.head? = some 33 := by
      apply Classical.byContradiction
      intro hne
      exact hb (fun p hp he => hne ⟨p, hp, he⟩)
    rw [h1 hb']
    simp [hb]

/-- **C54** an explicit list of patterns (no `+`, `-`, `^`): accepted exactly when no pattern is negated and
something is selected; the result is every selected supported name, once, in the order of the patterns. -/
theorem C54_explicit (list dflt all r : Bytes) (hc : Clean all) (hn : (split COMMA all).Nodup)
    (hl : all.length ≤ 1024 * 1024) (c : UInt8) (l : Bytes) (hlist : list = c :: l)
    (h1 : c ≠ 43) (h2 : c ≠ 45) (h3 : c ≠ 94) :
    assembleNames list dflt all = some r ↔
      (∀ p ∈ split COMMA list, p.head? ≠ some 33) ∧ selected (split COMMA list) (split COMMA all) ≠ [] ∧
      r = join COMMA (selected (split COMMA list) (split COMMA all)) := by
  subst hlist
  unfold assembleNames
  simp only [h1, h2, h3, if_false]
  exact applyList_spec hc hn hl r

/-- **C54** an empty setting means the default. -/
theorem C54_empty (dflt all : Bytes) : assembleNames [] dflt all = some dflt := rfl

/-- **C54** `-patterns`: the default names that no pattern matches, in order. -/
theorem C54_remove (l dflt all : Bytes) (hd : Clean dflt) :
    assembleNames (45 :: l) dflt all =
      some (join COMMA ((split COMMA dflt).filter fun n => Match.matchPatternList n l false ≠ 1)) := by
  show some (Match.filterDenylist dflt l) = _
  unfold Match.filterDenylist
  rw [Match.C08_filter _ _ _ hd]
  congr 2

/-- A pattern that matches only itself. -/
def Literal (n : Bytes) : Prop := ∀ m, Match.matchPatternList m n false = 1 ↔ m = n

theorem glob_lit {n m : Bytes} (h : ∀ c ∈ n, c ≠ STAR ∧ c ≠ QUEST) : Match.Glob n m ↔ m = n := by
  induction n generalizing m with
  | nil =>
    constructor
    · intro h; cases h; rfl
    · rintro rfl; exact .nil
  | cons c n ih =>
    have hc := h c (by simp)
    have hn : ∀ {m : Bytes}, Match.Glob n m ↔ m = n := ih (fun c hc => h c (by simp [hc]))
    constructor
    · intro hg
      cases hg with
      | star u hg => exact absurd rfl hc.1
      | any x hg => exact absurd rfl hc.2
      | lit _ _ _ hg => rw [hn.1 hg]
    · rintro rfl
      exact .lit c hc.1 hc.2 (hn.2 rfl)

/-- Every name without wildcards, negation or commas is literal. -/
theorem literal_of (n : Bytes) (hne : n ≠ []) (hl : n.length < 1023) (hb : n.head? ≠ some BANG)
    (h : ∀ c ∈ n, c ≠ STAR ∧ c ≠ QUEST ∧ c ≠ COMMA) : Literal n := by
  intro m
  have he : Match.entries n = [n] := by
    unfold Match.entries
    rw [split_no_sep (fun hc => (h _ hc).2.2 rfl)]
    simp [hne]
  rw [Match.C06_positive_iff, he]
  have hbody : Match.body n = n := by unfold Match.body; rw [if_neg hb]
  have hh : Match.hits m false n ↔ m = n := by
    unfold Match.hits
    rw [hbody]
    simp only [Bool.false_eq_true, if_false]
    exact glob_lit (fun c hc => ⟨(h c hc).1, (h c hc).2.1⟩)
  simp only [List.mem_singleton, forall_eq, exists_eq_left, Match.short, hbody, Match.isNeg, hb, hh]
  simp [hl]

theorem sel_literal {all : List Bytes} {n : Bytes} (hn : all.Nodup) (hl : Literal n) (hm : n ∈ all) :
    sel all n = [n] := by
  unfold sel
  have : (all.filter fun m => Match.matchPatternList m n false = 1) = all.filter (fun m => m = n) := by
    apply List.filter_congr
    intro x _
    simp [hl x]
  rw [this]
  induction all with
  | nil => simp at hm
  | cons a t ih =>
    rw [List.nodup_cons] at hn
    by_cases ha : a = n
    · subst ha
      rw [List.filter_cons, if_pos (by simp), List.filter_eq_nil_iff.2]
      intro x hx
      simp only [decide_eq_true_eq]
      rintro rfl; exact hn.1 hx
    · rw [List.filter_cons, if_neg (by simpa using ha)]
      apply ih hn.2 (by simpa [Ne.symm ha] using hm)
      apply List.filter_congr
      intro x _
      simp [hl x]

theorem flatMap_sel {all l : List Bytes} (hn : all.Nodup) (h : ∀ n ∈ l, Literal n ∧ n ∈ all) :
    l.flatMap (sel all) = l := by
  induction l with
  | nil => rfl
  | cons a l ih =>
    rw [List.flatMap_cons, sel_literal hn (h a (by simp)).1 (h a (by simp)).2, ih (fun n hn => h n (by simp [hn]))]
    rfl

/-- The default list is usable: distinct supported literal names. -/
def GoodDefault (dflt all : Bytes) : Prop :=
  Clean dflt ∧ (split COMMA dflt).Nodup ∧ (∀ n ∈ split COMMA dflt, Literal n ∧ n ∈ split COMMA all)

theorem fresh_flatMap_drop (seen : List Bytes) (all l : List Bytes) (hn : all.Nodup)
    (h : ∀ n ∈ seen, Literal n ∧ n ∈ all) :
    fresh seen ((fresh seen l).flatMap (sel all)) = fresh seen (l.flatMap (sel all)) := by
  suffices H : ∀ (t u : List Bytes), (∀ p, p ∈ t → ∀ x ∈ sel all p, x ∈ u) →
      fresh u ((fresh t l).flatMap (sel all)) = fresh u (l.flatMap (sel all)) by
    apply H seen seen
    intro p hp x hx
    rw [sel_literal hn (h p hp).1 (h p hp).2] at hx
    simp at hx; rw [hx]; exact hp
  induction l with
  | nil => intro t u _; rfl
  | cons a l ih =>
    intro t u h2
    rw [fresh]
    by_cases ha : a ∈ t
    · rw [if_pos ha, List.flatMap_cons, fresh_append]
      have : fresh u (sel all a) = [] := by
        rw [fresh_eq, List.filter_eq_nil_iff]
        intro x hx
        rw [mem_firsts] at hx
        simp [h2 a ha x hx]
      rw [this, List.nil_append, List.append_nil]
      exact ih t u h2
    · rw [if_neg ha, List.flatMap_cons, List.flatMap_cons, fresh_append, fresh_append]
      congr 1
      apply ih
      intro q hq x hx
      rw [List.mem_append, List.mem_singleton] at hq
      rw [List.mem_append]
      rcases hq with hq | rfl
      · exact .inl (h2 q hq x hx)
      · by_cases hu : x ∈ u
        · exact .inl hu
        · refine .inr ?_
          rw [fresh_eq, List.mem_filter, mem_firsts]
          exact ⟨hx, by simpa using hu⟩

theorem assemble_via {list l' dflt all : Bytes} {r : List Bytes} (h : assembleNames list dflt all = applyList all l')
    (hc : Clean all) (hn : (split COMMA all).Nodup) (hl : all.length ≤ 1024 * 1024)
    (hneg : ∀ p ∈ split COMMA l', p.head? ≠ some 33) (hr : r = selected (split COMMA l') (split COMMA all)) (hne : r ≠ []) :
    assembleNames list dflt all = some (join COMMA r) := by
  rw [h, applyList_spec hc hn hl]
  subst hr
  exact ⟨hneg, hne, rfl⟩

/-- **C54** `+patterns`: the default names, then the supported names selected by the patterns that are not
among the defaults. -/
theorem C54_append (l dflt all : Bytes) (hc : Clean all) (hn : (split COMMA all).Nodup)
    (hl : all.length ≤ 1024 * 1024) (hll : l.length ≤ 1024 * 1024) (hd : GoodDefault dflt all)
    (hneg : ∀ p ∈ split COMMA dflt ++ Match.names l, p.head? ≠ some 33) :
    assembleNames (43 :: l) dflt all =
      some (join COMMA (split COMMA dflt ++
        (selected (Match.names l) (split COMMA all)).filter (· ∉ split COMMA dflt))) := by
  obtain ⟨d1, d2, d3⟩ := hd
  obtain ⟨r0, h1, h2, h3⟩ := C54_names_cat dflt l d1 hll
  rw [names_clean h2, names_clean d1] at h3
  have hrw : selected (split COMMA r0) (split COMMA all) = split COMMA dflt ++
      (selected (Match.names l) (split COMMA all)).filter (· ∉ split COMMA dflt) := by
    unfold selected
    show firsts ((split COMMA r0).flatMap (sel (split COMMA all))) = _ ++ (firsts ((Match.names l).flatMap (sel _))).filter _
    rw [h3, List.flatMap_append, flatMap_sel hn d3, firsts_append, firsts_nodup d2,
      fresh_flatMap_drop _ _ _ hn d3, fresh_eq]
  apply assemble_via (l' := r0) ?_ hc hn hl ?_ hrw.symm ?_
  · show (match namesCat dflt l with | none => none | some list => applyList all list) = _
    rw [h1]
  · intro p hp
    rw [h3, List.mem_append, fresh_eq, List.mem_filter, mem_firsts] at hp
    apply hneg
    rw [List.mem_append]
    rcases hp with hp | hp
    · exact .inl hp
    · exact .inr hp.1
  · simp [split_ne_nil]

/-- **C54** `^patterns`: the supported names selected by the patterns, then the default names not among
them. -/
theorem C54_prepend (l dflt all : Bytes) (hc : Clean all) (hn : (split COMMA all).Nodup)
    (hl : all.length ≤ 1024 * 1024) (hll : dflt.length ≤ 1024 * 1024) (hd : GoodDefault dflt all) (hcl : Clean l)
    (hneg : ∀ p ∈ split COMMA l ++ split COMMA dflt, p.head? ≠ some 33) :
    assembleNames (94 :: l) dflt all =
      some (join COMMA (selected (split COMMA l) (split COMMA all) ++
        (split COMMA dflt).filter (· ∉ selected (split COMMA l) (split COMMA all)))) := by
  obtain ⟨d1, d2, d3⟩ := hd
  obtain ⟨r0, h1, h2, h3⟩ := C54_names_cat l dflt hcl hll
  rw [names_clean h2, names_clean hcl, names_clean d1] at h3
  have hrw : selected (split COMMA r0) (split COMMA all) = selected (split COMMA l) (split COMMA all) ++
      (split COMMA dflt).filter (· ∉ selected (split COMMA l) (split COMMA all)) := by
    unfold selected
    show firsts ((split COMMA r0).flatMap (sel (split COMMA all))) =
      firsts ((split COMMA l).flatMap (sel (split COMMA all))) ++
      (split COMMA dflt).filter (· ∉ firsts ((split COMMA l).flatMap (sel (split COMMA all))))
    rw [h3, List.flatMap_append, firsts_append]
    congr 1
    have hsub : ∀ n ∈ fresh (split COMMA l) (split COMMA dflt), Literal n ∧ n ∈ split COMMA all := by
      intro n hn'
      rw [fresh_eq, List.mem_filter, mem_firsts] at hn'
      exact d3 n hn'.1
    rw [flatMap_sel hn hsub, fresh_eq, fresh_eq, firsts_nodup d2, firsts_nodup (d2.filter _), List.filter_filter]
    apply List.filter_congr
    intro x hx
    by_cases hxl : x ∈ split COMMA l
    · have : x ∈ firsts ((split COMMA l).flatMap (sel (split COMMA all))) := by
        rw [mem_firsts, List.mem_flatMap]
        exact ⟨x, hxl, by rw [sel_literal hn (d3 x hx).1 (d3 x hx).2]; simp⟩
      simp [this]
    · simp [hxl]
  apply assemble_via (l' := r0) ?_ hc hn hl ?_ hrw.symm ?_
  · show (match namesCat l dflt with | none => none | some list => applyList all list) = _
    rw [h1]
  · intro p hp
    rw [h3, List.mem_append, fresh_eq, List.mem_filter, mem_firsts] at hp
    apply hneg
    rw [List.mem_append]
    rcases hp with hp | hp
    · exact .inl hp
    · exact .inr hp.1
  · intro h0
    rw [List.append_eq_nil_iff] at h0
    rw [h0.1] at h0
    have := h0.2
    rw [List.filter_eq_nil_iff] at this
    rcases hsp : split COMMA dflt with _ | ⟨x, t⟩
    · exact split_ne_nil _ _ hsp
    · exact absurd (this x (by rw [hsp]; simp)) (by simp)

/-- Non-vacuity. -/
example : assembleNames b!"+c*,a" b!"a,b" b!"a,b,c1,d,c2" = some b!"a,b,c1,c2" := by decide +kernel
example : assembleNames b!"^c*,b" b!"a,b" b!"a,b,c1,d,c2" = some b!"c1,c2,b,a" := by decide +kernel
example : assembleNames b!"-a*" b!"a,b" b!"a,b,c1,d,c2" = some b!"b" := by decide +kernel
example : assembleNames b!"d,c*" b!"a,b" b!"a,b,c1,d,c2" = some b!"d,c1,c2" := by decide +kernel
example : assembleNames b!"x*" b!"a,b" b!"a,b,c1,d,c2" = none := by decide +kernel
example : GoodDefault b!"a,b" b!"a,b,c1,d,c2" := by
  refine ⟨by unfold Clean; decide, by decide, fun n hn => ⟨?_, ?_⟩⟩
  · have : n = b!"a" ∨ n = b!"b" := by
      have h : split COMMA b!"a,b" = [b!"a", b!"b"] := by decide
      rw [h] at hn; simpa using hn
    rcases this with rfl | rfl <;> exact literal_of _ (by decide) (by decide) (by decide) (by decide)
  · revert n; decide

end Verif.Kex
