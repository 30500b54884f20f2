/-
C137: the order in which a client asks for types of host keys.
-/
import Verif.HostAlg.Model
import Verif.Match.Props

namespace Verif.HostAlg
open Verif Verif.Text Verif.Hostfile
open _root_.Verif.Match (names addName)
open scoped _root_.Verif.Match

/-! ### What is meant -/

/-- A key that known_hosts has for the host, of the type of an algorithm -/
def KeyFor (N : Names) (alg : Bytes) (e : Entry) : Prop :=
  e.marker = .none ∧ ∃ t, N.type alg = some t ∧ e.key.type = N.plain t ∧
    (N.nid alg = -1 ∨ N.ecdsa (N.plain t) = false ∨ e.key.nid = N.nid alg)

/-- It is marked as revoked. -/
def Revoked (es : List Entry) (e : Entry) : Prop :=
  ∃ r ∈ es, r.marker = .revoke ∧ (r.key.pub = e.key.pub ∨ ∃ c, e.key.cert = some c ∧ c.2 = r.key.pub)

/-- The first key of that type is good. -/
def Known (N : Names) (es : List Entry) (alg : Bytes) : Prop :=
  ∃ a e b, es = a ++ e :: b ∧ KeyFor N alg e ∧ (∀ x ∈ a, ¬ KeyFor N alg x) ∧ ¬ Revoked es e

/-- Algorithms that the client expects the server to have a key for: it knows one, or someone whose certificates it takes. -/
def Expected (N : Names) (es : List Entry) (alg : Bytes) : Prop :=
  Known N es alg ∨ (∃ t, N.type alg = some t ∧ N.cert t = true) ∧ ∃ e ∈ es, e.marker = .ca

/-! ### Looking up -/

theorem typeLoop_spec {type : Nat} {nid : Int} {ec : Bool} : ∀ {es : List Entry} {e : Entry},
    (typeLoop type nid ec es).2 = some e ↔
      ∃ a b, es = a ++ e :: b ∧ (e.marker = .none ∧ e.key.type = type ∧ (nid = -1 ∨ ec = false ∨ e.key.nid = nid)) ∧
        ∀ x ∈ a, ¬ (x.marker = .none ∧ x.key.type = type ∧ (nid = -1 ∨ ec = false ∨ x.key.nid = nid)) := by
  intro es
  induction es with
  | nil => intro e; simp [typeLoop]
  | cons y es ih =>
    intro e
    have skip : ¬ (y.marker = .none ∧ y.key.type = type ∧ (nid = -1 ∨ ec = false ∨ y.key.nid = nid)) →
        (typeLoop type nid ec (y :: es) = typeLoop type nid ec es) := by
      intro h
      rw [typeLoop]
      split
      · rfl
      · rename_i h1
        split
        · rfl
        · rename_i h2
          split
          · rfl
          · rename_i h3
            refine absurd ⟨Decidable.not_not.1 h1, Decidable.not_not.1 h2, ?_⟩ h
            cases ec with
            | false => exact .inr (.inl rfl)
            | true =>
              by_cases hn : nid = -1
              · exact .inl hn
              · right; right
                simpa [hn] using h3
    by_cases hy : y.marker = .none ∧ y.key.type = type ∧ (nid = -1 ∨ ec = false ∨ y.key.nid = nid)
    · have : typeLoop type nid ec (y :: es) = (.found, some y) := by
        rw [typeLoop, if_neg (by simp [hy.1]), if_neg (by simp [hy.2.1]), if_neg]
        rcases hy.2.2 with h | h | h <;> simp [h]
      rw [this]
      constructor
      · intro h
        cases h
        exact ⟨[], es, rfl, hy, by simp⟩
      · rintro ⟨a, b, he, h1, h2⟩
        cases a with
        | nil => cases he; rfl
        | cons x a =>
          cases he
          exact absurd hy (h2 _ (List.mem_cons_self ..))
    · rw [skip hy, ih]
      constructor
      · rintro ⟨a, b, rfl, h1, h2⟩
        refine ⟨y :: a, b, rfl, h1, fun x hx => ?_⟩
        rcases List.mem_cons.1 hx with rfl | hx
        · exact hy
        · exact h2 x hx
      · rintro ⟨a, b, he, h1, h2⟩
        cases a with
        | nil => cases he; exact absurd h1 hy
        | cons x a =>
          cases he
          exact ⟨a, b, rfl, h1, fun x hx => h2 x (List.mem_cons_of_mem _ hx)⟩

theorem isRevoked_iff {es : List Entry} {e : Entry} : isRevoked es (some e.key) = true ↔ Revoked es e := by
  unfold isRevoked Revoked
  simp only [List.any_eq_true, Bool.and_eq_true, decide_eq_true_eq, Bool.or_eq_true, equalPublic]
  refine exists_congr fun r => and_congr_right fun _ => and_congr_right fun _ => or_congr ?_ ?_
  · exact eq_comm
  · cases e.key.cert <;> simp

theorem haveKey_iff {N : Names} {es : List Entry} {alg : Bytes} {t : Nat} (ht : N.type alg = some t) :
    haveKey N es alg t = true ↔ Known N es alg := by
  have hk : ∀ e : Entry, KeyFor N alg e ↔ (e.marker = .none ∧ e.key.type = N.plain t ∧
      (N.nid alg = -1 ∨ N.ecdsa (N.plain t) = false ∨ e.key.nid = N.nid alg)) := by
    intro e
    unfold KeyFor
    simp [ht]
  unfold haveKey Known lookupType
  cases hl : (typeLoop (N.plain t) (N.nid alg) (N.ecdsa (N.plain t)) es).2 with
  | none =>
    simp only [Option.map_none, isRevoked, Bool.false_eq_true, if_false, Option.isSome_none, false_iff]
    rintro ⟨a, e, b, he, h1, h2, -⟩
    have := typeLoop_spec.2 ⟨a, b, he, (hk e).1 h1, fun x hx h => h2 x hx ((hk x).2 h)⟩
    rw [hl] at this
    cases this
  | some e =>
    obtain ⟨a, b, he, h1, h2⟩ := typeLoop_spec.1 hl
    simp only [Option.map_some]
    constructor
    · intro h
      split at h
      · cases h
      · rename_i hr
        exact ⟨a, e, b, he, (hk e).2 h1, fun x hx hh => h2 x hx ((hk x).1 hh), fun hR => hr (isRevoked_iff.2 hR)⟩
    · rintro ⟨a', e', b', he', h1', h2', h3'⟩
      have := typeLoop_spec.2 ⟨a', b', he', (hk e').1 h1', fun x hx h => h2' x hx ((hk x).2 h)⟩
      rw [hl] at this
      cases this
      rw [if_neg (fun h => h3' (isRevoked_iff.1 h))]
      rfl

theorem known_type {N : Names} {es : List Entry} {alg : Bytes} (h : Known N es alg) : ∃ t, N.type alg = some t := by
  obtain ⟨-, e, -, -, ⟨-, t, h, -⟩, -⟩ := h
  exact ⟨t, h⟩

theorem preferred_iff {N : Names} {es : List Entry} {alg : Bytes} {t : Nat} (ht : N.type alg = some t) :
    preferred N es alg t = true ↔ Expected N es alg := by
  unfold preferred Expected
  rw [Bool.or_eq_true, haveKey_iff ht, or_comm]
  refine or_congr Iff.rfl ?_
  simp [ht, haveCa, List.any_eq_true]

/-- As a test -/
def expected (N : Names) (es : List Entry) (alg : Bytes) : Bool := (N.type alg).any fun t => preferred N es alg t

theorem expected_iff {N : Names} {es : List Entry} {alg : Bytes} : expected N es alg = true ↔ Expected N es alg := by
  unfold expected
  cases ht : N.type alg with
  | none =>
    simp only [Option.any_none, Bool.false_eq_true, false_iff]
    rintro (h | ⟨⟨t, h, -⟩, -⟩)
    · obtain ⟨t, h⟩ := known_type h
      rw [ht] at h; cases h
    · rw [ht] at h; cases h
  | some t => simpa using preferred_iff ht

theorem bestKnown_iff {N : Names} {es : List Entry} {algs : Bytes} : bestKnown N es algs = true ↔ Known N es (firstAlg algs) := by
  unfold bestKnown
  cases ht : N.type (firstAlg algs) with
  | none =>
    simp only [Bool.false_eq_true, false_iff]
    intro h
    obtain ⟨t, h⟩ := known_type h
    rw [ht] at h; cases h
  | some t => exact haveKey_iff ht

/-! ### Putting them in order -/

theorem append_fits {len : Nat} {to src : Bytes} (h : to.length + src.length + (if to = [] then 0 else 1) < len) :
    append len to src = addName to src := by
  unfold append addName
  by_cases ht : to = []
  · simp only [ht, ne_eq, not_true_eq_false, if_false, if_true] at h ⊢
    exact Match.strlcat_fits (by simpa using h)
  · simp only [ht, ne_eq, not_false_eq_true, if_true, if_false] at h ⊢
    rw [Match.strlcat_fits (dst := to) (src := [COMMA]) (by simp only [List.length_singleton]; omega),
      Match.strlcat_fits (by simp only [List.length_append, List.length_singleton]; omega)]

theorem addName_room {len n : Nat} {to src : Bytes} (h : to.length + (src.length + 1 + n) + (if to = [] then 0 else 1) < len) :
    (addName to src).length + n + (if addName to src = [] then 0 else 1) < len := by
  unfold addName
  by_cases ht : to = []
  · simp only [ht, if_true, List.length_nil, List.nil_append] at h ⊢
    split <;> omega
  · simp only [ht, if_false, List.length_append, List.length_singleton] at h ⊢
    split <;> omega

theorem orderGo_eq (N : Names) (es : List Entry) (len fuel : Nat) (s first last : Bytes) (hf : s.length < fuel)
    (h1 : first.length + s.length + (if first = [] then 0 else 1) < len) (h2 : last.length + s.length + (if last = [] then 0 else 1) < len) :
    orderGo N es len fuel (some s) first last = if (names s).all (fun n => (N.type n).isSome) then
      some (((names s).filter (expected N es)).foldl addName first, ((names s).filter fun n => !expected N es n).foldl addName last)
    else none := by
  induction fuel generalizing s first last with
  | zero => omega
  | succ fuel ih =>
    rw [orderGo, Match.names_strsep]
    by_cases ht : (strsep COMMA s).1 = []
    · rw [if_pos ht, if_pos ht]; rfl
    · rw [if_neg ht, if_neg ht]
      have htok : (strsep COMMA s).1.length ≤ s.length := by
        rcases hr : (strsep COMMA s).2 with _ | r
        · rw [strsep_last hr]; omega
        · have := strsep_length hr; omega
      cases hty : N.type (strsep COMMA s).1 with
      | none => simp [hty]
      | some t =>
        have he : expected N es (strsep COMMA s).1 = preferred N es (strsep COMMA s).1 t := by simp [expected, hty]
        have hrec : ∀ f l : Bytes, (∀ r, (strsep COMMA s).2 = some r → f.length + r.length + (if f = [] then 0 else 1) < len ∧
              l.length + r.length + (if l = [] then 0 else 1) < len) →
            orderGo N es len fuel (strsep COMMA s).2 f l =
              if (match (strsep COMMA s).2 with | none => [] | some r => names r).all (fun n => (N.type n).isSome) then
                some (((match (strsep COMMA s).2 with | none => [] | some r => names r).filter (expected N es)).foldl addName f,
                  ((match (strsep COMMA s).2 with | none => [] | some r => names r).filter fun n => !expected N es n).foldl addName l)
              else none := by
          intro f l hh
          rcases hr : (strsep COMMA s).2 with _ | r
          · cases fuel <;> simp [orderGo]
          · have := strsep_length hr
            exact ih r f l (by omega) (hh r hr).1 (hh r hr).2
        simp only []
        rw [List.all_cons, hty, List.filter_cons, List.filter_cons, he]
        by_cases hp : preferred N es (strsep COMMA s).1 t = true
        · simp only [hp, if_true, Bool.not_true, Bool.false_eq_true, if_false, List.foldl_cons, Option.isSome_some, Bool.true_and]
          rw [append_fits (by omega), hrec _ _ (by
            intro r hr
            have := strsep_length hr
            exact ⟨addName_room (by omega), by omega⟩)]
          cases (strsep COMMA s).2 <;> rfl
        · have hp : preferred N es (strsep COMMA s).1 t = false := by simpa using hp
          simp only [hp, if_true, Bool.not_false, Bool.false_eq_true, if_false, List.foldl_cons, Option.isSome_some, Bool.true_and]
          rw [append_fits (by omega), hrec _ _ (by
            intro r hr
            have := strsep_length hr
            exact ⟨by omega, addName_room (by omega)⟩)]
          cases (strsep COMMA s).2 <;> rfl

theorem foldl_two (a b : List Bytes) (ha : ∀ n ∈ a, n ≠ []) (hb : ∀ n ∈ b, n ≠ []) :
    a.foldl addName [] ++ (if a.foldl addName [] = [] ∨ b.foldl addName [] = [] then [] else [COMMA]) ++ b.foldl addName [] =
      (a ++ b).foldl addName [] := by
  have ne : ∀ l : List Bytes, (∀ n ∈ l, n ≠ []) → l ≠ [] → l.foldl addName [] ≠ [] := by
    intro l hl hne h
    rw [Match.foldl_addName_join l [] hl (.inr hne), if_pos rfl] at h
    cases l with
    | nil => exact hne rfl
    | cons x l =>
      have hx := hl x (List.mem_cons_self ..)
      cases l with
      | nil => exact hx h
      | cons y l => simp [join] at h
  rw [List.foldl_append]
  by_cases h1 : a = []
  · subst h1; simp
  · by_cases h2 : b = []
    · subst h2; simp
    · have n1 := ne a ha h1
      have n2 := ne b hb h2
      rw [if_neg (by simp [n1, n2]), Match.foldl_addName_join b (a.foldl addName []) hb (.inr h2), if_neg n1,
        Match.foldl_addName_join b [] hb (.inr h2), if_pos rfl]
      cases b with
      | nil => exact absurd rfl h2
      | cons x b => simp [join]

theorem names_ne {s n : Bytes} (h : n ∈ names s) : n ≠ [] := by
  have : ∀ l : List Bytes, ∀ x ∈ l.takeWhile (· ≠ []), x ≠ [] := by
    intro l
    induction l with
    | nil => intro x hx; cases hx
    | cons a l ih =>
      intro x hx
      rw [List.takeWhile_cons] at hx
      split at hx
      · rename_i ha
        rcases List.mem_cons.1 hx with rfl | hx
        · simpa using ha
        · exact ih x hx
      · cases hx
  exact this _ n h

theorem names_nosep {s n : Bytes} (h : n ∈ names s) : COMMA ∉ n := mem_split_no_sep ((List.takeWhile_sublist _).subset h)

theorem names_foldl (l : List Bytes) (h1 : ∀ n ∈ l, n ≠ []) (h2 : ∀ n ∈ l, COMMA ∉ n) : names (l.foldl addName []) = l := by
  by_cases hn : l = []
  · subst hn; rfl
  · rw [Match.foldl_addName_join l [] h1 (.inr hn), if_pos rfl]
    unfold names
    rw [split_join hn h2]
    have : ∀ l : List Bytes, (∀ n ∈ l, n ≠ []) → l.takeWhile (fun x => decide (x ≠ [])) = l := by
      intro l
      induction l with
      | nil => intro _; rfl
      | cons a t ih =>
        intro h
        rw [List.takeWhile_cons, if_pos (by simpa using h a (List.mem_cons_self ..)), ih (fun n hn => h n (List.mem_cons_of_mem _ hn))]
    exact this l h1

/-- the name that comes first -/
def best (algs : Bytes) : Bytes := ((split COMMA algs).head?).getD []

theorem firstAlg_best : ∀ algs, firstAlg algs = best algs
  | [] => rfl
  | c :: l => by
    have ih := firstAlg_best l
    unfold firstAlg best at ih ⊢
    rw [split, List.takeWhile_cons]
    by_cases h : c = COMMA
    · rw [if_pos h, if_neg (by simp [h])]
      rfl
    · rw [if_neg h, if_pos (by simp [h]), ih]
      cases split COMMA l <;> rfl

open Classical in
/-- C137: what is asked for: if a key for the best algorithm is known, the list as it is; otherwise all names for which a key is expected,
in their order, and then all others in theirs, with one comma between each two. All names must be known; this is otherwise the end. -/
theorem C137_order (N : Names) (es : List Entry) (algs : Bytes) :
    (Known N es (best algs) → order N es algs = some algs) ∧
    (¬ Known N es (best algs) → (∀ n ∈ names algs, ∃ t, N.type n = some t) → ∃ r, order N es algs = some r ∧
      r = join COMMA (names r) ∧ names r = (names algs).filter (fun n => decide (Expected N es n)) ++ (names algs).filter fun n => decide (¬ Expected N es n)) ∧
    (¬ Known N es (best algs) → (∃ n ∈ names algs, N.type n = none) → order N es algs = none) := by
  have hgo := orderGo_eq N es (algs.length + 1) (algs.length + 1) algs [] [] (by omega) (by simp) (by simp)
  refine ⟨fun h => ?_, fun h ht => ?_, fun h ht => ?_⟩
  · rw [order, if_pos (bestKnown_iff.2 (firstAlg_best algs ▸ h))]
  · have hall : (names algs).all (fun n => (N.type n).isSome) = true := by
      rw [List.all_eq_true]
      intro n hn
      obtain ⟨t, h⟩ := ht n hn
      simp [h]
    rw [hall, if_pos rfl] at hgo
    rw [order, if_neg (fun hb => h (firstAlg_best algs ▸ bestKnown_iff.1 hb)), hgo]
    refine ⟨_, rfl, ?_⟩
    have e1 : (names algs).filter (fun n => decide (Expected N es n)) = (names algs).filter (expected N es) :=
      List.filter_congr fun n _ => by rw [Bool.eq_iff_iff]; simp [expected_iff]
    have e2 : ((names algs).filter fun n => decide (¬ Expected N es n)) = (names algs).filter fun n => !expected N es n :=
      List.filter_congr fun n _ => by rw [Bool.eq_iff_iff]; simp [← expected_iff]
    rw [e1, e2]
    simp only []
    rw [foldl_two _ _ (fun n hn => names_ne (List.mem_filter.1 hn).1) (fun n hn => names_ne (List.mem_filter.1 hn).1)]
    have hall := names_foldl ((names algs).filter (expected N es) ++ (names algs).filter fun n => !expected N es n) ?_ ?_
    · refine ⟨?_, hall⟩
      rw [hall]
      by_cases hn : ((names algs).filter (expected N es) ++ (names algs).filter fun n => !expected N es n) = []
      · rw [hn]; rfl
      · rw [Match.foldl_addName_join _ [] ?_ (.inr hn), if_pos rfl]
        intro n hn
        rcases List.mem_append.1 hn with hn | hn <;> exact names_ne (List.mem_filter.1 hn).1
    · intro n hn
      rcases List.mem_append.1 hn with hn | hn <;> exact names_ne (List.mem_filter.1 hn).1
    · intro n hn
      rcases List.mem_append.1 hn with hn | hn <;> exact names_nosep (List.mem_filter.1 hn).1
  · obtain ⟨n, hn, ht⟩ := ht
    have hall : ¬ (names algs).all (fun n => (N.type n).isSome) = true := by
      rw [List.all_eq_true]
      intro hh
      have := hh n hn
      rw [ht] at this
      cases this
    rw [if_neg hall] at hgo
    rw [order, if_neg (fun hb => h (firstAlg_best algs ▸ bestKnown_iff.1 hb)), hgo]
    rfl

theorem filter_perm {α : Type} (p q : α → Bool) : ∀ (l : List α), (∀ x ∈ l, q x = !p x) → (l.filter p ++ l.filter q).Perm l := by
  intro l
  induction l with
  | nil => intro _; exact .nil
  | cons a l ih =>
    intro h
    have ih := ih fun x hx => h x (List.mem_cons_of_mem _ hx)
    have ha := h a (List.mem_cons_self ..)
    rw [List.filter_cons, List.filter_cons]
    by_cases hp : p a = true
    · rw [if_pos hp, if_neg (by simp [ha, hp])]
      exact ih.cons a
    · rw [if_neg hp, if_pos (by simpa [ha] using hp)]
      exact List.perm_middle.trans (ih.cons a)

/-- C137: known_hosts only changes the order: nothing is allowed or forbidden by it. And nothing is changed if the user has set the list. -/
theorem C137_same (N : Names) (es : List Entry) (given : Option Bytes) (algs : Bytes) {r : Bytes} (h : proposed N es given algs = some r) :
    (names r).Perm (names algs) ∧ (∀ c l, given = some (c :: l) → c ≠ 43 → c ≠ 45 → r = algs) := by
  classical
  unfold proposed at h
  split at h
  · rename_i hg
    constructor
    · obtain ⟨h1, h2, h3⟩ := C137_order N es algs
      by_cases hk : Known N es (best algs)
      · rw [h1 hk] at h
        cases h
        exact .refl _
      · by_cases ht : ∀ n ∈ names algs, ∃ t, N.type n = some t
        · obtain ⟨r', e, -, hn⟩ := h2 hk ht
          rw [e] at h
          cases h
          rw [hn]
          exact filter_perm _ _ _ fun x _ => by simp
        · have : ∃ n ∈ names algs, N.type n = none := by
            obtain ⟨n, hn⟩ := Classical.not_forall.1 ht
            obtain ⟨hm, hn⟩ := Classical.not_imp.1 hn
            refine ⟨n, hm, ?_⟩
            cases hh : N.type n with
            | none => rfl
            | some t => exact absurd ⟨t, hh⟩ hn
          rw [h3 hk this] at h
          cases h
    · rintro c l rfl hc1 hc2
      simp [hc1, hc2] at hg
  · cases h
    exact ⟨.refl _, fun _ _ _ _ _ => rfl⟩

/-- C137: if the server can use an algorithm for which the client expects a key, such a one is used. Missing: that this holds if the best
algorithm is one of these but the server does not have it; then it is false (`C137_negotiated_original_false`). -/
theorem C137_negotiated_partial (N : Names) (es : List Entry) {algs server r n : Bytes} (hk : ¬ Known N es (best algs))
    (h : proposed N es none algs = some r) (hn : n ∈ names algs) (hs : n ∈ (names server).take 40) (he : Expected N es n) :
    ∃ m, (Match.matchList r server).1 = some m ∧ Expected N es m := by
  classical
  have ho : order N es algs = some r := by simpa [proposed] using h
  obtain ⟨-, h2, h3⟩ := C137_order N es algs
  have ht : ∀ n ∈ names algs, ∃ t, N.type n = some t := by
    intro n hm
    cases hh : N.type n with
    | some t => exact ⟨t, rfl⟩
    | none =>
      rw [h3 hk ⟨n, hm, hh⟩] at ho
      cases ho
  obtain ⟨r', e, -, hnames⟩ := h2 hk ht
  rw [ho] at e
  cases e
  rw [Match.C07_match_list, hnames, List.find?_append]
  have hmem : n ∈ (names algs).filter (fun n => decide (Expected N es n)) := List.mem_filter.2 ⟨hn, by simpa using he⟩
  cases hf : ((names algs).filter (fun n => decide (Expected N es n))).find? (fun x => decide (x ∈ (names server).take 40)) with
  | none => exact absurd hs (by simpa using List.find?_eq_none.1 hf n hmem)
  | some m => exact ⟨m, rfl, by simpa using (List.mem_filter.1 (List.mem_of_find?_eq_some hf)).2⟩

/-- C137: a good key in known_hosts makes its algorithm one that is expected. Missing: if there is a revoked key of the same type; then it is
false (`C137_revoked_original_false`). -/
theorem C137_expected_partial (N : Names) (es : List Entry) {alg : Bytes} (h : ∃ e ∈ es, KeyFor N alg e)
    (hr : ∀ e ∈ es, KeyFor N alg e → ¬ Revoked es e) : Expected N es alg := by
  classical
  left
  obtain ⟨e, he, hk⟩ := h
  cases hf : es.find? (fun e => decide (KeyFor N alg e)) with
  | none => exact absurd hk (by simpa using List.find?_eq_none.1 hf e he)
  | some x =>
    obtain ⟨hx, a, b, rfl, ha⟩ := List.find?_eq_some_iff_append.1 hf
    have hx : KeyFor N alg x := by simpa using hx
    exact ⟨a, x, b, rfl, hx, fun y hy => by simpa using ha y hy, hr x (by simp) hx⟩

end Verif.HostAlg
