/- The client's configuration: what is refused or ignored, SendEnv, and what the criteria of Match look at. -/
import Verif.Conf.Keywords

namespace Verif.Conf
open Verif Match Num

/-! ### Refused lines -/

theorem only_word {s l : List Setting} {r : List Bytes} (h : only s r = some l) : l = s ∧ r = [] := by
  cases r with
  | nil => cases h; exact ⟨rfl, rfl⟩
  | cons => cases h

theorem arg1_some {args r : List Bytes} {a : Bytes} (h : arg1 args = some (a, r)) : args = a :: r ∧ a ≠ [] := by
  cases args with
  | nil => cases h
  | cons x xs =>
    simp only [arg1] at h
    split at h
    · cases h
    · rename_i hne; cases h; exact ⟨rfl, hne⟩

/-- The keywords that take one word. -/
def oneWord : List Bytes := choices.map (·.1) ++ counts.map (·.1) ++ times.map (·.1) ++ wordsOf.map (·.1) ++ keyFiles.map (·.1)

/-- C45: a line of a keyword that takes one word is refused if it has none, an empty one or more. -/
theorem C45_one_word {E : Env} {ign : Option Bytes} {user : Bool} {kw str : Bytes} {args : List Bytes} {l : List Setting}
    (hk : kw ∈ oneWord) (h : sets E ign user kw str args = some l) : ∃ v, args = [v] ∧ v ≠ [] := by
  have fin : ∀ (g : Bytes → Option (List Setting)), ((arg1 args).bind fun (a, r) => (g a).bind fun s => only s r) = some l →
      ∃ v, args = [v] ∧ v ≠ [] := by
    intro g hg
    rw [Option.bind_eq_some_iff] at hg
    obtain ⟨⟨a, r⟩, h1, h2⟩ := hg
    rw [Option.bind_eq_some_iff] at h2
    obtain ⟨s, _, h3⟩ := h2
    obtain ⟨h4, h5⟩ := arg1_some h1
    have h6 := (only_word h3).2
    exact ⟨a, by rw [h4, h6], h5⟩
  simp only [oneWord, List.mem_append, List.mem_map] at hk
  rcases hk with (((⟨x, hx, rfl⟩ | ⟨x, hx, rfl⟩) | ⟨x, hx, rfl⟩) | ⟨x, hx, rfl⟩) | ⟨x, hx, rfl⟩
  · obtain ⟨t, h1, _⟩ := choices_ok x hx
    obtain ⟨k, hk, hk'⟩ := kind_of h1 ign
    cases k with
    | multi k' t' =>
      cases hk'
      refine fin (fun a => (multistate t a).map fun v => [.int x.2.1 v]) ?_
      simp only [sets, hk, Option.bind_some, settings] at h
      rw [← h]
      congr 1; funext ⟨a, r⟩
      show ((multistate t a).map _).bind _ = (multistate t a).bind _
      cases multistate t a <;> rfl
    | _ => cases hk'
  · obtain ⟨k, hk, hk'⟩ := kind_of (counts_ok x hx) ign
    cases k with
    | int k' =>
      cases hk'
      refine fin (fun a => (intValue a).map fun v => [.int x.2 v]) ?_
      simp only [sets, hk, Option.bind_some, settings] at h
      rw [← h]
      congr 1; funext ⟨a, r⟩
      show ((intValue a).map _).bind _ = (intValue a).bind _
      cases intValue a <;> rfl
    | _ => cases hk'
  · obtain ⟨k, hk, hk'⟩ := kind_of (times_ok x hx) ign
    cases k with
    | time k' =>
      cases hk'
      refine fin (fun a => (timeValue a).map fun v => [.int x.2 v]) ?_
      simp only [sets, hk, Option.bind_some, settings] at h
      rw [← h]
      congr 1; funext ⟨a, r⟩
      show ((timeValue a).map _).bind _ = (timeValue a).bind _
      cases timeValue a <;> rfl
    | _ => cases hk'
  · obtain ⟨k, hk, hk'⟩ := kind_of (words_ok x hx) ign
    cases k with
    | string k' =>
      cases hk'
      refine fin (fun a => some [.str x.2 a]) ?_
      simp only [sets, hk, Option.bind_some, settings] at h
      exact h
    | _ => cases hk'
  · obtain ⟨k, hk, hk'⟩ := kind_of (keyFiles_ok x hx) ign
    cases k with
    | file k' =>
      cases hk'
      refine fin (fun a => some [.addFile x.2 a user 100]) ?_
      simp only [sets, hk, Option.bind_some, settings] at h
      exact h
    | _ => cases hk'

/-- C45: for the known-hosts files "none" stands alone; any other list of words that are not empty is taken. -/
theorem C45_hosts_iff {E : Env} {ign : Option Bytes} {user : Bool} {str : Bytes} {args : List Bytes} (x : Bytes × Key)
    (hx : x ∈ hostFiles) : sets E ign user x.1 str args = some [.array x.2 args 32] ↔
      (∀ a ∈ args, a ≠ []) ∧ ((∃ a, args = [a]) ∨ ∀ a ∈ args, lower a ≠ b!"none") := by
  obtain ⟨k, hk, hk'⟩ := kind_of (hostFiles_ok x hx) ign
  cases k with
  | array k' =>
    cases hk'
    simp only [sets, hk, Option.bind_some, settings]
    by_cases h1 : (args.all fun a => decide (a ≠ [])) = true
    · have h1' : ∀ a ∈ args, a ≠ [] := by simpa using h1
      by_cases h2 : noneAlone args = true
      · rw [if_pos (by rw [h1, h2]; rfl)]
        refine ⟨fun _ => ⟨h1', ?_⟩, fun _ => rfl⟩
        simp only [noneAlone, Bool.or_eq_true, decide_eq_true_eq, List.all_eq_true, same, Bool.not_eq_true',
          decide_eq_false_iff_not] at h2
        rcases h2 with h2 | h2
        · match args, h2 with
          | [], _ => right; simp
          | [a], _ => exact .inl ⟨a, rfl⟩
        · exact .inr h2
      · rw [if_neg (by rw [h1]; simpa using h2)]
        refine ⟨fun h => (by cases h), ?_⟩
        rintro ⟨_, h⟩
        refine absurd ?_ h2
        simp only [noneAlone, Bool.or_eq_true, decide_eq_true_eq, List.all_eq_true, same, Bool.not_eq_true',
          decide_eq_false_iff_not]
        rcases h with ⟨a, rfl⟩ | h
        · left; simp
        · exact .inr h
    · rw [if_neg (by intro h; rw [Bool.and_eq_true] at h; exact h1 h.1)]
      refine ⟨fun h => (by cases h), ?_⟩
      rintro ⟨h, _⟩
      exact absurd (by simpa using h) h1
  | _ => cases hk'

/-- C45: a keyword that is not known is refused, unless IgnoreUnknown matches it; then the line says nothing. -/
theorem C45_unknown {E : Env} {ign : Option Bytes} {user : Bool} {kw str : Bytes} {args : List Bytes}
    (hk : ∀ x ∈ keywords, x.1 ≠ kw) : sets E ign user kw str args =
      match ign with
      | none => none
      | some p => if matchPatternList kw p true = 1 then some [] else none := by
  have : keywords.find? (fun x => x.1 = kw) = none := by
    rw [List.find?_eq_none]
    intro x hx; simpa using hk x hx
  unfold sets kindOf
  rw [this]
  cases ign with
  | none => rfl
  | some p =>
    dsimp only
    by_cases hm : matchPatternList kw p true = 1
    · rw [if_pos hm, if_pos hm]; rfl
    · rw [if_neg hm, if_neg hm]; rfl

/-! ### SendEnv -/

/-- C45: a name is sent exactly if it was given and no pattern given later with `-` matches it. -/
theorem C45_sendenv (args l : List Bytes) (x : Bytes) : x ∈ args.foldl envArg l ↔
    (x ∈ l ∧ ∀ a ∈ args, a.head? = some 45 → matchPattern x (a.drop 1) = false) ∨
    ∃ pre post, args = pre ++ x :: post ∧ x.head? ≠ some 45 ∧
      ∀ a ∈ post, a.head? = some 45 → matchPattern x (a.drop 1) = false := by
  induction args generalizing l with
  | nil => simp
  | cons a r ih =>
    rw [List.foldl_cons, ih]
    have he : x ∈ envArg l a ↔ (x ∈ l ∧ (a.head? = some 45 → matchPattern x (a.drop 1) = false)) ∨
        (a.head? ≠ some 45 ∧ x = a) := by
      unfold envArg
      by_cases h : a.head? = some 45
      · simp [h]
      · simp [h]
    rw [he]
    constructor
    · rintro (⟨(⟨h1, h2⟩ | ⟨h1, rfl⟩), h3⟩ | ⟨pre, post, rfl, h⟩)
      · left
        refine ⟨h1, ?_⟩
        intro b hb
        rcases List.mem_cons.1 hb with rfl | hb
        · exact h2
        · exact h3 b hb
      · exact .inr ⟨[], r, rfl, h1, h3⟩
      · exact .inr ⟨a :: pre, post, rfl, h⟩
    · rintro (⟨h1, h2⟩ | ⟨pre, post, h3, h4, h5⟩)
      · exact .inl ⟨.inl ⟨h1, h2 a (by simp)⟩, fun b hb => h2 b (by simp [hb])⟩
      · cases pre with
        | nil => cases h3; exact .inl ⟨.inr ⟨h4, rfl⟩, h5⟩
        | cons b pre => cases h3; exact .inr ⟨pre, post, rfl, h4, h5⟩

/-! ### Match -/

/-- The names of the criteria in ssh_config(5). -/
def critTable : List (Bytes × Crit) := [(b!"exec", .exec), (b!"localnetwork", .localNetwork), (b!"host", .host),
  (b!"originalhost", .originalHost), (b!"tagged", .tagged), (b!"command", .command), (b!"user", .user),
  (b!"localuser", .localUser), (b!"version", .version), (b!"sessiontype", .sessionType)]

theorem crit_find (w : Bytes) (c : Crit) : (∃ x, critNames.find? (fun x => same w x.1) = some x ∧ x.2 = c) ↔ (lower w, c) ∈ critTable := by
  simp only [same]
  generalize lower w = v
  have hd : ∀ c, (∃ x ∈ critNames, x.1 = v ∧ x.2 = c) ↔ (v, c) ∈ critTable := by
    intro c
    constructor
    · rintro ⟨x, hx, rfl, rfl⟩
      revert x; decide
    · intro h
      exact ⟨(v, c), (show ∀ y ∈ critTable, y ∈ critNames by decide) _ h, rfl, rfl⟩
  rw [← hd]
  constructor
  · rintro ⟨x, hx, rfl⟩
    have h1 := List.find?_some hx
    exact ⟨x, List.mem_of_find?_eq_some hx, by simpa using (by simpa using h1 : v = x.1).symm, rfl⟩
  · rintro ⟨x, hx, rfl, rfl⟩
    cases hf : critNames.find? (fun y => decide (x.1 = y.1)) with
    | none =>
      rw [List.find?_eq_none] at hf
      exact absurd (hf x hx) (by simp)
    | some y =>
      have h1 : x.1 = y.1 := by simpa using List.find?_some hf
      have h2 := List.mem_of_find?_eq_some hf
      have := (show ∀ a ∈ critNames, ∀ b ∈ critNames, a.1 = b.1 → a.2 = b.2 by decide) x hx y h2 h1
      exact ⟨y, rfl, this.symm⟩

/-- C75: the criteria have the names of the manual, in any case; an argument that is a comment is refused, and only that of
"tagged" and "command" may be empty. -/
theorem C75_names (attrib arg x : Bytes) (c : Crit) : critOf attrib arg = some (c, x) ↔
    (lower attrib, c) ∈ critTable ∧ x = arg ∧ arg.head? ≠ some 35 ∧ (arg = [] → c = .tagged ∨ c = .command) := by
  rw [← crit_find]
  unfold critOf
  cases hf : critNames.find? (fun x => same attrib x.1) with
  | none => simp
  | some y =>
    dsimp only
    simp only [Option.some.injEq, exists_eq_left']
    by_cases h1 : arg.head? = some 35
    · rw [if_pos h1]; simp [h1]
    · rw [if_neg h1]
      by_cases h2 : arg = [] ∧ y.2 ≠ .tagged ∧ y.2 ≠ .command
      · rw [if_pos h2]
        refine ⟨fun h => (by cases h), ?_⟩
        rintro ⟨rfl, _, _, h⟩
        rcases h h2.1 with h | h
        · exact absurd h h2.2.1
        · exact absurd h h2.2.2
      · rw [if_neg h2]
        constructor
        · intro h
          cases h
          refine ⟨rfl, rfl, h1, fun he => ?_⟩
          apply Classical.byContradiction
          intro hn
          rw [not_or] at hn
          exact h2 ⟨he, hn⟩
        · rintro ⟨rfl, rfl, _⟩; rfl

/-- C75: an empty tag or command matches the empty text only. -/
theorem C75_text (W : World) (o : Opts) (host x : Bytes) :
    (Truth W o host .tagged x ↔ (o.str .tag = none ∨ o.str .tag = some []) ∧ x = [] ∨
      ∃ t, o.str .tag = some t ∧ t ≠ [] ∧ matchPatternList t x false = 1) ∧
    (Truth W o host .command x ↔ (W.command = none ∨ W.command = some []) ∧ x = [] ∨
      ∃ t, W.command = some t ∧ t ≠ [] ∧ matchPatternList t x false = 1) := by
  have core : ∀ (v : Option Bytes), textMatch (v.getD []) x = true ↔ (v = none ∨ v = some []) ∧ x = [] ∨
      ∃ t, v = some t ∧ t ≠ [] ∧ matchPatternList t x false = 1 := by
    intro v
    cases v with
    | none => simp [textMatch]
    | some t =>
      by_cases ht : t = []
      · subst ht; simp [textMatch]
      · simp [textMatch, ht]
  exact ⟨core _, core _⟩

/-- C75: what "sessiontype" looks at: "subsystem" or "none" if asked for, else whether there is a command. -/
theorem C75_session (W : World) (o : Opts) (host x : Bytes) : Truth W o host .sessionType x ↔
    (o.int .sessionType = 1 ∧ matchPatternList b!"subsystem" x false = 1) ∨
    (o.int .sessionType = 0 ∧ matchPatternList b!"none" x false = 1) ∨
    (o.int .sessionType ≠ 0 ∧ o.int .sessionType ≠ 1 ∧
      ((∃ c, W.command = some c ∧ c ≠ []) ∧ matchPatternList b!"exec" x false = 1 ∨
       (W.command = none ∨ W.command = some []) ∧ matchPatternList b!"shell" x false = 1)) := by
  unfold Truth sessionNow
  by_cases h1 : o.int .sessionType = 1
  · simp [h1]
  · by_cases h0 : o.int .sessionType = 0
    · simp [h0]
    · rw [if_neg h1, if_neg h0]
      cases hc : W.command with
      | none => simp [h0, h1]
      | some c =>
        by_cases hn : c = []
        · subst hn; simp [h0, h1]
        · simp [h0, h1, hn]

/-- C75: the name "host" looks at: the one HostName stands for.  In the last pass it is expanded already, and always there. -/
theorem C75_host (W : World) (o : Opts) (host : Bytes) : hostNow W o = some host ↔
    (W.final = true ∧ o.str .hostname = some host) ∨
    (W.final = false ∧ (o.str .hostname = none ∧ host = W.host ∨
      ∃ t, o.str .hostname = some t ∧ Misc.Expand.percentExpand [(b!"h", W.host)] t = .ok host)) := by
  unfold hostNow
  cases hh : o.str .hostname with
  | none => cases W.final <;> simp [eq_comm]
  | some t =>
    cases W.final
    · simp only [Bool.false_eq_true, if_false]
      cases he : Misc.Expand.percentExpand [(b!"h", W.host)] t <;> simp [he]
    · simp

/-! ### Cases -/

example : b!"port" ∉ oneWord ∧ b!"user" ∈ oneWord ∧ b!"forwardx11" ∈ oneWord := by decide +kernel
example : [b!"LANG", b!"LC_ALL", b!"-LC_*", b!"LC_TIME"].foldl envArg [] = [b!"LANG", b!"LC_TIME"] := by decide +kernel
example : critOf b!"LocalUser" b!"me" = some (.localUser, b!"me") ∧ critOf b!"user" [] = none := by decide +kernel
example : ∀ x ∈ keywords, x.1 ≠ b!"sslmode" := by
  have : (keywords.map (·.1)).all (· ≠ b!"sslmode") = true := by decide +kernel
  intro x hx he
  rw [List.all_eq_true] at this
  have := this x.1 (List.mem_map_of_mem hx)
  simp [he] at this

end Verif.Conf
