/-
C146: names that are quoted reach sftp as they are.
-/
import Verif.Argv.Model

namespace Verif.Argv
open Verif

/-! ### What is meant -/

/-- How a name is quoted: in double quotes, in single quotes, or each character with a backslash -/
inductive Style where
  | double | single | backslash

/-- A name, quoted -/
def written : Style → Bytes → Bytes
  | .double, n => 34 :: (n.flatMap (fun c => if c = 34 ∨ c = 92 then [92, c] else [c]) ++ [34])
  | .single, n => 39 :: (n.flatMap (fun c => if c = 39 ∨ c = 92 then [92, c] else [c]) ++ [39])
  | .backslash, n => n.flatMap fun c => [92, c]

/-- Quoted names with blanks in between -/
def line : List (Style × Bytes) → Bytes
  | [] => []
  | [x] => written x.1 x.2
  | x :: l => written x.1 x.2 ++ 32 :: line l

/-- What glob(3) reads: a character, or one that stands for others -/
inductive Tok where
  | lit (c : UInt8)
  | wild (c : UInt8)
  deriving DecidableEq

/-- A pattern, as glob(3) reads it: a backslash takes the meaning away from the next character. -/
def pattern : Bytes → List Tok
  | 92 :: c :: l => .lit c :: pattern l
  | c :: l => (if c = 63 ∨ c = 91 ∨ c = 42 then .wild c else .lit c) :: pattern l
  | [] => []

/-! ### Quoting -/

/-- a name, as it is handed to glob(3) -/
def esc (c : UInt8) : Bytes := if isGlob c ∨ c = 92 then [92, c] else [c]
def escaped (n : Bytes) : Bytes := n.flatMap esc

theorem pattern_append (c : UInt8) (l : Bytes) : pattern (esc c ++ l) = .lit c :: pattern l := by
  unfold esc
  split
  · simp [pattern]
  · rename_i h
    simp only [not_or] at h
    rw [List.singleton_append, pattern]
    · rw [if_neg (by simpa [isGlob] using h.1)]
    · intro c' l' h1 _
      exact h.2 h1

theorem pattern_escaped (n : Bytes) : pattern (escaped n) = n.map .lit := by
  induction n with
  | nil => rfl
  | cons c n ih =>
    rw [escaped, List.flatMap_cons, pattern_append]
    exact congrArg _ ih

theorem esc_length (c : UInt8) : 1 ≤ (esc c).length ∧ (esc c).length ≤ 2 := by
  unfold esc
  split <;> simp

theorem put_ok {s : St} {b : Bytes} {k : St → Res} (h : s.j + b.length ≤ size) : put s b k = k ⟨s.mode, s.cur ++ b, s.args, s.j + b.length⟩ := by
  rw [put, if_neg (by omega)]

theorem glob_cases {c : UInt8} (h : isGlob c = true) : c = 63 ∨ c = 91 ∨ c = 42 := by simpa [isGlob] using h

/-- inside quotes -/
theorem go_quoted (sloppy : Bool) (m : Mode) (q : UInt8) (hm : m = .dq ∧ q = 34 ∨ m = .sq ∧ q = 39) : ∀ (n rest : Bytes) (s : St), s.mode = m →
    s.args.length < 129 → s.j + (escaped n).length ≤ size - 5 →
    go sloppy (n.flatMap (fun c => if c = q ∨ c = 92 then [92, c] else [c]) ++ rest) s =
      go sloppy rest ⟨m, s.cur ++ escaped n, s.args, s.j + (escaped n).length⟩ := by
  intro n
  induction n with
  | nil =>
    intro rest s h1 _ _
    subst h1
    simp [escaped]
  | cons c n ih =>
    intro rest s h1 h2 h3
    have hs : size = 8192 := rfl
    have hq : quoted m = true := by rcases hm with ⟨rfl, _⟩ | ⟨rfl, _⟩ <;> rfl
    have hquot : quotOf m = q := by rcases hm with ⟨rfl, rfl⟩ | ⟨rfl, rfl⟩ <;> rfl
    have hent : enter s = s := by
      unfold enter
      rw [if_neg]
      rw [h1]
      rcases hm with ⟨rfl, _⟩ | ⟨rfl, _⟩ <;> simp
    have hlen : (escaped (c :: n)).length = (esc c).length + (escaped n).length := by simp [escaped]
    have happ : ∀ x : Bytes, x ++ esc c ++ escaped n = x ++ escaped (c :: n) := fun x => by simp [escaped]
    have step : ∀ b, b = esc c → put s b (go sloppy (n.flatMap (fun c => if c = q ∨ c = 92 then [92, c] else [c]) ++ rest)) =
        go sloppy rest ⟨m, s.cur ++ escaped (c :: n), s.args, s.j + (escaped (c :: n)).length⟩ := by
      rintro b rfl
      rw [put_ok (by omega), ih rest ⟨s.mode, s.cur ++ esc c, s.args, s.j + (esc c).length⟩ h1 h2 (by simp only; omega)]
      simp only [happ, hlen]
      rw [Nat.add_assoc]
    rw [List.flatMap_cons]
    by_cases hc : c = q ∨ c = 92
    · rw [if_pos hc, List.cons_append, List.cons_append, go.eq_def]
      dsimp only
      rw [List.singleton_append, List.cons_append, if_neg (by omega), if_neg (by decide), if_neg (by decide), if_pos rfl]
      simp only [h1, hq, if_true, hquot]
      by_cases h : c = q
      · rw [if_pos h]
        refine step _ ?_
        rw [esc, if_neg]
        rcases hm with ⟨_, rfl⟩ | ⟨_, rfl⟩ <;> subst h <;> decide
      · rw [if_neg h]
        have h92 : c = 92 := hc.resolve_left h
        subst h92
        rw [if_neg (by decide)]
        exact step _ rfl
    · rw [if_neg hc, List.singleton_append, List.cons_append, go.eq_def]
      dsimp only
      simp only [not_or] at hc
      rw [if_neg (by omega)]
      by_cases hsp : isSpace c = true
      · rw [if_pos hsp, if_neg (by rw [h1]; rcases hm with ⟨rfl, _⟩ | ⟨rfl, _⟩ <;> simp),
          if_neg (by rw [h1]; rcases hm with ⟨rfl, _⟩ | ⟨rfl, _⟩ <;> simp)]
        refine step _ ?_
        rw [esc, if_neg]
        rintro (h | h)
        · rcases glob_cases h with rfl | rfl | rfl <;> revert hsp <;> decide
        · exact hc.2 h
      · rw [if_neg hsp]
        by_cases hqq : c = 34 ∨ c = 39
        · rw [if_pos hqq, h1, hq, if_neg (by simp), if_neg]
          · refine step _ ?_
            rw [esc, if_neg]
            rcases hqq with rfl | rfl <;> decide
          · rcases hm with ⟨rfl, rfl⟩ | ⟨rfl, rfl⟩
            · have : c = 39 := hqq.resolve_left hc.1
              subst this
              decide
            · have : c = 34 := hqq.resolve_right hc.1
              subst this
              decide
        · rw [if_neg hqq, if_neg hc.2, h1, hq, if_neg (by simp)]
          by_cases hg : isGlob c = true
          · rw [if_pos ⟨rfl, hg⟩, if_neg (by have := esc_length c; omega), hent]
            exact step _ (by rw [esc, if_pos (.inl hg)])
          · rw [if_neg (by simp [hg]), hent]
            exact step _ (by rw [esc, if_neg (by simp [hg, hc.2])])

/-- with backslashes -/
theorem go_backslash (sloppy : Bool) : ∀ (n rest : Bytes) (s : St), s.mode = .un → s.args.length < 129 → s.j + (escaped n).length ≤ size - 5 →
    go sloppy (n.flatMap (fun c => [92, c]) ++ rest) s = go sloppy rest ⟨.un, s.cur ++ escaped n, s.args, s.j + (escaped n).length⟩ := by
  intro n
  induction n with
  | nil =>
    intro rest s h1 _ _
    obtain ⟨m, cur, args, j⟩ := s
    simp only at h1
    subst h1
    simp [escaped]
  | cons c n ih =>
    intro rest s h1 h2 h3
    have hlen : (escaped (c :: n)).length = (esc c).length + (escaped n).length := by simp [escaped]
    have hent : enter s = s := by rw [enter, if_neg (by rw [h1]; simp)]
    have step : ∀ b, b = esc c → put s b (go sloppy (n.flatMap (fun c => [92, c]) ++ rest)) =
        go sloppy rest ⟨.un, s.cur ++ escaped (c :: n), s.args, s.j + (escaped (c :: n)).length⟩ := by
      rintro b rfl
      rw [put_ok (by have : size = 8192 := rfl; omega), ih rest ⟨s.mode, s.cur ++ esc c, s.args, s.j + (esc c).length⟩ h1 h2 (by simp only; omega)]
      simp [escaped, Nat.add_assoc]
    rw [List.flatMap_cons, List.cons_append, List.cons_append, go.eq_def]
    dsimp only
    rw [List.singleton_append, List.cons_append, if_neg (by omega), if_neg (by decide), if_neg (by decide), if_pos rfl]
    simp only [h1, quoted, Bool.false_eq_true, if_false, hent]
    by_cases hg : isGlob c = true ∨ c = 92
    · rw [if_pos hg]
      exact step _ (by rw [esc, if_pos hg])
    · rw [if_neg hg]
      exact step _ (by rw [esc, if_neg hg])

/-- one quoted name -/
theorem go_written (sloppy : Bool) (x : Style × Bytes) (rest : Bytes) (args : List Bytes) (j : Nat) (hx : x.2 ≠ []) (h2 : args.length < 129)
    (h3 : j + (escaped x.2).length ≤ size - 5) : go sloppy (written x.1 x.2 ++ rest) ⟨.start, [], args, j⟩ =
      go sloppy rest ⟨.un, escaped x.2, args, j + (escaped x.2).length⟩ := by
  obtain ⟨st, n⟩ := x
  simp only at hx h3 ⊢
  cases st with
  | double =>
    rw [written, List.cons_append, List.append_assoc, go.eq_def]
    dsimp only
    rw [if_neg (by simpa using h2), if_neg (by decide), if_pos (by decide), if_pos (by rfl), go_quoted sloppy .dq 34 (.inl ⟨rfl, rfl⟩) n _ ⟨modeOf 34, [], args, j⟩ rfl h2 h3,
      List.singleton_append, go.eq_def]
    dsimp only
    rw [if_neg (by simpa using h2), if_neg (by decide), if_pos (by decide), if_neg (by simp [quoted]), if_pos (by rfl)]
    rfl
  | single =>
    rw [written, List.cons_append, List.append_assoc, go.eq_def]
    dsimp only
    rw [if_neg (by simpa using h2), if_neg (by decide), if_pos (by decide), if_pos (by rfl), go_quoted sloppy .sq 39 (.inr ⟨rfl, rfl⟩) n _ ⟨modeOf 39, [], args, j⟩ rfl h2 h3,
      List.singleton_append, go.eq_def]
    dsimp only
    rw [if_neg (by simpa using h2), if_neg (by decide), if_pos (by decide), if_neg (by simp [quoted]), if_pos (by rfl)]
    rfl
  | backslash =>
    cases n with
    | nil => exact absurd rfl hx
    | cons c n =>
      have e := go_backslash sloppy (c :: n) rest ⟨.un, [], args, j⟩ rfl h2 h3
      rw [List.nil_append] at e
      rw [written, ← e]
      rw [List.flatMap_cons, List.cons_append, List.cons_append, go.eq_def, go.eq_def sloppy _ ⟨.un, [], args, j⟩]
      dsimp only
      have h92 : isSpace 92 = false := rfl
      simp [enter, quoted, h92]

/-- bytes needed for these names -/
def need (l : List (Style × Bytes)) : Nat := (l.map fun x => (escaped x.2).length + 1).sum

theorem go_line (sloppy : Bool) : ∀ (l : List (Style × Bytes)) (args : List Bytes) (j : Nat), l ≠ [] → (∀ x ∈ l, x.2 ≠ []) → args.length + l.length < 129 →
    j + need l ≤ size - 5 → go sloppy (line l) ⟨.start, [], args, j⟩ = .args (args ++ l.map fun x => escaped x.2) true := by
  intro l
  induction l with
  | nil => intro _ _ h; exact absurd rfl h
  | cons x l ih =>
    intro args j _ h2 h3 h4
    have hs : size = 8192 := rfl
    have hn : need (x :: l) = (escaped x.2).length + 1 + need l := by simp [need]
    simp only [List.length_cons] at h3
    cases l with
    | nil =>
      have e := go_written sloppy x [] args j (h2 x (by simp)) (by omega) (by omega)
      rw [List.append_nil] at e
      rw [line, e, go.eq_1, if_neg (by simp only; omega), if_neg (by simp [quoted]), finish, if_pos rfl, endArg, if_neg (by simp only; omega)]
      simp
    | cons y l =>
      rw [line, go_written sloppy x _ args j (h2 x (by simp)) (by omega) (by omega), go.eq_def]
      dsimp only
      rw [if_neg (by omega), if_pos (by decide), if_pos rfl,
        endArg, if_neg (by simp only; omega)]
      · rw [ih _ _ (by simp) (fun z hz => h2 z (by simp [hz])) (by simp only [List.length_append, List.length_cons, List.length_nil] at h3 ⊢; omega)
          (by simp only; omega)]
        simp
      · intro h; cases h

theorem undo_esc (c : UInt8) (l : Bytes) : undo (esc c ++ l) = c :: undo l := by
  unfold esc
  split
  · rename_i h
    rw [List.cons_append, List.singleton_append, undo, if_pos h]
  · rename_i h
    simp only [not_or] at h
    rw [List.singleton_append, undo]
    · intro h1 _
      exact h.2 h1
    · intro c' l' h1 _
      exact h.2 h1

theorem undo_escaped (n : Bytes) : undo (escaped n) = n := by
  induction n with
  | nil => rfl
  | cons c n ih =>
    rw [escaped, List.flatMap_cons, undo_esc]
    exact congrArg _ ih

/-- C146: names that are quoted, in any of the three ways, are the arguments that sftp reads, as many and in order, and each means that very name and no
pattern, for commands that read patterns and for those that do not; up to 128 names, of not too many characters in all. -/
theorem C146_names (sloppy : Bool) {l : List (Style × Bytes)} (h1 : l ≠ []) (h2 : ∀ x ∈ l, x.2 ≠ []) (h3 : l.length ≤ 128)
    (h4 : (l.map fun x => 2 * x.2.length + 3).sum ≤ 8187) :
    ∃ as, makeargv sloppy (line l) = .args as true ∧ as.map pattern = (l.map fun x => x.2.map .lit) ∧ as.map undo = l.map (·.2) := by
  have hs : size = 8192 := rfl
  have hesc : ∀ n : Bytes, (escaped n).length ≤ 2 * n.length := by
    intro n
    induction n with
    | nil => simp [escaped]
    | cons c n ih =>
      have := esc_length c
      simp only [escaped, List.flatMap_cons, List.length_append, List.length_cons] at ih ⊢
      omega
  have hw : ∀ x : Style × Bytes, (written x.1 x.2).length ≤ 2 * x.2.length + 2 := by
    rintro ⟨st, n⟩
    have hf : ∀ (f : UInt8 → Bytes), (∀ c, (f c).length ≤ 2) → (n.flatMap f).length ≤ 2 * n.length := by
      intro f hf
      induction n with
      | nil => simp
      | cons c n ih =>
        have := hf c
        simp only [List.flatMap_cons, List.length_append, List.length_cons]
        omega
    cases st with
    | double =>
      have := hf (fun c => if c = 34 ∨ c = 92 then [92, c] else [c]) (fun c => by split <;> simp)
      simp only [written, List.length_cons, List.length_append, List.length_nil] at this ⊢
      omega
    | single =>
      have := hf (fun c => if c = 39 ∨ c = 92 then [92, c] else [c]) (fun c => by split <;> simp)
      simp only [written, List.length_cons, List.length_append, List.length_nil] at this ⊢
      omega
    | backslash =>
      have := hf (fun c => [92, c]) (fun c => by simp)
      simp only [written]
      omega
  have hline : ∀ l : List (Style × Bytes), (line l).length ≤ (l.map fun x => 2 * x.2.length + 3).sum := by
    intro l
    induction l with
    | nil => simp [line]
    | cons x l ih =>
      have := hw x
      cases l with
      | nil => simp only [line, List.map_cons, List.map_nil, List.sum_cons, List.sum_nil]; omega
      | cons y l =>
        rw [line]
        · simp only [List.length_append, List.length_cons, List.map_cons, List.sum_cons] at ih ⊢
          omega
        · intro h; cases h
  have hneed : ∀ l : List (Style × Bytes), need l ≤ (l.map fun x => 2 * x.2.length + 3).sum := by
    intro l
    induction l with
    | nil => simp [need]
    | cons x l ih =>
      have := hesc x.2
      simp only [need, List.map_cons, List.sum_cons] at ih ⊢
      omega
  have a := hline l
  have b := hneed l
  refine ⟨_, (if_neg (by omega)).trans (go_line sloppy l [] 0 h1 h2 (by simp; omega) (by omega)), ?_, ?_⟩
  · simp [pattern_escaped]
  · simp [undo_escaped]

/-! ### Memory -/

theorem put_safe {s : St} {b : Bytes} {k : St → Res} (h : s.j + b.length ≤ size) (hk : k ⟨s.mode, s.cur ++ b, s.args, s.j + b.length⟩ ≠ .writePast) :
    put s b k ≠ .writePast := by rwa [put_ok h]

theorem endArg_safe {s : St} {k : St → Res} (h : s.j + 1 ≤ size) (hk : k ⟨.start, [], s.args ++ [s.cur], s.j + 1⟩ ≠ .writePast) :
    endArg s k ≠ .writePast := by
  rw [endArg, if_neg (by omega)]
  exact hk

theorem finish_safe {s : St} {t : Bool} (h : s.j + 1 ≤ size) : finish s t ≠ .writePast := by
  unfold finish
  split
  · exact endArg_safe h (by simp)
  · simp

theorem enter_j (s : St) : (enter s).j = s.j := by unfold enter; split <;> rfl

theorem go_safe (sloppy : Bool) : ∀ (k : Nat) (l : Bytes) (s : St), l.length ≤ k → s.j + 2 * l.length + 1 ≤ size → go sloppy l s ≠ .writePast := by
  intro k
  induction k with
  | zero =>
    intro l s hl h
    cases l with
    | cons _ _ => simp at hl
    | nil =>
      rw [go.eq_1]
      repeat' split
      all_goals first
        | (intro h; cases h)
        | exact finish_safe (by simp only [List.length_nil] at h ⊢; omega)
  | succ k ih =>
    intro l s hl h
    cases l with
    | nil =>
      rw [go.eq_1]
      repeat' split
      all_goals first
        | (intro h; cases h)
        | exact finish_safe (by simp only [List.length_nil] at h ⊢; omega)
    | cons c l =>
      simp only [List.length_cons] at hl h
      have ih1 : ∀ s' : St, s'.j ≤ s.j + 2 → go sloppy l s' ≠ .writePast := fun s' hs => ih l s' (by omega) (by omega)
      rw [go.eq_def]
      dsimp only
      split
      · simp
      split
      · split
        · exact endArg_safe (by omega) (ih1 _ (by simp))
        split
        · exact ih1 _ (by omega)
        · exact put_safe (by simp only [List.length_cons, List.length_nil]; omega) (ih1 _ (by simp))
      split
      · split
        · exact ih1 _ (by simp)
        split
        · exact ih1 _ (by simp)
        · exact put_safe (by simp only [List.length_cons, List.length_nil]; omega) (ih1 _ (by simp))
      split
      · cases l with
        | nil => simp
        | cons d l =>
          simp only [List.length_cons] at hl h
          have ih2 : ∀ s' : St, s'.j ≤ s.j + 4 → go sloppy l s' ≠ .writePast := fun s' hs => ih l s' (by omega) (by omega)
          simp only
          split
          · split
            · exact put_safe (by simp only [List.length_cons, List.length_nil]; omega) (ih2 _ (by simp))
            split
            · split
              · simp
              · exact put_safe (by simp only [List.length_cons, List.length_nil]; omega) (ih2 _ (by simp))
            · exact put_safe (by simp only [List.length_cons, List.length_nil]; omega) (ih2 _ (by simp))
          split
          · exact put_safe (by simp only [List.length_cons, List.length_nil, enter_j]; omega) (ih2 _ (by simp [enter_j]))
          · exact put_safe (by simp only [List.length_cons, List.length_nil, enter_j]; omega) (ih2 _ (by simp [enter_j]))
      split
      · exact finish_safe (by omega)
      split
      · split
        · simp
        · exact put_safe (by simp only [List.length_cons, List.length_nil, enter_j]; omega) (ih1 _ (by simp [enter_j]))
      · exact put_safe (by simp only [List.length_cons, List.length_nil, enter_j]; omega) (ih1 _ (by simp [enter_j]))

theorem put_past {s : St} {b : Bytes} {k : St → Res} (h : put s b k = .readPast) : ∃ s', k s' = .readPast := by
  unfold put at h
  split at h
  · cases h
  · exact ⟨_, h⟩

theorem endArg_past {s : St} {k : St → Res} (h : endArg s k = .readPast) : ∃ s', k s' = .readPast := by
  unfold endArg at h
  split at h
  · cases h
  · exact ⟨_, h⟩

theorem finish_past {s : St} {t : Bool} : finish s t ≠ .readPast := by
  unfold finish endArg
  repeat' split
  all_goals simp

theorem go_past (sloppy : Bool) : ∀ (k : Nat) (l : Bytes) (s : St), l.length ≤ k → go sloppy l s = .readPast → ∃ p, l = p ++ [92] := by
  intro k
  have nil : ∀ s, go sloppy [] s ≠ .readPast := by
    intro s
    rw [go.eq_1]
    repeat' split
    all_goals first
      | (intro h; cases h)
      | exact finish_past
  induction k with
  | zero =>
    intro l s hl h
    cases l with
    | cons _ _ => simp at hl
    | nil => exact absurd h (nil s)
  | succ k ih =>
    intro l s hl h
    cases l with
    | nil => exact absurd h (nil s)
    | cons c l =>
      simp only [List.length_cons] at hl
      have ih1 : (∃ s', go sloppy l s' = .readPast) → ∃ p, c :: l = p ++ [92] := by
        rintro ⟨s', h'⟩
        obtain ⟨p, hp⟩ := ih l s' (by omega) h'
        exact ⟨c :: p, by rw [hp]; rfl⟩
      rw [go.eq_def] at h
      dsimp only at h
      split at h
      · cases h
      split at h
      · split at h
        · exact ih1 (endArg_past h)
        split at h
        · exact ih1 ⟨_, h⟩
        · exact ih1 (put_past h)
      split at h
      · split at h
        · exact ih1 ⟨_, h⟩
        split at h
        · exact ih1 ⟨_, h⟩
        · exact ih1 (put_past h)
      split at h
      · rename_i hc
        cases l with
        | nil => exact ⟨[], by rw [hc]; rfl⟩
        | cons d l =>
          simp only [List.length_cons] at hl
          have ih2 : (∃ s', go sloppy l s' = .readPast) → ∃ p, c :: d :: l = p ++ [92] := by
            rintro ⟨s', h'⟩
            obtain ⟨p, hp⟩ := ih l s' (by omega) h'
            exact ⟨c :: d :: p, by rw [hp]; rfl⟩
          simp only at h
          split at h
          · split at h
            · exact ih2 (put_past h)
            split at h
            · split at h
              · cases h
              · exact ih2 (put_past h)
            · exact ih2 (put_past h)
          split at h
          · exact ih2 (put_past h)
          · exact ih2 (put_past h)
      split at h
      · exact absurd h finish_past
      split at h
      · split at h
        · cases h
        · exact ih1 (put_past h)
      · exact ih1 (put_past h)

/-- C146, in part: lines of up to 4095 characters, and of at least 8192, that do not end in a backslash are read without leaving the line or the buffer.
Missing: lines between these lengths,
and lines that end so, see C146_write_original_false and C146_read_original_false. -/
theorem C146_safe_partial (sloppy : Bool) {l : Bytes} (h : l.length ≤ 4095 ∨ 8192 ≤ l.length) :
    makeargv sloppy l ≠ .writePast ∧ (makeargv sloppy l = .readPast → ∃ p, l = p ++ [92]) := by
  have hs : size = 8192 := rfl
  unfold makeargv
  by_cases hl : 8192 ≤ l.length
  · rw [if_pos (by omega)]
    exact ⟨nofun, nofun⟩
  rw [if_neg (by omega)]
  exact ⟨go_safe sloppy _ l _ (Nat.le_refl _) (by simp only; omega), go_past sloppy _ l _ (Nat.le_refl _)⟩

end Verif.Argv
