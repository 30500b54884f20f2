/-
C39: argument quoting round-trips; what a line means.
-/
import Verif.Misc.Argv

namespace Verif.Misc.Argv
open Verif

/-! ## Specification: the grammar of a line -/

/-- Blank: a space or a tab. -/
def Blank (c : UInt8) : Prop := c = 32 ∨ c = 9
/-- A quotation mark: `"` or `'`. -/
def Mark (c : UInt8) : Prop := c = 34 ∨ c = 39

/-- `Body q t v`: between quotation marks `q`, the text `t` stands for `v`.  A backslash quotes either
quotation mark or a backslash, and stands for itself before anything else. -/
inductive Body (q : UInt8) : Bytes → Bytes → Prop where
  | nil : Body q [] []
  | esc {c t v} (hc : Mark c ∨ c = 92) (h : Body q t v) : Body q (92 :: c :: t) (c :: v)
  | lone {c t v} (hc : ¬ (Mark c ∨ c = 92)) (h : Body q (c :: t) v) : Body q (92 :: c :: t) (92 :: v)
  | plain {c t v} (h1 : c ≠ 92) (h2 : c ≠ q) (h : Body q t v) : Body q (c :: t) (c :: v)

/-- `Word r t v`: the text `t`, followed by `r`, is one word standing for `v`.  Outside quotation marks a
backslash quotes a space too. -/
inductive Word (r : Bytes) : Bytes → Bytes → Prop where
  | nil : Word r [] []
  | esc {c t v} (hc : Mark c ∨ c = 92 ∨ c = 32) (h : Word r t v) : Word r (92 :: c :: t) (c :: v)
  | lone {t v} (hc : ∀ c, (t ++ r).head? = some c → ¬ (Mark c ∨ c = 92 ∨ c = 32)) (h : Word r t v) :
      Word r (92 :: t) (92 :: v)
  | plain {c t v} (h1 : c ≠ 92) (h2 : ¬ Mark c) (h3 : ¬ Blank c) (h : Word r t v) : Word r (c :: t) (c :: v)
  | quoted {q b u t v} (hq : Mark q) (hb : Body q b u) (h : Word r t v) : Word r (q :: (b ++ q :: t)) (u ++ v)

/-- `Line comment s vs`: the line `s` consists of the words `vs` between blanks; with `comment`, a `#` where
a word could begin ends the line. -/
inductive Line (comment : Bool) : Bytes → List Bytes → Prop where
  | nil : Line comment [] []
  | blank {c s vs} (hc : Blank c) (h : Line comment s vs) : Line comment (c :: s) vs
  | comment {s} (hc : comment = true) : Line comment (35 :: s) []
  | last {t v} (hne : t ≠ []) (hc : comment = true → t.head? ≠ some 35) (h : Word [] t v) : Line comment t [v]
  | word {t v b s vs} (hne : t ≠ []) (hc : comment = true → t.head? ≠ some 35) (hb : Blank b)
      (hw : Word (b :: s) t v) (h : Line comment s vs) : Line comment (t ++ b :: s) (v :: vs)

/-! ## Lemmas -/

theorem isBlank_iff (c : UInt8) : isBlank c = true ↔ Blank c := by simp [isBlank, Blank]

theorem escapable_quoted {q d : UInt8} (hq : q ≠ 0) : escapable q d = true ↔ (Mark d ∨ d = 92) := by
  simp only [escapable, Mark, Bool.or_eq_true, Bool.and_eq_true, decide_eq_true_eq, hq, false_and, or_false]
  constructor
  · rintro ((h | h) | h) <;> simp [h]
  · rintro ((h | h) | h) <;> simp [h]

theorem escapable_bare {d : UInt8} : escapable 0 d = true ↔ (Mark d ∨ d = 92 ∨ d = 32) := by
  simp only [escapable, Mark, Bool.or_eq_true, Bool.and_eq_true, decide_eq_true_eq, true_and]
  constructor
  · rintro (((h | h) | h) | h) <;> simp [h]
  · rintro ((h | h) | h | h) <;> simp [h]

theorem Mark.ne_zero {q : UInt8} (h : Mark q) : q ≠ 0 := by rcases h with rfl | rfl <;> decide
theorem Mark.ne_bs {q : UInt8} (h : Mark q) : q ≠ 92 := by rcases h with rfl | rfl <;> decide
theorem Mark.not_blank {q : UInt8} (h : Mark q) : ¬ Blank q := by
  rcases h with rfl | rfl <;> (unfold Blank; decide)

/-- The token function in one equation per kind of character. -/
theorem token_bs_esc {q d : UInt8} {r : Bytes} (h : escapable q d = true) :
    token q (92 :: d :: r) = (d :: (token q r).1, (token q r).2) := by simp [token, h]

theorem token_bs_lone {q : UInt8} {s : Bytes} (h : ∀ d, s.head? = some d → escapable q d = false) :
    token q (92 :: s) = (92 :: (token q s).1, (token q s).2) := by
  cases s with
  | nil => simp [token]
  | cons d r => simp [token, h d rfl]

theorem token_blank {c : UInt8} {s : Bytes} (h : Blank c) : token 0 (c :: s) = ([], 0, c :: s) := by
  have hb := (isBlank_iff c).2 h
  have : c ≠ 92 := by rcases h with rfl | rfl <;> decide
  cases s <;> simp [token, hb, this]

theorem token_open {c : UInt8} {s : Bytes} (h : Mark c) : token 0 (c :: s) = token c s := by
  have hb : isBlank c = false := by
    cases hb : isBlank c with
    | false => rfl
    | true => exact absurd ((isBlank_iff c).1 hb) h.not_blank
  have h92 := h.ne_bs
  have hm : (c = 34 ∨ c = 39) := h
  cases s with
  | nil => simp [token, hb, h92, hm]
  | cons d r => simp [token, hb, h92, hm]

theorem token_close {q : UInt8} {s : Bytes} (h : Mark q) : token q (q :: s) = token 0 s := by
  have h92 := h.ne_bs
  have h0 := h.ne_zero
  cases s with
  | nil => simp [token, h92, h0]
  | cons d r => simp [token, h92, h0]

theorem token_plain {c : UInt8} {s : Bytes} (h1 : c ≠ 92) (h2 : ¬ Mark c) (h3 : ¬ Blank c) :
    token 0 (c :: s) = (c :: (token 0 s).1, (token 0 s).2) := by
  have hb : isBlank c = false := by
    cases hb : isBlank c with
    | false => rfl
    | true => exact absurd ((isBlank_iff c).1 hb) h3
  have hm : ¬ (c = 34 ∨ c = 39) := h2
  cases s with
  | nil => simp [token, hb, h1, hm]
  | cons d r => simp [token, hb, h1, hm]

theorem token_qplain {q c : UInt8} {s : Bytes} (hq : Mark q) (h1 : c ≠ 92) (h2 : c ≠ q) :
    token q (c :: s) = (c :: (token q s).1, (token q s).2) := by
  have h0 := hq.ne_zero
  cases s with
  | nil => simp [token, h1, h2, h0]
  | cons d r => simp [token, h1, h2, h0]

theorem Body.token {q : UInt8} (hq : Mark q) {b v : Bytes} (h : Body q b v) (t : Bytes) :
    token q (b ++ q :: t) = (v ++ (Argv.token 0 t).1, (Argv.token 0 t).2) := by
  induction h with
  | nil => exact token_close hq
  | esc hc _ ih =>
    rw [List.cons_append, List.cons_append, token_bs_esc ((escapable_quoted hq.ne_zero).2 hc), ih]; rfl
  | lone hc _ ih =>
    rw [List.cons_append, token_bs_lone, ih]
    · rfl
    · intro d hd
      simp only [List.cons_append, List.head?_cons, Option.some.injEq] at hd
      subst hd
      exact Bool.eq_false_iff.2 fun h => hc ((escapable_quoted hq.ne_zero).1 h)
  | plain h1 h2 _ ih => rw [List.cons_append, token_qplain hq h1 h2, ih]; rfl

theorem Word.token {r t v : Bytes} (h : Word r t v) (hr : r = [] ∨ ∃ b s, r = b :: s ∧ Blank b) :
    token 0 (t ++ r) = (v, 0, r) := by
  induction h with
  | nil =>
    rcases hr with rfl | ⟨b, s, rfl, hb⟩
    · rfl
    · exact token_blank hb
  | esc hc _ ih => rw [List.cons_append, List.cons_append, token_bs_esc (escapable_bare.2 hc), ih]
  | lone hc _ ih =>
    rw [List.cons_append, token_bs_lone, ih]
    intro d hd
    exact Bool.eq_false_iff.2 fun h => hc d hd (escapable_bare.1 h)
  | plain h1 h2 h3 _ ih => rw [List.cons_append, token_plain h1 h2 h3, ih]
  | quoted hq hb _ ih =>
    rw [List.cons_append, token_open hq, List.append_assoc, List.cons_append, Body.token hq hb, ih]

theorem Word.head_not_blank {r t v : Bytes} (h : Word r t v) {c : UInt8} {t' : Bytes} (ht : t = c :: t') :
    ¬ Blank c := by
  cases h with
  | nil => cases ht
  | esc hc _ => injection ht with h1; subst h1; unfold Blank; decide
  | lone hc _ => injection ht with h1; subst h1; unfold Blank; decide
  | plain h1 h2 h3 _ => injection ht with h1; subst h1; exact h3
  | quoted hq _ _ => injection ht with h1; subst h1; exact hq.not_blank

theorem Line.split {comment : Bool} {s : Bytes} {vs : List Bytes} (h : Line comment s vs) (fuel : Nat)
    (hf : s.length < fuel) : splitLoop comment fuel s = some vs := by
  induction h generalizing fuel with
  | nil => cases fuel <;> rfl
  | blank hc _ ih =>
    cases fuel with
    | zero => omega
    | succ f => simp only [List.length_cons] at hf; simp [splitLoop, (isBlank_iff _).2 hc, ih f (by omega)]
  | comment hc =>
    cases fuel with
    | zero => omega
    | succ f => simp [splitLoop, hc, isBlank]
  | @last t v hne hc hw =>
    cases fuel with
    | zero => omega
    | succ f =>
      cases t with
      | nil => exact absurd rfl hne
      | cons c t =>
        have h1 : isBlank c = false := Bool.eq_false_iff.2 fun h => hw.head_not_blank rfl ((isBlank_iff c).1 h)
        have h2 : (comment && decide (c = 35)) = false := by
          cases comment with
          | false => rfl
          | true => simpa using hc rfl
        have h3 := hw.token (.inl rfl)
        rw [List.append_nil] at h3
        simp [splitLoop, h1, h2, h3]
  | @word t v b s vs hne hc hb hw _ ih =>
    cases fuel with
    | zero => omega
    | succ f =>
      cases t with
      | nil => exact absurd rfl hne
      | cons c t =>
        have h1 : isBlank c = false := Bool.eq_false_iff.2 fun h => hw.head_not_blank rfl ((isBlank_iff c).1 h)
        have h2 : (comment && decide (c = 35)) = false := by
          cases comment with
          | false => rfl
          | true => simpa using hc rfl
        have h3 := hw.token (.inr ⟨b, s, rfl, hb⟩)
        rw [List.cons_append] at h3
        simp only [List.cons_append, List.length_cons, List.length_append] at hf
        simp [splitLoop, h1, h2, h3, ih f (by omega)]

/-- What a completed token says about the text. -/
def TokenMeans (q : UInt8) (s v r : Bytes) : Prop :=
  (r = [] ∨ ∃ b s', r = b :: s' ∧ Blank b) ∧
  ((q = 0 ∧ ∃ t, s = t ++ r ∧ Word r t v) ∨
   (Mark q ∧ ∃ b u t w, s = b ++ q :: (t ++ r) ∧ Body q b u ∧ Word r t w ∧ v = u ++ w))

theorem token_means (n : Nat) (q : UInt8) (s v r : Bytes) (hn : s.length ≤ n) (hq : q = 0 ∨ Mark q)
    (h : token q s = (v, 0, r)) : TokenMeans q s v r := by
  induction n generalizing q s v r with
  | zero =>
    have : s = [] := List.length_eq_zero_iff.1 (by omega)
    subst this
    simp only [token, Prod.mk.injEq] at h
    obtain ⟨rfl, rfl, rfl⟩ := h
    exact ⟨.inl rfl, .inl ⟨rfl, [], rfl, .nil⟩⟩
  | succ n ih =>
    cases s with
    | nil =>
      simp only [token, Prod.mk.injEq] at h
      obtain ⟨rfl, rfl, rfl⟩ := h
      exact ⟨.inl rfl, .inl ⟨rfl, [], rfl, .nil⟩⟩
    | cons c s =>
      simp only [List.length_cons] at hn
      by_cases hc : c = 92
      · subst hc
        by_cases he : ∃ d r', s = d :: r' ∧ escapable q d = true
        · obtain ⟨d, r', rfl, he⟩ := he
          simp only [List.length_cons] at hn
          rw [token_bs_esc he] at h
          have h1 : v = d :: (token q r').1 := (Prod.mk.injEq _ _ _ _ ▸ h).1.symm
          have h2 : token q r' = ((token q r').1, 0, r) :=
            Prod.ext rfl (Prod.mk.injEq _ _ _ _ ▸ h).2
          obtain ⟨hr, h3⟩ := ih q r' _ r (by omega) hq h2
          refine ⟨hr, ?_⟩
          rcases h3 with ⟨rfl, t, e, hw⟩ | ⟨hm, b, u, t, w, e, hb, hw, hv⟩
          · exact .inl ⟨rfl, 92 :: d :: t, by rw [e]; rfl, by rw [h1]; exact .esc (escapable_bare.1 he) hw⟩
          · exact .inr ⟨hm, 92 :: d :: b, d :: u, t, w, by rw [e]; rfl,
              .esc ((escapable_quoted hm.ne_zero).1 he) hb, hw, by rw [h1, hv]; rfl⟩
        · have he' : ∀ d, s.head? = some d → escapable q d = false := by
            intro d hd
            cases s with
            | nil => simp at hd
            | cons x r' =>
              simp only [List.head?_cons, Option.some.injEq] at hd; subst hd
              exact Bool.eq_false_iff.2 fun h => he ⟨_, _, rfl, h⟩
          rw [token_bs_lone he'] at h
          have h1 : v = 92 :: (token q s).1 := (Prod.mk.injEq _ _ _ _ ▸ h).1.symm
          have h2 : token q s = ((token q s).1, 0, r) := Prod.ext rfl (Prod.mk.injEq _ _ _ _ ▸ h).2
          obtain ⟨hr, h3⟩ := ih q s _ r (by omega) hq h2
          refine ⟨hr, ?_⟩
          rcases h3 with ⟨rfl, t, e, hw⟩ | ⟨hm, b, u, t, w, e, hb, hw, hv⟩
          · refine .inl ⟨rfl, 92 :: t, by rw [e]; rfl, ?_⟩
            rw [h1]
            refine .lone (fun c hc hx => ?_) hw
            have := he' c (by rw [e]; exact hc)
            rw [escapable_bare.2 hx] at this; cases this
          · cases b with
            | nil =>
              exfalso
              have := he' q (by rw [e]; rfl)
              rw [(escapable_quoted hm.ne_zero).2 (.inl hm)] at this; cases this
            | cons x b =>
              refine .inr ⟨hm, 92 :: x :: b, 92 :: u, t, w, by rw [e]; rfl, .lone (fun hx => ?_) hb, hw,
                by rw [h1, hv]; rfl⟩
              have := he' x (by rw [e]; rfl)
              rw [(escapable_quoted hm.ne_zero).2 hx] at this; cases this
      · rcases hq with rfl | hm
        · by_cases hb : Blank c
          · rw [token_blank hb] at h
            simp only [Prod.mk.injEq, true_and] at h
            obtain ⟨rfl, rfl⟩ := h
            exact ⟨.inr ⟨c, s, rfl, hb⟩, .inl ⟨rfl, [], rfl, .nil⟩⟩
          · by_cases hk : Mark c
            · rw [token_open hk] at h
              obtain ⟨hr, h3⟩ := ih c s v r (by omega) (.inr hk) h
              refine ⟨hr, ?_⟩
              rcases h3 with ⟨h0, _⟩ | ⟨_, b, u, t, w, e, hb', hw, hv⟩
              · exact absurd h0 hk.ne_zero
              · exact .inl ⟨rfl, c :: (b ++ c :: t), by rw [e]; simp, by rw [hv]; exact .quoted hk hb' hw⟩
            · rw [token_plain hc hk hb] at h
              have h1 : v = c :: (token 0 s).1 := (Prod.mk.injEq _ _ _ _ ▸ h).1.symm
              have h2 : token 0 s = ((token 0 s).1, 0, r) := Prod.ext rfl (Prod.mk.injEq _ _ _ _ ▸ h).2
              obtain ⟨hr, h3⟩ := ih 0 s _ r (by omega) (.inl rfl) h2
              refine ⟨hr, ?_⟩
              rcases h3 with ⟨_, t, e, hw⟩ | ⟨hm, _⟩
              · exact .inl ⟨rfl, c :: t, by rw [e]; rfl, by rw [h1]; exact .plain hc hk hb hw⟩
              · exact absurd rfl hm.ne_zero
        · by_cases hcq : c = q
          · subst hcq
            rw [token_close hm] at h
            obtain ⟨hr, h3⟩ := ih 0 s v r (by omega) (.inl rfl) h
            refine ⟨hr, ?_⟩
            rcases h3 with ⟨_, t, e, hw⟩ | ⟨hm', _⟩
            · exact .inr ⟨hm, [], [], t, v, by rw [e]; rfl, .nil, hw, rfl⟩
            · exact absurd rfl hm'.ne_zero
          · rw [token_qplain hm hc hcq] at h
            have h1 : v = c :: (token q s).1 := (Prod.mk.injEq _ _ _ _ ▸ h).1.symm
            have h2 : token q s = ((token q s).1, 0, r) := Prod.ext rfl (Prod.mk.injEq _ _ _ _ ▸ h).2
            obtain ⟨hr, h3⟩ := ih q s _ r (by omega) (.inr hm) h2
            refine ⟨hr, ?_⟩
            rcases h3 with ⟨h0, _⟩ | ⟨_, b, u, t, w, e, hb', hw, hv⟩
            · exact absurd h0 hm.ne_zero
            · exact .inr ⟨hm, c :: b, c :: u, t, w, by rw [e]; rfl, .plain hc hcq hb', hw, by rw [h1, hv]; rfl⟩

/-- The loop only stops before the end of the text outside quotation marks. -/
theorem token_stop (n : Nat) (q : UInt8) (s : Bytes) (hn : s.length ≤ n) (h : (token q s).2.2 ≠ []) :
    (token q s).2.1 = 0 := by
  induction n generalizing q s with
  | zero =>
    have : s = [] := List.length_eq_zero_iff.1 (by omega)
    subst this; exact absurd rfl h
  | succ n ih =>
    match s, h, hn with
    | [], h, _ => exact absurd rfl h
    | [c], h, _ =>
      unfold token at h ⊢
      split
      · rw [if_pos ‹_›] at h; exact absurd rfl h
      · rw [if_neg ‹_›] at h
        split
        · simp at *; simp [*]
        · rw [if_neg ‹_›] at h
          split
          · rw [if_pos ‹_›] at h; exact absurd rfl h
          · rw [if_neg ‹_›] at h
            split
            · rfl
            · rw [if_neg ‹_›] at h; exact absurd rfl h
    | c :: d :: r, h, hn =>
      simp only [List.length_cons] at hn
      unfold token at h ⊢
      by_cases h1 : c = 92
      · rw [if_pos h1] at h ⊢
        by_cases h2 : escapable q d = true
        · rw [if_pos h2] at h ⊢; exact ih _ _ (by omega) h
        · rw [if_neg h2] at h ⊢; exact ih _ _ (by simp; omega) h
      · rw [if_neg h1] at h ⊢
        by_cases h2 : (decide (q = 0) && isBlank c) = true
        · rw [if_pos h2] at h ⊢
          simp at h2; exact h2.1
        · rw [if_neg h2] at h ⊢
          by_cases h3 : (decide (q = 0) && (decide (c = 34) || decide (c = 39))) = true
          · rw [if_pos h3] at h ⊢; exact ih _ _ (by simp; omega) h
          · rw [if_neg h3] at h ⊢
            by_cases h4 : (decide (q ≠ 0) && decide (c = q)) = true
            · rw [if_pos h4] at h ⊢; exact ih _ _ (by simp; omega) h
            · rw [if_neg h4] at h ⊢; exact ih _ _ (by simp; omega) h

theorem split_line (comment : Bool) (fuel : Nat) (s : Bytes) (vs : List Bytes) (hf : s.length < fuel)
    (h : splitLoop comment fuel s = some vs) : Line comment s vs := by
  induction fuel generalizing s vs with
  | zero => omega
  | succ f ih =>
    cases s with
    | nil => simp [splitLoop] at h; subst h; exact .nil
    | cons c r =>
      simp only [List.length_cons] at hf
      unfold splitLoop at h
      by_cases hb : isBlank c = true
      · rw [if_pos hb] at h
        exact .blank ((isBlank_iff c).1 hb) (ih r vs (by omega) h)
      · rw [if_neg hb] at h
        by_cases hc : (comment && decide (c = 35)) = true
        · rw [if_pos hc] at h
          simp at hc h
          obtain ⟨hc, rfl⟩ := hc; subst h
          exact .comment hc
        · rw [if_neg hc] at h
          have hc' : comment = true → c ≠ 35 := by
            intro h1 h2; exact hc (by simp [h1, h2])
          have hst := token_stop _ 0 (c :: r) (Nat.le_refl _)
          have hm := token_means _ 0 (c :: r) (token 0 (c :: r)).1 (token 0 (c :: r)).2.2 (Nat.le_refl _) (.inl rfl)
          split at h
          · rename_i arg quote heq
            simp only [heq] at hm
            by_cases hq : quote ≠ 0
            · rw [if_pos hq] at h; cases h
            · rw [if_neg hq] at h
              simp at hq h; subst hq; subst h
              obtain ⟨_, h3⟩ := hm rfl
              rcases h3 with ⟨_, t, e, hw⟩ | ⟨hm', _⟩
              · rw [List.append_nil] at e
                rw [e]
                refine .last (by rw [← e]; simp) (fun h1 => ?_) hw
                rw [← e]; simpa using hc' h1
              · exact absurd rfl hm'.ne_zero
          · rename_i arg quote b rest heq
            simp only [heq] at hm hst
            have hq : quote = 0 := hst (by simp)
            subst hq
            obtain ⟨hr, h3⟩ := hm rfl
            cases hrec : splitLoop comment f rest with
            | none => rw [hrec] at h; cases h
            | some ws =>
              rw [hrec] at h
              simp at h; subst h
              rcases h3 with ⟨_, t, e, hw⟩ | ⟨hm', _⟩
              · have hbl : Blank b := by
                  rcases hr with hr | ⟨b', s', hr, hb'⟩
                  · cases hr
                  · injection hr with h1 _; rw [h1]; exact hb'
                have hne : t ≠ [] := by
                  intro ht; subst ht
                  injection e with h1 _
                  rw [h1] at hb
                  exact hb ((isBlank_iff b).2 hbl)
                rw [e]
                refine .word hne (fun h1 => ?_) hbl hw (ih rest ws ?_ hrec)
                · cases t with
                  | nil => exact absurd rfl hne
                  | cons x t =>
                    injection e with h2 _
                    rw [← h2]; simpa using hc' h1
                · have := congrArg List.length e
                  simp at this; omega
              · exact absurd rfl hm'.ne_zero

/-! ## Theorems -/

/-- **C39 (what a line means).**  Splitting a line succeeds with exactly the words the grammar assigns to
it; it fails on exactly the lines the grammar assigns nothing to (those with an unclosed quotation). -/
theorem C39_split_iff (s : Bytes) (comment : Bool) (vs : List Bytes) :
    argvSplit s comment = some vs ↔ Line comment s vs :=
  ⟨fun h => split_line comment _ s vs (by omega) h, fun h => h.split _ (by omega)⟩

theorem body_escape (a : Bytes) : Body 34 (escapeArg a) a := by
  induction a with
  | nil => exact .nil
  | cons c r ih =>
    unfold escapeArg
    split
    · rename_i h
      simp only [Bool.or_eq_true, decide_eq_true_eq] at h
      exact .plain (by rcases h with rfl | rfl <;> decide) (by rcases h with rfl | rfl <;> decide) ih
    · split
      · rename_i h
        simp only [Bool.or_eq_true, decide_eq_true_eq] at h
        exact .esc (by rcases h with (rfl | rfl) | rfl <;> simp [Mark]) ih
      · rename_i h
        simp only [Bool.or_eq_true, decide_eq_true_eq, not_or] at h
        exact .plain h.1.1 h.2 ih

theorem word_escape (r a : Bytes) (h : a.any isBlank = false) : Word r (escapeArg a) a := by
  induction a with
  | nil => exact .nil
  | cons c t ih =>
    simp only [List.any_cons, Bool.or_eq_false_iff] at h
    have hb : ¬ Blank c := fun hb => by rw [(isBlank_iff c).2 hb] at h; exact absurd h.1 (by decide)
    unfold escapeArg
    split
    · rename_i h'
      simp only [Bool.or_eq_true, decide_eq_true_eq] at h'
      exact absurd h' hb
    · split
      · rename_i h'
        simp only [Bool.or_eq_true, decide_eq_true_eq] at h'
        exact .esc (by rcases h' with (rfl | rfl) | rfl <;> simp [Mark]) (ih h.2)
      · rename_i h'
        simp only [Bool.or_eq_true, decide_eq_true_eq, not_or] at h'
        exact .plain h'.1.1 (fun hm => by rcases hm with hm | hm <;> simp_all) hb (ih h.2)

theorem word_quote (r a : Bytes) : Word r (quoteArg a) a := by
  unfold quoteArg
  cases h : a.any isBlank with
  | true =>
    simp only [if_true]
    have := Word.quoted (r := r) (q := 34) (.inl rfl) (body_escape a) .nil
    rwa [List.append_nil] at this
  | false => exact word_escape r a h

theorem quote_ne_nil {a : Bytes} (h : a ≠ []) : quoteArg a ≠ [] := by
  unfold quoteArg
  split
  · simp
  · cases a with
    | nil => exact absurd rfl h
    | cons c r => unfold escapeArg; split <;> (try split) <;> simp

theorem quote_head {a : Bytes} (h : a.head? = some 35 → a.any isBlank = true) :
    (quoteArg a).head? ≠ some 35 := by
  unfold quoteArg
  split
  · simp
  · rename_i hb
    cases a with
    | nil => simp [escapeArg]
    | cons c r =>
      intro hh
      unfold escapeArg at hh
      split at hh
      · simp at hh; subst hh; exact hb (h rfl)
      · split at hh
        · simp at hh
        · simp at hh; subst hh; exact hb (h rfl)

/-- **C39 (round trip).**  Splitting the line assembled from a vector gives back the vector, for every
vector of non-empty arguments; when comments are recognised, an argument may begin with `#` only if it
also contains a blank (which gets it quoted).  Both provisos are needed: `C39_empty_lost`,
`C39_comment_lost`. -/
theorem C39_roundtrip_partial (vs : List Bytes) (comment : Bool) (h : ∀ v ∈ vs, v ≠ [])
    (hc : comment = true → ∀ v ∈ vs, v.head? = some 35 → ∃ c ∈ v, c = 32 ∨ c = 9) :
    argvSplit (argvAssemble vs) comment = some vs := by
  rw [C39_split_iff]
  have hc' : comment = true → ∀ v ∈ vs, v.head? = some 35 → v.any isBlank = true := by
    intro h1 v hv h2
    obtain ⟨c, hcv, hb⟩ := hc h1 v hv h2
    exact List.any_eq_true.2 ⟨c, hcv, (isBlank_iff c).2 hb⟩
  clear hc
  induction vs with
  | nil => exact .nil
  | cons a t ih =>
    have ih := ih (fun v hv => h v (by simp [hv])) (fun h1 v hv => hc' h1 v (by simp [hv]))
    cases t with
    | nil =>
      exact .last (quote_ne_nil (h a (by simp))) (fun h1 => quote_head (hc' h1 a (by simp))) (word_quote _ a)
    | cons b t =>
      exact .word (quote_ne_nil (h a (by simp))) (fun h1 => quote_head (hc' h1 a (by simp))) (.inl rfl)
        (word_quote _ a) ih

/-- An empty argument is assembled to nothing and does not come back, alone or among others. -/
theorem C39_empty_lost : argvSplit (argvAssemble [[]]) false = some [] ∧
    argvSplit (argvAssemble [b!"a", [], b!"b"]) false = some [b!"a", b!"b"] := by decide

/-- With comments recognised, an argument that begins with `#` takes everything after it along. -/
theorem C39_comment_lost : argvSplit (argvAssemble [b!"a", b!"#b", b!"c"]) true = some [b!"a"] := by decide

/-- A vector with blanks, both quotation marks and backslashes. -/
example : argvAssemble [b!"ls", b!"a b", b!"it's", b!"\"\\ x"] = b!"ls \"a b\" it\\'s \"\\\"\\\\ x\"" ∧
    argvSplit (argvAssemble [b!"ls", b!"a b", b!"it's", b!"\"\\ x"]) true =
      some [b!"ls", b!"a b", b!"it's", b!"\"\\ x"] := by decide

/-- An unclosed quotation is refused, and so has no reading in the grammar. -/
example : ¬ ∃ vs, Line false b!"a \"b" vs := by
  rintro ⟨vs, h⟩
  rw [← C39_split_iff] at h
  rw [show argvSplit b!"a \"b" false = none by decide] at h
  cases h

end Verif.Misc.Argv
