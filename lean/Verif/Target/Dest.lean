/-
C121: the destination on the command line and the hops of `ProxyJump`.
-/
import Verif.Target.Canon

namespace Verif.Target
open Verif
open _root_.Verif.Match (toLower)
open _root_.Verif.Permit (a2port hpdelim hpdelim2 cleanhostname)

/-! ### Cutting -/

theorem take_cut {c : UInt8} : ∀ {e r : Bytes}, c ∉ e →
    (e ++ c :: r).takeWhile (· ≠ c) = e ∧ (e ++ c :: r).dropWhile (· ≠ c) = c :: r
  | [], r, _ => by simp
  | x :: e, r, h => by
    have hx : x ≠ c := fun e => h (by simp [e])
    have he : c ∉ e := fun e => h (by simp [e])
    have ih := take_cut (r := r) he
    simp only [List.cons_append, List.takeWhile_cons, List.dropWhile_cons, hx, ne_eq, not_false_eq_true, decide_true, if_true] at ih ⊢
    exact ⟨by rw [ih.1], ih.2⟩

theorem take_none {c : UInt8} {s : Bytes} (h : c ∉ s) : s.takeWhile (· ≠ c) = s ∧ s.dropWhile (· ≠ c) = [] := by
  induction s with
  | nil => simp
  | cons x s ih =>
    have hx : x ≠ c := fun e => h (by simp [e])
    have := ih (fun e => h (by simp [e]))
    simp only [List.takeWhile_cons, List.dropWhile_cons, hx, ne_eq, not_false_eq_true, decide_true, if_true] at this ⊢
    exact ⟨by rw [this.1], this.2⟩

theorem cut_mem {c : UInt8} {s : Bytes} (h : c ∈ s) : ∃ e r, c ∉ e ∧ s = e ++ c :: r := by
  induction s with
  | nil => cases h
  | cons x s ih =>
    by_cases hx : x = c
    · exact ⟨[], s, by simp, by simp [hx]⟩
    · have hs : c ∈ s := by
        rcases List.mem_cons.1 h with h | h
        · exact absurd h.symm hx
        · exact h
      obtain ⟨e, r, h1, h2⟩ := ih hs
      refine ⟨x :: e, r, ?_, by rw [h2]; rfl⟩
      intro h3
      rcases List.mem_cons.1 h3 with h3 | h3
      · exact hx h3.symm
      · exact h1 h3

theorem cut_unique {c : UInt8} {e r e' r' : Bytes} (h : c ∉ e) (h' : c ∉ e') (g : e ++ c :: r = e' ++ c :: r') : e = e' ∧ r = r' := by
  have h1 := take_cut (r := r) h
  have h2 := take_cut (r := r') h'
  rw [g] at h1
  refine ⟨h1.1.symm.trans h2.1, ?_⟩
  have := h1.2.symm.trans h2.2
  simpa using this

theorem splitLast_some {c : UInt8} {s a b : Bytes} : splitLast c s = some (a, b) ↔ s = a ++ c :: b ∧ c ∉ b := by
  unfold splitLast
  constructor
  · intro h
    by_cases hm : c ∈ s
    · rw [if_pos hm, Option.some.injEq, Prod.mk.injEq] at h
      obtain ⟨e, r, h1, h2⟩ := cut_mem (List.mem_reverse.2 hm)
      obtain ⟨h3, h4⟩ := take_cut (r := r) h1
      rw [← h2] at h3 h4
      rw [h3, h4] at h
      simp only [List.drop_succ_cons, List.drop_zero] at h
      have hs : s = (e ++ c :: r).reverse := by rw [← h2, List.reverse_reverse]
      rw [hs, ← h.1, ← h.2]
      simp [h1]
    · rw [if_neg hm] at h; cases h
  · rintro ⟨rfl, h⟩
    rw [if_pos (by simp)]
    have hb : c ∉ b.reverse := fun e => h (List.mem_reverse.1 e)
    have e : (a ++ c :: b).reverse = b.reverse ++ c :: a.reverse := by simp
    rw [e, (take_cut hb).1, (take_cut hb).2]
    simp

theorem splitLast_none {c : UInt8} {s : Bytes} : splitLast c s = none ↔ c ∉ s := by
  unfold splitLast
  by_cases h : c ∈ s <;> simp [h]

/-! ### URIs -/

theorem hexVal_lt {c : UInt8} {n : Nat} (h : hexVal c = some n) : n < 16 := by
  unfold hexVal at h
  simp only [UInt8.le_iff_toNat_le] at h
  split at h
  · rename_i h1; simp at h h1; omega
  · split at h
    · rename_i h1; simp at h h1; omega
    · split at h
      · rename_i h1; simp at h h1; omega
      · cases h

theorem urlGo_iff : ∀ (f : Nat) (s d : Bytes), s.length < f → (urlGo f s = some d ↔ Decodes s d) := by
  intro f
  induction f with
  | zero => intro s d h; omega
  | succ f ih =>
    intro s d hl
    cases s with
    | nil =>
      rw [urlGo]
      constructor
      · intro h; cases h; exact .nil
      · intro h; cases h; rfl
    | cons c l =>
      have hl' : l.length < f := by simp at hl; omega
      rw [urlGo]
      by_cases h1 : c = 43
      · rw [if_pos h1, Option.map_eq_some_iff]
        subst h1
        constructor
        · rintro ⟨x, hx, rfl⟩; exact .plus ((ih l x hl').1 hx)
        · intro h
          cases h with
          | plus h => exact ⟨_, (ih l _ hl').2 h, rfl⟩
          | other h _ _ => exact absurd rfl h
      rw [if_neg h1]
      by_cases h2 : c = 37
      · rw [if_pos h2]
        subst h2
        constructor
        · intro h
          unfold escape at h
          split at h
          · rename_i x y l'
            split at h
            · rename_i u v hu hv
              rw [Option.map_eq_some_iff] at h
              obtain ⟨z, hz, rfl⟩ := h
              refine .percent hu hv ?_ ((ih l' z (by simp at hl'; omega)).1 hz)
              have := hexVal_lt hu
              have := hexVal_lt hv
              simp
              omega
            · cases h
          · cases h
        · intro h
          cases h with
          | other _ h _ => exact absurd rfl h
          | percent hu hv hb h =>
            rename_i x y b u v l' d'
            simp only [escape, hu, hv, (ih l' d' (by simp at hl'; omega)).2 h, Option.map_some, Option.some.injEq, List.cons.injEq, and_true]
            rw [← hb]
            simp
      · rw [if_neg h2, Option.map_eq_some_iff]
        constructor
        · rintro ⟨x, hx, rfl⟩; exact .other h1 h2 ((ih l x hl').1 hx)
        · intro h
          cases h with
          | plus h => exact absurd rfl h1
          | percent _ _ _ _ => exact absurd rfl h2
          | other _ _ h => exact ⟨_, (ih l _ hl').2 h, rfl⟩

theorem cstring_iff (d u : Bytes) : d.takeWhile (· ≠ 0) = u ↔ CString d u := by
  unfold CString
  by_cases h : 0 ∈ d
  · obtain ⟨e, r, h1, rfl⟩ := cut_mem h
    rw [(take_cut h1).1]
    constructor
    · rintro rfl; exact ⟨h1, .inr ⟨r, rfl⟩⟩
    · rintro ⟨h2, h3 | ⟨r', h3⟩⟩
      · exact absurd (by rw [← h3]; simp) h2
      · exact (cut_unique h1 h2 h3).1
  · rw [(take_none h).1]
    constructor
    · rintro rfl; exact ⟨h, .inl rfl⟩
    · rintro ⟨_, h3 | ⟨r', h3⟩⟩
      · exact h3
      · exact absurd (by rw [h3]; simp) h

theorem urldecode_iff (s u : Bytes) : urldecode s = some u ↔ ∃ d, Decodes s d ∧ CString d u := by
  unfold urldecode
  rw [Option.map_eq_some_iff]
  simp only [urlGo_iff _ _ _ (Nat.lt_succ_self _), cstring_iff]

theorem uriUser_iff (s : Bytes) (u : Option Bytes) (r : Bytes) : uriUser s = some (u, r) ↔ UriUser s u r := by
  unfold uriUser
  by_cases h : 64 ∈ s
  · rw [if_pos h]
    obtain ⟨e, t, h1, rfl⟩ := cut_mem h
    rw [(take_cut h1).1, (take_cut h1).2]
    simp only [List.drop_succ_cons, List.drop_zero]
    by_cases h2 : 59 ∈ e
    · obtain ⟨a, p, h3, rfl⟩ := cut_mem h2
      rw [(take_cut h3).1]
      have hp : 64 ∉ p := fun x => h1 (by simp [x])
      have ha : 64 ∉ a := fun x => h1 (by simp [x])
      by_cases h4 : a = []
      · rw [if_pos h4]
        refine ⟨fun h => (by cases h), fun x => ?_⟩
        generalize hs : (a ++ 59 :: p ++ 64 :: t : Bytes) = s at x
        cases x with
        | none x => exact absurd (hs ▸ h) x
        | plain x1 x2 _ _ _ => exact absurd ((cut_unique h1 x1 hs).1 ▸ h2) x2
        | @params a' d' u' p' _ x1 x2 x3 x4 _ _ =>
          have : (64 : UInt8) ∉ a' ++ 59 :: p' := by simp [x1, x4]
          have := (cut_unique h1 this hs).1
          exact absurd ((cut_unique h3 x2 this).1 ▸ h4) x3
      · rw [if_neg h4, Option.map_eq_some_iff]
        simp only [urldecode_iff, Prod.mk.injEq]
        constructor
        · rintro ⟨v, ⟨d, hd, hc⟩, rfl, rfl⟩
          exact .params ha h3 h4 hp hd hc
        · intro x
          generalize hs : (a ++ 59 :: p ++ 64 :: t : Bytes) = s at x
          cases x with
          | none x => exact absurd (hs ▸ h) x
          | plain x1 x2 _ _ _ => exact absurd ((cut_unique h1 x1 hs).1 ▸ h2) x2
          | @params a' d' u' p' _ x1 x2 x3 x4 hd hc =>
            have : (64 : UInt8) ∉ a' ++ 59 :: p' := by simp [x1, x4]
            obtain ⟨e1, e2⟩ := cut_unique h1 this hs
            obtain ⟨e3, _⟩ := cut_unique h3 x2 e1
            exact ⟨u', ⟨d', e3 ▸ hd, hc⟩, rfl, e2⟩
    · rw [(take_none h2).1]
      by_cases h4 : e = []
      · rw [if_pos h4]
        refine ⟨fun h => (by cases h), fun x => ?_⟩
        generalize hs : (e ++ 64 :: t : Bytes) = s at x
        cases x with
        | none x => exact absurd (hs ▸ h) x
        | plain x1 x2 x3 _ _ => exact absurd ((cut_unique h1 x1 hs).1 ▸ h4) x3
        | @params a' d' u' p' _ x1 x2 x3 x4 _ _ =>
          have : (64 : UInt8) ∉ a' ++ 59 :: p' := by simp [x1, x4]
          have := (cut_unique h1 this hs).1
          exact absurd (by rw [this]; simp) h2
      · rw [if_neg h4, Option.map_eq_some_iff]
        simp only [urldecode_iff, Prod.mk.injEq]
        constructor
        · rintro ⟨v, ⟨d, hd, hc⟩, rfl, rfl⟩
          exact .plain h1 h2 h4 hd hc
        · intro x
          generalize hs : (e ++ 64 :: t : Bytes) = s at x
          cases x with
          | none x => exact absurd (hs ▸ h) x
          | plain x1 x2 _ hd hc =>
            obtain ⟨e1, e2⟩ := cut_unique h1 x1 hs
            exact ⟨_, ⟨_, e1 ▸ hd, hc⟩, rfl, e2⟩
          | @params a' d' u' p' _ x1 x2 x3 x4 _ _ =>
            have : (64 : UInt8) ∉ a' ++ 59 :: p' := by simp [x1, x4]
            have := (cut_unique h1 this hs).1
            exact absurd (by rw [this]; simp) h2
  · rw [if_neg h, Option.some.injEq, Prod.mk.injEq]
    constructor
    · rintro ⟨rfl, rfl⟩; exact .none h
    · intro x
      cases x with
      | none _ => exact ⟨rfl, rfl⟩
      | plain _ _ _ _ _ => exact absurd (by simp) h
      | params _ _ _ _ _ _ => exact absurd (by simp) h

theorem delim_split : ∀ (s : Bytes),
    ((58 ∉ s ∧ 47 ∉ s) ∧ s.dropWhile (fun x => decide (x ≠ 58 ∧ x ≠ 47)) = []) ∨
    ∃ e d r, 58 ∉ e ∧ 47 ∉ e ∧ (d = 58 ∨ d = 47) ∧ s = e ++ d :: r ∧
      s.takeWhile (fun x => decide (x ≠ 58 ∧ x ≠ 47)) = e ∧ s.dropWhile (fun x => decide (x ≠ 58 ∧ x ≠ 47)) = d :: r
  | [] => .inl (by simp)
  | x :: s => by
    by_cases hx : x ≠ 58 ∧ x ≠ 47
    · simp only [List.takeWhile_cons, List.dropWhile_cons, hx, and_self, not_false_eq_true, decide_true, if_true, ne_eq]
      rcases delim_split s with ⟨⟨h1, h2⟩, h3⟩ | ⟨e, d, r, h1, h2, h3, h4, h5, h6⟩
      · refine .inl ⟨⟨?_, ?_⟩, by simpa using h3⟩
        · simp [h1, Ne.symm hx.1]
        · simp [h2, Ne.symm hx.2]
      · refine .inr ⟨x :: e, d, r, ?_, ?_, h3, by rw [h4]; rfl, ?_, by simpa using h6⟩
        · simp [h1, Ne.symm hx.1]
        · simp [h2, Ne.symm hx.2]
        · simpa using h5
    · refine .inr ⟨[], x, s, by simp, by simp, ?_, rfl, ?_, ?_⟩
      · by_cases h : x = 58
        · exact .inl h
        · exact .inr (Classical.byContradiction fun g => hx ⟨h, g⟩)
      · simp only [List.takeWhile_cons, decide_eq_false hx, Bool.false_eq_true, if_false]
      · simp only [List.dropWhile_cons, decide_eq_false hx, Bool.false_eq_true, if_false]

theorem delim_unique {e d r e' d' r'} (h1 : (58 : UInt8) ∉ e) (h2 : (47 : UInt8) ∉ e) (hd : d = (58 : UInt8) ∨ d = 47)
    (h1' : (58 : UInt8) ∉ e') (h2' : (47 : UInt8) ∉ e') (hd' : d' = (58 : UInt8) ∨ d' = 47)
    (h : (e ++ d :: r : Bytes) = e' ++ d' :: r') : e = e' ∧ d = d' ∧ r = r' := by
  induction e generalizing e' with
  | nil =>
    cases e' with
    | nil => simpa using h
    | cons y e' =>
      simp at h
      rcases hd with rfl | rfl
      · exact absurd (by simp [h.1]) h1'
      · exact absurd (by simp [h.1]) h2'
  | cons x e ih =>
    cases e' with
    | nil =>
      simp at h
      rcases hd' with rfl | rfl
      · exact absurd (by simp [h.1]) h1
      · exact absurd (by simp [h.1]) h2
    | cons y e' =>
      simp at h
      simp at h1 h2 h1' h2'
      obtain ⟨a, b⟩ := ih h1.2 h2.2 h1'.2 h2'.2 h.2
      exact ⟨by rw [h.1, a], b⟩

theorem hpdelim2_iff (t f : Bytes) (rest : Option (UInt8 × Bytes)) : hpdelim2 t = some (f, rest) ↔ HostField t f rest := by
  unfold hpdelim2 HostField
  by_cases hb : t.head? = some 91
  · rw [if_pos hb]
    obtain ⟨t', rfl⟩ : ∃ t', t = 91 :: t' := by
      cases t with
      | nil => cases hb
      | cons x t => simp at hb; exact ⟨t, by rw [hb]⟩
    have second : ∀ {f : Bytes}, (f.head? ≠ some 91 ∧ 58 ∉ f ∧ 47 ∉ f) →
        ¬ ((rest = none ∧ (91 :: t' : Bytes) = f) ∨ ∃ d r, rest = some (d, r) ∧ (d = 58 ∨ d = 47) ∧ (91 :: t' : Bytes) = f ++ d :: r) := by
      rintro f ⟨h1, _⟩ (⟨_, h⟩ | ⟨d, r, _, hd, h⟩)
      · rw [← h] at h1; simp at h1
      · cases f with
        | nil => simp at h; rw [← h.1] at hd; revert hd; decide
        | cons y f => simp at h; rw [← h.1] at h1; simp at h1
    by_cases hm : 93 ∈ t'
    · obtain ⟨x, r, h1, rfl⟩ := cut_mem hm
      have h1' : (93 : UInt8) ∉ 91 :: x := by simp [h1]
      have e : (91 :: (x ++ 93 :: r) : Bytes) = (91 :: x) ++ 93 :: r := rfl
      have ht := take_cut (r := r) h1'
      rw [e, ht.1, ht.2]
      have huniq : ∀ {f : Bytes} {rest : Option (UInt8 × Bytes)}, (∃ y, f = [91] ++ y ++ [93] ∧ 93 ∉ y) →
          ((rest = none ∧ (91 :: x) ++ 93 :: r = f) ∨ ∃ d q, rest = some (d, q) ∧ (d = 58 ∨ d = 47) ∧ (91 :: x) ++ 93 :: r = f ++ d :: q) →
          f = 91 :: x ++ [93] ∧ (rest = none ∧ r = [] ∨ ∃ d q, rest = some (d, q) ∧ (d = 58 ∨ d = 47) ∧ r = d :: q) := by
        rintro f rest ⟨y, rfl, hy⟩ h
        have hy' : (93 : UInt8) ∉ 91 :: y := by simp [hy]
        rcases h with ⟨h2, h3⟩ | ⟨d, q, h2, hd, h3⟩
        · have : (91 :: x ++ 93 :: r : Bytes) = (91 :: y) ++ 93 :: [] := by rw [h3]; simp
          obtain ⟨e1, e2⟩ := cut_unique h1' hy' this
          simp at e1
          exact ⟨by rw [e1]; simp, .inl ⟨h2, e2⟩⟩
        · have : (91 :: x ++ 93 :: r : Bytes) = (91 :: y) ++ 93 :: (d :: q) := by rw [h3]; simp
          obtain ⟨e1, e2⟩ := cut_unique h1' hy' this
          simp at e1
          exact ⟨by rw [e1]; simp, .inr ⟨d, q, h2, hd, e2⟩⟩
      cases r with
      | nil =>
        simp only [Option.some.injEq, Prod.mk.injEq]
        constructor
        · rintro ⟨rfl, rfl⟩
          exact ⟨.inl ⟨x, by simp, h1⟩, .inl ⟨rfl, rfl⟩⟩
        · rintro ⟨h2 | h2, h3⟩
          · obtain ⟨h4, h5⟩ := huniq h2 h3
            rcases h5 with ⟨h5, _⟩ | ⟨d, q, _, _, h6⟩
            · exact ⟨h4.symm, h5.symm⟩
            · cases h6
          · exact absurd h3 (second h2)
      | cons d q =>
        simp only
        by_cases hd : d = 58 ∨ d = 47
        · rw [if_pos hd]
          simp only [Option.some.injEq, Prod.mk.injEq]
          constructor
          · rintro ⟨rfl, rfl⟩
            exact ⟨.inl ⟨x, by simp, h1⟩, .inr ⟨d, q, rfl, hd, by simp⟩⟩
          · rintro ⟨h2 | h2, h3⟩
            · obtain ⟨h4, h5⟩ := huniq h2 h3
              rcases h5 with ⟨_, h6⟩ | ⟨d', q', h5, _, h6⟩
              · cases h6
              · cases h6; exact ⟨h4.symm, h5.symm⟩
            · exact absurd h3 (second h2)
        · rw [if_neg hd]
          refine ⟨fun h => (by cases h), ?_⟩
          rintro ⟨h2 | h2, h3⟩
          · obtain ⟨h4, h5⟩ := huniq h2 h3
            rcases h5 with ⟨_, h6⟩ | ⟨d', q', h5, h7, h6⟩
            · cases h6
            · cases h6; exact absurd h7 hd
          · exact absurd h3 (second h2)
    · rw [(take_none (c := 93) (s := 91 :: t') (by simp [hm])).2]
      refine ⟨fun h => (by cases h), ?_⟩
      rintro ⟨⟨x, rfl, _⟩ | h2, h3⟩
      · have : (93 : UInt8) ∈ 91 :: t' := by
          rcases h3 with ⟨_, h⟩ | ⟨_, _, _, _, h⟩ <;> rw [h] <;> simp
        simp [hm] at this
      · exact absurd h3 (second h2)
  · rw [if_neg hb]
    have first : ∀ {f : Bytes}, (∃ x, f = [91] ++ x ++ [93] ∧ 93 ∉ x) →
        ¬ ((rest = none ∧ t = f) ∨ ∃ d r, rest = some (d, r) ∧ (d = 58 ∨ d = 47) ∧ t = f ++ d :: r) := by
      rintro f ⟨x, rfl, _⟩ (⟨_, h⟩ | ⟨d, r, _, _, h⟩) <;> rw [h] at hb <;> simp at hb
    rcases delim_split t with ⟨⟨h1, h2⟩, h3⟩ | ⟨e, d, r, h1, h2, h3, h4, h5, h6⟩
    · simp only [h3, Option.some.injEq, Prod.mk.injEq]
      constructor
      · rintro ⟨rfl, rfl⟩; exact ⟨.inr ⟨hb, h1, h2⟩, .inl ⟨rfl, rfl⟩⟩
      · rintro ⟨g1 | g1, g2⟩
        · exact absurd g2 (first g1)
        · rcases g2 with ⟨g3, g4⟩ | ⟨d, r, _, hd, g4⟩
          · exact ⟨g4, g3.symm⟩
          · rcases hd with rfl | rfl
            · exact absurd (by rw [g4]; simp) h1
            · exact absurd (by rw [g4]; simp) h2
    · simp only [h5, h6, Option.some.injEq, Prod.mk.injEq]
      constructor
      · rintro ⟨rfl, rfl⟩
        refine ⟨.inr ⟨?_, h1, h2⟩, .inr ⟨d, r, rfl, h3, h4⟩⟩
        intro g
        apply hb
        rw [h4]
        cases e with
        | nil => cases g
        | cons y e => exact g
      · rintro ⟨g1 | g1, g2⟩
        · exact absurd g2 (first g1)
        · rcases g2 with ⟨g3, g4⟩ | ⟨d', r', g3, hd, g4⟩
          · rw [h4] at g4
            rw [← g4] at g1
            rcases h3 with rfl | rfl
            · exact absurd (by simp) g1.2.1
            · exact absurd (by simp) g1.2.2
          · rw [h4] at g4
            obtain ⟨a, b, c⟩ := delim_unique h1 h2 h3 g1.2.1 g1.2.2 hd g4
            exact ⟨a, by rw [g3, b, c]⟩

theorem cleanhostname_iff (f h : Bytes) : cleanhostname f = h ↔ HostOf f h := by
  unfold cleanhostname HostOf
  by_cases hb : f.head? = some 91 ∧ f.getLast? = some 93
  · rw [if_pos hb]
    obtain ⟨e, he⟩ := (last_iff f 93).1 hb.2
    have hf : ∃ x, f = [91] ++ x ++ [93] := by
      cases e with
      | nil => rw [he] at hb; simp at hb
      | cons y e => rw [he] at hb; simp at hb; exact ⟨e, by rw [he, hb.1]; simp⟩
    obtain ⟨x, rfl⟩ := hf
    have : ([91] ++ x ++ [93] : Bytes).tail.dropLast = x := by
      show (x ++ [93]).dropLast = x
      exact List.dropLast_concat
    rw [this]
    constructor
    · rintro rfl; exact .inl rfl
    · rintro (g | ⟨_, g⟩)
      · simpa using g
      · exact absurd ⟨x, rfl⟩ g
  · rw [if_neg hb]
    have hn : ¬ ∃ x, f = [91] ++ x ++ [93] := by
      rintro ⟨x, rfl⟩
      exact hb ⟨by simp, (last_iff _ _).2 ⟨[91] ++ x, rfl⟩⟩
    constructor
    · rintro rfl; exact .inr ⟨rfl, hn⟩
    · rintro (g | ⟨g, _⟩)
      · exact absurd ⟨h, g⟩ hn
      · exact g

theorem uriRest_iff (serv : Bytes → Option Nat) (ch : UInt8) (r : Bytes) (p : Option Int) :
    uriRest serv ch r = some (p, none) ↔ UriPort serv (some (ch, r)) p := by
  unfold uriRest
  by_cases h1 : r = []
  · rw [if_pos h1, Option.some.injEq, Prod.mk.injEq]
    subst h1
    constructor
    · rintro ⟨rfl, _⟩; exact .empty
    · intro h
      generalize hx : (some (ch, []) : Option (UInt8 × Bytes)) = x at h
      cases h with
      | none => cases hx
      | empty => exact ⟨rfl, rfl⟩
      | port g _ _ => cases hx; exact absurd rfl g
      | slash _ _ => simp at hx
  rw [if_neg h1]
  by_cases h2 : ch = 58
  · rw [if_pos h2]
    subst h2
    by_cases h3 : 47 ∈ r
    · obtain ⟨e, q, h4, rfl⟩ := cut_mem h3
      rw [(take_cut h4).1, (take_cut h4).2]
      simp only [List.drop_succ_cons, List.drop_zero]
      have spec : UriPort serv (some (58, e ++ 47 :: q)) p ↔ q = [] ∧ 0 < a2port serv e ∧ p = some (a2port serv e) := by
        constructor
        · intro h
          generalize hx : (some (58, e ++ 47 :: q) : Option (UInt8 × Bytes)) = x at h
          cases h with
          | none => cases hx
          | empty => simp at hx
          | port _ g _ => simp at hx; exact absurd (by rw [← hx]; simp) g
          | slash g1 g2 =>
            simp at hx
            obtain ⟨e1, e2⟩ := cut_unique h4 g1 hx
            exact ⟨e2, e1 ▸ g2, by rw [e1]⟩
        · rintro ⟨rfl, h5, rfl⟩
          exact .slash h4 h5
      rw [spec]
      by_cases h5 : a2port serv e ≤ 0
      · rw [if_pos h5]
        exact ⟨fun h => (by cases h), fun h => by omega⟩
      · rw [if_neg h5]
        by_cases h6 : q = []
        · rw [if_pos h6, Option.some.injEq, Prod.mk.injEq]
          exact ⟨fun h => ⟨h6, by omega, h.1.symm⟩, fun h => ⟨h.2.2.symm, rfl⟩⟩
        · rw [if_neg h6, Option.map_eq_some_iff]
          refine ⟨fun ⟨_, _, h⟩ => (by simp at h), fun h => absurd h.1 h6⟩
    · rw [(take_none h3).1, (take_none h3).2]
      have spec : UriPort serv (some (58, r)) p ↔ 0 < a2port serv r ∧ p = some (a2port serv r) := by
        constructor
        · intro h
          generalize hx : (some (58, r) : Option (UInt8 × Bytes)) = x at h
          cases h with
          | none => cases hx
          | empty => cases hx; exact absurd rfl h1
          | port _ _ g => cases hx; exact ⟨g, rfl⟩
          | slash g1 g2 => cases hx; exact absurd (by simp) h3
        · rintro ⟨h5, rfl⟩; exact .port h1 h3 h5
      rw [spec]
      by_cases h5 : a2port serv r ≤ 0
      · rw [if_pos h5]
        exact ⟨fun h => (by cases h), fun h => by omega⟩
      · rw [if_neg h5, List.drop_nil, if_pos rfl, Option.some.injEq, Prod.mk.injEq]
        exact ⟨fun h => ⟨by omega, h.1.symm⟩, fun h => ⟨h.2.symm, rfl⟩⟩
  · rw [if_neg h2, Option.map_eq_some_iff]
    refine ⟨fun ⟨_, _, h⟩ => (by simp at h), fun h => ?_⟩
    generalize hx : (some (ch, r) : Option (UInt8 × Bytes)) = x at h
    cases h with
    | none => cases hx
    | empty => cases hx; exact absurd rfl h1
    | port _ _ _ => cases hx; exact absurd rfl h2
    | slash _ _ => cases hx; exact absurd rfl h2

theorem uriBody_iff (serv : Bytes → Option Nat) (t : Bytes) (D : Dest) : uriBody serv t = some (D, none) ↔
    ∃ r field h rest, UriUser t D.user r ∧ HostField r field rest ∧ field ≠ [] ∧ HostOf field h ∧ Domain h ∧ Unanchored h D.host ∧
      UriPort serv rest D.port := by
  unfold uriBody
  rw [Option.bind_eq_some_iff]
  constructor
  · rintro ⟨⟨u, r⟩, hu, h⟩
    rw [uriUser_iff] at hu
    cases hh : hpdelim2 r with
    | none => simp [hh] at h
    | some p =>
      obtain ⟨f, rest⟩ := p
      simp only [hh] at h
      by_cases hf : f = []
      · rw [if_pos hf] at h; cases h
      rw [if_neg hf, Option.bind_eq_some_iff] at h
      obtain ⟨d, hd, h⟩ := h
      obtain ⟨h1, h2⟩ := (validDomain_iff _ _).1 hd
      have hH := (hpdelim2_iff r f rest).1 hh
      cases rest with
      | none =>
        simp only [Option.some.injEq, Prod.mk.injEq, and_true] at h
        subst h
        exact ⟨r, f, _, none, hu, hH, hf, (cleanhostname_iff f _).1 rfl, h1, h2, .none⟩
      | some cr =>
        obtain ⟨ch, q⟩ := cr
        simp only [Option.map_eq_some_iff, Prod.mk.injEq] at h
        obtain ⟨pp, hp, h, h'⟩ := h
        subst h
        have : uriRest serv ch q = some (pp.1, none) := by rw [hp, ← h']
        exact ⟨r, f, _, some (ch, q), hu, hH, hf, (cleanhostname_iff f _).1 rfl, h1, h2, (uriRest_iff _ _ _ _).1 this⟩
  · rintro ⟨r, f, h, rest, h1, h2, h3, h4, h5, h6, h7⟩
    refine ⟨(D.user, r), (uriUser_iff _ _ _).2 h1, ?_⟩
    simp only [(hpdelim2_iff r f rest).2 h2]
    rw [if_neg h3, (cleanhostname_iff f h).2 h4, (validDomain_iff _ _).2 ⟨h5, h6⟩, Option.bind_some]
    cases rest with
    | none => 
      have : D.port = none := by generalize hx : D.port = x at h7; cases h7; rfl
      simp only [← this]
    | some cr =>
      obtain ⟨ch, q⟩ := cr
      simp only [(uriRest_iff serv ch q D.port).2 h7, Option.map_some]

theorem isUri_iff (s : Bytes) : s.take 6 = scheme ↔ IsUri s := by
  unfold IsUri
  constructor
  · intro h
    exact ⟨s.drop 6, by
      have := List.take_append_drop 6 s
      rw [h] at this
      exact this.symm⟩
  · rintro ⟨t, rfl⟩; rfl

theorem parseSshUri_cases (serv : Bytes → Option Nat) (s : Bytes) :
    (parseSshUri serv s = .notUri ↔ ¬ IsUri s) ∧ ∀ D, parseSshUri serv s = .ok D ↔ SshUri serv s D := by
  unfold parseSshUri
  by_cases h : s.take 6 = scheme
  · have hU := (isUri_iff s).1 h
    rw [if_neg (fun g => g h)]
    have key : ∀ D, SshUri serv s D ↔ uriBody serv (s.drop 6) = some (D, none) := by
      intro D
      rw [uriBody_iff]
      have hs : ∀ t, s = b!"ssh://" ++ t ↔ t = s.drop 6 := by
        intro t
        constructor
        · rintro rfl; rfl
        · rintro rfl
          have := List.take_append_drop 6 s
          rw [h] at this
          exact this.symm
      unfold SshUri
      simp only [hs]
      constructor
      · rintro ⟨t, r, f, g, rest, rfl, x⟩; exact ⟨r, f, g, rest, x⟩
      · rintro ⟨r, f, g, rest, x⟩; exact ⟨_, r, f, g, rest, rfl, x⟩
    simp only [key]
    refine ⟨⟨fun g => ?_, fun g => absurd hU g⟩, fun D => ?_⟩
    · split at g <;> cases g
    · split
      · rename_i d hd
        rw [hd]
        simp
      · rename_i hn
        refine ⟨fun g => (by cases g), fun g => absurd g (hn D)⟩
  · rw [if_pos h]
    refine ⟨⟨fun _ g => h ((isUri_iff s).2 g), fun _ => rfl⟩, fun D => ⟨fun g => (by cases g), ?_⟩⟩
    rintro ⟨t, _, _, _, _, e, _⟩
    exact absurd ((isUri_iff s).2 ⟨t, e⟩) h

/-- C121: what the argument on the command line stands for. -/
theorem C121_destination (serv : Bytes → Option Nat) (s : Bytes) (D : Dest) :
    destination serv s = some D ↔ SshUri serv s D ∨ ¬ IsUri s ∧ Plain s D := by
  obtain ⟨h1, h2⟩ := parseSshUri_cases serv s
  unfold destination
  cases h : parseSshUri serv s with
  | notUri =>
    have hn := h1.1 h
    have hS : ¬ SshUri serv s D := by rw [← h2, h]; intro g; cases g
    simp only [hS, hn, not_false_eq_true, true_and, false_or, Plain]
    cases hl : splitLast 64 s with
    | none =>
      have hm := splitLast_none.1 hl
      simp only [Option.some.injEq]
      constructor
      · rintro rfl; exact ⟨rfl, .inl ⟨rfl, hm, rfl⟩⟩
      · rintro ⟨e1, ⟨e2, _, e3⟩ | ⟨u, _, _, _, e⟩⟩
        · cases D; simp_all
        · exact absurd (by rw [e]; simp) hm
    | some p =>
      obtain ⟨u, g⟩ := p
      obtain ⟨e1, e2⟩ := splitLast_some.1 hl
      have hm : 64 ∈ s := by rw [e1]; simp
      have hu : ∀ v, (64 ∉ D.host ∧ s = v ++ 64 :: D.host) ↔ v = u ∧ D.host = g := by
        intro v
        rw [and_comm, ← splitLast_some, hl, Option.some.injEq, Prod.mk.injEq]
        exact ⟨fun ⟨a, b⟩ => ⟨a.symm, b.symm⟩, fun ⟨a, b⟩ => ⟨a.symm, b.symm⟩⟩
      simp only [hm, not_true_eq_false, false_and, and_false, false_or, hu]
      by_cases hne : u = []
      · rw [if_pos hne]
        refine ⟨fun x => (by cases x), ?_⟩
        rintro ⟨_, v, _, hv, rfl, _⟩
        exact absurd hne hv
      · rw [if_neg hne, Option.some.injEq]
        constructor
        · rintro rfl; exact ⟨rfl, u, rfl, hne, rfl, rfl⟩
        · rintro ⟨e1, v, e2, _, rfl, e3⟩
          cases D; simp_all
  | bad =>
    have hS : ¬ SshUri serv s D := by rw [← h2, h]; intro g; cases g
    have hn : IsUri s := Classical.byContradiction fun g => by rw [h1.2 g] at h; cases h
    simp [hS, hn]
  | ok d =>
    have hn : IsUri s := Classical.byContradiction fun g => by rw [h1.2 g] at h; cases h
    rw [← h2, h]
    simp [hn]

theorem userHostPort_iff (serv : Bytes → Option Nat) (s : Bytes) (D : Dest) : userHostPort serv s = some D ↔ PlainHop serv s D := by
  -- after the user
  have core : ∀ (x : Option Bytes) (t : Bytes), (hostPort serv x t = some D ↔
      D.user = x ∧ ∃ field rest, HostField t field rest ∧ field ≠ [] ∧ HostOf field D.host ∧
        (D.port = none ∧ (rest = none ∨ rest = some (58, [])) ∨
          ∃ p, rest = some (58, p) ∧ p ≠ [] ∧ 0 < a2port serv p ∧ D.port = some (a2port serv p))) := by
    intro x t
    have hno : ∀ {a}, hpdelim2 t = a → (∀ f rest, HostField t f rest ↔ a = some (f, rest)) := by
      intro a ha f rest
      rw [← hpdelim2_iff, ha]
    unfold hostPort hpdelim
    cases hh : hpdelim2 t with
    | none => simp [hno hh]
    | some p =>
      obtain ⟨f, rest⟩ := p
      cases rest with
      | none =>
        simp only [hno hh, Option.some.injEq, Prod.mk.injEq]
        by_cases hf : f = []
        · simp [hf]
        · rw [if_neg hf, Option.some.injEq]
          constructor
          · rintro rfl
            exact ⟨rfl, f, none, ⟨rfl, rfl⟩, hf, (cleanhostname_iff _ _).1 rfl, .inl ⟨rfl, .inl rfl⟩⟩
          · rintro ⟨e1, f', rest, ⟨rfl, rfl⟩, _, e2, ⟨e3, _⟩ | ⟨p, e3, _⟩⟩
            · rw [← cleanhostname_iff] at e2
              cases D; simp_all
            · cases e3
      | some cr =>
        obtain ⟨ch, q⟩ := cr
        have hch : ch = 58 ∨ ch = 47 := by
          rcases ((hpdelim2_iff _ _ _).1 hh).2 with ⟨e, _⟩ | ⟨d, r, e, hd, _⟩
          · cases e
          · cases e; exact hd
        simp only [hno hh, Option.some.injEq, Prod.mk.injEq]
        by_cases h47 : ch = 47
        · rw [if_pos h47]
          subst h47
          refine ⟨fun g => (by cases g), ?_⟩
          rintro ⟨_, f', rest, ⟨_, rfl⟩, _, _, ⟨_, e | e⟩ | ⟨p, e, _⟩⟩ <;> cases e
        · have h58 : ch = 58 := by
            rcases hch with h | h
            · exact h
            · exact absurd h h47
          subst h58
          rw [if_neg (by decide)]
          simp only
          by_cases hf : f = []
          · simp [hf]
          · rw [if_neg hf]
            by_cases hq : q = []
            · rw [if_pos hq, Option.some.injEq]
              subst hq
              constructor
              · rintro rfl
                exact ⟨rfl, f, _, ⟨rfl, rfl⟩, hf, (cleanhostname_iff _ _).1 rfl, .inl ⟨rfl, .inr rfl⟩⟩
              · rintro ⟨e1, f', rest, ⟨rfl, rfl⟩, _, e2, ⟨e3, _⟩ | ⟨p, e3, e4, _⟩⟩
                · rw [← cleanhostname_iff] at e2
                  cases D; simp_all
                · cases e3; exact absurd rfl e4
            · rw [if_neg hq]
              by_cases hp : a2port serv q ≤ 0
              · rw [if_pos hp]
                refine ⟨fun g => (by cases g), ?_⟩
                rintro ⟨_, f', rest, ⟨_, rfl⟩, _, _, ⟨_, e | e⟩ | ⟨p, e, _, e2, _⟩⟩
                · cases e
                · cases e; exact absurd rfl hq
                · cases e; omega
              · rw [if_neg hp, Option.some.injEq]
                constructor
                · rintro rfl
                  exact ⟨rfl, f, _, ⟨rfl, rfl⟩, hf, (cleanhostname_iff _ _).1 rfl, .inr ⟨q, rfl, hq, by omega, rfl⟩⟩
                · rintro ⟨e1, f', rest, ⟨rfl, rfl⟩, _, e2, ⟨_, e | e⟩ | ⟨p, e, _, _, e3⟩⟩
                  · cases e
                  · cases e; exact absurd rfl hq
                  · cases e
                    rw [← cleanhostname_iff] at e2
                    cases D; simp_all
  unfold userHostPort PlainHop
  cases hl : splitLast 64 s with
  | none =>
    have hm := splitLast_none.1 hl
    simp only [core]
    constructor
    · rintro ⟨e, f, rest, x⟩; exact ⟨s, f, rest, .inl ⟨e, hm, rfl⟩, x⟩
    · rintro ⟨t, f, rest, ⟨e, _, rfl⟩ | ⟨u, _, _, _, e⟩, x⟩
      · exact ⟨e, f, rest, x⟩
      · exact absurd (by rw [e]; simp) hm
  | some p =>
    obtain ⟨u, g⟩ := p
    obtain ⟨e1, e2⟩ := splitLast_some.1 hl
    have hm : 64 ∈ s := by rw [e1]; simp
    have hu : ∀ v t, (64 ∉ t ∧ s = v ++ 64 :: t) ↔ v = u ∧ t = g := by
      intro v t
      rw [and_comm, ← splitLast_some, hl, Option.some.injEq, Prod.mk.injEq]
      exact ⟨fun ⟨a, b⟩ => ⟨a.symm, b.symm⟩, fun ⟨a, b⟩ => ⟨a.symm, b.symm⟩⟩
    simp only
    by_cases hne : u = []
    · rw [if_pos hne]
      refine ⟨fun x => (by cases x), ?_⟩
      rintro ⟨t, f, rest, ⟨_, h, _⟩ | ⟨v, _, hv, h⟩, _⟩
      · exact absurd hm h
      · exact absurd (((hu v t).1 h).1.trans hne) hv
    · rw [if_neg hne, core]
      constructor
      · rintro ⟨e, f, rest, x⟩; exact ⟨g, f, rest, .inr ⟨u, e, hne, e2, e1⟩, x⟩
      · rintro ⟨t, f, rest, ⟨_, h, _⟩ | ⟨v, e, _, h⟩, x⟩
        · exact absurd hm h
        · obtain ⟨rfl, rfl⟩ := (hu v t).1 h
          exact ⟨e, f, rest, x⟩

/-- C121: what a hop of `ProxyJump` stands for. -/
theorem C121_hop (serv : Bytes → Option Nat) (s : Bytes) (D : Dest) :
    hop serv s = some D ↔ SshUri serv s D ∨ ¬ IsUri s ∧ PlainHop serv s D := by
  obtain ⟨h1, h2⟩ := parseSshUri_cases serv s
  unfold hop
  cases h : parseSshUri serv s with
  | notUri =>
    have hn := h1.1 h
    have hS : ¬ SshUri serv s D := by rw [← h2, h]; intro g; cases g
    simp only [hS, hn, not_false_eq_true, true_and, false_or, userHostPort_iff]
  | bad =>
    have hS : ¬ SshUri serv s D := by rw [← h2, h]; intro g; cases g
    have hn : IsUri s := Classical.byContradiction fun g => by rw [h1.2 g] at h; cases h
    simp [hS, hn]
  | ok d =>
    have hn : IsUri s := Classical.byContradiction fun g => by rw [h1.2 g] at h; cases h
    rw [← h2, h]
    simp [hn]

/-! ### Several hops -/

theorem takeWhile_id {p : UInt8 → Bool} {s : Bytes} (h : ∀ c ∈ s, p c = true) : s.takeWhile p = s := by
  induction s with
  | nil => rfl
  | cons x s ih =>
    rw [List.takeWhile_cons, if_pos (h x (by simp)), ih fun c hc => h c (by simp [hc])]

theorem jumpText_clean {s : Bytes} (h1 : 35 ∉ s) (h2 : ∀ c ∈ s, isSpace c = false) : jumpText s = s := by
  unfold jumpText
  rw [(take_none h1).1]
  cases s with
  | nil => rfl
  | cons x s =>
    rw [rtrim, takeWhile_id fun c hc => by rw [h2 c (by simp [hc])]; rfl]

theorem parseJump_via {serv : Bytes → Option Nat} {s : Bytes} (h0 : ¬ NoneWord s) (h1 : 35 ∉ s) (h2 : ∀ c ∈ s, isSpace c = false)
    {d : Dest} {e : Option Bytes} : parseJump serv s = .via d e ↔
      (∀ x ∈ Text.split 44 s, hop serv x ≠ none) ∧ (∃ l x, Text.split 44 s = l ++ [x] ∧ hop serv x = some d) ∧ e = extraOf s := by
  unfold parseJump
  rw [if_neg (fun h => h0 ((same_none s).1 h)), jumpText_clean h1 h2]
  have hall : ((Text.split 44 s).all fun x => (hop serv x).isSome) = true ↔ ∀ x ∈ Text.split 44 s, hop serv x ≠ none := by
    simp [List.all_eq_true, Option.isSome_iff_ne_none]
  by_cases ha : ∀ x ∈ Text.split 44 s, hop serv x ≠ none
  · rw [if_pos (hall.2 ha)]
    cases hl : (Text.split 44 s).getLast? with
    | none => rw [List.getLast?_eq_none_iff] at hl; exact absurd hl (Text.split_ne_nil _ _)
    | some x =>
      obtain ⟨l, hs⟩ := List.getLast?_eq_some_iff.1 hl
      simp only [Option.bind_some]
      cases hx : hop serv x with
      | none => exact absurd hx (ha x (by rw [hs]; simp))
      | some d' =>
        simp only [Jump.via.injEq]
        constructor
        · rintro ⟨rfl, rfl⟩; exact ⟨ha, ⟨l, x, hs, hx⟩, rfl⟩
        · rintro ⟨_, ⟨l', x', hs', hx'⟩, rfl⟩
          rw [hs] at hs'
          have := List.append_inj_right' hs' rfl
          simp at this
          subst this
          rw [hx] at hx'
          cases hx'
          exact ⟨rfl, rfl⟩
  · rw [if_neg (fun h => ha (hall.1 h))]
    exact ⟨fun h => (by cases h), fun h => absurd h.1 ha⟩

theorem hop_nil (serv : Bytes → Option Nat) : hop serv [] = none := rfl

theorem extraOf_some {s e : Bytes} (h : extraOf s = some e) : ∃ b, s = e ++ 44 :: b ∧ 44 ∉ b ∧ e ≠ [] := by
  unfold extraOf at h
  split at h
  · rename_i c l b hl
    cases h
    obtain ⟨h1, h2⟩ := splitLast_some.1 hl
    exact ⟨b, h1, h2, by simp⟩
  · cases h

theorem extraOf_none {serv : Bytes → Option Nat} {s : Bytes} (h : extraOf s = none) (hv : ∀ x ∈ Text.split 44 s, hop serv x ≠ none) : 44 ∉ s := by
  unfold extraOf at h
  cases hl : splitLast 44 s with
  | none => exact splitLast_none.1 hl
  | some p =>
    obtain ⟨a, b⟩ := p
    rw [hl] at h
    cases a with
    | nil =>
      obtain ⟨h1, _⟩ := splitLast_some.1 hl
      rw [h1, Text.split_sep_append] at hv
      exact absurd (hop_nil serv) (hv [] (by simp [Text.split]))
    | cons c l => cases h

theorem via_go (serv : Bytes → Option Nat) : ∀ (n : Nat) (s : Bytes) (l : List Dest), s.length ≤ n → 35 ∉ s →
    (∀ c ∈ s, isSpace c = false) → (∀ x, (Text.split 44 s).head? = some x → ¬ NoneWord x) →
    (Via serv s l ↔ (Text.split 44 s).map (hop serv) = l.map some) := by
  intro n
  induction n with
  | zero =>
    intro s l hn h1 h2 h3
    have : s = [] := List.eq_nil_of_length_eq_zero (by omega)
    subst this
    have h0 : ¬ NoneWord [] := h3 [] rfl
    constructor
    · intro h
      cases h with
      | last h => rw [parseJump_via h0 h1 h2] at h; exact absurd (hop_nil serv) (h.1 [] (by simp [Text.split]))
      | more h _ => rw [parseJump_via h0 h1 h2] at h; exact absurd (hop_nil serv) (h.1 [] (by simp [Text.split]))
    · intro h
      simp [Text.split, hop_nil] at h
      cases l with
      | nil => simp at h
      | cons d l => simp at h
  | succ n ih =>
    intro s l hn h1 h2 h3
    have h0 : ¬ NoneWord s := by
      intro g
      by_cases hm : 44 ∈ s
      · have : 44 ∈ s.map toLower := List.mem_map.2 ⟨44, hm, by decide⟩
        rw [g] at this
        revert this
        decide
      · exact h3 s (by rw [Text.split_no_sep hm]; rfl) g
    have sub : ∀ {e b : Bytes}, s = e ++ 44 :: b → (Via serv e l ↔ (Text.split 44 e).map (hop serv) = l.map some) ∧
        ∀ l', Via serv e l' ↔ (Text.split 44 e).map (hop serv) = l'.map some := by
      intro e b hs
      have key : ∀ l', Via serv e l' ↔ (Text.split 44 e).map (hop serv) = l'.map some := by
        intro l'
        refine ih e l' ?_ (fun g => h1 (by rw [hs]; simp [g])) (fun c hc => h2 c (by rw [hs]; simp [hc])) ?_
        · rw [hs] at hn; simp at hn; omega
        · intro x hx
          refine h3 x ?_
          rw [hs, Text.split_sep_append]
          cases hsp : Text.split 44 e with
          | nil => exact absurd hsp (Text.split_ne_nil _ _)
          | cons y t => rw [hsp] at hx; exact hx
      exact ⟨key l, key⟩
    constructor
    · intro h
      cases h with
      | last h =>
        rw [parseJump_via h0 h1 h2] at h
        obtain ⟨hv, ⟨l', x, hs, hx⟩, he⟩ := h
        have hm := extraOf_none he.symm hv
        rw [Text.split_no_sep hm] at hs ⊢
        cases l' with
        | nil => simp at hs; subst hs; simp [hx]
        | cons y l' => simp at hs
      | @more _ e d l' h hv' =>
        rw [parseJump_via h0 h1 h2] at h
        obtain ⟨hv, ⟨l'', x, hs, hx⟩, he⟩ := h
        obtain ⟨b, h4, h5, _⟩ := extraOf_some he.symm
        have hv'' := ((sub h4).2 l').1 hv'
        rw [h4, Text.split_sep_append, Text.split_no_sep h5] at hs ⊢
        have := List.append_inj_right' hs rfl
        simp at this
        subst this
        simp [hv'', hx]
    · intro h
      have hv : ∀ x ∈ Text.split 44 s, hop serv x ≠ none := by
        intro x hx hn
        have : hop serv x ∈ l.map some := by rw [← h]; exact List.mem_map.2 ⟨x, hx, rfl⟩
        rw [hn] at this
        simp at this
      cases he : extraOf s with
      | none =>
        have hm := extraOf_none he hv
        rw [Text.split_no_sep hm] at h
        cases l with
        | nil => simp at h
        | cons d l =>
          cases l with
          | cons _ _ => simp at h
          | nil =>
            simp at h
            refine .last ((parseJump_via h0 h1 h2).2 ⟨hv, ⟨[], s, by rw [Text.split_no_sep hm]; rfl, h⟩, he.symm⟩)
      | some e =>
        obtain ⟨b, h4, h5, _⟩ := extraOf_some he
        have hsp : Text.split 44 s = Text.split 44 e ++ [b] := by
          rw [h4, Text.split_sep_append, Text.split_no_sep h5]
        rw [hsp, List.map_append] at h
        cases hb : hop serv b with
        | none => exact absurd hb (hv b (by rw [hsp]; simp))
        | some d =>
          rw [List.map_singleton, hb] at h
          obtain ⟨l1, l2, rfl, g1, g2⟩ := List.map_eq_append_iff.1 h.symm
          have : l2 = [d] := by
            cases l2 with
            | nil => simp at g2
            | cons y l2 =>
              cases l2 with
              | nil => simp at g2; rw [g2]
              | cons _ _ => simp at g2
          subst this
          exact .more ((parseJump_via h0 h1 h2).2 ⟨hv, ⟨_, b, hsp, hb⟩, he.symm⟩) (((sub h4).2 l1).2 g1.symm)

/-- C121: the hops of `ProxyJump` are visited one after the other, in the order given. Blanks, comments and a first hop called
none are left out; see the examples for what happens with these. -/
theorem C121_order_partial (serv : Bytes → Option Nat) (s : Bytes) (l : List Dest) (h1 : 35 ∉ s) (h2 : ∀ c ∈ s, isSpace c = false)
    (h3 : ∀ x, (Text.split 44 s).head? = some x → ¬ NoneWord x) :
    Via serv s l ↔ (Text.split 44 s).map (hop serv) = l.map some :=
  via_go serv s.length s l (Nat.le_refl _) h1 h2 h3

/-- A host with a comment that has a comma in it -/
def commented : Bytes := b!"a # b,c"

/-- C121 is false with a comment or a blank: one hop is asked for, and the command gets a second one with what was written
after it. -/
theorem C121_order_false (serv : Bytes → Option Nat) :
    parseJump serv commented = .via ⟨none, b!"a", none⟩ (some b!"a # b") ∧ parseJump serv b!"a b,c" = .via ⟨none, b!"a", none⟩ (some b!"a b") :=
  ⟨rfl, rfl⟩

end Verif.Target
