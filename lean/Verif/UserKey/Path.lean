/-
Property C96: files that decide about access are trusted only if nobody else can change them.
-/
import Verif.UserKey.Spec

namespace Verif.UserKey
open Verif Wire

/-! ### `dirname` -/

theorem render_snoc (cs : List Bytes) (c : Bytes) : render (cs ++ [c]) = (cs.flatMap fun c => 47 :: c) ++ 47 :: c := by
  cases cs with
  | nil => simp [render]
  | cons a l => simp [render]

theorem render_ne (cs : List Bytes) : render cs ≠ [] := by
  cases cs <;> simp [render]

theorem stripSlash_id {c : UInt8} {l : Bytes} (h : c ≠ 47) : stripSlash (c :: l) = c :: l := by
  cases l with
  | nil => rfl
  | cons d l => rw [stripSlash, if_neg h]

theorem findSlash_skip {r l : Bytes} (hr : (47 : UInt8) ∉ r) : findSlash (r ++ 47 :: l) = 47 :: l := by
  induction r with
  | nil =>
    cases l with
    | nil => rfl
    | cons d l => rw [List.nil_append, findSlash, if_neg (by simp)]
  | cons c r ih =>
    simp at hr
    have hc : c ≠ 47 := fun e => hr.1 e.symm
    cases r with
    | nil => rw [List.cons_append, List.nil_append, findSlash, if_pos hc]; exact ih (by simp)
    | cons d r => rw [List.cons_append, List.cons_append, findSlash, if_pos hc]; exact ih hr.2

theorem dirname_render {cs : List Bytes} {c : Bytes} (hc : Comps (cs ++ [c])) : dirname (render (cs ++ [c])) = render cs := by
  unfold dirname
  rw [if_neg (render_ne _), render_snoc]
  have h1 := hc c (by simp)
  obtain ⟨x, r, hr⟩ : ∃ x r, c.reverse = x :: r := by
    cases h : c.reverse with
    | nil => simp at h; exact absurd h h1.1
    | cons x r => exact ⟨x, r, rfl⟩
  have hx : ∀ y, y ∈ x :: r → y ≠ 47 := by
    intro y hy e
    rw [← hr] at hy
    exact h1.2 (e ▸ (List.mem_reverse.1 hy))
  rw [List.reverse_append, List.reverse_cons, hr, List.append_assoc]
  show dirEnd (findSlash (stripSlash (x :: (r ++ ([47] ++ _))))) = _
  rw [stripSlash_id (hx x (by simp))]
  show dirEnd (findSlash ((x :: r) ++ 47 :: _)) = _
  rw [findSlash_skip (fun h => hx 47 h rfl)]
  rcases List.eq_nil_or_concat cs with rfl | ⟨ds, d, rfl⟩
  · rfl
  · rw [List.concat_eq_append]
    have h2 := hc d (by simp)
    obtain ⟨y, q, hq⟩ : ∃ y q, d.reverse = y :: q := by
      cases h : d.reverse with
      | nil => simp at h; exact absurd h h2.1
      | cons x r => exact ⟨x, r, rfl⟩
    have hy : y ≠ 47 := by
      intro e
      apply h2.2
      apply List.mem_reverse.1
      rw [hq, e]; simp
    have e1 : ((ds ++ [d]).flatMap fun c => 47 :: c) = (ds.flatMap fun c => 47 :: c) ++ 47 :: d := by simp
    rw [render_snoc, e1, List.reverse_append, List.reverse_cons, hq]
    show (stripSlash (y :: (q ++ [47] ++ _))).reverse = _
    rw [stripSlash_id hy]
    show ((y :: q) ++ [47] ++ (ds.flatMap fun c => 47 :: c).reverse).reverse = _
    rw [← hq]
    simp

theorem dirname_root : dirname [47] = [47] := by decide

theorem render_inj {a b : List Bytes} (ha : Comps a) (hb : Comps b) (h : render a = render b) : a = b := by
  -- by the length: compare last components through `dirname` and what it cuts
  induction hn : a.length generalizing a b with
  | zero =>
    have : a = [] := List.length_eq_zero_iff.1 hn
    subst this
    rcases List.eq_nil_or_concat b with rfl | ⟨ds, d, rfl⟩
    · rfl
    · rw [List.concat_eq_append] at h hb
      rw [render_snoc] at h
      have := congrArg List.length h
      have hd := (hb d (by simp)).1
      have : 0 < d.length := List.length_pos_iff.2 hd
      simp [render] at *
      omega
  | succ n ih =>
    rcases List.eq_nil_or_concat a with rfl | ⟨as, x, rfl⟩
    · simp at hn
    rcases List.eq_nil_or_concat b with rfl | ⟨bs, y, rfl⟩
    · rw [List.concat_eq_append] at h ha
      rw [render_snoc] at h
      have := congrArg List.length h
      have hd := (ha x (by simp)).1
      have : 0 < x.length := List.length_pos_iff.2 hd
      simp [render] at *
      omega
    simp only [List.concat_eq_append] at *
    have hd : render as = render bs := by
      rw [← dirname_render ha, h, dirname_render hb]
    have e := ih (a := as) (b := bs) (fun c hc => ha c (by simp [hc])) (fun c hc => hb c (by simp [hc])) hd
      (by simp at hn; exact hn)
    subst e
    rw [render_snoc, render_snoc] at h
    have := List.append_cancel_left h
    injection this with _ h
    rw [h]

/-! ### The walk -/

theorem badStat_iff (uid : Nat) (st : Stat) : badStat uid st = false ↔ Owned uid st := by
  unfold badStat Owned
  have key : st.mode &&& 0o22 = 0 ↔ st.mode.testBit 4 = false ∧ st.mode.testBit 1 = false := by
    constructor
    · intro h
      have h4 := congrArg (fun n => Nat.testBit n 4) h
      have h1 := congrArg (fun n => Nat.testBit n 1) h
      simp only [Nat.testBit_and, Nat.zero_testBit] at h4 h1
      have a4 : Nat.testBit 0o22 4 = true := by decide
      have a1 : Nat.testBit 0o22 1 = true := by decide
      rw [a4, Bool.and_true] at h4
      rw [a1, Bool.and_true] at h1
      exact ⟨h4, h1⟩
    · rintro ⟨h4, h1⟩
      apply Nat.eq_of_testBit_eq
      intro i
      rw [Nat.testBit_and, Nat.zero_testBit]
      by_cases i4 : i = 4
      · subst i4; rw [h4]; rfl
      by_cases i1 : i = 1
      · subst i1; rw [h1]; rfl
      have : Nat.testBit 0o22 i = false := by
        by_cases hi : i < 8
        · have : ∀ i < 8, i ≠ 4 → i ≠ 1 → Nat.testBit 0o22 i = false := by decide
          exact this i hi i4 i1
        · apply Nat.testBit_lt_two_pow
          have : 2 ^ 8 ≤ 2 ^ i := Nat.pow_le_pow_right (by omega) (by omega)
          omega
      rw [this, Bool.and_false]
  simp only [decide_eq_false_iff_not, not_or, Decidable.not_not, ne_eq]
  rw [key]
  refine and_congr ?_ Iff.rfl
  omega

/-- One directory is in order. -/
def GoodDir (fs : Fs) (uid : Nat) (d : List Bytes) : Prop := ∃ st, fs.stat (render d) = some st ∧ Owned uid st

theorem render_root {cs : List Bytes} (h : Comps cs) : render cs = [47] ↔ cs = [] := by
  constructor
  · intro e; exact render_inj h (by intro c hc; cases hc) (by rw [e]; rfl)
  · rintro rfl; rfl

theorem render_dot {cs : List Bytes} : render cs ≠ [46] := by
  cases cs <;> simp [render]

theorem walk_iff (fs : Fs) (uid : Nat) (home : Option Bytes) (cs : List Bytes) (hc : Comps cs) (hne : cs ≠ []) (fuel : Nat)
    (hf : cs.length ≤ fuel) :
    walk fs uid home fuel (render cs) = true ↔ ∀ d, OnTheWay home cs d → GoodDir fs uid d := by
  induction fuel generalizing cs with
  | zero => simp at hf; exact absurd hf hne
  | succ fuel ih =>
    rcases List.eq_nil_or_concat cs with rfl | ⟨ds, c, rfl⟩
    · exact absurd rfl hne
    rw [List.concat_eq_append] at *
    have hds : Comps ds := fun x hx => hc x (by simp [hx])
    rw [walk, dirname_render hc]
    have way : ∀ d, (∃ e, e ≠ [] ∧ ds ++ [c] = d ++ e) ↔ d = ds ∨ ∃ e, e ≠ [] ∧ ds = d ++ e := by
      intro d
      constructor
      · rintro ⟨e, he, h⟩
        rcases List.eq_nil_or_concat e with rfl | ⟨e', x, rfl⟩
        · exact absurd rfl he
        rw [List.concat_eq_append, ← List.append_assoc] at h
        have h' := List.append_inj' h rfl
        cases e' with
        | nil => left; simpa using h'.1.symm
        | cons y l => right; exact ⟨y :: l, by simp, h'.1⟩
      · rintro (rfl | ⟨e, he, rfl⟩)
        · exact ⟨[c], by simp, rfl⟩
        · exact ⟨e ++ [c], by simp, by simp⟩
    have own : ∀ p : Prop, (p → GoodDir fs uid ds) → p → GoodDir fs uid ds := fun _ h => h
    cases hs : fs.stat (render ds) with
    | none =>
      simp only [Bool.false_eq_true, false_iff]
      intro h
      have : GoodDir fs uid ds := h ds ⟨(way ds).2 (.inl rfl), fun h hw _ => by
        rcases (way h).1 hw with rfl | ⟨e, _, rfl⟩
        · exact Nat.le_refl _
        · simp⟩
      obtain ⟨st, h1, _⟩ := this
      rw [hs] at h1; cases h1
    | some st =>
      dsimp only
      have first : (∀ d, OnTheWay home (ds ++ [c]) d → GoodDir fs uid d) → Owned uid st := by
        intro h
        have : GoodDir fs uid ds := h ds ⟨(way ds).2 (.inl rfl), fun h hw _ => by
          rcases (way h).1 hw with rfl | ⟨e, _, rfl⟩
          · exact Nat.le_refl _
          · simp⟩
        obtain ⟨st', h1, h2⟩ := this
        rw [hs] at h1
        injection h1 with h1
        rw [h1]; exact h2
      by_cases hb : badStat uid st = true
      · rw [if_pos hb]
        simp only [Bool.false_eq_true, false_iff]
        intro h
        have := (badStat_iff uid st).2 (first h)
        rw [hb] at this; cases this
      rw [if_neg hb]
      have hown : Owned uid st := (badStat_iff uid st).1 (by simpa using hb)
      by_cases hh : home = some (render ds)
      · rw [if_pos hh]
        refine ⟨fun _ d hd => ?_, fun _ => rfl⟩
        obtain ⟨h1, h2⟩ := hd
        have h3 := h2 ds ((way ds).2 (.inl rfl)) hh
        rcases (way d).1 h1 with rfl | ⟨e, he, rfl⟩
        · exact ⟨st, hs, hown⟩
        · have : 0 < e.length := List.length_pos_iff.2 he
          simp at h3; omega
      rw [if_neg hh]
      by_cases hr : render ds = [47] ∨ render ds = [46]
      · rw [if_pos hr]
        have e : ds = [] := (render_root hds).1 (hr.resolve_right render_dot)
        subst e
        refine ⟨fun _ d hd => ?_, fun _ => rfl⟩
        rcases (way d).1 hd.1 with rfl | ⟨e, he, h⟩
        · exact ⟨st, hs, hown⟩
        · simp at h; exact absurd h.2 he
      rw [if_neg hr]
      have hne' : ds ≠ [] := fun e => hr (.inl ((render_root hds).2 e))
      rw [ih ds hds hne' (by simp at hf; omega)]
      constructor
      · intro h d hd
        rcases (way d).1 hd.1 with rfl | hw
        · exact ⟨st, hs, hown⟩
        · refine h d ⟨hw, fun x hx hhx => hd.2 x ((way x).2 (.inr hx)) hhx⟩
      · intro h d hd
        refine h d ⟨(way d).2 (.inr hd.1), fun x hx hhx => ?_⟩
        rcases (way x).1 hx with rfl | hw
        · exact absurd hhx hh
        · exact hd.2 x hw hhx

theorem length_le_render (cs : List Bytes) : cs.length ≤ (render cs).length := by
  cases cs with
  | nil => simp
  | cons c l =>
    have : ∀ l : List Bytes, l.length ≤ (l.flatMap fun c => 47 :: c).length := by
      intro l
      induction l with
      | nil => simp
      | cons c l ih => simp at *; omega
    exact this (c :: l)

/-- **C96 (which files are trusted).**  With StrictModes a file is used exactly if it is a regular file that belongs to root or
the user and is writable for nobody else, and the same holds of every directory on its real path up to the home directory, or
to the root if the home directory is not on the way. -/
theorem C96_trusted (fs : Fs) (name : Bytes) (st : Stat) (home : Option Bytes) (uid : Nat) (cs : List Bytes)
    (hr : fs.realpath name = some (render cs)) (hc : Comps cs) (hne : cs ≠ []) :
    safePath fs name st home uid = true ↔
      st.regular = true ∧ Owned uid st ∧ ∀ d, OnTheWay (home.bind fs.realpath) cs d → GoodDir fs uid d := by
  unfold safePath
  rw [hr]
  dsimp only
  have hw := walk_iff fs uid (home.bind fs.realpath) cs hc hne ((render cs).length + 1)
    (by have := length_le_render cs; omega)
  cases hreg : st.regular
  · simp
  by_cases hb : badStat uid st = true
  · rw [if_neg (by simp), if_pos hb]
    simp only [Bool.false_eq_true, true_and, false_iff]
    rintro ⟨h, _⟩
    have := (badStat_iff uid st).2 h
    rw [hb] at this; cases this
  · rw [if_neg (by simp), if_neg hb, hw]
    have := (badStat_iff uid st).1 (by simpa using hb)
    simp [this]

/-- **C96 (nobody else can change it).**  Anybody but root and the user can write neither to a trusted file nor to the
directories on its real path up to the home directory, whatever groups they are in. -/
theorem C96_nobody (fs : Fs) (name : Bytes) (st : Stat) (home : Option Bytes) (uid : Nat) (cs : List Bytes)
    (hr : fs.realpath name = some (render cs)) (hc : Comps cs) (hne : cs ≠ []) (h : safePath fs name st home uid = true)
    (u : Nat) (hu : u ≠ 0 ∧ u ≠ uid) (groups : List Nat) :
    mayWrite u groups st = false ∧
    ∀ d, OnTheWay (home.bind fs.realpath) cs d → ∃ st', fs.stat (render d) = some st' ∧ mayWrite u groups st' = false := by
  have key : ∀ s : Stat, Owned uid s → mayWrite u groups s = false := by
    rintro s ⟨h1, h4, h2⟩
    unfold mayWrite
    rw [if_neg hu.1, if_neg (by omega), h4, h2]
    simp
  obtain ⟨_, h1, h2⟩ := (C96_trusted fs name st home uid cs hr hc hne).1 h
  refine ⟨key st h1, fun d hd => ?_⟩
  obtain ⟨st', hs, ho⟩ := h2 d hd
  exact ⟨st', hs, key st' ho⟩

/-- **C96 (what is read).**  The lines of a file are used exactly if it can be opened, is a regular file, and, with
StrictModes, is trusted. -/
theorem C96_opened (fs : Fs) (pw : User) (strict : Bool) (file : Bytes) (lines : List Bytes) :
    openFile fs pw strict file = some lines ↔
      ∃ st, fs.openf file = some (st, lines) ∧ st.regular = true ∧
        (strict = true → safePath fs file st (some pw.dir) pw.uid = true) := by
  unfold openFile
  cases ho : fs.openf file with
  | none => simp
  | some x =>
    obtain ⟨st, l⟩ := x
    dsimp only
    cases hreg : st.regular
    · rw [if_pos rfl]
      refine ⟨nofun, ?_⟩
      rintro ⟨st', e, h2, _⟩
      injection e with e
      injection e with e _
      rw [← e, hreg] at h2; cases h2
    · by_cases hs : strict = true ∧ safePath fs file st (some pw.dir) pw.uid = false
      · rw [if_neg (by simp), if_pos hs]
        refine ⟨nofun, ?_⟩
        rintro ⟨st', e, _, h3⟩
        injection e with e
        injection e with e _
        rw [← e, hs.2] at h3; cases h3 hs.1
      · rw [if_neg (by simp), if_neg hs]
        constructor
        · intro e
          injection e with e
          subst e
          refine ⟨st, rfl, hreg, fun h => ?_⟩
          cases hp : safePath fs file st (some pw.dir) pw.uid
          · exact absurd ⟨h, hp⟩ hs
          · rfl
        · rintro ⟨st', e, _, _⟩
          injection e with e
          injection e with _ e
          rw [e]

end Verif.UserKey
