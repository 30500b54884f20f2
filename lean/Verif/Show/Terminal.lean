/-
Theorems about text shown on a terminal (C101).
-/
import Verif.Show.Props

namespace Verif.Show
open Verif

private theorem bytes' (P : UInt8 → Prop) [DecidablePred P] (h : ∀ n < 256, P (UInt8.ofNat n)) : ∀ c, P c := by
  intro c
  have := h c.toNat c.toNat_lt
  simpa using this

theorem vis_esc : ∀ c : UInt8, c ≠ 92 → vis escFlags c 0 = octEsc c := by
  apply bytes'; decide +kernel

/-! ### One piece -/

private structure View where
  out : Bytes
  width : Int
  print : Bool
  ret : Nat

private def view (st : St) : View := ⟨st.out, st.width, st.print, st.ret⟩

private def step (maxsz : Nat) (maxw : Int) (v : View) (p : Bytes × Nat) : View :=
  if v.print = true ∧ v.out.length + p.1.length < maxsz ∧ v.width + p.2 ≤ maxw then
    ⟨v.out ++ p.1, v.width + p.2, true, v.ret + p.1.length⟩
  else ⟨v.out, v.width, false, v.ret + p.1.length⟩

private theorem put_ok (maxsz : Nat) (maxw : Int) (st : St) (p : Bytes × Nat) (extra : Nat) (h : st.out.length < st.sz)
    (hl : 1 ≤ p.1.length ∧ p.1.length ≤ 16) (hx : extra = 0 ∨ (extra = 1 ∧ p.2 = 4)) :
    ∃ st', put maxsz maxw st p.1 p.1.length extra p.2 p.1.length = .ok st' ∧ st'.out.length < st'.sz ∧
      view st' = step maxsz maxw (view st) p := by
  have hw : (if extra = 0 then (p.2 : Int) else 4) = p.2 := by
    rcases hx with rfl | ⟨rfl, h4⟩
    · rfl
    · rw [h4]; rfl
  unfold put
  rw [hw]
  by_cases hc : st.print = true ∧ ¬ ((st.out.length : Int) ≥ (maxsz : Int) - (p.1.length : Int) ∨ st.width > maxw - p.2)
  · have hg : st.out.length + p.1.length + 1 ≤ grow st.sz maxsz st.out.length p.1.length := by
      unfold grow; split <;> omega
    rw [if_pos hc, if_neg (by rcases hx with rfl | ⟨rfl, -⟩ <;> omega)]
    refine ⟨_, rfl, ?_, ?_⟩
    · simp only [List.length_append]; omega
    · unfold step
      rw [if_pos (show (view st).print = true ∧ (view st).out.length + p.1.length < maxsz ∧ (view st).width + p.2 ≤ maxw from
        ⟨hc.1, by show st.out.length + _ < _; omega, by show st.width + _ ≤ _; omega⟩)]
      rfl
  · rw [if_neg hc]
    refine ⟨_, rfl, h, ?_⟩
    unfold step
    rw [if_neg (show ¬ ((view st).print = true ∧ (view st).out.length + p.1.length < maxsz ∧ (view st).width + p.2 ≤ maxw) from ?_)]
    · rfl
    · intro ⟨a, b, c⟩
      have a' : st.print = true := a
      have b' : st.out.length + p.1.length < maxsz := b
      have c' : st.width + p.2 ≤ maxw := c
      exact hc ⟨a', by omega⟩

private theorem escape_ok (maxsz : Nat) (maxw : Int) (l : Bytes) (hl : ∀ c ∈ l, c ≠ 92) : ∀ st : St, st.out.length < st.sz →
    ∃ st', escape maxsz maxw l st = .ok st' ∧ st'.out.length < st'.sz ∧
      view st' = (l.map (fun c => (octEsc c, 4))).foldl (step maxsz maxw) (view st) := by
  induction l with
  | nil => intro st h; exact ⟨st, rfl, h, rfl⟩
  | cons c l ih =>
    intro st h
    have h4 : (octEsc c).length = 4 := rfl
    obtain ⟨st1, e1, e2, e3⟩ := put_ok maxsz maxw st (octEsc c, 4) 1 h (by rw [h4]; omega) (Or.inr ⟨rfl, rfl⟩)
    obtain ⟨st2, g1, g2, g3⟩ := ih (fun d hd => hl d (List.mem_cons_of_mem _ hd)) st1 e2
    refine ⟨st2, ?_, g2, ?_⟩
    · rw [escape, vis_esc c (hl c List.mem_cons_self)]
      have e1' : put maxsz maxw st (octEsc c) 4 1 ((octEsc c).length : Int) 4 = .ok st1 := e1
      simp only [e1']
      exact g1
    · rw [g3, e3]; rfl

/-! ### Characters -/

theorem fine_unique {L : Locale} {limited : Bool} {wc w w' : Nat} (h : Fine L limited wc w) (h' : Fine L limited wc w') : w = w' := by
  unfold Fine at h h'
  split at h
  · rename_i hc; rw [if_pos hc] at h'; omega
  · rename_i hc; rw [if_neg hc, h] at h'; exact Option.some.inj h'

theorem fine_or_bad (L : Locale) (limited : Bool) (wc : Nat) : (∃ w, Fine L limited wc w) ∨ Bad L limited wc := by
  by_cases h : ∃ w, Fine L limited wc w
  · exact Or.inl h
  · exact Or.inr fun w hw => h ⟨w, hw⟩

/-- The bytes to be escaped never include the backslash. -/
private theorem bad_bytes {L : Locale} (hL : Sane L) {limited : Bool} {src : Bytes} {n wc : Nat} (hs : src ≠ [])
    (hd : L.decode src = some (n, wc)) (hb : Bad L limited wc) : ∀ c ∈ src.take n, c ≠ 92 := by
  intro c hc
  by_cases hn : n = 1
  · subst hn
    cases src with
    | nil => exact absurd rfl hs
    | cons d l =>
      have : c = d := by simpa using hc
      subst this
      rintro rfl
      rw [hL.ascii 92 l (by decide)] at hd
      cases hd
      apply hb 1
      unfold Fine
      rw [if_neg (by intro h; exact absurd h.2 (by decide))]
      exact hL.seen 92 (by decide) (by decide)
  · have := hL.high src n wc hd hn c hc
    rintro rfl
    exact absurd this (by decide)

private theorem junk_byte {L : Locale} (hL : Sane L) {c : UInt8} {src : Bytes} (hd : L.decode (c :: src) = none) : c ≠ 92 := by
  rintro rfl
  rw [hL.ascii 92 src (by decide)] at hd
  cases hd

/-- How a character is classified. -/
private theorem classify_cases {L : Locale} (hL : Sane L) (wp : Bool) (src : Bytes) (hs : src ≠ []) :
    (classify L wp src = none ∧ L.dangerous = true ∧
      (L.decode src = none ∨ ∃ n wc, L.decode src = some (n, wc) ∧ Bad L wp wc)) ∨
    (∃ n wc w, classify L wp src = some (n, some w) ∧ L.decode src = some (n, wc) ∧ Fine L wp wc w) ∨
    (∃ n wc, classify L wp src = some (n, none) ∧ L.decode src = some (n, wc) ∧ Bad L wp wc ∧ L.dangerous = false) ∨
    (classify L wp src = some (1, none) ∧ L.decode src = none ∧ L.dangerous = false) := by
  unfold classify
  cases hd : L.decode src with
  | none =>
    cases hg : L.dangerous
    · right; right; right; simp
    · left; simp
  | some r =>
    obtain ⟨n, wc⟩ := r
    by_cases h1 : wp = false ∧ (wc = 10 ∨ wc = 13 ∨ wc = 9)
    · right; left
      refine ⟨n, wc, 0, ?_, rfl, ?_⟩
      · simp only [h1, if_true, and_self]
      · unfold Fine; rw [if_pos h1]
    · cases hw : L.width wc with
      | some w =>
        right; left
        refine ⟨n, wc, w, ?_, rfl, ?_⟩
        · simp [h1, hw]
        · unfold Fine; rw [if_neg h1]; exact hw
      | none =>
        have hbad : Bad L wp wc := by
          intro w hf
          unfold Fine at hf
          rw [if_neg h1, hw] at hf
          cases hf
        cases hg : L.dangerous
        · right; right; left
          exact ⟨n, wc, by simp [h1, hw], rfl, hbad, rfl⟩
        · left
          exact ⟨by simp [h1, hw], rfl, Or.inr ⟨n, wc, rfl, hbad⟩⟩

/-- A text in which there is something that cannot be shown. -/
inductive HasBad (L : Locale) (limited : Bool) : Bytes → Prop
  | here (src : Bytes) (n wc : Nat) : src ≠ [] → L.decode src = some (n, wc) → Bad L limited wc → HasBad L limited src
  | junk (src : Bytes) : src ≠ [] → L.decode src = none → HasBad L limited src
  | later (src : Bytes) (n wc : Nat) : src ≠ [] → L.decode src = some (n, wc) → HasBad L limited (src.drop n) → HasBad L limited src

private theorem loop_ok {L : Locale} (hL : Sane L) (wp : Bool) (maxsz : Nat) (maxw : Int) (fuel : Nat) : ∀ src (st : St),
    src.length ≤ fuel → st.out.length < st.sz →
    (loop L wp maxsz maxw fuel src st = .stop ∧ L.dangerous = true ∧ HasBad L wp src) ∨
    (∃ st' ps, loop L wp maxsz maxw fuel src st = .ok st' ∧ st'.out.length < st'.sz ∧ Reading L wp src ps ∧
      view st' = ps.foldl (step maxsz maxw) (view st) ∧ (L.dangerous = true → ¬ HasBad L wp src)) := by
  induction fuel with
  | zero =>
    intro src st hf h
    have : src = [] := by simpa using hf
    subst this
    right
    refine ⟨st, [], rfl, h, .nil, rfl, fun _ hb => ?_⟩
    cases hb <;> contradiction
  | succ fuel ih =>
    intro src st hf h
    by_cases hs : src = []
    · subst hs
      right
      refine ⟨st, [], by rw [loop, if_pos rfl], h, .nil, rfl, fun _ hb => ?_⟩
      cases hb <;> contradiction
    · rw [loop, if_neg hs]
      rcases classify_cases hL wp src hs with ⟨hc, hg, hb⟩ | ⟨n, wc, w, hc, hd, hfine⟩ | ⟨n, wc, hc, hd, hbad, hg⟩ | ⟨hc, hd, hg⟩
      · left
        rw [hc]
        refine ⟨rfl, hg, ?_⟩
        rcases hb with hb | ⟨n, wc, hd, hb⟩
        · exact .junk src hs hb
        · exact .here src n wc hs hd hb
      · obtain ⟨n1, n2, n3⟩ := hL.len src n wc hs hd
        have htl : (src.take n).length = n := by simp; omega
        obtain ⟨st1, e1, e2, e3⟩ := put_ok maxsz maxw st (src.take n, w) 0 h (by rw [htl]; omega) (Or.inl rfl)
        have e1' : put maxsz maxw st (src.take n) n 0 (w : Int) n = .ok st1 := by
          have := e1
          simp only [htl] at this
          exact this
        rw [hc]
        simp only [e1']
        have hnb : HasBad L wp src → HasBad L wp (src.drop n) := by
          intro hb
          cases hb with
          | here _ n' wc' _ hd' hb' =>
            rw [hd] at hd'; cases hd'
            exact absurd hfine (hb' w)
          | junk _ _ hd' => rw [hd] at hd'; cases hd'
          | later _ n' wc' _ hd' hb' => rw [hd] at hd'; cases hd'; exact hb'
        rcases ih (src.drop n) st1 (by rw [List.length_drop]; omega) e2 with ⟨g1, g2, g3⟩ | ⟨st', ps, g1, g2, g3, g4, g5⟩
        · exact Or.inl ⟨g1, g2, .later src n wc hs hd g3⟩
        · refine Or.inr ⟨st', _, g1, g2, .char src n wc w ps hs hd hfine g3, ?_, fun a b => g5 a (hnb b)⟩
          rw [g4, e3]; rfl
      · obtain ⟨n1, n2, n3⟩ := hL.len src n wc hs hd
        obtain ⟨st1, e1, e2, e3⟩ := escape_ok maxsz maxw (src.take n) (bad_bytes hL hs hd hbad) st h
        rw [hc]
        simp only [e1]
        rcases ih (src.drop n) st1 (by rw [List.length_drop]; omega) e2 with ⟨g1, g2, g3⟩ | ⟨st', ps, g1, g2, g3, g4, g5⟩
        · rw [hg] at g2; cases g2
        · refine Or.inr ⟨st', _, g1, g2, .bad src n wc ps hs hd hbad g3, ?_, fun a => by rw [hg] at a; cases a⟩
          rw [g4, e3, List.foldl_append]
      · cases src with
        | nil => exact absurd rfl hs
        | cons c l =>
          obtain ⟨st1, e1, e2, e3⟩ := escape_ok maxsz maxw ((c :: l).take 1)
            (by intro d hd'; have : d = c := by simpa using hd'
                rw [this]; exact junk_byte hL hd) st h
          rw [hc]
          simp only [e1]
          rcases ih l st1 (by simp only [List.length_cons] at hf; omega) e2 with ⟨g1, g2, g3⟩ | ⟨st', ps, g1, g2, g3, g4, g5⟩
          · rw [hg] at g2; cases g2
          · refine Or.inr ⟨st', _, g1, g2, .junk c l ps hd g3, ?_, fun a => by rw [hg] at a; cases a⟩
            rw [g4, e3]; rfl

/-! ### All the pieces -/

private theorem fold_stopped (maxsz : Nat) (maxw : Int) (ps : List (Bytes × Nat)) : ∀ v : View, v.print = false →
    ps.foldl (step maxsz maxw) v = ⟨v.out, v.width, false, v.ret + (texts ps).length⟩ := by
  induction ps with
  | nil => intro v h; cases v; simp at h; subst h; rfl
  | cons p ps ih =>
    intro v h
    have : step maxsz maxw v p = ⟨v.out, v.width, false, v.ret + p.1.length⟩ := by unfold step; rw [if_neg (by simp [h])]
    rw [List.foldl_cons, this, ih _ rfl]
    simp [texts, Nat.add_assoc]

private theorem fold_going (maxsz : Nat) (maxw : Int) (ps : List (Bytes × Nat)) : ∀ v : View, v.print = true →
    ∃ a b, ps = a ++ b ∧ (ps.foldl (step maxsz maxw) v).out = v.out ++ texts a ∧
      (ps.foldl (step maxsz maxw) v).width = v.width + columns a ∧
      (ps.foldl (step maxsz maxw) v).ret = v.ret + (texts ps).length ∧
      ((ps.foldl (step maxsz maxw) v).print = true ↔ b = []) ∧
      (a ≠ [] → (ps.foldl (step maxsz maxw) v).out.length < maxsz ∧ (ps.foldl (step maxsz maxw) v).width ≤ maxw) ∧
      (∀ p b', b = p :: b' → maxsz ≤ (ps.foldl (step maxsz maxw) v).out.length + p.1.length ∨
        maxw < (ps.foldl (step maxsz maxw) v).width + p.2) := by
  induction ps with
  | nil => intro v h; exact ⟨[], [], rfl, by simp [texts], by simp [columns], by simp [texts], by simp [h], by simp, by simp⟩
  | cons p ps ih =>
    intro v h
    rw [List.foldl_cons]
    by_cases hc : v.print = true ∧ v.out.length + p.1.length < maxsz ∧ v.width + p.2 ≤ maxw
    · have hs : step maxsz maxw v p = ⟨v.out ++ p.1, v.width + p.2, true, v.ret + p.1.length⟩ := by unfold step; rw [if_pos hc]
      obtain ⟨a, b, e1, e2, e3, e4, e5, e6, e7⟩ := ih (step maxsz maxw v p) (by rw [hs])
      refine ⟨p :: a, b, by rw [e1]; rfl, ?_, ?_, ?_, e5, ?_, e7⟩
      · rw [e2, hs]; simp [texts]
      · rw [e3, hs]; simp [columns]; omega
      · rw [e4, hs]; simp [texts]; omega
      · intro _
        by_cases ha : a = []
        · subst ha
          rw [e2, e3, hs]
          simp only [texts, columns, List.map_nil, List.flatten_nil, List.append_nil, List.length_append, List.sum_nil]
          exact ⟨hc.2.1, by have := hc.2.2; omega⟩
        · exact e6 ha
    · have hs : step maxsz maxw v p = ⟨v.out, v.width, false, v.ret + p.1.length⟩ := by unfold step; rw [if_neg hc]
      rw [fold_stopped _ _ _ _ (by rw [hs]), hs]
      refine ⟨[], p :: ps, rfl, by simp [texts], by simp [columns], by simp [texts]; omega, by simp, by simp, ?_⟩
      intro q b' hq
      cases hq
      show maxsz ≤ v.out.length + _ ∨ maxw < v.width + _
      have : ¬ (v.out.length + p.1.length < maxsz ∧ v.width + p.2 ≤ maxw) := fun hh => hc ⟨h, hh⟩
      omega

theorem reading_unique {L : Locale} {limited : Bool} {src : Bytes} {ps qs : List (Bytes × Nat)}
    (h : Reading L limited src ps) (h' : Reading L limited src qs) : ps = qs := by
  induction h generalizing qs with
  | nil => cases h' <;> first | rfl | contradiction
  | char src n wc w ps hs hd hf _ ih =>
    cases h' with
    | nil => contradiction
    | char _ n' wc' w' ps' _ hd' hf' hr =>
      rw [hd] at hd'; cases hd'
      rw [ih hr, fine_unique hf hf']
    | bad _ n' wc' ps' _ hd' hb _ => rw [hd] at hd'; cases hd'; exact absurd hf (hb w)
    | junk c src ps' hd' _ => rw [hd] at hd'; cases hd'
  | bad src n wc ps hs hd hb _ ih =>
    cases h' with
    | nil => contradiction
    | char _ n' wc' w' ps' _ hd' hf' hr => rw [hd] at hd'; cases hd'; exact absurd hf' (hb w')
    | bad _ n' wc' ps' _ hd' hb' hr => rw [hd] at hd'; cases hd'; rw [ih hr]
    | junk c src ps' hd' _ => rw [hd] at hd'; cases hd'
  | junk c src ps hd _ ih =>
    cases h' with
    | char _ n' wc' w' ps' _ hd' hf' hr => rw [hd] at hd'; cases hd'
    | bad _ n' wc' ps' _ hd' hb' hr => rw [hd] at hd'; cases hd'
    | junk _ _ ps' _ hr => rw [ih hr]

/-! ### The theorems -/

/-- What the caller is given for a text that reads as `ps`: as many of its pieces as fit, in order. -/
structure Shown (ps : List (Bytes × Nat)) (maxsz : Nat) (wp : Option Int) (o : Out) : Prop where
  cut : ∃ a b, ps = a ++ b ∧ o.text = texts a ∧ o.width = columns a ∧ o.text.length < max maxsz 1 ∧
    (∀ n, wp = some n → o.width ≤ max n 0) ∧
    (∀ p b', b = p :: b' → maxsz ≤ o.text.length + p.1.length ∨ wp.getD 2147483647 < o.width + p.2) ∧
    /- a result below the size of the buffer means that all has been shown -/
    (∀ r, o.ret = some r → r = (texts ps).length ∧ (r < maxsz → b = [])) ∧
    (b = [] → o.ret = some (texts ps).length)

/-- **C101.** Showing a text never writes outside the memory allocated.  It fails, if the locale is one in which nothing
unprintable can be escaped safely and the text has such a thing; else the text is read character by character, and what is given
out are the pieces of the reading, in order, as many as fit the two limits. -/
theorem C101_shown {L : Locale} (hL : Sane L) (maxsz : Nat) (hm : maxsz ≤ 2147483647) (wp : Option Int) (src : Bytes) :
    (L.dangerous = true ∧ HasBad L wp.isSome src ∧ show_ L maxsz wp src = .stop) ∨
    (¬ (L.dangerous = true ∧ HasBad L wp.isSome src) ∧
      ∃ o ps, show_ L maxsz wp src = .ok o ∧ Reading L wp.isSome src ps ∧ Shown ps maxsz wp o) := by
  unfold show_
  by_cases hs : src = []
  · subst hs
    right
    refine ⟨fun h => by cases h.2 <;> contradiction, ⟨[], some 0, 0⟩, [], by rw [if_pos rfl], .nil, ⟨[], [], rfl, rfl, rfl, ?_⟩⟩
    refine ⟨by simp; omega, fun n _ => by simp; omega, by simp, ?_, fun _ => rfl⟩
    intro r hr
    cases hr
    exact ⟨rfl, fun _ => rfl⟩
  · rw [if_neg hs, Nat.min_eq_left hm]
    rcases loop_ok hL wp.isSome maxsz (wp.getD 2147483647) src.length src ⟨[], src.length + 1, 0, true, 0⟩ (Nat.le_refl _)
      (by simp) with ⟨g1, g2, g3⟩ | ⟨st', ps, g1, g2, g3, g4, g5⟩
    · left; rw [g1]; exact ⟨g2, g3, rfl⟩
    · right
      refine ⟨fun h => g5 h.1 h.2, ?_⟩
      rw [g1]
      simp only [ge_iff_le]
      rw [if_neg (by omega)]
      refine ⟨_, ps, rfl, g3, ?_⟩
      obtain ⟨a, b, e1, e2, e3, e4, e5, e6, e7⟩ :=
        fold_going maxsz (wp.getD 2147483647) ps (view ⟨[], src.length + 1, 0, true, 0⟩) rfl
      rw [← g4] at e2 e3 e4 e5 e6 e7
      have e2' : st'.out = texts a := by simpa [view] using e2
      have e3' : st'.width = columns a := by simpa [view] using e3
      have e4' : st'.ret = (texts ps).length := by simpa [view] using e4
      have e5' : st'.print = true ↔ b = [] := e5
      have e6' : a ≠ [] → st'.out.length < maxsz ∧ st'.width ≤ wp.getD 2147483647 := e6
      have e7' : ∀ p b', b = p :: b' → maxsz ≤ st'.out.length + p.1.length ∨ wp.getD 2147483647 < st'.width + p.2 := e7
      refine ⟨⟨a, b, e1, e2', e3', ?_, ?_, e7', ?_, ?_⟩⟩
      · show st'.out.length < _
        by_cases ha : a = []
        · rw [e2', ha]; simp [texts]; omega
        · have := e6' ha; omega
      · intro n hn
        show st'.width ≤ _
        by_cases ha : a = []
        · rw [e3', ha]; simp [columns]; omega
        · have := (e6' ha).2; rw [hn] at this; simp at this; omega
      · intro r hr
        split at hr
        · cases hr
        · rename_i hno
          cases hr
          refine ⟨e4', fun hlt => e5'.1 ?_⟩
          cases hp : st'.print
          · exact absurd ⟨hlt, hp⟩ hno
          · rfl
      · intro hb
        show (if _ then _ else _) = _
        rw [if_neg (by rw [e5'.2 hb]; simp), e4']

/-- A text of visible ASCII characters is clean in any locale that is sane. -/
private theorem clean_front {L : Locale} (hL : Sane L) (limited : Bool) {src : Bytes} {n wc w : Nat} (rest : Bytes) (hs : src ≠ [])
    (hd : L.decode src = some (n, wc)) (hf : Fine L limited wc w) (hr : Clean L limited rest) :
    Clean L limited (src.take n ++ rest) := by
  obtain ⟨n1, n2, -⟩ := hL.len src n wc hs hd
  have htl : (src.take n).length = n := by simp; omega
  refine .char _ n wc w ?_ (hL.front src n wc rest hd) hf ?_
  · intro he
    have : (src.take n ++ rest).length = 0 := by rw [he]; rfl
    simp only [List.length_append, htl] at this
    omega
  · rw [List.drop_append_of_le_length (by omega), List.drop_of_length_le (by omega)]; exact hr

private theorem clean_ascii {L : Locale} (hL : Sane L) (limited : Bool) (l rest : Bytes) (h : ∀ c ∈ l, 32 ≤ c ∧ c < 127)
    (hr : Clean L limited rest) : Clean L limited (l ++ rest) := by
  induction l with
  | nil => exact hr
  | cons c l ih =>
    obtain ⟨h1, h2⟩ := h c List.mem_cons_self
    have h1' : 32 ≤ c.toNat := UInt8.le_iff_toNat_le.1 h1
    have h2' : c.toNat < 127 := UInt8.lt_iff_toNat_lt.1 h2
    refine .char _ 1 c.toNat 1 (by simp) (hL.ascii c _ (UInt8.lt_iff_toNat_lt.2 (by simp; omega))) ?_
      (ih fun d hd => h d (List.mem_cons_of_mem _ hd))
    unfold Fine
    rw [if_neg (by omega)]
    exact hL.seen _ h1' h2'

private theorem octEsc_bytes : ∀ c : UInt8, ∀ d ∈ octEsc c, 32 ≤ d ∧ d < 127 := by
  apply bytes'; decide +kernel

private theorem reading_clean {L : Locale} (hL : Sane L) {limited : Bool} {src : Bytes} {ps : List (Bytes × Nat)}
    (h : Reading L limited src ps) : ∀ a b, ps = a ++ b → Clean L limited (texts a) := by
  have esc : ∀ (l : Bytes) rest, Clean L limited rest → Clean L limited (texts (l.map (fun c => (octEsc c, 4))) ++ rest) := by
    intro l rest hr
    apply clean_ascii hL limited _ _ ?_ hr
    intro d hd
    simp only [texts, List.map_map, List.mem_flatten, List.mem_map] at hd
    obtain ⟨p, ⟨c, -, rfl⟩, hd⟩ := hd
    exact octEsc_bytes c d hd
  induction h with
  | nil =>
    intro a b he
    have : a = [] := by cases a with | nil => rfl | cons => simp at he
    subst this; exact .nil
  | char src n wc w ps hs hd hf _ ih =>
    intro a b he
    cases a with
    | nil => exact .nil
    | cons p a =>
      simp only [List.cons_append, List.cons.injEq] at he
      have := clean_front hL limited (texts a) hs hd hf (ih a b he.2)
      rw [← he.1]
      simpa [texts] using this
  | bad src n wc ps hs hd hb _ ih =>
    intro a b he
    rcases List.append_eq_append_iff.1 he with ⟨a', h1, h2⟩ | ⟨c', h1, h2⟩
    · subst h1
      have := esc (src.take n) _ (ih a' b h2)
      simpa [texts] using this
    · have hm : a = ((src.take n).take a.length).map (fun c => (octEsc c, 4)) := by
        have := congrArg (List.take a.length) h1
        rw [List.take_left, ← List.map_take] at this
        exact this.symm
      have := esc ((src.take n).take a.length) [] .nil
      rw [← hm] at this
      simpa using this
  | junk c src ps hd _ ih =>
    intro a b he
    cases a with
    | nil => exact .nil
    | cons p a =>
      simp only [List.cons_append, List.cons.injEq] at he
      have := esc [c] _ (ih a b he.2)
      rw [← he.1]
      simpa [texts] using this

/-- **C101.** Whatever the text, wherever it is cut: the characters of what is given out, as decoded from it, may all go to the
terminal as they are. -/
theorem C101_clean {L : Locale} (hL : Sane L) (maxsz : Nat) (hm : maxsz ≤ 2147483647) (wp : Option Int) (src : Bytes) (o : Out)
    (h : show_ L maxsz wp src = .ok o) : Clean L wp.isSome o.text := by
  rcases C101_shown hL maxsz hm wp src with ⟨-, -, hs⟩ | ⟨-, o', ps, hs, hr, ⟨a, b, e1, e2, -⟩⟩
  · rw [hs] at h; cases h
  · rw [hs] at h; cases h
    rw [e2]
    exact reading_clean hL hr a b e1

private theorem clean_bytes {L : Locale} (hL : Sane L) {limited : Bool} {t : Bytes} (h : Clean L limited t) :
    ∀ c ∈ t, (32 ≤ c ∧ c ≠ 127) ∨ (limited = false ∧ (c = 10 ∨ c = 13 ∨ c = 9)) := by
  induction h with
  | nil => intro c hc; cases hc
  | char src n wc w hs hd hf _ ih =>
    intro c hc
    rw [← List.take_append_drop n src, List.mem_append] at hc
    rcases hc with hc | hc
    · by_cases hn : n = 1
      · subst hn
        cases src with
        | nil => exact absurd rfl hs
        | cons d l =>
          have : c = d := by simpa using hc
          subst this
          by_cases h128 : c < 128
          · rw [hL.ascii c l h128] at hd
            cases hd
            unfold Fine at hf
            split at hf
            · rename_i h10
              right
              refine ⟨h10.1, ?_⟩
              rcases h10.2 with h | h | h
              · left; exact UInt8.toNat_inj.1 h
              · right; left; exact UInt8.toNat_inj.1 h
              · right; right; exact UInt8.toNat_inj.1 h
            · left
              by_cases hk : c.toNat < 32 ∨ c.toNat = 127
              · rw [hL.ctrl _ hk] at hf; cases hf
              · constructor
                · rw [UInt8.le_iff_toNat_le]; show 32 ≤ _; omega
                · intro he; apply hk; right; rw [he]; rfl
          · left
            have : 128 ≤ c.toNat := by
              have := mt UInt8.lt_iff_toNat_lt.2 h128
              simpa using this
            constructor
            · rw [UInt8.le_iff_toNat_le]; show 32 ≤ _; omega
            · intro he; rw [he] at this; exact absurd this (by decide)
      · left
        have := UInt8.le_iff_toNat_le.1 (hL.high src n wc hd hn c hc)
        have h' : 128 ≤ c.toNat := this
        constructor
        · rw [UInt8.le_iff_toNat_le]; show 32 ≤ _; omega
        · intro he; rw [he] at h'; exact absurd h' (by decide)
    · exact ih c hc

/-- **C101.** In particular no control character is given out: only newline, carriage return and tab, and those only where no
limit of the width is given. -/
theorem C101_controls {L : Locale} (hL : Sane L) (maxsz : Nat) (hm : maxsz ≤ 2147483647) (wp : Option Int) (src : Bytes) (o : Out)
    (h : show_ L maxsz wp src = .ok o) :
    ∀ c ∈ o.text, (32 ≤ c ∧ c ≠ 127) ∨ (wp = none ∧ (c = 10 ∨ c = 13 ∨ c = 9)) := by
  intro c hc
  rcases clean_bytes hL (C101_clean hL maxsz hm wp src o h) c hc with h1 | ⟨h1, h2⟩
  · exact Or.inl h1
  · right
    refine ⟨?_, h2⟩
    cases wp with
    | none => rfl
    | some _ => cases h1

/-- **C101.** What the programs print with `mprintf` and `fmprintf`: nothing if the text cannot be shown safely, else all of its
pieces, provided they are shorter than the largest `int`. -/
theorem C101_printed {L : Locale} (hL : Sane L) (src : Bytes) :
    (L.dangerous = true ∧ HasBad L false src ∧ printed L src = .ok []) ∨
    (¬ (L.dangerous = true ∧ HasBad L false src) ∧
      ∃ ps, Reading L false src ps ∧ ((texts ps).length < 2147483647 → (columns ps : Int) ≤ 2147483647 →
        printed L src = .ok (texts ps))) := by
  unfold printed
  rcases C101_shown hL 2147483647 (Nat.le_refl _) none src with ⟨h1, h2, hs⟩ | ⟨hn, o, ps, hs, hr, ⟨a, b, e1, e2, e3, e4, e5, e6, e7, e8⟩⟩
  · left; rw [hs]; exact ⟨h1, h2, rfl⟩
  · right
    refine ⟨hn, ps, hr, fun hl hc => ?_⟩
    have hb : b = [] := by
      cases hb : b with
      | nil => rfl
      | cons p b' =>
        exfalso
        have ht : (texts ps).length = (texts a).length + (p.1.length + (texts b').length) := by rw [e1, hb]; simp [texts]
        have hcl : columns ps = columns a + (p.2 + columns b') := by rw [e1, hb]; simp [columns]
        rcases e6 p b' hb with h | h
        · rw [e2] at h; omega
        · rw [e3] at h; simp only [Option.getD_none] at h; omega
    rw [hs]
    simp only [e8 hb]
    rw [if_neg (by simp), e2, e1, hb, List.append_nil]

end Verif.Show
