import Verif.Scp.Confine

namespace Verif.Scp
open Verif

/-! A specification of braces: text is a sequence of characters and groups; inside a group commas separate alternatives. -/

inductive T where
  | nil
  | chr (c : UInt8) (r : T)
  | grp (body r : T)
  deriving Repr, DecidableEq

/-- How it is written. -/
def T.print : T → Bytes
  | .nil => []
  | .chr c r => c :: r.print
  | .grp b r => 123 :: (b.print ++ 125 :: r.print)

/-- All words of `xs` followed by words of `ys`. -/
def prod (xs ys : List Bytes) : List Bytes := xs.flatMap fun x => ys.map (x ++ ·)

/-- Inside a group: the words of the first alternative and the words of the others. -/
def T.alts : T → List Bytes × List Bytes
  | .nil => ([[]], [])
  | .chr c r => if c = 44 then ([[]], r.alts.1 ++ r.alts.2) else (r.alts.1.map (c :: ·), r.alts.2)
  | .grp b r => (prod (b.alts.1 ++ b.alts.2) r.alts.1, r.alts.2)

/-- The words a text stands for. -/
def T.words : T → List Bytes
  | .nil => [[]]
  | .chr c r => r.words.map (c :: ·)
  | .grp b r => prod (b.alts.1 ++ b.alts.2) r.words

/-- Not one of `\ [ ] { }`. -/
def plain (c : UInt8) : Bool := c ≠ 92 && c ≠ 91 && c ≠ 93 && c ≠ 123 && c ≠ 125

/-- Plain characters only, and no group ends with an empty alternative. -/
def T.WF : T → Prop
  | .nil => True
  | .chr c r => plain c = true ∧ r.WF
  | .grp b r => b.WF ∧ b ≠ .nil ∧ b.print.getLast? ≠ some 44 ∧ r.WF

/-- `n` is the part of `w` after its last slash. -/
def LastPart (w n : Bytes) : Prop := (47 : UInt8) ∉ n ∧ (w = n ∨ ∃ d, w = d ++ 47 :: n)

/-! ### Lemmas -/

def T.cat : T → T → T
  | .nil, b => b
  | .chr c r, b => .chr c (r.cat b)
  | .grp g r, b => .grp g (r.cat b)

theorem print_cat (a b : T) : (a.cat b).print = a.print ++ b.print := by
  induction a with
  | nil => rfl
  | chr c r ih => simp [T.cat, T.print, ih]
  | grp g r _ ih => simp [T.cat, T.print, ih]

theorem prod_nil_left (ys : List Bytes) : prod [[]] ys = ys := by simp [prod]

theorem mem_prod {xs ys : List Bytes} {w : Bytes} : w ∈ prod xs ys ↔ ∃ x ∈ xs, ∃ y ∈ ys, w = x ++ y := by
  simp only [prod, List.mem_flatMap, List.mem_map]
  constructor
  · rintro ⟨x, hx, y, hy, rfl⟩; exact ⟨x, hx, y, hy, rfl⟩
  · rintro ⟨x, hx, y, hy, rfl⟩; exact ⟨x, hx, y, hy, rfl⟩

theorem mem_words_cat {a b : T} : ∀ {w : Bytes}, w ∈ (a.cat b).words ↔ ∃ x ∈ a.words, ∃ y ∈ b.words, w = x ++ y := by
  induction a with
  | nil => intro w; simp [T.cat, T.words]
  | chr c r ih =>
    intro w
    simp only [T.cat, T.words, List.mem_map]
    constructor
    · rintro ⟨v, hv, rfl⟩
      obtain ⟨x, hx, y, hy, rfl⟩ := ih.1 hv
      exact ⟨c :: x, ⟨x, hx, rfl⟩, y, hy, rfl⟩
    · rintro ⟨_, ⟨x, hx, rfl⟩, y, hy, rfl⟩
      exact ⟨x ++ y, ih.2 ⟨x, hx, y, hy, rfl⟩, rfl⟩
  | grp g r _ ih =>
    intro w
    simp only [T.cat, T.words, mem_prod]
    constructor
    · rintro ⟨x, hx, v, hv, rfl⟩
      obtain ⟨x', hx', y, hy, rfl⟩ := ih.1 hv
      exact ⟨x ++ x', ⟨x, hx, x', hx', rfl⟩, y, hy, by simp⟩
    · rintro ⟨_, ⟨x, hx, x', hx', rfl⟩, y, hy, rfl⟩
      exact ⟨x, hx, x' ++ y, ih.2 ⟨x', hx', y, hy, rfl⟩, by simp⟩

theorem wf_cat {a b : T} (ha : a.WF) (hb : b.WF) : (a.cat b).WF := by
  induction a with
  | nil => exact hb
  | chr c r ih => exact ⟨ha.1, ih ha.2⟩
  | grp g r _ ih => exact ⟨ha.1, ha.2.1, ha.2.2.1, ih ha.2.2.2⟩

/-- The alternatives. -/
def T.parts : T → T × List T
  | .nil => (.nil, [])
  | .chr c r => if c = 44 then (.nil, r.parts.1 :: r.parts.2) else (.chr c r.parts.1, r.parts.2)
  | .grp b r => (.grp b r.parts.1, r.parts.2)

theorem parts_words (t : T) : t.parts.1.words = t.alts.1 ∧ (t.parts.2.flatMap T.words) = t.alts.2 := by
  induction t with
  | nil => exact ⟨rfl, rfl⟩
  | chr c r ih =>
    unfold T.parts T.alts
    split
    · simp [T.words, ih.1, ih.2]
    · simp [T.words, ih.1, ih.2]
  | grp b r _ ih => simp [T.parts, T.alts, T.words, ih.1, ih.2]

theorem parts_wf {t : T} (h : t.WF) : ∀ p ∈ t.parts.1 :: t.parts.2, p.WF := by
  induction t with
  | nil => intro p hp; simp [T.parts] at hp; subst hp; trivial
  | chr c r ih =>
    have ih := ih h.2
    unfold T.parts
    split
    · intro p hp
      rcases List.mem_cons.1 hp with rfl | hp
      · trivial
      · exact ih p hp
    · intro p hp
      rcases List.mem_cons.1 hp with rfl | hp
      · exact ⟨h.1, ih _ (List.mem_cons_self ..)⟩
      · exact ih p (List.mem_cons_of_mem _ hp)
  | grp b r _ ih =>
    have ih := ih h.2.2.2
    unfold T.parts
    intro p hp
    rcases List.mem_cons.1 hp with rfl | hp
    · exact ⟨h.1, h.2.1, h.2.2.1, ih _ (List.mem_cons_self ..)⟩
    · exact ih p (List.mem_cons_of_mem _ hp)

theorem parts_short (t : T) : ∀ p ∈ t.parts.1 :: t.parts.2, p.print.length ≤ t.print.length := by
  induction t with
  | nil => intro p hp; simp [T.parts] at hp; subst hp; simp
  | chr c r ih =>
    unfold T.parts
    split
    · intro p hp
      rcases List.mem_cons.1 hp with rfl | hp
      · simp [T.print]
      · have := ih p hp; simp [T.print]; omega
    · intro p hp
      rcases List.mem_cons.1 hp with rfl | hp
      · have := ih _ (List.mem_cons_self ..); simp [T.print]; omega
      · have := ih p (List.mem_cons_of_mem _ hp); simp [T.print]; omega
  | grp b r _ ih =>
    unfold T.parts
    intro p hp
    rcases List.mem_cons.1 hp with rfl | hp
    · have := ih _ (List.mem_cons_self ..); simp [T.print]; omega
    · have := ih p (List.mem_cons_of_mem _ hp); simp [T.print]; omega

/-! `find_brace` -/

theorem find_plain {c : UInt8} (h : plain c = true) (r : Bytes) (br : Bool) (level : Nat) (start : Option Bytes) (acc : Bytes) :
    findBrace (c :: r) br level start acc = findBrace r br level start (c :: acc) := by
  simp only [plain, Bool.and_eq_true, decide_eq_true_eq, ne_eq] at h
  obtain ⟨⟨⟨⟨h1, h2⟩, h3⟩, h4⟩, h5⟩ := h
  rw [findBrace.eq_def]
  split <;> simp_all

theorem find_open {r : Bytes} (h : r.head? ≠ some 125) (level : Nat) (start : Option Bytes) (acc : Bytes) :
    findBrace (123 :: r) false level start acc = match start with
      | none => findBrace r false (level + 1) (some acc) []
      | some st => findBrace r false (level + 1) (some st) (123 :: acc) := by
  rw [findBrace.eq_def]
  split <;> simp_all
  cases start <;> rfl

theorem find_close (r : Bytes) (level : Nat) (st acc : Bytes) :
    findBrace (125 :: r) false level (some st) acc =
      if level ≤ 1 then some (some (st.reverse, acc.reverse, r)) else findBrace r false (level - 1) (some st) (125 :: acc) := by
  rw [findBrace.eq_def]
  rfl

theorem print_head {b : T} (hw : b.WF) (hne : b ≠ .nil) (r : Bytes) : (b.print ++ r).head? ≠ some 125 := by
  cases b with
  | nil => exact absurd rfl hne
  | chr c r' =>
    have h := hw.1
    simp only [plain, Bool.and_eq_true, decide_eq_true_eq, ne_eq] at h
    simpa [T.print] using h.2
  | grp b r' => simp [T.print]

theorem find_inside {t : T} : t.WF → ∀ (r : Bytes) (level : Nat) (st acc : Bytes), 1 ≤ level →
    findBrace (t.print ++ r) false level (some st) acc = findBrace r false level (some st) (t.print.reverse ++ acc) := by
  induction t with
  | nil => intro _ r level st acc _; rfl
  | chr c r' ih =>
    intro hw r level st acc hl
    rw [T.print, List.cons_append, find_plain hw.1, ih hw.2 _ _ _ _ hl]
    simp
  | grp b r' ih1 ih2 =>
    intro hw r level st acc hl
    have e : (T.grp b r').print ++ r = 123 :: (b.print ++ (125 :: (r'.print ++ r))) := by simp [T.print]
    rw [e, find_open (print_head hw.1 hw.2.1 _)]
    dsimp only
    rw [ih1 hw.1 _ _ _ _ (by omega), find_close, if_neg (by omega), Nat.add_sub_cancel, ih2 hw.2.2.2 _ _ _ _ hl]
    simp [T.print]

/-! The selections -/

theorem select_more (x : UInt8) (r : Bytes) (hr : r ≠ []) (br : Bool) (level : Int) (cur : Bytes) (h : x ≠ 44 ∨ level > 0) :
    select x r.isEmpty br level cur = (none, cur ++ [x]) := by
  unfold select
  have : r.isEmpty = false := by simpa using hr
  rw [this]
  by_cases hx : x = 44
  · rw [if_pos (Or.inl hx), if_pos (by
      rcases h with h | h
      · exact absurd hx h
      · simp [h])]
  · rw [if_neg (by simp [hx])]

theorem sel_step {c : UInt8} (hc : c ≠ 92) (r : Bytes) (br : Bool) (level : Int) (cur : Bytes) :
    selections (c :: r) br level cur =
      (selections r (track c br level).1 (track c br level).2 (select c r.isEmpty (track c br level).1 (track c br level).2 cur).2).map
        fun l => (select c r.isEmpty (track c br level).1 (track c br level).2 cur).1.toList ++ l := by
  rw [selections.eq_def]
  split <;> simp_all

theorem track_plain {c : UInt8} (h : plain c = true) (br : Bool) (level : Int) : track c br level = (br, level) := by
  simp only [plain, Bool.and_eq_true, decide_eq_true_eq, ne_eq] at h
  simp [track, h]

theorem plain_ne {c : UInt8} (h : plain c = true) : c ≠ 92 := by
  simp only [plain, Bool.and_eq_true, decide_eq_true_eq, ne_eq] at h
  exact h.1.1.1.1

/-- At a positive level everything is passed over, -/
theorem sel_inside {t : T} : t.WF → ∀ (r : Bytes) (level : Int) (cur : Bytes), r ≠ [] → 0 < level →
    selections (t.print ++ r) false level cur = selections r false level (cur ++ t.print) := by
  induction t with
  | nil => intro _ r level cur _ _; simp [T.print]
  | chr c r' ih =>
    intro hw r level cur hr hl
    rw [T.print, List.cons_append, sel_step (plain_ne hw.1), track_plain hw.1,
      select_more _ _ (by simp [hr]) _ _ _ (Or.inr hl)]
    dsimp only
    rw [ih hw.2 _ _ _ hr hl]
    simp
  | grp b r' ih1 ih2 =>
    intro hw r level cur hr hl
    have e : (T.grp b r').print ++ r = 123 :: (b.print ++ (125 :: (r'.print ++ r))) := by simp [T.print]
    have t1 : track 123 false level = (false, level + 1) := rfl
    have t2 : track 125 false (level + 1) = (false, level) := by
      show (false, level + 1 - 1) = _; congr 1; omega
    rw [e, sel_step (by decide), t1, select_more _ _ (by simp) _ _ _ (Or.inl (by decide))]
    dsimp only
    rw [ih1 hw.1 _ _ _ (by simp) (by omega), sel_step (by decide), t2,
      select_more _ _ (by simp [hr]) _ _ _ (Or.inl (by decide))]
    dsimp only
    rw [ih2 hw.2.2.2 _ _ _ hr hl]
    simp [T.print]

/-- and at level zero the alternatives are found. -/
theorem sel_alts {t : T} : t.WF → t.print.getLast? ≠ some 44 → ∀ (cur : Bytes), (cur = [] → t ≠ .nil) → (t = .nil → cur = []) →
    t ≠ .nil → selections t.print false 0 cur = some ((cur ++ t.parts.1.print) :: t.parts.2.map T.print) := by
  induction t with
  | nil => intro _ _ cur _ _ h; exact absurd rfl h
  | chr c r ih =>
    intro hw hlast cur _ _ _
    rw [T.print, sel_step (plain_ne hw.1), track_plain hw.1]
    dsimp only
    by_cases hr : r = .nil
    · subst hr
      have hc : c ≠ 44 := by simpa [T.print] using hlast
      simp [T.print, select, selections, T.parts, hc]
    · have hrp : r.print ≠ [] := by cases r <;> simp_all [T.print]
      have hlast' : r.print.getLast? ≠ some 44 := by
        rw [T.print, List.getLast?_cons_of_ne_nil hrp] at hlast
        exact hlast
      have hemp : r.print.isEmpty = false := by simpa using hrp
      by_cases hc : c = 44
      · subst hc
        have hsel : select 44 r.print.isEmpty false 0 cur = (some cur, []) := by
          unfold select
          rw [hemp]
          simp
        rw [hsel]
        dsimp only
        rw [ih hw.2 hlast' [] (fun _ => hr) (fun _ => rfl) hr]
        simp [T.parts, T.print]
      · rw [select_more _ _ hrp _ _ _ (Or.inl hc)]
        dsimp only
        rw [ih hw.2 hlast' _ (fun _ => hr) (fun h => absurd h hr) hr]
        simp [T.parts, T.print, hc]
  | grp b r ih1 ih2 =>
    intro hw hlast cur _ _ _
    have t1 : track 123 false 0 = (false, 1) := rfl
    have t2 : track 125 false 1 = (false, 0) := rfl
    rw [T.print, sel_step (by decide), t1, select_more _ _ (by simp) _ _ _ (Or.inl (by decide))]
    dsimp only
    rw [sel_inside hw.1 _ _ _ (by simp) (by omega), sel_step (by decide), t2]
    by_cases hr : r = .nil
    · subst hr
      simp [T.print, select, selections, T.parts]
    · have hrp : r.print ≠ [] := by cases r <;> simp_all [T.print]
      have hlast' : r.print.getLast? ≠ some 44 := by
        intro h
        apply hlast
        rw [T.print, List.getLast?_cons_of_ne_nil (by simp), List.getLast?_append, List.getLast?_cons_of_ne_nil hrp, h]
        rfl
      rw [select_more _ _ hrp _ _ _ (Or.inl (by decide))]
      dsimp only
      rw [ih2 hw.2.2.2 hlast' _ (fun _ => hr) (fun h => absurd h hr) hr]
      simp [T.parts, T.print]

/-! The first group -/

/-- Either there is no group or a first one. -/
theorem first_group (t : T) (hw : t.WF) : (t.words = [t.print] ∧ ∀ acc, findBrace t.print false 0 none acc = some none) ∨
    ∃ l b r, t = T.cat l (.grp b r) ∧ l.words = [l.print] ∧
      ∀ s acc, findBrace (l.print ++ s) false 0 none acc = findBrace s false 0 none (l.print.reverse ++ acc) := by
  induction t with
  | nil => exact Or.inl ⟨rfl, fun _ => rfl⟩
  | chr c r ih =>
    rcases ih hw.2 with ⟨h1, h2⟩ | ⟨l, b, r', rfl, h1, h2⟩
    · refine Or.inl ⟨by simp [T.words, T.print, h1], fun acc => ?_⟩
      rw [T.print, find_plain hw.1, h2]
    · refine Or.inr ⟨.chr c l, b, r', rfl, by simp [T.words, T.print, h1], fun s acc => ?_⟩
      rw [T.print, List.cons_append, find_plain hw.1, h2]
      simp
  | grp b r _ _ => exact Or.inr ⟨.nil, b, r, rfl, rfl, fun s acc => rfl⟩

theorem wf_of_cat {a b : T} (h : (a.cat b).WF) : a.WF ∧ b.WF := by
  induction a with
  | nil => exact ⟨trivial, h⟩
  | chr c r ih => exact ⟨⟨h.1, (ih h.2).1⟩, (ih h.2).2⟩
  | grp g r _ ih => exact ⟨⟨h.1, h.2.1, h.2.2.1, (ih h.2.2.2).1⟩, (ih h.2.2.2).2⟩

theorem expandOne_grp {l b r : T} (hw : (l.cat (.grp b r)).WF)
    (hl : ∀ s acc, findBrace (l.print ++ s) false 0 none acc = findBrace s false 0 none (l.print.reverse ++ acc)) :
    expandOne (l.cat (.grp b r)).print =
      some (some ((b.parts.1 :: b.parts.2).map fun p => (l.cat (p.cat r)).print)) := by
  obtain ⟨_, hb, hbn, hlast, hr⟩ := wf_of_cat hw
  have e : findBrace (l.cat (.grp b r)).print false 0 none [] = some (some (l.print, b.print, r.print)) := by
    rw [print_cat, hl, T.print, find_open (print_head hb hbn _)]
    dsimp only
    rw [find_inside hb _ _ _ _ (by omega), find_close, if_pos (by omega)]
    simp
  unfold expandOne
  rw [e]
  dsimp only
  rw [sel_alts hb hlast [] (fun _ => hbn) (fun _ => rfl) hbn]
  simp [print_cat]

theorem baseName_part (w : Bytes) : LastPart w (baseName w) := by
  unfold LastPart baseName
  have hd := List.takeWhile_append_dropWhile (p := fun c : UInt8 => decide (c ≠ 47)) (l := w.reverse)
  have hmem : ∀ c ∈ w.reverse.takeWhile (fun c : UInt8 => decide (c ≠ 47)), c ≠ 47 := by
    intro c hc
    simpa using List.all_eq_true.1 (List.all_takeWhile) c hc
  have hhead := List.head?_dropWhile_not (fun c : UInt8 => decide (c ≠ 47)) w.reverse
  refine ⟨fun h => hmem 47 (List.mem_reverse.1 h) rfl, ?_⟩
  generalize w.reverse.takeWhile (fun c : UInt8 => decide (c ≠ 47)) = a at *
  generalize w.reverse.dropWhile (fun c : UInt8 => decide (c ≠ 47)) = b at *
  have hw : w = b.reverse ++ a.reverse := by
    rw [← List.reverse_append, hd, List.reverse_reverse]
  cases b with
  | nil => exact Or.inl (by simpa using hw)
  | cons c b =>
    have hc : c = 47 := by simpa using hhead
    subst hc
    exact Or.inr ⟨b.reverse, by rw [hw]; simp⟩

theorem LastPart_unique {w m n : Bytes} (hm : LastPart w m) (hn : LastPart w n) : m = n := by
  have key : ∀ (m n d e : Bytes), (47 : UInt8) ∉ m → (47 : UInt8) ∉ n → d ++ 47 :: m = e ++ 47 :: n → m = n := by
    intro m n d e hm hn h
    rcases List.append_eq_append_iff.1 h with ⟨a, h1, h2⟩ | ⟨a, h1, h2⟩
    · cases a with
      | nil => simp at h2; exact h2
      | cons x a => injection h2 with _ h2; rw [h2] at hm; simp at hm
    · cases a with
      | nil => simp at h2; exact h2.symm
      | cons x a => injection h2 with _ h2; rw [h2] at hn; simp at hn
  obtain ⟨h1, h2⟩ := hm
  obtain ⟨h3, h4⟩ := hn
  rcases h2 with rfl | ⟨d, rfl⟩
  · rcases h4 with h | ⟨e, rfl⟩
    · exact h
    · simp at h1
  · rcases h4 with rfl | ⟨e, h⟩
    · simp at h3
    · exact key _ _ _ _ h1 h3 h

theorem mapM_total {α β : Type} {f : α → Option (List β)} : ∀ (l : List α), (∀ x ∈ l, ∃ y, f x = some y) →
    ∃ ys, l.mapM f = some ys ∧ ∀ n, n ∈ ys.flatten ↔ ∃ x ∈ l, ∃ y, f x = some y ∧ n ∈ y := by
  intro l
  induction l with
  | nil => intro _; exact ⟨[], rfl, by simp⟩
  | cons a l ih =>
    intro h
    obtain ⟨y, hy⟩ := h a (by simp)
    obtain ⟨ys, h1, h2⟩ := ih fun x hx => h x (by simp [hx])
    refine ⟨y :: ys, by simp [List.mapM_cons, hy, h1], fun n => ?_⟩
    rw [List.flatten_cons, List.mem_append, h2]
    constructor
    · rintro (h | ⟨x, hx, z, hz, hn⟩)
      · exact ⟨a, by simp, y, hy, h⟩
      · exact ⟨x, by simp [hx], z, hz, hn⟩
    · rintro ⟨x, hx, z, hz, hn⟩
      rcases List.mem_cons.1 hx with rfl | hx
      · rw [hy] at hz; cases hz; exact Or.inl hn
      · exact Or.inr ⟨x, hx, z, hz, hn⟩

theorem expandF_spec : ∀ (fuel : Nat) (t : T), t.WF → t.print.length < fuel →
    ∃ l, expandF fuel t.print = some l ∧ ∀ n, n ∈ l ↔ ∃ w ∈ t.words, LastPart w n := by
  intro fuel
  induction fuel with
  | zero => intro t _ h; omega
  | succ fuel ih =>
    intro t hw hl
    rcases first_group t hw with ⟨h1, h2⟩ | ⟨l, b, r, rfl, h1, h2⟩
    · refine ⟨[baseName t.print], ?_, fun n => ?_⟩
      · rw [expandF]
        simp [expandOne, h2]
      · rw [h1]
        simp only [List.mem_singleton, exists_eq_left]
        exact ⟨fun h => h ▸ baseName_part _, fun h => LastPart_unique h (baseName_part _)⟩
    · have e := expandOne_grp hw h2
      obtain ⟨hlw, hb, hbn, hlast, hr⟩ := wf_of_cat hw
      have hsub : ∀ p ∈ b.parts.1 :: b.parts.2, ∃ y, expandF fuel (l.cat (p.cat r)).print = some y ∧
          ∀ n, n ∈ y ↔ ∃ w ∈ (l.cat (p.cat r)).words, LastPart w n := by
        intro p hp
        refine ih _ (wf_cat hlw (wf_cat (parts_wf hb p hp) hr)) ?_
        have := parts_short b p hp
        simp [print_cat, T.print] at hl ⊢
        omega
      obtain ⟨ys, h3, h4⟩ := mapM_total (f := expandF fuel)
        ((b.parts.1 :: b.parts.2).map fun p => (l.cat (p.cat r)).print).reverse (by
          intro x hx
          obtain ⟨p, hp, rfl⟩ := List.mem_map.1 (List.mem_reverse.1 hx)
          obtain ⟨y, hy, _⟩ := hsub p hp
          exact ⟨y, hy⟩)
      refine ⟨ys.flatten, ?_, fun n => ?_⟩
      · rw [expandF, e]
        dsimp only
        rw [h3]
        rfl
      · rw [h4]
        have hall : ∀ x, x ∈ b.alts.1 ++ b.alts.2 ↔ ∃ p ∈ b.parts.1 :: b.parts.2, x ∈ p.words := by
          intro x
          rw [← (parts_words b).1, ← (parts_words b).2]
          simp [List.mem_flatMap]
        constructor
        · rintro ⟨x, hx, y, hy, hn⟩
          obtain ⟨p, hp, rfl⟩ := List.mem_map.1 (List.mem_reverse.1 hx)
          obtain ⟨y', hy', hiff⟩ := hsub p hp
          rw [hy] at hy'
          cases hy'
          obtain ⟨w, hw, hlp⟩ := (hiff n).1 hn
          obtain ⟨u, hu, v, hv, rfl⟩ := mem_words_cat.1 hw
          obtain ⟨v1, hv1, v2, hv2, rfl⟩ := mem_words_cat.1 hv
          exact ⟨_, mem_words_cat.2 ⟨u, hu, _, mem_prod.2 ⟨v1, (hall v1).2 ⟨p, hp, hv1⟩, v2, hv2, rfl⟩, rfl⟩, hlp⟩
        · rintro ⟨w, hw, hlp⟩
          obtain ⟨u, hu, v, hv, rfl⟩ := mem_words_cat.1 hw
          obtain ⟨v1, hv1, v2, hv2, rfl⟩ := mem_prod.1 hv
          obtain ⟨p, hp, hv1⟩ := (hall v1).1 hv1
          obtain ⟨y, hy, hiff⟩ := hsub p hp
          exact ⟨_, List.mem_reverse.2 (List.mem_map.2 ⟨p, hp, rfl⟩), y, hy,
            (hiff n).2 ⟨_, mem_words_cat.2 ⟨u, hu, _, mem_words_cat.2 ⟨v1, hv1, v2, hv2, rfl⟩, rfl⟩, hlp⟩⟩

/-! ### Any pattern -/

theorem findBrace_parts : ∀ (p : Bytes) (br : Bool) (level : Nat) (start : Option Bytes) (acc : Bytes) (x : Bytes × Bytes × Bytes),
    findBrace p br level start acc = some (some x) →
    (start.elim 0 fun st => st.length + 1) + acc.length + p.length = x.1.length + x.2.1.length + x.2.2.length + 2 := by
  intro p br level start acc
  fun_induction findBrace p br level start acc <;> intro x h
  all_goals try (simp at h; done)
  all_goals try (split at h <;> simp at h; done)
  all_goals try (rename_i ih; have := ih x h; simp at this ⊢; omega)
  all_goals first | (simp at h; subst h; simp; omega) | skip

theorem select_last (x : UInt8) (br : Bool) (level : Int) (cur : Bytes) :
    (select x true br level cur).1 = if br || level > 0 then none else some (cur ++ [x]) := by
  unfold select
  rw [if_pos (Or.inr rfl)]
  split <;> simp

theorem selections_ne (b : Bytes) (br : Bool) (level : Int) (cur : Bytes) : ∀ (l : List Bytes), b ≠ [] →
    selections b br level cur = some l → l ≠ [] := by
  have key : ∀ (r : Bytes) (x : UInt8) (br : Bool) (level : Int) (cur : Bytes) (l : List Bytes),
      (∀ l, r ≠ [] → selections r br level (select x r.isEmpty br level cur).2 = some l → l ≠ []) →
      (selections r br level (select x r.isEmpty br level cur).2).map
        (fun l => (select x r.isEmpty br level cur).1.toList ++ l) = some l → l ≠ [] := by
    intro r x br level cur l ih h
    obtain ⟨l', h1, h2⟩ := Option.map_eq_some_iff.1 h
    by_cases hr : r = []
    · subst hr
      rw [selections] at h1
      rw [show ([] : Bytes).isEmpty = true from rfl, select_last] at h2
      split at h1
      · cases h1
      · rename_i hn
        rw [if_neg hn] at h2
        rw [← h2]; simp
    · have := ih l' hr h1
      rw [← h2]
      simp [this]
  fun_induction selections b br level cur <;> intro l hb h
  · exact absurd rfl hb
  · exact absurd rfl hb
  · rename_i ih; exact key _ _ _ _ _ _ ih h
  · rename_i ih; exact key _ _ _ _ _ _ ih h

theorem select_length (x : UInt8) (last br : Bool) (level : Int) (cur : Bytes) :
    (select x last br level cur).2.length ≤ cur.length + 1 ∧
    ∀ s, (select x last br level cur).1 = some s → s.length ≤ cur.length + 1 := by
  unfold select
  repeat' split
  all_goals simp
  all_goals split <;> simp

theorem selections_length (b : Bytes) (br : Bool) (level : Int) (cur : Bytes) : ∀ (l : List Bytes),
    selections b br level cur = some l → ∀ s ∈ l, s.length ≤ cur.length + b.length := by
  have key : ∀ (r : Bytes) (x : UInt8) (br : Bool) (level : Int) (cur : Bytes) (l : List Bytes),
      (∀ l, selections r br level (select x r.isEmpty br level cur).2 = some l →
        ∀ s ∈ l, s.length ≤ (select x r.isEmpty br level cur).2.length + r.length) →
      (selections r br level (select x r.isEmpty br level cur).2).map
        (fun l => (select x r.isEmpty br level cur).1.toList ++ l) = some l → ∀ s ∈ l, s.length ≤ cur.length + 1 + r.length := by
    intro r x br level cur l ih h s hs
    obtain ⟨l', h1, h2⟩ := Option.map_eq_some_iff.1 h
    obtain ⟨k1, k2⟩ := select_length x r.isEmpty br level cur
    rw [← h2] at hs
    rcases List.mem_append.1 hs with hs | hs
    · have := k2 s (Option.mem_toList.1 hs)
      omega
    · have := ih l' h1 s hs
      omega
  fun_induction selections b br level cur <;> intro l h s hs
  · cases h
  · cases h; cases hs
  · rename_i ih
    have := key _ _ _ _ _ _ ih h s hs
    simp at this ⊢; omega
  · rename_i ih
    have := key _ _ _ _ _ _ ih h s hs
    simp at this ⊢; omega

theorem findBrace_body (p : Bytes) (br : Bool) (level : Nat) (start : Option Bytes) (acc : Bytes) : ∀ (x : Bytes × Bytes × Bytes),
    findBrace p br level start acc = some (some x) → (start.isSome → br = false → acc = [] → p.head? ≠ some 125) →
    x.2.1 ≠ [] := by
  fun_induction findBrace p br level start acc <;> intro x h hh
  all_goals try (simp at h; done)
  all_goals try (split at h <;> simp at h; done)
  all_goals try (rename_i ih; exact ih x h (fun _ _ h => absurd h (List.cons_ne_nil _ _)))
  · rename_i r hne hbr ih
    refine ih x h (fun _ _ _ hx => ?_)
    cases r with
    | nil => cases hx
    | cons a r => simp at hx; exact hne r (by rw [hx])
  · rename_i hbr st hl
    simp at h
    subst h
    simp only [ne_eq, List.reverse_eq_nil_iff]
    intro he
    exact hh rfl (by simpa using hbr) he rfl

theorem expandOne_shape {p : Bytes} {l : List Bytes} (h : expandOne p = some (some l)) :
    l ≠ [] ∧ ∀ q ∈ l, q.length < p.length := by
  unfold expandOne at h
  split at h
  · cases h
  · cases h
  · rename_i pre body post hf
    split at h
    · cases h
    · rename_i l' hs
      simp at h
      subst h
      have hb := findBrace_body p false 0 none [] _ hf (by simp)
      refine ⟨by simpa using selections_ne _ _ _ _ _ hb hs, fun q hq => ?_⟩
      obtain ⟨s, hs', rfl⟩ := List.mem_map.1 hq
      have h1 := selections_length _ _ _ _ _ hs s hs'
      have h2 := findBrace_parts p false 0 none [] _ hf
      simp at h1 h2 ⊢
      omega

/-- A pattern that expansion meets on the way. -/
inductive Meets : Bytes → Bytes → Prop where
  | self (p : Bytes) : Meets p p
  | step {p q r : Bytes} {l : List Bytes} (h : expandOne p = some (some l)) (hq : q ∈ l) (hr : Meets q r) : Meets p r

theorem mapM_none {α β : Type} {f : α → Option β} : ∀ (l : List α), l.mapM f = none → ∃ x ∈ l, f x = none := by
  intro l
  induction l with
  | nil => intro h; cases h
  | cons a l ih =>
    intro h
    cases ha : f a with
    | none => exact ⟨a, by simp, ha⟩
    | some y =>
      obtain ⟨x, hx, hf⟩ := ih (by
        cases hl : l.mapM f with
        | none => rfl
        | some ys => simp [List.mapM_cons, ha, hl] at h)
      exact ⟨x, by simp [hx], hf⟩

theorem mapM_some {α β : Type} {f : α → Option β} : ∀ (l : List α) (ys : List β), l.mapM f = some ys →
    (l ≠ [] → ys ≠ []) ∧ ∀ y ∈ ys, ∃ x ∈ l, f x = some y := by
  intro l
  induction l with
  | nil => intro ys h; cases h; simp
  | cons a l ih =>
    intro ys h
    cases ha : f a with
    | none => simp [List.mapM_cons, ha] at h
    | some y =>
      cases hl : l.mapM f with
      | none => simp [List.mapM_cons, ha, hl] at h
      | some zs =>
        simp [List.mapM_cons, ha, hl] at h
        subst h
        refine ⟨by simp, fun y' hy => ?_⟩
        rcases List.mem_cons.1 hy with rfl | hy
        · exact ⟨a, by simp, ha⟩
        · obtain ⟨x, hx, hf⟩ := (ih zs hl).2 y' hy
          exact ⟨x, by simp [hx], hf⟩

theorem expandF_total : ∀ (fuel : Nat) (p : Bytes), p.length < fuel →
    (expandF fuel p = none → ∃ q, Meets p q ∧ expandOne q = none) ∧ ∀ l, expandF fuel p = some l → l ≠ [] := by
  intro fuel
  induction fuel with
  | zero => intro p h; omega
  | succ fuel ih =>
    intro p hp
    rw [expandF]
    cases he : expandOne p with
    | none => exact ⟨fun _ => ⟨p, .self p, he⟩, nofun⟩
    | some o =>
      cases o with
      | none => exact ⟨nofun, fun l h => by cases h; simp⟩
      | some l =>
        obtain ⟨hne, hlen⟩ := expandOne_shape he
        refine ⟨fun h => ?_, fun l' h => ?_⟩
        · obtain ⟨q, hq, hf⟩ := mapM_none _ (Option.map_eq_none_iff.1 h)
          have hq := List.mem_reverse.1 hq
          obtain ⟨r, hr, hb⟩ := (ih q (by have := hlen q hq; omega)).1 hf
          exact ⟨r, .step he hq hr, hb⟩
        · obtain ⟨ys, hys, rfl⟩ := Option.map_eq_some_iff.1 h
          obtain ⟨h1, h2⟩ := mapM_some _ _ hys
          have hne' : ys ≠ [] := h1 (by simpa using hne)
          cases ys with
          | nil => exact absurd rfl hne'
          | cons y ys =>
            obtain ⟨x, hx, hf⟩ := h2 y (by simp)
            have hx := List.mem_reverse.1 hx
            have := (ih x (by have := hlen x hx; omega)).2 y hf
            simp [this]

/-! ## C66 -/

/-- **C66.**  The names allowed for a request are exactly the last components of the words its braces stand for. -/
theorem C66_expand (t : T) (h : t.WF) :
    ∃ l, expand t.print = some l ∧ ∀ n, n ∈ l ↔ ∃ w ∈ t.words, LastPart w n :=
  expandF_spec _ t h (by omega)

/-- **C66.**  For any request: expansion gives at least one name, so there is always a restriction; and it fails only if a
pattern is met that has unbalanced braces or brackets. -/
theorem C66_restricts (p : Bytes) :
    (∀ l, expand p = some l → l ≠ []) ∧ (expand p = none → ∃ q, Meets p q ∧ expandOne q = none) :=
  ⟨(expandF_total _ p (by omega)).2, (expandF_total _ p (by omega)).1⟩

/-- **C66.**  A non-recursive copy into a directory, restricted to a request, opens only entries of that directory whose name
is a last component of a word of the request, or matches one used as a pattern. -/
theorem C66_accepted (C : Conf) (E : Env) (targ inp : Bytes) (t : T) (ht : t.WF) (hr : C.recursive = false)
    (hp : expand t.print = some C.patterns) (hd : E.stat [.ack] targ = .dir) (e : Event)
    (he : e ∈ (sink C E targ inp).st.tr) (p : Bytes) (hpath : e.path? = some p) :
    ∃ name, p = below targ [name] ∧ Safe name ∧
      ∃ w ∈ t.words, ∃ pat, LastPart w pat ∧ (pat = name ∨ E.fnmatch pat name = true) := by
  obtain ⟨ns, h1, h2, h3, h4⟩ := C50_confined C E targ inp e he p hpath
  rw [if_pos hd] at h2
  have h4 := (h4 hr).1
  obtain ⟨l, hl, hiff⟩ := C66_expand t ht
  rw [hp] at hl
  cases hl
  match ns, h1, h2, h3, h4 with
  | [name], h1, _, h3, _ =>
    obtain ⟨hs, ha⟩ := h3 name (by simp)
    refine ⟨name, h1, hs, ?_⟩
    rcases ha with ha | ⟨pat, hpat, hm⟩
    · exact absurd ha ((C66_restricts t.print).1 _ hp)
    · obtain ⟨w, hw, hlp⟩ := (hiff pat).1 hpat
      exact ⟨w, hw, pat, hlp, hm⟩

/-- `dir/a{b,c{d,e}}f` -/
def exT : T := .chr 100 (.chr 47 (.chr 97 (.grp (.chr 98 (.chr 44 (.chr 99 (.grp (.chr 100 (.chr 44 (.chr 101 .nil))) .nil)))) (.chr 102 .nil))))
example : exT.print = b!"d/a{b,c{d,e}}f" ∧ exT.words = [b!"d/abf", b!"d/acdf", b!"d/acef"] ∧
    expand exT.print = some [b!"acef", b!"acdf", b!"abf"] := by decide
example : exT.WF := by simp [exT, T.WF]; decide

/-- A last empty alternative is not understood: the comma is taken as part of the name (so the plain name is refused). -/
theorem C66_trailing_comma : expand b!"a{b,}" = some [b!"ab,"] := by decide
example : expand b!"a{b" = none := by decide

end Verif.Scp
