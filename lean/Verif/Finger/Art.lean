/-
C139: what the picture of a key shows.
-/
import Verif.Finger.Model

namespace Verif.Finger
open Verif
open _root_.Verif.Scp (dec)

/-! ### What is meant -/

/-- The moves a byte stands for: pairs of bits, from the low end; the first says right or left, the second down or up -/
def moves (b : UInt8) : List (Bool × Bool) :=
  [(b.toNat.testBit 0, b.toNat.testBit 1), (b.toNat.testBit 2, b.toNat.testBit 3), (b.toNat.testBit 4, b.toNat.testBit 5), (b.toNat.testBit 6, b.toNat.testBit 7)]

/-- A move on the board of 17 by 9; at an edge one slides along it -/
def move (p : Nat × Nat) (m : Bool × Bool) : Nat × Nat :=
  (if m.1 then min (p.1 + 1) 16 else p.1 - 1, if m.2 then min (p.2 + 1) 8 else p.2 - 1)

/-- The places come to -/
def walk : Nat × Nat → List (Bool × Bool) → List (Nat × Nat)
  | _, [] => []
  | p, m :: l => move p m :: walk (move p m) l

/-- The places that a bishop comes to that starts in the middle -/
def visits (d : Bytes) : List (Nat × Nat) := walk (8, 4) (d.flatMap moves)

/-- What is drawn at a place -/
def cell (d : Bytes) (y x : Nat) : UInt8 :=
  if (x, y) = (visits d).getLastD (8, 4) then 69
  else if (x, y) = (8, 4) then 83
  else (b!" .o+=*BOX@%&#/^").getD (min ((visits d).count (x, y)) 14) 0

/-! ### Steps -/

theorem and_one (n : Nat) : (n &&& 1 ≠ 0) ↔ n.testBit 0 = true := by
  rw [Nat.and_one_is_mod, Nat.testBit_zero]
  simp only [decide_eq_true_eq]
  omega

theorem and_two (n : Nat) : (n &&& 2 ≠ 0) ↔ n.testBit 1 = true := by
  constructor
  · intro h
    obtain ⟨i, hi⟩ := Nat.exists_testBit_of_ne_zero h
    rw [Nat.testBit_and, Bool.and_eq_true, show (2 : Nat) = 2 ^ 1 from rfl, Nat.testBit_two_pow, decide_eq_true_eq] at hi
    obtain ⟨h1, rfl⟩ := hi
    exact h1
  · intro h e
    have := congrArg (fun m => Nat.testBit m 1) e
    simp only [Nat.testBit_and, h, Bool.true_and, Nat.zero_testBit] at this
    exact absurd this (by decide)

/-- The worm has come along `ps` and is now at `p` -/
structure Along (w : Worm) (p : Nat × Nat) (ps : List (Nat × Nat)) : Prop where
  x : w.x = p.1
  y : w.y = p.2
  hx : p.1 ≤ 16
  hy : p.2 ≤ 8
  last : p = ps.getLastD (8, 4)
  field : ∀ a b, w.field a b = min (ps.count (a, b)) 14

theorem crawl_along {w : Worm} {p : Nat × Nat} {ps : List (Nat × Nat)} (h : Along w p ps) (n : Nat) :
    ∃ w', crawl w n = some w' ∧ Along w' (move p (n.testBit 0, n.testBit 1)) (ps ++ [move p (n.testBit 0, n.testBit 1)]) := by
  obtain ⟨px, py⟩ := p
  have e1 : min (max (w.x + if n &&& 1 ≠ 0 then 1 else -1) 0) ((width : Int) - 1) = ((move (px, py) (n.testBit 0, n.testBit 1)).1 : Nat) := by
    have := h.x
    have := h.hx
    simp only [move, width, and_one] at *
    split <;> omega
  have e2 : min (max (w.y + if n &&& 2 ≠ 0 then 1 else -1) 0) ((height : Int) - 1) = ((move (px, py) (n.testBit 0, n.testBit 1)).2 : Nat) := by
    have := h.y
    have := h.hy
    simp only [move, height, and_two] at *
    split <;> omega
  have b1 : (move (px, py) (n.testBit 0, n.testBit 1)).1 ≤ 16 := by
    have := h.hx
    simp only [move] at *
    split <;> omega
  have b2 : (move (px, py) (n.testBit 0, n.testBit 1)).2 ≤ 8 := by
    have := h.hy
    simp only [move] at *
    split <;> omega
  unfold crawl
  rw [e1, e2]
  generalize move (px, py) (n.testBit 0, n.testBit 1) = q at *
  simp only []
  rw [if_pos (by simp only [width, height]; omega)]
  refine ⟨_, rfl, rfl, rfl, b1, b2, by simp, ?_⟩
  intro a b
  simp only [Int.toNat_natCast, h.field a b, List.count_append]
  have hlen : augment.length - 1 - 2 = 14 := by decide
  rw [hlen]
  by_cases hq : q = (a, b)
  · subst hq
    simp only [true_and, List.count_singleton_self]
    split <;> omega
  · have : List.count (a, b) [q] = 0 := by
      rw [List.count_eq_zero]
      simp only [List.mem_singleton]
      exact fun h => hq h.symm
    rw [if_neg, this, Nat.add_zero]
    rintro ⟨rfl, rfl, -⟩
    exact hq rfl

theorem walk_append (p : Nat × Nat) (l m : List (Bool × Bool)) : walk p (l ++ m) = walk p l ++ walk ((walk p l).getLastD p) m := by
  induction l generalizing p with
  | nil => rfl
  | cons a l ih =>
    simp only [List.cons_append, walk, ih]
    congr 2
    cases walk (move p a) l <;> rfl

theorem crawlAll_along : ∀ (d : Bytes) {w : Worm} {p : Nat × Nat} {ps : List (Nat × Nat)}, Along w p ps →
    ∃ w' q, crawlAll d w = some w' ∧ Along w' q (ps ++ walk p (d.flatMap moves)) := by
  intro d
  induction d with
  | nil =>
    intro w p ps h
    exact ⟨w, p, rfl, by simpa [walk] using h⟩
  | cons b d ih =>
    intro w p ps h
    obtain ⟨w1, c1, h1⟩ := crawl_along h b.toNat
    obtain ⟨w2, c2, h2⟩ := crawl_along h1 (b.toNat >>> 2)
    obtain ⟨w3, c3, h3⟩ := crawl_along h2 (b.toNat >>> 4)
    obtain ⟨w4, c4, h4⟩ := crawl_along h3 (b.toNat >>> 6)
    obtain ⟨w', q, c, h'⟩ := ih h4
    refine ⟨w', q, ?_, ?_⟩
    · rw [crawlAll, c1]
      simp only [bind, Option.bind_some, c2, c3, c4, c]
    · simp only [List.flatMap_cons, moves, List.cons_append, List.nil_append, walk]
      simpa only [Nat.testBit_shiftRight, Nat.reduceAdd, List.append_assoc, List.cons_append, List.nil_append] using h'

theorem start_along : Along start (8, 4) [] := ⟨rfl, rfl, by decide, by decide, rfl, fun _ _ => rfl⟩

/-! ### The text -/

theorem mapM_all {α β : Type} {f : α → Option β} {g : α → β} {l : List α} (h : ∀ x ∈ l, f x = some (g x)) : l.mapM f = some (l.map g) := by
  induction l with
  | nil => rfl
  | cons a l ih =>
    rw [List.mapM_cons, h a (by simp), ih fun x hx => h x (by simp [hx])]
    rfl

theorem augment_get : ∀ k ≤ 14, augment[k]? = some ((b!" .o+=*BOX@%&#/^").getD k 0) := by decide +kernel

theorem marked_cell {d : Bytes} {w : Worm} {p : Nat × Nat} (h : Along w p (visits d)) (x y : Nat) :
    augment[min (marked w x y) (augment.length - 1)]? = some (cell d y x) := by
  have hlen : augment.length - 1 = 16 := by decide
  unfold marked cell
  rw [hlen, h.x, h.y, ← h.last, h.field]
  simp only [Int.toNat_natCast]
  by_cases h1 : (x, y) = p
  · subst h1
    rw [if_pos ⟨rfl, rfl⟩, if_pos rfl]
    rfl
  · rw [if_neg (fun e => h1 (Prod.ext e.1 e.2)), if_neg h1]
    by_cases h2 : (x, y) = (8, 4)
    · rw [if_pos (by simpa [width, height] using h2), if_pos h2]
      rfl
    · rw [if_neg (by simpa [width, height] using h2), if_neg h2, Nat.min_eq_left (by omega)]
      exact augment_get _ (by omega)

theorem printed_length (t : Bytes) : (printed t width).length ≤ 16 := by
  simp only [printed, width, List.length_take]
  omega

theorem title_length (type : Bytes) (size : Nat) : (title type size).length ≤ 16 := by
  unfold title
  split <;> exact printed_length _

theorem border_length {t : Bytes} (h : t.length ≤ 17) : (border t).length = 19 := by
  simp only [border, width, List.length_append, List.length_replicate, List.length_cons, List.length_nil]
  omega

/-- Rows of the picture -/
def row (d : Bytes) (y : Nat) : Bytes := b!"|" ++ (List.range 17).map (cell d y) ++ b!"|\n"

theorem width_of_row (d : Bytes) (y : Nat) : (row d y).length = 20 := by simp [row]

/-- C139: the picture of any digest, for any type, size and algorithm: the walk stays on the board and the text in its buffer, and the text is a
border, nine rows that show the walk, and a border, each as wide; the borders do not depend on the digest. -/
theorem C139_picture (alg type : Bytes) (size : Nat) :
    ∃ top bottom, top.length = 19 ∧ bottom.length = 19 ∧
      ∀ d, randomart alg d type size = some (top ++ b!"\n" ++ (List.range 9).flatMap (row d) ++ bottom) := by
  have l1 := border_length (t := title type size) (Nat.le_succ_of_le (title_length _ _))
  have l2 := border_length (t := printed (b!"[" ++ alg ++ b!"]") width) (Nat.le_succ_of_le (printed_length _))
  refine ⟨_, _, l1, l2, fun d => ?_⟩
  obtain ⟨w, q, hc, hw⟩ := crawlAll_along d start_along
  rw [List.nil_append] at hw
  have hline : ∀ y, line (marked w) y = some (row d y) := by
    intro y
    unfold line
    rw [mapM_all (g := cell d y) fun x _ => marked_cell hw x y]
    rfl
  unfold randomart
  rw [hc]
  simp only []
  rw [mapM_all (g := row d) fun y _ => hline y]
  simp only []
  rw [if_neg, ← List.flatMap_def]
  · rfl
  · simp only [List.length_append, l1, l2, ← List.flatMap_def, List.length_flatMap, width_of_row, List.length_cons, List.length_nil]
    decide

/-- C139: pictures do not tell digests apart: the walk may go round a square in either direction. -/
theorem C139_same_picture (alg type l : Bytes) (size : Nat) : randomart alg (75 :: l) type size = randomart alg (30 :: l) type size := by
  obtain ⟨top, bottom, -, -, h⟩ := C139_picture alg type size
  have hv : ∃ r, visits (75 :: l) = [(9, 5), (8, 6), (7, 5), (8, 4)] ++ r ∧ visits (30 :: l) = [(7, 5), (8, 6), (9, 5), (8, 4)] ++ r :=
    ⟨walk (8, 4) (l.flatMap moves), rfl, rfl⟩
  obtain ⟨r, h1, h2⟩ := hv
  have hcell : ∀ y x, cell (75 :: l) y x = cell (30 :: l) y x := by
    intro y x
    unfold cell
    have hl : (visits (75 :: l)).getLastD (8, 4) = (visits (30 :: l)).getLastD (8, 4) := by
      rw [h1, h2]
      cases r <;> rfl
    have hc : (visits (75 :: l)).count (x, y) = (visits (30 :: l)).count (x, y) := by
      rw [h1, h2]
      simp only [List.count_append, List.count_cons, List.count_nil]
      omega
    rw [hl, hc]
  have hrow : row (75 :: l) = row (30 :: l) := by
    funext y
    unfold row
    rw [show cell (75 :: l) y = cell (30 :: l) y from funext (hcell y)]
  rw [h, h, hrow]

/-- C139, partial (but for a title of exactly 17 letters, see `Examples.C139_title_cut`): what the borders say: at the top the type and the size if that fits in 16, the type alone if only that does; at the bottom the algorithm. -/
theorem C139_borders_partial {alg d type s : Bytes} {size : Nat} (h : randomart alg d type size = some s) :
    (∀ t, ((t = b!"[" ++ type ++ b!" " ++ dec size ++ b!"]" ∧ t.length ≤ 16) ∨
        ((b!"[" ++ type ++ b!" " ++ dec size ++ b!"]").length > 17 ∧ t = b!"[" ++ type ++ b!"]" ∧ t.length ≤ 16)) →
      ∃ j k, s.take 19 = b!"+" ++ List.replicate j 45 ++ t ++ List.replicate k 45 ++ b!"+" ∧ j ≤ k ∧ k ≤ j + 1) ∧
    ((b!"[" ++ alg ++ b!"]").length ≤ 16 →
      ∃ j k, s.drop 200 = b!"+" ++ List.replicate j 45 ++ (b!"[" ++ alg ++ b!"]") ++ List.replicate k 45 ++ b!"+" ∧ j ≤ k ∧ k ≤ j + 1) := by
  have hs : ∃ rows : Bytes, rows.length = 180 ∧
      s = border (title type size) ++ b!"\n" ++ rows ++ border (printed (b!"[" ++ alg ++ b!"]") width) := by
    obtain ⟨top, bottom, l1, l2, e⟩ := C139_picture alg type size
    have e := e d
    rw [h] at e
    have hl : s.length = 219 := by
      rw [Option.some.inj e]
      simp only [List.length_append, l1, l2, List.length_flatMap, width_of_row, List.length_cons, List.length_nil]
      decide
    unfold randomart at h
    split at h
    · cases h
    · split at h
      · cases h
      · split at h
        · cases h
        · rename_i ls _ _
          have h := (Option.some.inj h).symm
          refine ⟨ls.flatten, ?_, h⟩
          have := congrArg List.length h
          have k1 := border_length (t := title type size) (Nat.le_succ_of_le (title_length _ _))
          have k2 := border_length (t := printed (b!"[" ++ alg ++ b!"]") width) (Nat.le_succ_of_le (printed_length _))
          simp only [List.length_append, k1, k2, hl, List.length_cons, List.length_nil] at this ⊢
          omega
  obtain ⟨rows, hr, rfl⟩ := hs
  have k1 := border_length (t := title type size) (Nat.le_succ_of_le (title_length _ _))
  have fits : ∀ {t : Bytes}, t.length ≤ 16 → printed t width = t := fun ht => List.take_of_length_le ht
  have shape : ∀ {t : Bytes}, t.length ≤ 16 →
      ∃ j k, border t = b!"+" ++ List.replicate j 45 ++ t ++ List.replicate k 45 ++ b!"+" ∧ j ≤ k ∧ k ≤ j + 1 := by
    intro t ht
    exact ⟨_, _, rfl, by simp only [width]; omega, by simp only [width]; omega⟩
  constructor
  · intro t ht
    have et : title type size = t ∧ t.length ≤ 16 := by
      unfold title
      rcases ht with ⟨rfl, hl⟩ | ⟨hb, rfl, hl⟩
      · rw [if_neg (by simp only [width]; omega)]
        exact ⟨fits hl, hl⟩
      · rw [if_pos (by simp only [width]; exact hb)]
        exact ⟨fits hl, hl⟩
    rw [List.append_assoc, List.append_assoc, List.take_left' k1, et.1]
    exact shape et.2
  · intro hl
    rw [List.drop_left' (by simp only [List.length_append, k1, hr, List.length_cons, List.length_nil]), fits hl]
    exact shape hl

end Verif.Finger
