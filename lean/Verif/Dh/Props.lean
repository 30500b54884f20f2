/-
C87: the groups offered for group exchange, and the values accepted from the peer.
-/
import Verif.Dh.Spec

namespace Verif.Dh
open Verif Text
open _root_.Verif.Exch (numBits)

/-! ### The first pass -/

structure Inv (want : Nat) (seen : List Nat) (b : Nat × Nat) : Prop where
  none : seen = [] → b = (0, 0)
  serves : seen ≠ [] → Serves want seen b.1
  count : b.2 = seen.countP (· == b.1)

theorem inv_step {min want max : Nat} (hmin : 0 < min) (hwant : 0 < want) {seen : List Nat} {b : Nat × Nat}
    (h : Inv want seen b) (n : Nat) (hn : min ≤ n ∧ n ≤ max) :
    Inv want (seen ++ [n]) (consider min want max b n) := by
  have hb : seen = [] ∨ seen ≠ [] := by cases seen <;> simp
  unfold consider
  rw [if_neg (by omega)]
  by_cases hc : (n > want ∧ n < b.1) ∨ (n > b.1 ∧ b.1 < want)
  · rw [if_pos hc]
    refine ⟨fun h0 => by simp at h0, fun _ => ⟨by simp, ?_, ?_⟩, ?_⟩
    · intro hw x hx
      show x ≤ n
      have hw : n < want := hw
      rcases List.mem_append.mp hx with hx | hx
      · rcases hb with hb | hb
        · rw [hb] at hx; simp at hx
        · have := (h.serves hb).below (by omega) x hx
          omega
      · have := List.mem_singleton.mp hx; omega
    · intro hw x hx hwx
      show n ≤ x
      have hw : want < n := hw
      rcases List.mem_append.mp hx with hx | hx
      · rcases hb with hb | hb
        · rw [hb] at hx; simp at hx
        · rcases hc with hc | hc
          · have := (h.serves hb).above (by omega) x hx hwx
            omega
          · have := (h.serves hb).below hc.2 x hx
            omega
      · have := List.mem_singleton.mp hx; omega
    · show 1 = (seen ++ [n]).countP (· == n)
      have h0 : seen.countP (· == n) = 0 := by
        rw [List.countP_eq_zero]
        intro x hx hxn
        have hxn : x = n := by simpa using hxn
        subst hxn
        rcases hb with hb | hb
        · rw [hb] at hx; simp at hx
        · rcases hc with hc | hc
          · have := (h.serves hb).above (by omega) x hx hc.1
            omega
          · have := (h.serves hb).below hc.2 x hx
            omega
      rw [List.countP_append, h0]; simp
  · rw [if_neg hc]
    have hne : seen ≠ [] := by
      intro h0
      have := h.none h0
      rw [this] at hc
      simp only at hc
      exact hc (.inr ⟨by omega, hwant⟩)
    have hs := h.serves hne
    by_cases hnb : n = b.1
    · rw [if_pos hnb]
      refine ⟨fun h0 => by simp at h0, fun _ => ⟨by simp [hnb], ?_, ?_⟩, ?_⟩
      · intro hw x hx
        show x ≤ b.1
        rcases List.mem_append.mp hx with hx | hx
        · exact hs.below hw x hx
        · have := List.mem_singleton.mp hx; omega
      · intro hw x hx hwx
        show b.1 ≤ x
        rcases List.mem_append.mp hx with hx | hx
        · exact hs.above hw x hx hwx
        · have := List.mem_singleton.mp hx; omega
      · show b.2 + 1 = (seen ++ [n]).countP (· == b.1)
        rw [List.countP_append, ← h.count]; simp [hnb]
    · rw [if_neg hnb]
      refine ⟨fun h0 => by simp at h0, fun _ => ⟨List.mem_append_left _ hs.mem, ?_, ?_⟩, ?_⟩
      · intro hw x hx
        rcases List.mem_append.mp hx with hx | hx
        · exact hs.below hw x hx
        · have := List.mem_singleton.mp hx; omega
      · intro hw x hx hwx
        rcases List.mem_append.mp hx with hx | hx
        · exact hs.above hw x hx hwx
        · have := List.mem_singleton.mp hx; omega
      · rw [List.countP_append, ← h.count]; simp [hnb]

theorem inv_skip {min want max : Nat} {b : Nat × Nat} {n : Nat} (hn : ¬ (min ≤ n ∧ n ≤ max)) :
    consider min want max b n = b := by
  unfold consider
  rw [if_pos (by omega)]

theorem inv_fold {min want max : Nat} (hmin : 0 < min) (hwant : 0 < want) (gs : List Group) (seen : List Nat)
    (b : Nat × Nat) (h : Inv want seen b) :
    Inv want (seen ++ fitting min max gs) (gs.foldl (fun b g => consider min want max b g.size) b) := by
  induction gs generalizing seen b with
  | nil => simpa [fitting] using h
  | cons g gs ih =>
    rw [List.foldl_cons]
    by_cases hn : min ≤ g.size ∧ g.size ≤ max
    · have := ih (seen ++ [g.size]) _ (inv_step hmin hwant h g.size hn)
      have e : fitting min max (g :: gs) = g.size :: fitting min max gs := by
        unfold fitting; rw [List.map_cons, List.filter_cons_of_pos (by simpa using hn)]
      rw [e]; simpa using this
    · rw [inv_skip hn]
      have e : fitting min max (g :: gs) = fitting min max gs := by
        unfold fitting; rw [List.map_cons, List.filter_cons_of_neg (by simpa using hn)]
      rw [e]; exact ih seen b h

theorem inv_best {min want max : Nat} (hmin : 0 < min) (hwant : 0 < want) (gs : List Group) :
    Inv want (fitting min max gs) (best min want max gs) := by
  have := inv_fold (max := max) hmin hwant gs [] (0, 0) ⟨fun _ => rfl, fun h => absurd rfl h, rfl⟩
  simpa [best] using this

theorem mem_fitting {min max n : Nat} {gs : List Group} :
    n ∈ fitting min max gs ↔ (∃ g ∈ gs, g.size = n) ∧ min ≤ n ∧ n ≤ max := by
  unfold fitting
  simp [List.mem_filter]

theorem count_pos {min want max : Nat} (hmin : 0 < min) (hwant : 0 < want) (gs : List Group) :
    (best min want max gs).2 = 0 ↔ fitting min max gs = [] := by
  have h := inv_best (max := max) hmin hwant gs
  constructor
  · intro h0
    by_cases hne : fitting min max gs = []
    · exact hne
    · have hm := (h.serves hne).mem
      rw [h.count, List.countP_eq_zero] at h0
      exact absurd (by simp) (h0 _ hm)
  · intro h0; rw [h.none h0]

/-! ### The second pass -/

/-- The groups of the size chosen, in the order of the file. -/
def ofSize (min max b : Nat) (gs : List Group) : List Group :=
  gs.filter fun g => decide ((min ≤ g.size ∧ g.size ≤ max) ∧ g.size = b)

theorem pick_eq (min max b which : Nat) (gs : List Group) :
    pick min max b which gs = (ofSize min max b gs)[which]? := by
  induction gs generalizing which with
  | nil => simp [pick, ofSize]
  | cons g gs ih =>
    unfold pick
    by_cases hc : (g.size > max ∨ g.size < min) ∨ g.size ≠ b
    · rw [if_pos hc, ih]
      congr 1
      unfold ofSize
      rw [List.filter_cons_of_neg (by simp only [decide_eq_true_eq]; omega)]
    · rw [if_neg hc]
      have e : ofSize min max b (g :: gs) = g :: ofSize min max b gs := by
        unfold ofSize
        rw [List.filter_cons_of_pos (by simp only [decide_eq_true_eq]; omega)]
      rw [e]
      by_cases h0 : which = 0
      · rw [if_pos h0, h0]; rfl
      · rw [if_neg h0, ih]
        obtain ⟨w, rfl⟩ : ∃ w, which = w + 1 := ⟨which - 1, by omega⟩
        simp

theorem count_ofSize {min max b : Nat} (gs : List Group) (hb : min ≤ b ∧ b ≤ max) :
    (fitting min max gs).countP (· == b) = (ofSize min max b gs).length := by
  induction gs with
  | nil => rfl
  | cons g gs ih =>
    unfold fitting ofSize at *
    rw [List.map_cons]
    by_cases hn : min ≤ g.size ∧ g.size ≤ max
    · rw [List.filter_cons_of_pos (by simpa using hn), List.countP_cons, ih]
      by_cases he : g.size = b
      · rw [List.filter_cons_of_pos (by simp only [decide_eq_true_eq]; exact ⟨hn, he⟩)]; simp [he]
      · rw [List.filter_cons_of_neg (by simp only [decide_eq_true_eq]; omega)]; simp [he]
    · rw [List.filter_cons_of_neg (by simpa using hn), ih,
        List.filter_cons_of_neg (by simp only [decide_eq_true_eq]; omega)]

/-! ### C87: the choice -/

/-- A group taken from the file is one that a line of it describes, of an acceptable size, and no usable line
serves the wish better. -/
theorem C87_choice_partial {min want max : Nat} (hmin : 0 < min) (hwant : 0 < want) {file : List Bytes} {rnd : Nat → Nat}
    {g : Group} (h : chooseDh min want max (some file) file rnd = .listed g) :
    (∃ line ∈ file, parsePrime line = some g) ∧ Fits min max g.size ∧
      Serves want (fitting min max (file.filterMap parsePrime)) g.size := by
  have hi := inv_best (max := max) hmin hwant (file.filterMap parsePrime)
  have hc := count_pos (max := max) hmin hwant (file.filterMap parsePrime)
  unfold chooseDh at h
  simp only at h
  generalize hb : best min want max (file.filterMap parsePrime) = b at h hi hc
  obtain ⟨b, n⟩ := b
  simp only at h hc
  by_cases h0 : n = 0
  · rw [if_pos h0] at h; cases h
  · rw [if_neg h0, pick_eq] at h
    split at h
    · rename_i g' hg
      cases h
      have hm := List.mem_of_getElem? hg
      unfold ofSize at hm
      rw [List.mem_filter] at hm
      obtain ⟨h1, h2⟩ := hm
      have h2 : (min ≤ g.size ∧ g.size ≤ max) ∧ g.size = b := by simpa using h2
      obtain ⟨line, hl, hp⟩ := List.mem_filterMap.mp h1
      refine ⟨⟨line, hl, hp⟩, h2.1, ?_⟩
      rw [h2.2]
      exact hi.serves fun hn => h0 (hc.mpr hn)
    · unfold fallback at h; split at h <;> (try split at h) <;> cases h

/-- A request is refused exactly if no usable line is of an acceptable size. -/
theorem C87_refused {min want max : Nat} (hmin : 0 < min) (hwant : 0 < want) (file second : List Bytes)
    (rnd : Nat → Nat) :
    chooseDh min want max (some file) second rnd = .refused ↔
      ¬ ∃ line ∈ file, ∃ g, parsePrime line = some g ∧ Fits min max g.size := by
  have hc := count_pos (max := max) hmin hwant (file.filterMap parsePrime)
  have hf : fitting min max (file.filterMap parsePrime) = [] ↔
      ¬ ∃ line ∈ file, ∃ g, parsePrime line = some g ∧ Fits min max g.size := by
    rw [List.eq_nil_iff_forall_not_mem]
    constructor
    · rintro h ⟨line, hl, g, hg, hs⟩
      exact h g.size (mem_fitting.mpr ⟨⟨g, List.mem_filterMap.mpr ⟨line, hl, hg⟩, rfl⟩, hs⟩)
    · intro h n hn
      obtain ⟨⟨g, hg, rfl⟩, hs⟩ := mem_fitting.mp hn
      obtain ⟨line, hl, hp⟩ := List.mem_filterMap.mp hg
      exact h ⟨line, hl, g, hp, hs⟩
  rw [← hf, ← hc]
  unfold chooseDh
  simp only
  generalize best min want max (file.filterMap parsePrime) = b
  obtain ⟨b, n⟩ := b
  simp only
  by_cases h0 : n = 0
  · rw [if_pos h0]; simp [h0]
  · rw [if_neg h0]
    constructor
    · intro h
      split at h
      · cases h
      · unfold fallback at h; split at h <;> (try split at h) <;> cases h
    · intro h; exact absurd h h0

/-- Whatever group of the size chosen the file holds, it can be drawn: there are as many numbers to draw from as
groups, each drawing a different line.  If the file stays as it is, no fixed group is used. -/
theorem C87_any {min want max : Nat} (hmin : 0 < min) (hwant : 0 < want) (file : List Bytes)
    (hsome : ∃ line ∈ file, ∃ g, parsePrime line = some g ∧ Fits min max g.size) :
    ∃ b, ∃ gs : List Group, gs = (file.filterMap parsePrime).filter (fun g => g.size == b) ∧ 0 < gs.length ∧
      ∀ rnd : Nat → Nat, rnd gs.length < gs.length →
        ∃ g, gs[rnd gs.length]? = some g ∧ chooseDh min want max (some file) file rnd = .listed g := by
  have hi := inv_best (max := max) hmin hwant (file.filterMap parsePrime)
  obtain ⟨line, hl, g, hg, hs⟩ := hsome
  have hne : fitting min max (file.filterMap parsePrime) ≠ [] :=
    List.ne_nil_of_mem (mem_fitting.mpr ⟨⟨g, List.mem_filterMap.mpr ⟨line, hl, hg⟩, rfl⟩, hs⟩)
  have hb := (mem_fitting.mp (hi.serves hne).mem).2
  have hcount := hi.count
  rw [count_ofSize _ hb] at hcount
  have hpos : (best min want max (file.filterMap parsePrime)).2 ≠ 0 := fun h0 =>
    hne ((count_pos hmin hwant _).mp h0)
  have e : ofSize min max (best min want max (file.filterMap parsePrime)).1 (file.filterMap parsePrime) =
      (file.filterMap parsePrime).filter fun g => g.size == (best min want max (file.filterMap parsePrime)).1 := by
    unfold ofSize
    apply List.filter_congr
    intro x _
    by_cases hx : x.size = (best min want max (file.filterMap parsePrime)).1
    · simp [hx, hb.1, hb.2]
    · simp [hx]
  refine ⟨_, _, e, by omega, ?_⟩
  intro rnd hr
  rw [← hcount] at hr ⊢
  have hlt := hr
  rw [hcount] at hlt
  rw [List.getElem?_eq_getElem (by rw [← hcount]; exact hr)]
  refine ⟨_, rfl, ?_⟩
  unfold chooseDh
  simp only
  rw [if_neg hpos, pick_eq, List.getElem?_eq_getElem (by rw [← hcount]; exact hr)]

theorem exact_stays {min want max n : Nat} (gs : List Group) :
    (gs.foldl (fun b g => consider min want max b g.size) (want, n)).1 = want := by
  induction gs generalizing n with
  | nil => rfl
  | cons g gs ih =>
    rw [List.foldl_cons]
    unfold consider
    by_cases h1 : g.size > max ∨ g.size < min
    · rw [if_pos h1]; exact ih
    · rw [if_neg h1, if_neg (by simp only; omega)]
      split
      · exact ih
      · exact ih

/-- An exact match is taken if no larger acceptable group stands before it. -/
theorem C87_exact {min want max : Nat} (hmin : 0 < min) (hwant : min ≤ want ∧ want ≤ max) (before after : List Group)
    (g : Group) (hg : g.size = want) (hb : ∀ x ∈ before, Fits min max x.size → x.size ≤ want) :
    (best min want max (before ++ g :: after)).1 = want := by
  have hi := inv_best (max := max) hmin (by omega : 0 < want) before
  unfold best at hi ⊢
  rw [List.foldl_append, List.foldl_cons]
  generalize before.foldl (fun b g => consider min want max b g.size) (0, 0) = b at hi
  have hle : b.1 ≤ want := by
    by_cases h0 : fitting min max before = []
    · rw [hi.none h0]; exact Nat.zero_le _
    · obtain ⟨⟨x, hx, he⟩, hf⟩ := mem_fitting.mp (hi.serves h0).mem
      rw [← he]; exact hb x hx (by rw [he]; exact hf)
  have e : ∃ n, consider min want max b g.size = (want, n) := by
    unfold consider
    rw [hg, if_neg (by omega)]
    by_cases hlt : b.1 < want
    · rw [if_pos (.inr ⟨hlt, hlt⟩)]; exact ⟨1, rfl⟩
    · have : b.1 = want := by omega
      rw [if_neg (by omega), if_pos this.symm, this]; exact ⟨_, rfl⟩
  obtain ⟨n, e⟩ := e
  rw [e]; exact exact_stays after

/-- If the usable lines are in ascending order, as in the file delivered, the smallest acceptable size reaching the
wish is chosen if there is one. -/
theorem C87_ascending {min want max : Nat} (hmin : 0 < min) (hwant : min ≤ want ∧ want ≤ max) {gs : List Group}
    (hs : (gs.map Group.size).Pairwise (· ≤ ·)) (h : ∃ g ∈ gs, want ≤ g.size ∧ g.size ≤ max) :
    want ≤ (best min want max gs).1 ∧ ∀ g ∈ gs, Fits min max g.size → want ≤ g.size → (best min want max gs).1 ≤ g.size := by
  have hi := inv_best (max := max) hmin (by omega : 0 < want) gs
  obtain ⟨g, hg, hw⟩ := h
  have hne : fitting min max gs ≠ [] := List.ne_nil_of_mem (mem_fitting.mpr ⟨⟨g, hg, rfl⟩, by omega⟩)
  have hv := hi.serves hne
  have h1 : want ≤ (best min want max gs).1 := by
    by_cases hc : want ≤ (best min want max gs).1
    · exact hc
    · have := hv.below (by omega) g.size (mem_fitting.mpr ⟨⟨g, hg, rfl⟩, by omega⟩)
      omega
  refine ⟨h1, fun x hx hf hwx => ?_⟩
  by_cases he : want = x.size
  · obtain ⟨l1, l2, e⟩ := List.append_of_mem hx
    have hle : ∀ y ∈ l1, Fits min max y.size → y.size ≤ want := by
      intro y hy _
      rw [e, List.map_append, List.pairwise_append] at hs
      have := hs.2.2 y.size (List.mem_map_of_mem hy) x.size (by simp)
      omega
    rw [e, C87_exact hmin hwant l1 l2 x he.symm hle]; omega
  · by_cases hb : want < (best min want max gs).1
    · exact hv.above hb x.size (mem_fitting.mpr ⟨⟨x, hx, rfl⟩, hf⟩) (by omega)
    · omega

/-! ### The fixed groups -/

/-- Without a file one of three fixed groups is used. -/
theorem C87_fallback_partial (min want max : Nat) (second : List Bytes) (rnd : Nat → Nat) :
    ∃ n, chooseDh min want max none second rnd = .fixed n ∧ (n = 14 ∨ n = 16 ∨ n = 18) := by
  unfold chooseDh fallback
  simp only
  by_cases h1 : max < 3072
  · rw [if_pos h1]; exact ⟨14, rfl, .inl rfl⟩
  · rw [if_neg h1]
    by_cases h2 : max < 6144
    · rw [if_pos h2]; exact ⟨16, rfl, .inr (.inl rfl)⟩
    · rw [if_neg h2]; exact ⟨18, rfl, .inr (.inr rfl)⟩

/-- Not so: a fixed group need not be within what the client accepts. -/
theorem C87_fallback_false :
    ¬ ∀ (min want max n : Nat), min ≤ want → want ≤ max → 2048 ≤ min → max ≤ 8192 →
      chooseDh min want max none [] (fun _ => 0) = .fixed n → Fits min max (fixedBits n) := by
  intro h
  have := (h 2048 3072 3072 16 (by decide) (by decide) (by decide) (by decide) (by decide)).2
  revert this; decide

/-- Not so: an exact match is not always preferred; a larger group in front of it wins. -/
theorem C87_exact_false :
    ¬ ∀ (min want max : Nat) (gs : List Group), 0 < min → min ≤ want → want ≤ max →
      (∃ g ∈ gs, g.size = want) → (best min want max gs).1 = want := by
  intro h
  have := h 2048 2048 8192 [⟨3072, 2, 5⟩, ⟨2048, 2, 5⟩] (by decide) (by decide) (by decide) ⟨⟨2048, 2, 5⟩, by simp, rfl⟩
  revert this; decide

/-- The size asked for by the client grows with the strength wanted, and is acceptable to every server. -/
theorem C87_estimate {a b : Nat} (h : a ≤ b) : estimate a ≤ estimate b ∧ Fits 2048 8192 (estimate a) := by
  unfold estimate Fits
  refine ⟨?_, ?_, ?_⟩ <;> (repeat' split) <;> omega

/-- The wish a client expresses is the length NIST recommends for the strength, and the longest RFC 4419 recommends if
that is more than it. -/
theorem C87_wish (bits : Nat) : (bits ≤ 192 → Offers bits (estimate bits)) ∧ (192 < bits → estimate bits = 8192) := by
  refine ⟨fun h => ?_, fun h => ?_⟩
  · by_cases h1 : bits ≤ 112
    · have e : estimate bits = 2048 := by unfold estimate; rw [if_pos h1]
      rw [e]
      exact ⟨⟨(2048, 112), by simp [nist], rfl, h1⟩, fun _ _ _ h => h⟩
    · by_cases h2 : bits ≤ 128
      · have e : estimate bits = 3072 := by unfold estimate; rw [if_neg h1, if_pos h2]
        rw [e]
        refine ⟨⟨(3072, 128), by simp [nist], rfl, h2⟩, fun e he hb _ => ?_⟩
        simp only [nist, List.mem_cons, List.not_mem_nil, or_false] at he
        rcases he with rfl | rfl | rfl | rfl | rfl <;> simp only at hb ⊢ <;> omega
      · have e : estimate bits = 7680 := by unfold estimate; rw [if_neg h1, if_neg h2, if_pos h]
        rw [e]
        refine ⟨⟨(7680, 192), by simp [nist], rfl, h⟩, fun e he hb _ => ?_⟩
        simp only [nist, List.mem_cons, List.not_mem_nil, or_false] at he
        rcases he with rfl | rfl | rfl | rfl | rfl <;> simp only at hb ⊢ <;> omega
  · unfold estimate
    rw [if_neg (by omega), if_neg (by omega), if_neg (by omega)]

end Verif.Dh
