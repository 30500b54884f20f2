/-
Ordered trees (openbsd-compat/sys-tree.h, `RB_*` macros).

The contents of a red-black tree are modelled by the list of its elements in order; a lookup descends
some binary tree with these elements.  How the tree is balanced is left open (`Shape`), so every theorem
holds for every balancing strategy.  Not modelled: node colours, rotations and pointers.
-/
namespace Verif.RB

inductive Tree (α : Type) | leaf | node (l : Tree α) (x : α) (r : Tree α)

/-- Elements in order (`RB_FOREACH`). -/
def Tree.toList : Tree α → List α
  | .leaf => []
  | .node l x r => l.toList ++ x :: r.toList

/-- A balancing strategy: some tree for each list of elements. -/
structure Shape (α : Type) where
  tree : List α → Tree α
  toList : ∀ l, (tree l).toList = l

/-- Result of a descent: an element comparing equal with its predecessors and successors, or the place
where the key would be inserted. -/
inductive Found (α : Type) | hit (pre : List α) (x : α) (post : List α) | miss (pre post : List α)

/-- The descent common to `RB_FIND`, `RB_NFIND` and `RB_INSERT` (sys-tree.h:600-611, 629-639, 650-660);
`cmp x` is the comparison of the key with element `x`. -/
def Tree.search (cmp : α → Int) : Tree α → List α → List α → Found α
  | .leaf, pre, post => .miss pre post
  | .node l x r, pre, post =>
    if cmp x < 0 then l.search cmp pre (x :: r.toList ++ post)
    else if cmp x > 0 then r.search cmp (pre ++ l.toList ++ [x]) post
    else .hit (pre ++ l.toList) x (r.toList ++ post)

/-- Look up a key. -/
def Shape.search (s : Shape α) (cmp : α → Int) (l : List α) : Found α := (s.tree l).search cmp [] []

/-- `RB_FIND(...) != NULL` -/
def Shape.mem (s : Shape α) (cmp : α → Int) (l : List α) : Bool :=
  match s.search cmp l with
  | .hit .. => true
  | .miss .. => false

/-- `RB_INSERT`: an element comparing equal is left in place. -/
def Shape.insert (s : Shape α) (cmp : α → Int) (l : List α) (x : α) : List α :=
  match s.search cmp l with
  | .hit .. => l
  | .miss pre post => pre ++ x :: post

/-- The list is in order with respect to the key: first elements below it, then equal ones, then above. -/
def Mono (cmp : α → Int) (l : List α) : Prop :=
  ∀ u x v, l = u ++ x :: v → (cmp x < 0 → ∀ y ∈ v, cmp y < 0) ∧ (cmp x > 0 → ∀ y ∈ u, cmp y > 0)

theorem search_spec (cmp : α → Int) (t : Tree α) : ∀ (pre post : List α),
    Mono cmp t.toList → (∀ y ∈ pre, cmp y > 0) → (∀ y ∈ post, cmp y < 0) →
    match t.search cmp pre post with
    | .hit u x v => pre ++ t.toList ++ post = u ++ x :: v ∧ cmp x = 0
    | .miss u v => pre ++ t.toList ++ post = u ++ v ∧ (∀ y ∈ u, cmp y > 0) ∧ (∀ y ∈ v, cmp y < 0) := by
  induction t with
  | leaf => intro pre post _ h1 h2; simp [Tree.search, Tree.toList]; exact ⟨h1, h2⟩
  | node l x r ihl ihr =>
    intro pre post hm h1 h2
    have hx := hm l.toList x r.toList rfl
    have hml : Mono cmp l.toList := by
      intro u y v h
      have := hm u y (v ++ x :: r.toList) (by simp [Tree.toList, h])
      exact ⟨fun hy z hz => this.1 hy z (by simp [hz]), this.2⟩
    have hmr : Mono cmp r.toList := by
      intro u y v h
      have := hm (l.toList ++ x :: u) y v (by simp [Tree.toList, h])
      exact ⟨this.1, fun hy z hz => this.2 hy z (by simp [hz])⟩
    unfold Tree.search
    by_cases c1 : cmp x < 0
    · rw [if_pos c1]
      have := ihl pre (x :: r.toList ++ post) hml h1 (by
        intro y hy
        simp only [List.cons_append, List.mem_cons, List.mem_append] at hy
        rcases hy with rfl | hy | hy
        · exact c1
        · exact hx.1 c1 y hy
        · exact h2 y hy)
      simpa [Tree.toList] using this
    · rw [if_neg c1]
      by_cases c2 : cmp x > 0
      · rw [if_pos c2]
        have := ihr (pre ++ l.toList ++ [x]) post hmr (by
          intro y hy
          simp only [List.mem_append, List.mem_singleton] at hy
          rcases hy with (hy | hy) | rfl
          · exact h1 y hy
          · exact hx.2 c2 y hy
          · exact c2) h2
        simpa [Tree.toList] using this
      · rw [if_neg c2]
        refine ⟨by simp [Tree.toList], by omega⟩

theorem Shape.search_spec (s : Shape α) (cmp : α → Int) (l : List α) (hm : Mono cmp l) :
    match s.search cmp l with
    | .hit u x v => l = u ++ x :: v ∧ cmp x = 0
    | .miss u v => l = u ++ v ∧ (∀ y ∈ u, cmp y > 0) ∧ (∀ y ∈ v, cmp y < 0) := by
  have := RB.search_spec cmp (s.tree l) [] [] (by rw [s.toList]; exact hm) (by simp) (by simp)
  rw [s.toList] at this
  simpa [Shape.search] using this

theorem Shape.mem_iff (s : Shape α) (cmp : α → Int) (l : List α) (hm : Mono cmp l) :
    s.mem cmp l = true ↔ ∃ x ∈ l, cmp x = 0 := by
  have := s.search_spec cmp l hm
  unfold Shape.mem
  cases h : s.search cmp l with
  | hit u x v =>
    rw [h] at this
    simp only [true_iff]
    exact ⟨x, by simp [this.1], this.2⟩
  | miss u v =>
    rw [h] at this
    simp only [Bool.false_eq_true, false_iff]
    rintro ⟨x, hx, h0⟩
    rw [this.1, List.mem_append] at hx
    rcases hx with hx | hx
    · have := this.2.1 x hx; omega
    · have := this.2.2 x hx; omega

/-! ### Byte strings in lexicographic order -/

/-- `strcmp` on C strings, and `blob_cmp` of krl.c:120-132 (shorter prefix first), up to sign. -/
def lexCmp : List UInt8 → List UInt8 → Int
  | [], [] => 0
  | [], _ :: _ => -1
  | _ :: _, [] => 1
  | x :: xs, y :: ys => if x = y then lexCmp xs ys else if x < y then -1 else 1

theorem lexCmp_eq : ∀ (a b : List UInt8), lexCmp a b = 0 ↔ a = b
  | [], [] => by simp [lexCmp]
  | [], _ :: _ => by simp [lexCmp]
  | _ :: _, [] => by simp [lexCmp]
  | x :: xs, y :: ys => by
    unfold lexCmp
    by_cases h : x = y
    · simp [h, lexCmp_eq xs ys]
    · simp only [h, if_false]; split <;> simp [h]

theorem lexCmp_neg : ∀ (a b : List UInt8), lexCmp a b < 0 ↔ lexCmp b a > 0
  | [], [] => by simp [lexCmp]
  | [], _ :: _ => by simp [lexCmp]
  | _ :: _, [] => by simp [lexCmp]
  | x :: xs, y :: ys => by
    unfold lexCmp
    by_cases h : x = y
    · simp [h, lexCmp_neg xs ys]
    · have h' : ¬ y = x := fun e => h e.symm
      simp only [h, h', if_false]
      have h1 : x.toNat ≠ y.toNat := fun e => h (UInt8.toNat_inj.1 e)
      by_cases h2 : x < y
      · have : ¬ y < x := by rw [UInt8.lt_iff_toNat_lt] at *; omega
        simp [h2, this]
      · have : y < x := by rw [UInt8.lt_iff_toNat_lt] at *; omega
        simp [h2, this]

theorem lexCmp_trans : ∀ (a b c : List UInt8), lexCmp a b < 0 → lexCmp b c < 0 → lexCmp a c < 0
  | [], [], _, h, _ => by simp [lexCmp] at h
  | [], _ :: _, [], _, h => by simp [lexCmp] at h
  | [], _ :: _, _ :: _, _, _ => by simp [lexCmp]
  | _ :: _, [], _, h, _ => by simp [lexCmp] at h
  | _ :: _, _ :: _, [], _, h => by simp [lexCmp] at h
  | x :: xs, y :: ys, z :: zs, h1, h2 => by
    unfold lexCmp at h1 h2 ⊢
    by_cases e1 : x = y
    · subst e1
      by_cases e2 : x = z
      · subst e2
        simp only [if_true] at *
        exact lexCmp_trans xs ys zs h1 h2
      · simp only [e2, if_false, if_true] at *
        exact h2
    · by_cases e2 : y = z
      · subst e2
        simp only [e1, if_false, if_true] at *
        exact h1
      · simp only [e1, e2, if_false] at h1 h2
        have h1' : x < y := by
          apply Classical.byContradiction; intro hc; simp [hc] at h1
        have h2' : y < z := by
          apply Classical.byContradiction; intro hc; simp [hc] at h2
        have h3 : x < z := by rw [UInt8.lt_iff_toNat_lt] at *; omega
        have h4 : x ≠ z := by
          rintro rfl; rw [UInt8.lt_iff_toNat_lt] at *; omega
        simp [h4, h3]

/-- Strictly increasing. -/
def Sorted (l : List (List UInt8)) : Prop := l.Pairwise (fun a b => lexCmp a b < 0)

theorem Sorted.mono {l : List (List UInt8)} (h : Sorted l) (k : List UInt8) : Mono (lexCmp k) l := by
  intro u x v hl
  rw [hl] at h
  unfold Sorted at h
  rw [List.pairwise_append] at h
  obtain ⟨_, h2, h3⟩ := h
  rw [List.pairwise_cons] at h2
  constructor
  · intro hx y hy
    exact lexCmp_trans k x y hx (h2.1 y hy)
  · intro hx y hy
    have h4 := h3 y hy x (by simp)
    have := lexCmp_trans y x k h4 ((lexCmp_neg x k).2 hx)
    exact (lexCmp_neg y k).1 this

theorem insert_sorted (s : Shape (List UInt8)) {l : List (List UInt8)} (h : Sorted l) (k : List UInt8) :
    Sorted (s.insert (lexCmp k) l k) ∧ ∀ y, y ∈ s.insert (lexCmp k) l k ↔ y = k ∨ y ∈ l := by
  have hs := s.search_spec (lexCmp k) l (h.mono k)
  unfold Shape.insert
  cases hc : s.search (lexCmp k) l with
  | hit u x v =>
    rw [hc] at hs
    refine ⟨h, fun y => ?_⟩
    have : k = x := (lexCmp_eq k x).1 hs.2
    constructor
    · exact Or.inr
    · rintro (rfl | h)
      · rw [hs.1, this]; simp
      · exact h
  | miss u v =>
    rw [hc] at hs
    obtain ⟨h1, h2, h3⟩ := hs
    refine ⟨?_, fun y => ?_⟩
    · have hp := h
      rw [h1] at hp
      unfold Sorted at hp ⊢
      rw [List.pairwise_append] at hp ⊢
      refine ⟨hp.1, List.pairwise_cons.2 ⟨fun y hy => h3 y hy, hp.2.1⟩, fun a ha b hb => ?_⟩
      rcases List.mem_cons.1 hb with rfl | hb
      · exact (lexCmp_neg a b).2 (h2 a ha)
      · exact hp.2.2 a ha b hb
    · rw [h1]; simp only [List.mem_append, List.mem_cons]
      constructor
      · rintro (h | h | h) <;> simp [h]
      · rintro (h | h | h) <;> simp [h]

theorem mem_sorted (s : Shape (List UInt8)) {l : List (List UInt8)} (h : Sorted l) (k : List UInt8) :
    s.mem (lexCmp k) l = true ↔ k ∈ l := by
  rw [s.mem_iff _ _ (h.mono k)]
  constructor
  · rintro ⟨x, hx, h0⟩
    rw [(lexCmp_eq k x).1 h0]; exact hx
  · intro hk
    exact ⟨k, hk, (lexCmp_eq k k).2 rfl⟩

/-- A concrete strategy (every tree a right spine), for examples. -/
def spine : Shape α where
  tree := fun l => l.foldr (fun x t => .node .leaf x t) .leaf
  toList := by
    intro l
    induction l with
    | nil => rfl
    | cons x l ih => simp [Tree.toList] at ih ⊢; exact ih

end Verif.RB
