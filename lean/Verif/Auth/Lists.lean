/-
Method lists: removing a method from the front of the text is removing a step, and a list is used up
exactly when its steps have been fulfilled in order.
-/
import Verif.Auth.Spec

namespace Verif.Auth

open Spec

/-! ### Text -/

/-- what follows a token in a list: nothing, or a comma -/
def Tail (r : Bytes) : Prop := r = [] ∨ ∃ r', r = 44 :: r'

theorem atEnd_tail {r : Bytes} (h : Tail r) (m : LMatch) : atEnd r m = m := by
  rcases h with rfl | ⟨r', rfl⟩ <;> simp [atEnd]

theorem atEnd_cons {x : UInt8} {r : Bytes} (h : x ≠ 44) (m : LMatch) : atEnd (x :: r) m = .none := by
  simp [atEnd, h]

/-- `strncmp(a, b, strlen(b)) == 0` for a token followed by the rest of the list -/
theorem take_token {t r s : Bytes} (hr : Tail r) (hs : 44 ∉ s) (h : (t ++ r).take s.length = s) :
    ∃ u, t = s ++ u := by
  induction s generalizing t with
  | nil => exact ⟨t, rfl⟩
  | cons x xs ih =>
    simp only [List.mem_cons, not_or] at hs
    cases t with
    | nil =>
      rcases hr with rfl | ⟨r', rfl⟩
      · simp at h
      · simp at h
        exact absurd h.1 hs.1
    | cons y ys =>
      simp at h
      obtain ⟨u, hu⟩ := ih hs.2 h.2
      exact ⟨u, by simp [h.1, hu]⟩

theorem mem_names {m : Bytes} : m ∈ methodNames ↔ Known m := by
  simp [methodNames, Known]

theorem known_clean {m : Bytes} (h : Known m) : 44 ∉ m ∧ 58 ∉ m ∧ m ≠ [] := by
  rcases h with rfl | rfl | rfl | rfl | rfl <;> decide

theorem takeWhile_plain {m : Bytes} (h : 58 ∉ m) : m.takeWhile (· ≠ 58) = m := by
  induction m with
  | nil => rfl
  | cons x xs ih =>
    simp only [List.mem_cons, not_or] at h
    have hx : x ≠ 58 := Ne.symm h.1
    have := ih h.2
    simp [hx] at this ⊢
    exact this

theorem stepOf_plain {m : Bytes} (h : 58 ∉ m) : stepOf m = (m, none) := by
  simp only [stepOf, takeWhile_plain h]
  simp [h]

theorem stepOf_colon {m u : Bytes} (h : 58 ∉ m) : stepOf (m ++ 58 :: u) = (m, some u) := by
  have h1 : (m ++ 58 :: u).takeWhile (· ≠ 58) = m := by
    induction m with
    | nil => simp
    | cons x xs ih =>
      simp only [List.mem_cons, not_or] at h
      have : x ≠ 58 := Ne.symm h.1
      simp only [List.cons_append, List.takeWhile_cons]
      simp [this]
      simpa using ih h.2
  have h2 : (m ++ 58 :: u).dropWhile (· ≠ 58) = 58 :: u := by
    clear h1
    induction m with
    | nil => simp
    | cons x xs ih =>
      simp only [List.mem_cons, not_or] at h
      have : x ≠ 58 := Ne.symm h.1
      simp only [List.cons_append, List.dropWhile_cons]
      simp [this]
      simpa using ih h.2
  simp only [stepOf, h1, h2]
  simp

theorem cut_at_colon {t : Bytes} (h : 58 ∈ t) :
    t = t.takeWhile (· ≠ 58) ++ 58 :: (t.dropWhile (· ≠ 58)).drop 1 := by
  induction t with
  | nil => simp at h
  | cons x xs ih =>
    by_cases hx : x = 58
    · simp [hx]
    · have hxs : 58 ∈ xs := by
        rcases List.mem_cons.1 h with h | h
        · exact absurd h.symm hx
        · exact h
      have := ih hxs
      simp [hx] at this ⊢
      exact this

theorem stepOf_name_prefix (t : Bytes) :
    t = (stepOf t).1 ∧ (stepOf t).2 = none ∨ ∃ u, t = (stepOf t).1 ++ 58 :: u ∧ (stepOf t).2 = some u := by
  by_cases h : 58 ∈ t
  · right
    refine ⟨(t.dropWhile (fun x => decide (x ≠ 58))).drop 1, cut_at_colon h, ?_⟩
    simp only [stepOf, if_pos h]
  · left
    simp [stepOf_plain h]

theorem listStartsWith_name {t r m : Bytes} {sub : Option Bytes} (ht : 44 ∉ t) (hr : Tail r)
    (hm : 44 ∉ m ∧ 58 ∉ m) (hs : ∀ s, sub = some s → 44 ∉ s) :
    (listStartsWith (t ++ r) m sub = .none ↔
      ¬ ((stepOf t).1 = m ∧ (sub = none ∨ (stepOf t).2 = none ∨ (stepOf t).2 = sub))) ∧
    (listStartsWith (t ++ r) m sub = .method → (stepOf t).1 = m ∧ (stepOf t).2 = none) ∧
    (listStartsWith (t ++ r) m sub = .both →
      (stepOf t).1 = m ∧ ∃ s, sub = some s ∧ (stepOf t).2 = some s) ∧
    (listStartsWith (t ++ r) m sub = .part →
      (stepOf t).1 = m ∧ sub = none ∧ (stepOf t).2 ≠ none) := by
  unfold listStartsWith
  by_cases h : (t ++ r).take m.length = m
  · rw [if_neg (by simp [h])]
    obtain ⟨u, rfl⟩ := take_token hr hm.1 h
    have hd : (m ++ u ++ r).drop m.length = u ++ r := by simp
    rw [hd]
    cases u with
    | nil =>
      have e : stepOf (m ++ []) = (m, none) := by simp [stepOf_plain hm.2]
      rw [e]
      rcases hr with rfl | ⟨r', rfl⟩ <;> simp [afterName, atEnd]
    | cons x xs =>
      by_cases hx : x = 58
      · subst hx
        rw [stepOf_colon hm.2]
        cases sub with
        | none => simp [afterName, afterColon]
        | some s =>
          have hs' := hs s rfl
          simp only [List.cons_append, afterName, if_true, afterColon]
          by_cases h2 : (xs ++ r).take s.length = s
          · rw [if_neg (by simp [h2])]
            obtain ⟨v, rfl⟩ := take_token hr hs' h2
            have hd2 : (s ++ v ++ r).drop s.length = v ++ r := by simp
            rw [hd2]
            cases v with
            | nil => rw [List.nil_append, atEnd_tail hr]; simp
            | cons y ys =>
              have hy : y ≠ 44 := fun e => ht (by simp [e])
              rw [List.cons_append, atEnd_cons hy]
              simp
          · rw [if_pos (by simpa using h2)]
            have : xs ≠ s := fun e => h2 (by simp [e])
            simp [this]
      · have hne : (stepOf (m ++ x :: xs)).1 ≠ m := by
          intro e
          rcases stepOf_name_prefix (m ++ x :: xs) with h3 | ⟨v, h3, _⟩
          · rw [e] at h3
            have := h3.1
            simp at this
          · rw [e] at h3
            have := List.append_cancel_left h3
            simp at this
            exact hx this.1
        have hc : x ≠ 44 := fun e => ht (by simp [e])
        have hl : afterName (x :: xs ++ r) sub = .none := by
          simp only [List.cons_append, afterName]
          rw [if_neg hx, atEnd_cons hc]
        rw [hl]
        simp [hne]
  · rw [if_pos (by simpa using h)]
    have hne : (stepOf t).1 ≠ m := by
      intro e
      apply h
      rcases stepOf_name_prefix t with h3 | ⟨v, h3, _⟩
      · rw [e] at h3
        rw [h3.1]; simp
      · rw [e] at h3
        rw [h3]; simp
    simp [hne]

/-- text of a list of steps -/
theorem join_tail (t : Bytes) (ts : List Bytes) :
    ∃ r, Text.join 44 (t :: ts) = t ++ r ∧ Tail r ∧ skipComma r = Text.join 44 ts := by
  cases ts with
  | nil => exact ⟨[], by simp [Text.join], Or.inl rfl, rfl⟩
  | cons a ts => exact ⟨44 :: Text.join 44 (a :: ts), rfl, Or.inr ⟨_, rfl⟩, rfl⟩

open Classical in
/-- **Removing a method from the text removes the first step.** -/
theorem removeMethod_join {t : Bytes} {ts : List Bytes} {m : Bytes} {sub : Option Bytes}
    (ht : 44 ∉ t) (hm : 44 ∉ m ∧ 58 ∉ m) (hs : ∀ s, sub = some s → 44 ∉ s) :
    removeMethod (Text.join 44 (t :: ts)) m sub =
      if Sat t (m, sub) then some (Text.join 44 ts) else none := by
  obtain ⟨r, he, hr, hk⟩ := join_tail t ts
  rw [he]
  obtain ⟨h1, h2, h3, h4⟩ := listStartsWith_name (sub := sub) ht hr hm hs
  unfold removeMethod
  cases hl : listStartsWith (t ++ r) m sub with
  | none =>
    have := h1.1 hl
    rw [if_neg]
    rintro ⟨e1, e2⟩
    exact this ⟨e1.symm, Or.inr e2⟩
  | method =>
    obtain ⟨e1, e2⟩ := h2 hl
    rw [if_pos ⟨e1.symm, Or.inl e2⟩]
    rcases stepOf_name_prefix t with h | ⟨u, _, h⟩
    · rw [e1] at h
      obtain ⟨rfl, _⟩ := h
      simp [hk]
    · rw [e2] at h; simp at h
  | both =>
    obtain ⟨e1, s, rfl, e2⟩ := h3 hl
    rw [if_pos ⟨e1.symm, Or.inr e2⟩]
    rcases stepOf_name_prefix t with ⟨_, h⟩ | ⟨u, h, h'⟩
    · rw [e2] at h; simp at h
    · rw [e1] at h
      rw [e2] at h'
      simp at h'
      subst h'
      have : (t ++ r).drop (m.length + (1 + s.length)) = r := by
        rw [h]
        have : m.length + (1 + s.length) = (m ++ 58 :: s).length := by simp; omega
        rw [this]
        simp
      simp only [this, hk]
  | part =>
    obtain ⟨e1, e2, e3⟩ := h4 hl
    rw [if_neg]
    rintro ⟨_, e | e⟩
    · exact e3 e
    · subst e2; exact e3 e

/-- `auth2_method_allowed` on one list, without a device -/
theorem allowed_join {t : Bytes} {ts : List Bytes} {m : Bytes} (ht : 44 ∉ t) (hm : 44 ∉ m ∧ 58 ∉ m) :
    listStartsWith (Text.join 44 (t :: ts)) m none ≠ .none ↔ (stepOf t).1 = m := by
  obtain ⟨r, he, hr, _⟩ := join_tail t ts
  rw [he]
  obtain ⟨h1, _⟩ := listStartsWith_name (sub := none) ht hr hm (by simp)
  rw [Ne, h1]
  constructor
  · intro h
    exact (Classical.not_not.1 h).1
  · intro h h'
    exact h' ⟨h, Or.inl rfl⟩

/-! ### Fulfilling a list -/

open Classical in
/-- what is left of a list of steps after some successes, each used as early as possible -/
noncomputable def left : List Bytes → List (Bytes × Option Bytes) → List Bytes
  | ts, [] => ts
  | [], _ :: _ => []
  | t :: ts, x :: xs => if Sat t x then left ts xs else left (t :: ts) xs

theorem left_nil (ts : List Bytes) : left ts [] = ts := by cases ts <;> rfl

theorem left_done (xs : List (Bytes × Option Bytes)) : left [] xs = [] := by cases xs <;> rfl

open Classical in
theorem left_snoc (ts : List Bytes) (xs : List (Bytes × Option Bytes)) (x) :
    left ts (xs ++ [x]) = (match left ts xs with
      | [] => []
      | t :: r => if Sat t x then r else t :: r) := by
  induction xs generalizing ts with
  | nil =>
    cases ts with
    | nil => simp [left]
    | cons t ts => simp [left, left_nil]
  | cons y ys ih =>
    cases ts with
    | nil => simp [left]
    | cons t ts =>
      simp only [List.cons_append, left]
      split
      · exact ih ts
      · exact ih (t :: ts)

theorem fulfils_tail {t : Bytes} {ts : List Bytes} {xs} (h : Fulfils (t :: ts) xs) : Fulfils ts xs := by
  generalize hu : t :: ts = u at h
  induction h with
  | nil => simp at hu
  | skip _ ih => exact .skip (ih hu)
  | take _ h _ =>
    simp at hu
    obtain ⟨rfl, rfl⟩ := hu
    exact .skip h

/-- **Using successes as early as possible loses nothing.** -/
theorem fulfils_iff (ts : List Bytes) (xs : List (Bytes × Option Bytes)) :
    Fulfils ts xs ↔ left ts xs = [] := by
  induction xs generalizing ts with
  | nil =>
    rw [left_nil]
    constructor
    · intro h; cases h; rfl
    · rintro rfl; exact .nil _
  | cons x xs ih =>
    cases ts with
    | nil => simp only [left]; exact ⟨fun _ => trivial, fun _ => .nil _⟩
    | cons t ts =>
      simp only [left]
      split
      · rename_i hs
        rw [← ih]
        constructor
        · intro h
          cases h with
          | skip h => exact fulfils_tail h
          | take _ h => exact h
        · intro h; exact .take hs h
      · rename_i hs
        rw [← ih]
        constructor
        · intro h
          cases h with
          | skip h => exact h
          | take h' _ => exact absurd h' hs
        · intro h; exact .skip h

theorem left_subset (ts : List Bytes) (xs) : ∀ t ∈ left ts xs, t ∈ ts := by
  induction xs generalizing ts with
  | nil => rw [left_nil]; exact fun _ h => h
  | cons x xs ih =>
    cases ts with
    | nil => simp [left]
    | cons a ts =>
      simp only [left]
      split
      · intro t ht; exact List.mem_cons_of_mem _ (ih ts t ht)
      · exact ih (a :: ts)

theorem join_ne_nil {t : Bytes} {ts : List Bytes} (h : t ≠ []) : Text.join 44 (t :: ts) ≠ [] := by
  cases ts with
  | nil => simpa [Text.join] using h
  | cons a ts => simp [Text.join]

/-! ### The lists of the state -/

/-- The state's lists are what is left of `ls` after the successes `xs`. -/
def Tracks (ls : List (List Bytes)) (xs : List (Bytes × Option Bytes)) (cur : List Bytes) : Prop :=
  cur = ls.map fun ts => Text.join 44 (left ts xs)

/-- steps as `auth2_methods_valid` leaves them -/
def Clean (ts : List Bytes) : Prop := ∀ t ∈ ts, 44 ∉ t ∧ t ≠ []

/-- one list and one success -/
theorem remove_left {ts : List Bytes} {xs} {m : Bytes} {sub : Option Bytes} (hc : Clean ts)
    (ha : left ts xs ≠ []) (hm : 44 ∉ m ∧ 58 ∉ m) (hs : ∀ s, sub = some s → 44 ∉ s) :
    (removeMethod (Text.join 44 (left ts xs)) m sub = some (Text.join 44 (left ts (xs ++ [(m, sub)]))) ∧
      left ts (xs ++ [(m, sub)]) ≠ left ts xs) ∨
    (removeMethod (Text.join 44 (left ts xs)) m sub = none ∧
      left ts (xs ++ [(m, sub)]) = left ts xs) := by
  cases hl : left ts xs with
  | nil => exact absurd hl ha
  | cons t r =>
    have ht : t ∈ ts := left_subset ts xs t (by simp [hl])
    rw [left_snoc, hl, removeMethod_join (hc t ht).1 hm hs]
    by_cases h : Sat t (m, sub)
    · left
      simp [h]
    · right
      simp [h]

theorem updateLists_spec {ls : List (List Bytes)} {xs} {m : Bytes} {sub : Option Bytes}
    (hc : ∀ ts ∈ ls, Clean ts) (ha : ∀ ts ∈ ls, left ts xs ≠ [])
    (hm : 44 ∉ m ∧ 58 ∉ m) (hs : ∀ s, sub = some s → 44 ∉ s) (found : Bool)
    {b : Bool} {cur : List Bytes}
    (h : updateLists m sub (ls.map fun ts => Text.join 44 (left ts xs)) found = some (b, cur)) :
    (b = true → ∃ ts ∈ ls, left ts (xs ++ [(m, sub)]) = []) ∧
    (b = false → Tracks ls (xs ++ [(m, sub)]) cur ∧ ∀ ts ∈ ls, left ts (xs ++ [(m, sub)]) ≠ []) := by
  induction ls generalizing found b cur with
  | nil =>
    simp only [List.map_nil, updateLists] at h
    split at h
    · simp at h
      obtain ⟨rfl, rfl⟩ := h
      simp [Tracks]
    · simp at h
  | cons ts ls ih =>
    simp only [List.map_cons, updateLists] at h
    have hc1 := hc ts (by simp)
    have ha1 := ha ts (by simp)
    have ih' := @ih (fun t ht => hc t (by simp [ht])) (fun t ht => ha t (by simp [ht]))
    rcases remove_left hc1 ha1 hm hs with ⟨e1, e2⟩ | ⟨e1, e2⟩
    · rw [e1] at h
      simp only at h
      split at h
      · rename_i hj
        simp at h
        obtain ⟨rfl, rfl⟩ := h
        refine ⟨fun _ => ⟨ts, by simp, ?_⟩, by simp⟩
        cases hl : left ts (xs ++ [(m, sub)]) with
        | nil => rfl
        | cons t r =>
          exfalso
          rw [hl] at hj
          exact join_ne_nil (hc1 t (left_subset ts (xs ++ [(m, sub)]) t (by simp [hl]))).2 hj
      · rename_i hj
        rw [Option.map_eq_some_iff] at h
        obtain ⟨⟨b', cur'⟩, h1, h2⟩ := h
        simp at h2
        obtain ⟨rfl, rfl⟩ := h2
        obtain ⟨i1, i2⟩ := ih' true h1
        constructor
        · intro hb
          obtain ⟨u, hu, hu'⟩ := i1 hb
          exact ⟨u, by simp [hu], hu'⟩
        · intro hb
          obtain ⟨j1, j2⟩ := i2 hb
          refine ⟨congrArg (_ :: ·) j1, ?_⟩
          intro u hu
          rcases List.mem_cons.1 hu with rfl | hu
          · intro e; apply hj; rw [e]; rfl
          · exact j2 u hu
    · rw [e1] at h
      simp only at h
      rw [Option.map_eq_some_iff] at h
      obtain ⟨⟨b', cur'⟩, h1, h2⟩ := h
      simp at h2
      obtain ⟨rfl, rfl⟩ := h2
      obtain ⟨i1, i2⟩ := ih' found h1
      constructor
      · intro hb
        obtain ⟨u, hu, hu'⟩ := i1 hb
        exact ⟨u, by simp [hu], hu'⟩
      · intro hb
        obtain ⟨j1, j2⟩ := i2 hb
        refine ⟨by rw [← e2]; exact congrArg (_ :: ·) j1, ?_⟩
        intro u hu
        rcases List.mem_cons.1 hu with rfl | hu
        · rw [e2]; exact ha1
        · exact j2 u hu

/-! ### Which lists are kept -/

theorem namesValid_iff (en : Bytes → Bool) (ts : List Bytes) :
    namesValid en ts = true ↔ ∀ t ∈ ts, Known (stepOf t).1 ∧ en (stepOf t).1 = true := by
  induction ts with
  | nil => simp [namesValid]
  | cons t ts ih =>
    have e : cutColon t = (stepOf t).1 := rfl
    simp only [namesValid, List.forall_mem_cons, ← ih]
    rw [e]
    have e' : (stepOf t).1 ∈ methodNames ↔ Known (stepOf t).1 := mem_names
    by_cases h1 : Known (stepOf t).1
    · rw [if_pos (e'.2 h1)]
      by_cases h2 : en (stepOf t).1 = true
      · simp [h1, h2]
      · simp [h1, h2]
    · rw [if_neg (fun h => h1 (e'.1 h))]
      simp [h1]

theorem known_nil : ¬ Known (stepOf []).1 := by
  simp [stepOf, Known]

theorem methodsValid_iff (c : Cfg) (l : Bytes) :
    methodsValid (isEnabled c true) l = true ↔ Usable c l := by
  unfold methodsValid
  split
  · rename_i h
    subst h
    simp only [Bool.false_eq_true, false_iff]
    intro h
    exact known_nil (h [] (by simp [steps, Text.split])).1
  · rw [namesValid_iff]
    constructor
    · intro h t ht
      obtain ⟨h1, h2⟩ := h t ht
      refine ⟨h1, ?_⟩
      unfold isEnabled at h2
      split at h2
      · rename_i e; exact Or.inl e
      · exact Or.inr h2
    · intro h t ht
      obtain ⟨h1, h2⟩ := h t ht
      refine ⟨h1, ?_⟩
      unfold isEnabled
      rcases h2 with h2 | h2
      · rw [if_pos h2]
      · split
        · rfl
        · exact h2

theorem usable_clean {c : Cfg} {l : Bytes} (h : Usable c l) : Clean (steps l) := by
  intro t ht
  refine ⟨Text.mem_split_no_sep ht, ?_⟩
  rintro rfl
  exact known_nil (h [] ht).1

end Verif.Auth
