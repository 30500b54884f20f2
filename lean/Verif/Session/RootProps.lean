/-
Theorems about the root directory and about what xauth and the scripts of users are given (C105).
-/
import Verif.Session.Props

namespace Verif.Session
open Verif

/-! ### The root directory -/

private theorem components_mem (l pre p : Bytes) :
    p ∈ components pre l ↔ p = pre ++ l ∨ ∃ a b, l = a ++ 47 :: b ∧ p = pre ++ a ++ [47] := by
  induction l generalizing pre with
  | nil => simp [components]
  | cons c l ih =>
    rw [components]
    have hstep : (∃ a b, c :: l = a ++ 47 :: b ∧ p = pre ++ a ++ [47]) ↔
        (c = 47 ∧ p = pre ++ [47]) ∨ ∃ a b, l = a ++ 47 :: b ∧ p = pre ++ [c] ++ a ++ [47] := by
      constructor
      · rintro ⟨a, b, h, hp⟩
        cases a with
        | nil =>
          simp only [List.nil_append, List.cons.injEq] at h
          left; exact ⟨h.1, by simpa using hp⟩
        | cons x a =>
          simp only [List.cons_append, List.cons.injEq] at h
          right; exact ⟨a, b, h.2, by rw [hp, h.1]; simp⟩
      · rintro (⟨hc, hp⟩ | ⟨a, b, h, hp⟩)
        · exact ⟨[], l, by simp [hc], by simpa using hp⟩
        · exact ⟨c :: a, b, by simp [h], by rw [hp]; simp⟩
    rw [hstep]
    by_cases hc : c = 47
    · rw [if_pos hc, List.mem_cons, ih]
      subst hc
      constructor
      · rintro (h | h | h)
        · exact Or.inr (Or.inl ⟨rfl, h⟩)
        · exact Or.inl (by rw [h]; simp)
        · exact Or.inr (Or.inr h)
      · rintro (h | ⟨-, h⟩ | h)
        · exact Or.inr (Or.inl (by rw [h]; simp))
        · exact Or.inl h
        · exact Or.inr (Or.inr h)
    · rw [if_neg hc, ih]
      constructor
      · rintro (h | h)
        · exact Or.inl (by rw [h]; simp)
        · exact Or.inr (Or.inr h)
      · rintro (h | ⟨h, -⟩ | h)
        · exact Or.inl (by rw [h]; simp)
        · exact absurd h hc
        · exact Or.inr h

/-- Bits 4 (group may write) and 1 (others may write) of a mode. -/
def WritableByOthers (mode : Nat) : Prop := mode.testBit 4 = true ∨ mode.testBit 1 = true

private theorem mode_iff (m : Nat) : m &&& 18 = 0 ↔ ¬ WritableByOthers m := by
  have h18 : ∀ i, (18 : Nat).testBit i = (decide (i = 1) || decide (i = 4)) := by
    intro i
    by_cases hi : i < 5
    · have : i = 0 ∨ i = 1 ∨ i = 2 ∨ i = 3 ∨ i = 4 := by omega
      rcases this with rfl | rfl | rfl | rfl | rfl <;> decide
    · have h1 : (18 : Nat).testBit i = false := Nat.testBit_lt_two_pow (Nat.lt_of_lt_of_le (by decide : 18 < 2 ^ 5) (Nat.pow_le_pow_right (by decide) (by omega)))
      have h2 : ¬ i = 1 := by omega
      have h3 : ¬ i = 4 := by omega
      simp [h1, h2, h3]
  unfold WritableByOthers
  constructor
  · intro h
    have hb : ∀ i, (m &&& 18).testBit i = false := by intro i; rw [h]; exact Nat.zero_testBit i
    have h4 := hb 4
    have h1 := hb 1
    rw [Nat.testBit_and, h18] at h4 h1
    simp at h4 h1
    simp [h4, h1]
  · intro h
    simp only [not_or, Bool.not_eq_true] at h
    apply Nat.eq_of_testBit_eq
    intro i
    rw [Nat.testBit_and, h18, Nat.zero_testBit]
    by_cases h1 : i = 1
    · subst h1; simp [h.2]
    · by_cases h4 : i = 4
      · subst h4; simp [h.1]
      · simp [h1, h4]

/-- **C105.** A session goes into a root directory exactly if its path is absolute and short enough, and the directory and each
directory on the way, from `/` on, belong to root and are writable by nobody else. -/
theorem C105_chroot (stat : Bytes → Option Stat) (path : Bytes) :
    chroot stat path = true ↔
      (∃ rest, path = 47 :: rest) ∧ path.length < 4096 ∧
      ∀ p, (p = path ∨ ∃ a b, path = a ++ 47 :: b ∧ p = a ++ [47]) →
        ∃ st, stat p = some st ∧ st.uid = 0 ∧ st.dir = true ∧ ¬ WritableByOthers st.mode := by
  have hok : ∀ o : Option Stat, statOk o = true ↔ ∃ st, o = some st ∧ st.uid = 0 ∧ st.dir = true ∧ ¬ WritableByOthers st.mode := by
    intro o
    cases o with
    | none => simp [statOk]
    | some st =>
      simp only [statOk, decide_eq_true_eq, mode_iff, Option.some.injEq]
      constructor
      · rintro ⟨h1, h2, h3⟩; exact ⟨st, rfl, h1, h3, h2⟩
      · rintro ⟨st', rfl, h1, h3, h2⟩; exact ⟨h1, h2, h3⟩
  have hhead : path.head? = some 47 ↔ ∃ rest, path = 47 :: rest := by
    cases path with
    | nil => simp
    | cons c l => simp
  unfold chroot
  simp only [decide_eq_true_eq, hhead, List.all_eq_true, hok, components_mem, List.nil_append]

/-! ### What is given to xauth -/

private theorem decF_digit (f n : Nat) : ∀ c ∈ decF f n, 48 ≤ c ∧ c ≤ 57 := by
  have hd : ∀ k < 10, 48 ≤ UInt8.ofNat (48 + k) ∧ UInt8.ofNat (48 + k) ≤ 57 := by decide
  induction f generalizing n with
  | zero => intro c hc; simp [decF] at hc
  | succ f ih =>
    intro c hc
    rw [decF] at hc
    split at hc
    · rename_i h
      rw [List.mem_singleton] at hc; subst hc; exact hd n h
    · rcases List.mem_append.1 hc with hc | hc
      · exact ih _ c hc
      · rw [List.mem_singleton] at hc; subst hc; exact hd _ (Nat.mod_lt _ (by decide))

/-- Bytes that mean something to xauth: blanks, ends of lines, quotes, comments. -/
def special : List UInt8 := [0, 9, 10, 13, 32, 34, 35, 39, 59, 92]

private theorem own_clean {C : Cfg} {a : Bytes} (h : OwnName C a) (hh : ∀ c ∈ C.hostname, c ∉ special) : ∀ c ∈ a, c ∉ special := by
  obtain ⟨w, n, sc, hw, rfl⟩ := h
  have hdig : ∀ k, ∀ c ∈ dec k, c ∉ special := by
    intro k c hc hm
    have := decF_digit _ _ c hc
    revert this
    simp only [special, List.mem_cons, List.not_mem_nil, or_false] at hm
    rcases hm with rfl | rfl | rfl | rfl | rfl | rfl | rfl | rfl | rfl | rfl <;> decide
  have hwc : ∀ c ∈ w, c ∉ special := by
    rcases hw with rfl | rfl
    · decide
    · intro c hc; exact hh c (List.mem_of_mem_take hc)
  intro c hc
  simp only [List.mem_append, List.mem_singleton] at hc
  rcases hc with (((hc | rfl) | hc) | rfl) | hc
  · exact hwc c hc
  · decide
  · exact hdig _ c hc
  · decide
  · exact hdig _ c hc

/-- **C105.** Whatever the client sends, xauth reads two lines, `remove D` and `add D P K`, where D is the name the server has given to
the display it listens for, and P and K are free of all bytes that mean something to xauth: no command can be smuggled in. -/
theorem C105_xauth (C : Cfg) (hh : ∀ c ∈ C.hostname, c ∉ special) (reqs : List Req) (L : Launch)
    (hL : L ∈ launches (run C reqs fresh).1) (userExists sysExists : Bool) (t : Bytes) (h : rc C L.s userExists sysExists = .xauth t) :
    ∃ D P K, L.s.authDisplay = D ∧ L.s.authProto = some P ∧ L.s.authData = some K ∧
      (∀ c, c ∈ D ∨ c ∈ P ∨ c ∈ K → c ∉ special) ∧ C.x11 = true ∧ C.keyX11 = true ∧ C.noForward = false ∧
      Text.split 10 t = [b!"remove " ++ D, b!"add " ++ D ++ [32] ++ P ++ [32] ++ K, []] ∧
      Text.split 32 (b!"add " ++ D ++ [32] ++ P ++ [32] ++ K) = [b!"add", D, P, K] := by
  have hp := C103_launched C reqs L hL
  unfold rc at h
  split at h
  · cases h
  split at h
  · cases h
  cases hd : L.s.display with
  | none => rw [hd] at h; cases h
  | some disp =>
    cases hP : L.s.authProto with
    | none => rw [hd, hP] at h; cases h
    | some P =>
      cases hK : L.s.authData with
      | none => rw [hd, hP, hK] at h; cases h
      | some K =>
        cases hx : C.xauth with
        | none => rw [hd, hP, hK, hx] at h; cases h
        | some x =>
          rw [hd, hP, hK, hx] at h
          have ht : t = xauthInput L.s P K := by injection h with h; exact h.symm
          have hdisp : L.s.display ≠ none := by rw [hd]; simp
          have hD := own_clean (hp.name hdisp) hh
          have hPc := hp.xauth P (Or.inl hP)
          have hKc := hp.xauth K (Or.inr hK)
          obtain ⟨hx1, hx2, hx3⟩ := hp.display hdisp
          have nl : ∀ {x : Bytes}, (∀ c ∈ x, c ∉ special) → 10 ∉ x := fun h hm => h 10 hm (by decide)
          have sp : ∀ {x : Bytes}, (∀ c ∈ x, c ∉ special) → 32 ∉ x := fun h hm => h 32 hm (by decide)
          refine ⟨L.s.authDisplay, P, K, rfl, rfl, rfl, ?_, hx1, hx2, hx3, ?_, ?_⟩
          · rintro c (hc | hc | hc)
            · exact hD c hc
            · exact hPc c hc
            · exact hKc c hc
          · have e : t = (b!"remove " ++ L.s.authDisplay) ++ 10 ::
                ((b!"add " ++ L.s.authDisplay ++ [32] ++ P ++ [32] ++ K) ++ 10 :: []) := by
              rw [ht, xauthInput]; simp
            rw [e, Text.split_append, Text.split_append]
            · rfl
            · simp only [List.mem_append, not_or]
              exact ⟨⟨⟨⟨⟨by decide, nl hD⟩, by decide⟩, nl hPc⟩, by decide⟩, nl hKc⟩
            · simp only [List.mem_append, not_or]
              exact ⟨by decide, nl hD⟩
          · have e : b!"add " ++ L.s.authDisplay ++ [32] ++ P ++ [32] ++ K =
                b!"add" ++ 32 :: (L.s.authDisplay ++ 32 :: (P ++ 32 :: K)) := by simp
            rw [e, Text.split_append (by decide), Text.split_append (sp hD), Text.split_append (sp hPc), Text.split_no_sep (sp hKc)]

/-- **C105.** The user's own script is run only for a shell or a command that the administrator does not force, if both configuration
and key permit it; where it is not run, the server's own script or xauth gets the same. -/
theorem C105_rc (C : Cfg) (s : Sess) (userExists sysExists : Bool) :
    ((∃ t, rc C s userExists sysExists = .user t) ↔
      userExists = true ∧ s.kind = .none ∧ C.admForced = none ∧ C.keyUserRc = true ∧ C.userRc = true) ∧
    (∀ t, rc C s userExists sysExists = .user t ∨ rc C s userExists sysExists = .system t →
      t = [] ∨ ∃ P K, s.authProto = some P ∧ s.authData = some K ∧ s.display ≠ none ∧ t = P ++ [32] ++ K ++ [10]) := by
  have hin : rcInput s = [] ∨ ∃ P K, s.authProto = some P ∧ s.authData = some K ∧ s.display ≠ none ∧ rcInput s = P ++ [32] ++ K ++ [10] := by
    unfold rcInput
    split
    · rename_i d P K h1 h2 h3
      exact Or.inr ⟨P, K, h2, h3, by rw [h1]; simp, rfl⟩
    · exact Or.inl rfl
  unfold rc
  constructor
  · constructor
    · rintro ⟨t, h⟩
      split at h
      · rename_i hc; exact ⟨hc.2.2.2.2, hc.1, hc.2.1, hc.2.2.1, hc.2.2.2.1⟩
      · split at h
        · cases h
        · split at h <;> cases h
    · rintro ⟨h1, h2, h3, h4, h5⟩
      exact ⟨rcInput s, by rw [if_pos ⟨h2, h3, h4, h5, h1⟩]⟩
  · intro t h
    split at h
    · rcases h with h | h
      · cases h; exact hin
      · cases h
    · split at h
      · rcases h with h | h
        · cases h
        · cases h; exact hin
      · split at h <;> rcases h with h | h <;> cases h

end Verif.Session
