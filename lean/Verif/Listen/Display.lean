/-
C136: where displays are listened for.
-/
import Verif.Listen.Spec

namespace Verif.Listen
open Verif

/-- The address number `j` of a display is one that can be had: of the internet, and its family is supported. -/
def Usable (E : XEnv) (d : Nat) (g : List Ai) (j : Nat) (a : Ai) : Prop := g[j]? = some a ∧ a.fam ≠ .other ∧ E.socket d j = some true

theorem bindAll_socks {E : XEnv} {d : Nat} {g : List Ai} : ∀ {l : List Ai} {i : Nat} {acc r : List Ai}, g.drop i = l →
    bindAll E d l i acc = .socks r → acc.length < numSocks →
    (∀ a ∈ acc, ∃ j, Usable E d g j a ∧ E.bind d j = true) →
    (∀ j a, j < i → Usable E d g j a → a ∈ acc ∧ E.bind d j = true) →
    (∀ a ∈ r, ∃ j, Usable E d g j a ∧ E.bind d j = true) ∧
    (r ≠ [] → r.length < numSocks → ∀ j a, Usable E d g j a → a ∈ r ∧ E.bind d j = true) ∧
    (r = [] → (∀ j a, ¬ Usable E d g j a) ∨ ∃ j a, Usable E d g j a ∧ E.bind d j = false) ∧ r.length ≤ numSocks := by
  intro l
  induction l with
  | nil =>
    intro i acc r hd h hlen h1 h2
    rw [bindAll, Bound.socks.injEq] at h
    subst h
    have hi : g.length ≤ i := List.drop_eq_nil_iff.1 hd
    have hall : ∀ j a, Usable E d g j a → a ∈ acc ∧ E.bind d j = true := by
      intro j a hu
      refine h2 j a ?_ hu
      have := (List.getElem?_eq_some_iff.1 hu.1).1
      omega
    refine ⟨h1, fun _ _ => hall, fun he => .inl fun j a hu => ?_, by omega⟩
    have := (hall j a hu).1
    rw [he] at this
    cases this
  | cons b l ih =>
    intro i acc r hd h hlen h1 h2
    have hgi : g[i]? = some b := by
      have : (g.drop i)[0]? = some b := by rw [hd]; rfl
      simpa using this
    have hd' : g.drop (i + 1) = l := by
      rw [← List.drop_drop, hd]
      rfl
    have hskip : ¬ Usable E d g i b → ∀ j a, j < i + 1 → Usable E d g j a → a ∈ acc ∧ E.bind d j = true := by
      intro hn j a hj hu
      by_cases e : j = i
      · subst e
        have : a = b := Option.some.inj (hu.1.symm.trans hgi)
        exact absurd (this ▸ hu) hn
      · exact h2 j a (by omega) hu
    rw [bindAll] at h
    by_cases ho : b.fam = .other
    · rw [if_pos ho] at h
      exact ih hd' h hlen h1 (hskip fun hu => hu.2.1 ho)
    · rw [if_neg ho] at h
      cases hs : E.socket d i with
      | none => simp [hs] at h
      | some t =>
        cases t with
        | false =>
          simp only [hs] at h
          exact ih hd' h hlen h1 (hskip fun hu => by have := hu.2.2; rw [hs] at this; cases this)
        | true =>
          simp only [hs] at h
          have hub : Usable E d g i b := ⟨hgi, ho, hs⟩
          by_cases hb : E.bind d i = true
          · rw [if_pos hb] at h
            have h1' : ∀ a ∈ acc ++ [b], ∃ j, Usable E d g j a ∧ E.bind d j = true := by
              intro a ha
              rcases List.mem_append.1 ha with ha | ha
              · exact h1 a ha
              · rw [List.mem_singleton.1 ha]; exact ⟨i, hub, hb⟩
            by_cases hfull : (acc ++ [b]).length = numSocks
            · rw [if_pos hfull, Bound.socks.injEq] at h
              subst h
              exact ⟨h1', fun _ hlt => absurd hfull (by omega), fun he => by simp at he, by omega⟩
            · rw [if_neg hfull] at h
              refine ih hd' h ?_ h1' ?_
              · simp only [List.length_append, List.length_singleton] at hfull ⊢
                omega
              · intro j a hj hu
                by_cases e : j = i
                · subst e
                  have : a = b := Option.some.inj (hu.1.symm.trans hgi)
                  subst this
                  exact ⟨by simp, hb⟩
                · exact ⟨List.mem_append_left _ (h2 j a (by omega) hu).1, (h2 j a (by omega) hu).2⟩
          · rw [if_neg hb, Bound.socks.injEq] at h
            subst h
            exact ⟨by simp, fun h => absurd rfl h, fun _ => .inr ⟨i, b, hub, by simpa using hb⟩, by simp [numSocks]⟩

theorem listenAll_true {E : XEnv} : ∀ {l : List Ai} {i : Nat} {acc : List Ai}, (listenAll E l i acc).1 = true →
    ∀ j, j < l.length → E.listen (i + j) = true := by
  intro l
  induction l with
  | nil => intro i acc _ j hj; simp at hj
  | cons a l ih =>
    intro i acc h j hj
    rw [listenAll] at h
    split at h
    · rename_i hl
      cases j with
      | zero => exact hl
      | succ j =>
        have := ih h j (by simpa using hj)
        rwa [show i + 1 + j = i + (j + 1) by omega] at this
    · cases h

/-- A display that cannot be had: none of its addresses can be used, or one of them is taken -/
def Taken (E : XEnv) (wild : Bool) (d : Nat) : Prop :=
  ∃ g, E.gai wild (6000 + d) = some g ∧ ((∀ j a, ¬ Usable E d g j a) ∨ ∃ j a, Usable E d g j a ∧ E.bind d j = false)

theorem displays_ok {E : XEnv} {lh : Bool} : ∀ {n d0 d : Nat} {l : List Ai}, displays E lh n d0 = .ok d l →
    d0 ≤ d ∧ d < d0 + n ∧ l ≠ [] ∧ l.length ≤ 10 ∧ (∀ j, j < l.length → E.listen j = true) ∧
    (∃ g, E.gai (!lh) (6000 + d) = some g ∧ (∀ a ∈ l, ∃ j, Usable E d g j a ∧ E.bind d j = true) ∧
      (l.length < 10 → ∀ j a, Usable E d g j a → a ∈ l ∧ E.bind d j = true)) ∧
    ∀ d', d0 ≤ d' → d' < d → Taken E (!lh) d' := by
  intro n
  induction n with
  | zero => intro d0 d l h; simp [displays] at h
  | succ n ih =>
    intro d0 d l h
    rw [displays] at h
    cases hg : E.gai (!lh) (basePort + d0) with
    | none => simp [hg] at h
    | some g =>
      simp only [hg] at h
      cases hb : bindAll E d0 g 0 [] with
      | leak b => simp [hb] at h
      | socks r =>
        obtain ⟨k1, k2, k3, k4⟩ := bindAll_socks (g := g) (i := 0) (by simp) hb (by simp [numSocks]) (by simp) (fun j a hj => by omega)
        cases r with
        | nil =>
          simp only [hb] at h
          obtain ⟨i1, i2, i3, i4, i5, i6, i7⟩ := ih h
          refine ⟨by omega, by omega, i3, i4, i5, i6, fun d' h1 h2 => ?_⟩
          by_cases e : d' = d0
          · subst e
            exact ⟨g, hg, k3 rfl⟩
          · exact i7 d' (by omega) h2
        | cons a b =>
          simp only [hb] at h
          split at h
          · rename_i hl
            rw [XRes.ok.injEq] at h
            obtain ⟨rfl, rfl⟩ := h
            refine ⟨by omega, by omega, by simp, k4, fun j hj => ?_, ⟨g, hg, k1, k2 (by simp)⟩, fun d' h1 h2 => by omega⟩
            have := listenAll_true hl j hj
            rwa [Nat.zero_add] at this
          · cases h

/-- C136: the display that is had is the first from X11DisplayOffset on, below 1000, of which all addresses are free; all of them (up to ten)
are listened on. -/
theorem C136_first {E : XEnv} {offset d : Nat} {lh : Bool} {l : List Ai} (h : createDisplay E offset lh = .ok d l) :
    offset ≤ d ∧ d < 1000 ∧ l ≠ [] ∧ l.length ≤ 10 ∧ (∀ j, j < l.length → E.listen j = true) ∧
    (∃ g, E.gai (!lh) (6000 + d) = some g ∧ (∀ a ∈ l, ∃ j, Usable E d g j a ∧ E.bind d j = true) ∧
      (l.length < 10 → ∀ j a, Usable E d g j a → a ∈ l ∧ E.bind d j = true)) ∧
    ∀ d', offset ≤ d' → d' < d → Taken E (!lh) d' := by
  unfold createDisplay at h
  split at h
  · cases h
  · obtain ⟨h1, h2, r⟩ := displays_ok h
    refine ⟨h1, ?_, r⟩
    have : maxDisplays = 1000 := rfl
    omega

/-- C136: with X11UseLocalhost only the machine itself reaches a display; without, it is listened for on all addresses. The port is 6000
more than the number of the display. -/
theorem C136_where {E : XEnv} (hE : XPosix E) {offset d : Nat} {lh : Bool} {l : List Ai} (h : createDisplay E offset lh = .ok d l) :
    ∀ a ∈ l, a.port = 6000 + d ∧ (lh = true → Loopback a.ip) ∧ (lh = false → AnyAddr a.ip) := by
  obtain ⟨-, -, -, -, -, ⟨g, hg, h1, -⟩, -⟩ := C136_first h
  intro a ha
  obtain ⟨j, hu, -⟩ := h1 a ha
  have hm : a ∈ g := List.mem_of_getElem? hu.1
  cases lh with
  | true =>
    have := hE.loop _ _ hg a hm
    exact ⟨this.2, fun _ => this.1, fun h => (by cases h)⟩
  | false =>
    have := hE.any _ _ hg a hm
    exact ⟨this.2, fun h => (by cases h), fun _ => this.1⟩

theorem listenAll_all {E : XEnv} (h : ∀ i, E.listen i = true) : ∀ (l : List Ai) (i : Nat) (acc : List Ai), (listenAll E l i acc).1 = true := by
  intro l
  induction l with
  | nil => exact fun _ _ => rfl
  | cons a l ih =>
    intro i acc
    rw [listenAll, if_pos (h i)]
    exact ih ..

theorem bindAll_noleak {E : XEnv} {d : Nat} (h : ∀ i, E.socket d i ≠ none) :
    ∀ (l : List Ai) (i : Nat) (acc b : List Ai), bindAll E d l i acc ≠ .leak b := by
  intro l
  induction l with
  | nil => intro i acc b; simp [bindAll]
  | cons a l ih =>
    intro i acc b
    rw [bindAll]
    split
    · exact ih _ _ _
    · split
      · rename_i hn
        exact absurd hn (h i)
      · exact ih _ _ _
      · split
        · split
          · simp
          · exact ih _ _ _
        · simp

theorem displays_failed {E : XEnv} (hs : ∀ d i, E.socket d i ≠ none) (hl : ∀ i, E.listen i = true) {lh : Bool} {b l : List Ai} :
    ∀ {n d : Nat}, displays E lh n d = .failed b l → b = [] ∧ l = [] := by
  intro n
  induction n with
  | zero => intro d h; simpa [displays, eq_comm] using h
  | succ n ih =>
    intro d h
    rw [displays] at h
    split at h
    · simpa [eq_comm] using h
    · split at h
      · rename_i hb
        exact absurd hb (bindAll_noleak (hs d) _ _ _ _)
      · exact ih h
      · rw [if_pos (listenAll_all hl ..)] at h
        cases h

/-- C136: if there is no display, nothing stays bound or is listened on. Missing: that this also holds if the system refuses a socket, or to
listen on one that is bound; then it is false (`C136_failed_original_false`). -/
theorem C136_failed_partial {E : XEnv} (hs : ∀ d i, E.socket d i ≠ none) (hl : ∀ i, E.listen i = true) {offset : Nat} {lh : Bool}
    {b l : List Ai} (h : createDisplay E offset lh = .failed b l) : b = [] ∧ l = [] := by
  unfold createDisplay at h
  split at h
  · simpa [eq_comm] using h
  · exact displays_failed hs hl h

/-- C136: with an offset of 1000 or more there is no display. -/
theorem C136_offset (E : XEnv) {offset : Nat} (lh : Bool) (h : 1000 ≤ offset) : createDisplay E offset lh = .failed [] [] := by
  unfold createDisplay
  split
  · rfl
  · rw [show maxDisplays - offset = 0 by have : maxDisplays = 1000 := rfl; omega]
    rfl

end Verif.Listen
