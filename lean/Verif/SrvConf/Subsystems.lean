/- The server's configuration: subsystems. -/
import Verif.SrvConf.Props

namespace Verif.SrvConf
open Verif Match

def names (l : List Sub) : List Bytes := l.map Sub.name

theorem addSub_nodup {n : Bytes} {c : List Bytes} {l l' : List Sub} (h : addSub n c l = some l') (hl : (names l).Nodup) : (names l').Nodup := by
  simp only [addSub] at h
  split at h
  · cases h; exact hl
  · rename_i hn
    split at h
    · cases h
    · split at h
      · cases h
      · cases h
        simp only [names, List.map_append, List.map_cons, List.map_nil]
        rw [List.nodup_append]
        refine ⟨hl, by simp, ?_⟩
        intro a ha b hb e
        simp only [List.mem_singleton] at hb
        rw [e, hb] at ha
        simp only [List.mem_map] at ha
        obtain ⟨x, hx, hx'⟩ := ha
        exact hn (by simp only [List.any_eq_true, decide_eq_true_eq]; exact ⟨x, hx, hx'⟩)

theorem subsOf_nodup (g : List Setting) : ∀ {l l' : List Sub}, subsOf g l = some l' → (names l).Nodup → (names l').Nodup := by
  induction g with
  | nil => intro l l' h hl; cases h; exact hl
  | cons s r ih =>
    intro l l' h hl
    cases s with
    | subsystem n c =>
      simp only [subsOf, Option.bind_eq_some_iff] at h
      obtain ⟨l1, h1, h2⟩ := h
      exact ih h2 (addSub_nodup h1 hl)
    | _ => exact ih h hl

theorem mergeSubs_self (s : List Sub) (hs : (names s).Nodup) : ∀ t, (∀ x ∈ t, x ∈ s) → mergeSubs s t = s := by
  intro t
  induction t with
  | nil => intro _; rfl
  | cons x r ih =>
    intro h
    have hx := h x (by simp)
    rw [mergeSubs, if_pos (by simp only [List.any_eq_true, decide_eq_true_eq]; exact ⟨x, hx, rfl⟩)]
    have : (s.map fun y => if y.name = x.name then x else y) = s := by
      have hn : ∀ y ∈ s, y.name = x.name → y = x := by
        intro y hy e
        obtain ⟨i, hi, rfl⟩ := List.getElem_of_mem hy
        obtain ⟨j, hj, rfl⟩ := List.getElem_of_mem hx
        have := (List.getElem_inj (xs := names s) (h₀ := by simpa [names] using hi) (h₁ := by simpa [names] using hj) hs).mp (by simpa [names] using e)
        subst this; rfl
      refine (List.map_congr_left (g := id) ?_).trans (List.map_id s)
      intro y hy
      show (if y.name = x.name then x else y) = y
      split
      · rename_i e; exact (hn y hy e).symm
      · rfl
    rw [this]
    exact ih fun y hy => h y (List.mem_cons_of_mem _ hy)

theorem copySubs_ok {d s l : List Sub} (h : copySubs d s = some l) : (s = [] ∧ l = d) ∨ (s ≠ [] ∧ l = s ∧ s.length ≤ d.length) := by
  simp only [copySubs] at h
  split at h
  · rename_i hn; cases h; exact .inl ⟨hn, rfl⟩
  · rename_i hn
    split at h
    · cases h
    · cases h; exact .inr ⟨hn, rfl, by omega⟩

/-- C80: the subsystems of a connection are those of the blocks that apply if there are any, and then no others; else those from
outside of blocks.  Of several of one name the first one counts. -/
theorem C80_exact {E : Env} {W : World} {D : Opts} {cmd : List Bytes} {raw : Bytes} {ci : Conn} {a g m : List Setting}
    (hs : Says3 E W cmd raw ci a g m) {o : Opts} (h : serve E W D cmd raw ci = .ok o) :
    ∃ gs ms, subsOf (a ++ g) [] = some gs ∧ subsOf m [] = some ms ∧ o.subs = (if ms = [] then gs else ms) ∧ ms.length ≤ gs.length := by
  obtain ⟨o1, o2, h1, h2, h3⟩ := serve_ok hs h
  have e1 := applyAll_subs _ h1
  have e2 := applyAll_subs _ h2
  refine ⟨o1.subs, o2.subs, e1, e2, ?_⟩
  simp only [overlay, Option.map_eq_some_iff] at h3
  obtain ⟨l, h4, h5⟩ := h3
  subst h5
  rcases copySubs_ok h4 with ⟨hn, rfl⟩ | ⟨hn, rfl, hlen⟩
  · simp [hn, mergeSubs, fill]
  · refine ⟨?_, hlen⟩
    rw [if_neg hn]
    exact mergeSubs_self o2.subs (subsOf_nodup m e2 (by simp [names])) _ fun x hx => hx

/-- The subsystem of a name -/
def lookup (n : Bytes) (l : List Sub) : Option Sub := l.find? fun x => x.name = n

/-- C80: a subsystem is that of the blocks that apply, else that from outside of blocks.  Missing: blocks that define some
subsystems but leave out others. -/
theorem C80_partial {E : Env} {W : World} {D : Opts} {cmd : List Bytes} {raw : Bytes} {ci : Conn} {a g m : List Setting}
    (hs : Says3 E W cmd raw ci a g m) {o : Opts} (h : serve E W D cmd raw ci = .ok o) {gs ms : List Sub}
    (hg : subsOf (a ++ g) [] = some gs) (hm : subsOf m [] = some ms) (hall : ms = [] ∨ ∀ x ∈ gs, ∃ y ∈ ms, y.name = x.name) (n : Bytes) :
    lookup n o.subs = (lookup n ms).or (lookup n gs) := by
  obtain ⟨gs', ms', e1, e2, e3, _⟩ := C80_exact hs h
  rw [hg] at e1; cases e1
  rw [hm] at e2; cases e2
  rw [e3]
  rcases hall with rfl | hall
  · simp [lookup]
  · by_cases hn : ms = []
    · subst hn; simp [lookup]
    · rw [if_neg hn]
      cases hl : lookup n ms with
      | some x => rfl
      | none =>
        simp only [Option.none_or]
        symm
        simp only [lookup, List.find?_eq_none, decide_eq_true_eq] at hl ⊢
        intro x hx e
        obtain ⟨y, hy, hy'⟩ := hall x hx
        exact hl y hy (hy'.trans e)

/-- The command from where the subsystems are known is kept as it is written, and its name is the one that was given. -/
theorem C80_first {n : Bytes} {c : List Bytes} {l l' : List Sub} (h : addSub n c l = some l') (x : Sub) (hx : lookup n l = some x) :
    lookup n l' = some x := by
  simp only [addSub] at h
  split at h
  · cases h; exact hx
  · rename_i hn
    simp only [lookup] at hx
    have h1 := List.mem_of_find?_eq_some hx
    have h2 := List.find?_some hx
    exact (hn (by simp only [List.any_eq_true]; exact ⟨x, h1, h2⟩)).elim

end Verif.SrvConf
