/-
One round of the loop, and the record over a whole conversation.
-/
import Verif.Monitor.Main

namespace Verif.Monitor

open Wire Spec
open Auth (updateLists removeMethod setupLists Clean usable_clean methodsValid_iff)
open Auth.Spec (Fulfils steps Usable Multi RootMay Sat stepOf Known)

variable {w : World} {c : Cfg} {h : List (Ev × Out)} {ev : Ev}
  {st st1 st' : St} {e : Ent} {v : Bool} {a : Act} {m : Bytes} {o : Out}

/-! ### Lists of methods -/

/-- What is left of a list: nothing more to come from it, or the steps that are still missing. -/
def Progress (ts : List Bytes) (xs : List (Bytes × Option Bytes)) (cur : Bytes) : Prop :=
  cur = [] ∨ ∃ d r, ts = d ++ r ∧ r ≠ [] ∧ cur = Text.join 44 r ∧ Fulfils d xs

def Lists (c : Cfg) (xs : List (Bytes × Option Bytes)) (cur : List Bytes) : Prop :=
  ∀ l ∈ cur, ∃ L ∈ c.auth.lists, Usable c.auth L ∧ Progress (steps L) xs l

theorem fulfils_more {ts : List Bytes} {xs ys : List (Bytes × Option Bytes)} (h : Fulfils ts xs) :
    Fulfils ts (xs ++ ys) := by
  induction h with
  | nil xs => exact .nil _
  | skip _ ih => exact .skip ih
  | take hs _ ih => exact .take hs ih

theorem fulfils_snoc {ts : List Bytes} {xs : List (Bytes × Option Bytes)} {t : Bytes} {x}
    (h : Fulfils ts xs) (hs : Sat t x) : Fulfils (ts ++ [t]) (xs ++ [x]) := by
  induction h with
  | nil xs =>
    induction xs with
    | nil => exact .take hs (.nil _)
    | cons y ys ih => exact .skip ih
  | skip _ ih => exact .skip ih
  | take hs' _ ih => exact .take hs' ih

theorem progress_more {ts : List Bytes} {xs ys} {cur : Bytes} (h : Progress ts xs cur) :
    Progress ts (xs ++ ys) cur := by
  rcases h with h | ⟨d, r, h1, h2, h3, h4⟩
  · exact Or.inl h
  · exact Or.inr ⟨d, r, h1, h2, h3, fulfils_more h4⟩

theorem lists_more {xs ys} {cur : List Bytes} (h : Lists c xs cur) : Lists c (xs ++ ys) cur :=
  fun l hl => let ⟨L, h1, h2, h3⟩ := h l hl; ⟨L, h1, h2, progress_more h3⟩

/-- a method that can be logged -/
def NameOk (mt : Bytes) (sub : Option Bytes) : Prop :=
  (44 ∉ mt ∧ 58 ∉ mt) ∧ (∀ s, sub = some s → 44 ∉ s) ∧ mt ≠ []

theorem remove_progress {L l l' : Bytes} {xs} {mt : Bytes} {sub : Option Bytes} (hu : Usable c.auth L)
    (hp : Progress (steps L) xs l) (hn : NameOk mt sub) (h : removeMethod l mt sub = some l') :
    mt ≠ b!"unknown" ∧ Progress (steps L) (xs ++ [(mt, sub)]) l' ∧
      (l' = [] → Fulfils (steps L) (xs ++ [(mt, sub)])) := by
  have hcl := usable_clean hu
  have hempty : l ≠ [] := by
    rintro rfl
    have h0 := Auth.removeMethod_join (t := []) (ts := []) (m := mt) (sub := sub) (by simp) hn.1 hn.2.1
    simp only [Text.join] at h0
    rw [h] at h0
    split at h0
    · rename_i hsat
      have hmt : mt = [] := hsat.1
      exact hn.2.2 hmt
    · simp at h0
  rcases hp with rfl | ⟨d, r, h1, h2, rfl, h4⟩
  · exact absurd rfl hempty
  · cases r with
    | nil => exact absurd rfl h2
    | cons t r =>
      have ht : t ∈ steps L := by rw [h1]; simp
      rw [Auth.removeMethod_join (hcl t ht).1 hn.1 hn.2.1] at h
      split at h
      · rename_i hsat
        simp only [Option.some.injEq] at h
        subst h
        have hf := fulfils_snoc h4 hsat
        refine ⟨?_, ?_, ?_⟩
        · intro hmt
          have hk := (hu t ht).1
          have h5 : mt = (stepOf t).1 := hsat.1
          rw [← h5, hmt] at hk
          simp [Known] at hk
        · cases r with
          | nil => exact Or.inl rfl
          | cons t' r' => exact Or.inr ⟨d ++ [t], t' :: r', by simp [h1], by simp, rfl, hf⟩
        · intro hl
          cases r with
          | nil => rw [h1]; exact hf
          | cons t' r' =>
            exfalso
            have ht' : t' ∈ steps L := by rw [h1]; simp
            have hne := (hcl t' ht').2
            cases r' with
            | nil => exact hne hl
            | cons t'' r'' =>
              simp [Text.join] at hl
      · simp at h

theorem update_lists {cur ls : List Bytes} {xs} {mt : Bytes} {sub : Option Bytes} {found b : Bool}
    (hl : Lists c xs cur) (hn : NameOk mt sub) (h : updateLists mt sub cur found = some (b, ls)) :
    Lists c (xs ++ [(mt, sub)]) ls ∧ (found = false → mt ≠ b!"unknown") ∧
      (b = true → ∃ L ∈ c.auth.lists, Usable c.auth L ∧ Fulfils (steps L) (xs ++ [(mt, sub)])) := by
  induction cur generalizing found b ls with
  | nil =>
    simp only [updateLists] at h
    split at h
    · rename_i hf
      simp only [Option.some.injEq, Prod.mk.injEq] at h
      obtain ⟨rfl, rfl⟩ := h
      exact ⟨by simp [Lists], by simp [hf], by simp⟩
    · simp at h
  | cons l cur ih =>
    have hl' : Lists c xs cur := fun x hx => hl x (by simp [hx])
    obtain ⟨L, hL, hu, hp⟩ := hl l (by simp)
    simp only [updateLists] at h
    cases hr : removeMethod l mt sub with
    | none =>
      simp only [hr, Option.map_eq_some_iff, Prod.exists, Prod.mk.injEq] at h
      obtain ⟨b', ls', h1, rfl, rfl⟩ := h
      obtain ⟨k1, k2, k3⟩ := ih hl' h1
      refine ⟨?_, k2, k3⟩
      intro x hx
      rcases List.mem_cons.1 hx with rfl | hx
      · exact ⟨L, hL, hu, progress_more hp⟩
      · exact k1 x hx
    | some l' =>
      obtain ⟨q1, q2, q3⟩ := remove_progress hu hp hn hr
      simp only [hr] at h
      split at h
      · rename_i hnil
        simp only [Option.some.injEq, Prod.mk.injEq] at h
        obtain ⟨rfl, rfl⟩ := h
        refine ⟨?_, fun _ => q1, fun _ => ⟨L, hL, hu, q3 hnil⟩⟩
        intro x hx
        rcases List.mem_cons.1 hx with rfl | hx
        · exact ⟨L, hL, hu, q2⟩
        · obtain ⟨L', a1, a2, a3⟩ := hl' x hx
          exact ⟨L', a1, a2, progress_more a3⟩
      · simp only [Option.map_eq_some_iff, Prod.exists, Prod.mk.injEq] at h
        obtain ⟨b', ls', h1, rfl, rfl⟩ := h
        obtain ⟨k1, _, k3⟩ := ih hl' h1
        refine ⟨?_, fun _ => q1, k3⟩
        intro x hx
        rcases List.mem_cons.1 hx with rfl | hx
        · exact ⟨L, hL, hu, q2⟩
        · exact k1 x hx

theorem monLists_ok (c : Cfg) : ((monLists c).1 = true ↔ Multi c.auth) ∧ Lists c [] (monLists c).2 := by
  unfold monLists setupLists
  by_cases h1 : c.auth.lists = [b!"any"]
  · simp [h1, Multi, Lists]
  · by_cases h2 : c.auth.lists = []
    · simp [h2, Multi, Lists]
    · rw [if_neg h1, if_neg h2]
      simp only
      by_cases h3 : List.filter (Auth.methodsValid (Auth.isEnabled c.auth true)) c.auth.lists = []
      · rw [if_pos h3]
        simp [Multi, Lists, h1, h2]
      · rw [if_neg h3]
        refine ⟨by simp [Multi, h1, h2], ?_⟩
        intro l hl
        obtain ⟨l1, l2⟩ := List.mem_filter.1 hl
        have hu := (methodsValid_iff c.auth l).1 l2
        refine ⟨l, l1, hu, Or.inr ⟨[], steps l, rfl, Text.split_ne_nil 44 l, ?_, .nil _⟩⟩
        simp [steps, Text.join_split]

/-! ### The end of a round -/

theorem finish_same {authed part : Bool} (hf : finish c e st a authed part = (o, st')) :
    o.act = some a ∧ (∃ f, st' = { st with failures := f }) ∧
    (o.log = if e.decides then
      some { verdict := Auth.verdict authed part false, method := st.method, sub := st.sub } else none) ∧
    (o.fate = .accepted → authed = true ∧ st.valid = true) ∧ (o.fate = .go → authed = false) ∧
    st'.failures = st.failures + (if e.decides && !part && !authed then 1 else 0) ∧
    (o.fate ≠ .dead → st'.failures ≤ c.auth.maxTries) ∧ o.fate ≠ .crashed := by
  unfold finish at hf
  simp only at hf
  generalize hd : (e.decides && !part && !authed) = d at *
  cases d with
  | true =>
    simp only [if_true] at hf ⊢
    repeat' split at hf
    all_goals
      simp only [Prod.mk.injEq] at hf
      obtain ⟨rfl, rfl⟩ := hf
      simp_all
  | false =>
    simp only [Bool.false_eq_true, if_false] at hf ⊢
    repeat' split at hf
    all_goals
      simp only [Prod.mk.injEq] at hf
      obtain ⟨rfl, rfl⟩ := hf
      refine ⟨rfl, ⟨st.failures, rfl⟩, ?_⟩
      simp_all

/-- What one served round looks like. -/
structure Round (c : Cfg) (e : Ent) (st1 : St) (ev : Ev) (a : Act) (v : Bool) (o : Out) (st' : St) :
    Prop where
  act : o.act = some a
  log : ∀ l, o.log = some l → e.decides = true ∧ l.method = st1.method ∧ l.sub = st1.sub ∧
    (l.verdict = .accepted ∨ l.verdict = .partly → v = true)
  /-- the round ends without a log line only if the request does not decide or the connection ends -/
  logged : o.fate = .go ∨ o.fate = .accepted → o.log = none → e.decides = false
  same : ∃ ls f, st' = { st1 with lists := ls, failures := f }
  count : o.fate = .go → st'.failures = st1.failures +
    (match o.log with | some l => if l.verdict = .failed then 1 else 0 | none => 0) ∧
    st'.failures ≤ c.auth.maxTries
  lists : st'.lists = st1.lists ∨ (v = true ∧ st1.multi = true ∧
    ∃ b, updateLists st1.method st1.sub st1.lists false = some (b, st'.lists))
  live : v = true → o.fate = .go → e.decides = true ∨ st1.multi = true
  accepted : o.fate = .accepted → v = true ∧ e.decides = true ∧ st1.valid = true ∧
    rootMay c { st1 with lists := st'.lists } = some true ∧
    (c.auth.usePam = true → ev.ans.account = true ∧ ev.follow.head? = some 102) ∧
    (st1.multi = true → ∃ ls, updateLists st1.method st1.sub st1.lists false = some (true, ls)) ∧
    o.log = some ⟨.accepted, st1.method, st1.sub⟩

theorem verdict_eq (authed part : Bool) : Auth.verdict authed part false =
    if part then .partly else if authed then .accepted else .failed := by
  cases authed <;> cases part <;> rfl

theorem finish_round {ls : List Bytes} {authed part : Bool}
    (hf : finish c e { st1 with lists := ls } a authed part = (o, st'))
    (hv : authed = true ∨ part = true → v = true) (hap : authed = true → part = false)
    (hpart : v = true → e.decides = true ∨ st1.multi = true)
    (hls : ls = st1.lists ∨ (v = true ∧ st1.multi = true ∧
      ∃ b, updateLists st1.method st1.sub st1.lists false = some (b, ls)))
    (hacc : authed = true → e.decides = true ∧ rootMay c { st1 with lists := ls } = some true ∧
      (c.auth.usePam = true → ev.ans.account = true ∧ ev.follow.head? = some 102) ∧
      (st1.multi = true → ∃ ls, updateLists st1.method st1.sub st1.lists false = some (true, ls))) :
    Round c e st1 ev a v o st' := by
  obtain ⟨h1, ⟨f, h2⟩, h3, h4, h5, h6, h7, h8⟩ := finish_same hf
  rw [verdict_eq] at h3
  have hsl : st'.lists = ls := by rw [h2]
  refine ⟨h1, ?_, ?_, ⟨ls, f, h2⟩, ?_, ?_, fun hx _ => hpart hx, ?_⟩
  · intro l hl
    rw [h3] at hl
    split at hl
    · rename_i hd
      simp only [Option.some.injEq] at hl
      subst hl
      refine ⟨hd, rfl, rfl, ?_⟩
      intro hvd
      cases part with
      | true => exact hv (Or.inr rfl)
      | false =>
        cases authed with
        | true => exact hv (Or.inl rfl)
        | false => simp at hvd
    · simp at hl
  · intro _ hl
    rw [h3] at hl
    split at hl
    · simp at hl
    · rename_i hd; simpa using hd
  · intro hgo
    refine ⟨?_, h7 (by simp [hgo])⟩
    rw [h6, h3]
    simp only
    cases e.decides <;> cases part <;> cases authed <;> simp
  · rw [hsl]; exact hls
  · intro hfa
    obtain ⟨ha, hval⟩ := h4 hfa
    obtain ⟨b1, b2, b3, b4⟩ := hacc ha
    refine ⟨hv (Or.inl ha), b1, hval, by rw [hsl]; exact b2, b3, b4, ?_⟩
    rw [h3, b1, ha, hap ha]
    simp

theorem early_round {ls : List Bytes} {f : Fate} (hf : f = .dead ∨ f = .crashed)
    (hls : ls = st1.lists ∨ (v = true ∧ st1.multi = true ∧
      ∃ b, updateLists st1.method st1.sub st1.lists false = some (b, ls))) :
    Round c e st1 ev a v ⟨some a, none, f⟩ { st1 with lists := ls } := by
  refine ⟨rfl, by simp, ?_, ⟨ls, st1.failures, rfl⟩, ?_, hls, ?_, ?_⟩
  · rintro (h | h) <;> rcases hf with rfl | rfl <;> simp at h
  · intro h; rcases hf with rfl | rfl <;> simp at h
  · intro _ h; rcases hf with rfl | rfl <;> simp at h
  · intro h; rcases hf with rfl | rfl <;> simp at h

theorem decided_round {ls : List Bytes} (hv : v = true)
    (hf : decided c e { st1 with lists := ls } ev a = (o, st'))
    (hls : ls = st1.lists ∨ (v = true ∧ st1.multi = true ∧
      ∃ b, updateLists st1.method st1.sub st1.lists false = some (b, ls)))
    (hmul : st1.multi = true → ∃ ls, updateLists st1.method st1.sub st1.lists false = some (true, ls)) :
    Round c e st1 ev a v o st' := by
  unfold decided at hf
  split at hf
  · rename_i hd
    split at hf
    · simp only [Prod.mk.injEq] at hf
      obtain ⟨rfl, rfl⟩ := hf
      exact early_round (Or.inr rfl) hls
    · rename_i hroot
      unfold account at hf
      split at hf
      · rename_i hpam
        split at hf
        · rename_i hfol
          refine finish_round hf (fun _ => hv) (by simp) (fun _ => Or.inl hd) hls ?_
          intro hacc
          exact ⟨hd, hroot, fun _ => ⟨hacc, hfol⟩, hmul⟩
        · simp only [Prod.mk.injEq] at hf
          obtain ⟨rfl, rfl⟩ := hf
          exact early_round (Or.inl rfl) hls
      · rename_i hpam
        refine finish_round hf (fun _ => hv) (by simp) (fun _ => Or.inl hd) hls ?_
        intro _
        exact ⟨hd, hroot, fun hx => absurd hx hpam, hmul⟩
    · exact finish_round hf (by simp) (by simp) (fun _ => Or.inl hd) hls (by simp)
  · simp only [Prod.mk.injEq] at hf
    obtain ⟨rfl, rfl⟩ := hf
    exact early_round (Or.inl rfl) hls

theorem after_round (hf : after c e st1 ev a v = (o, st')) : Round c e st1 ev a v o st' := by
  unfold after at hf
  cases v with
  | false =>
    simp only [Bool.false_eq_true, if_false] at hf
    exact finish_round (ls := st1.lists) hf (by simp) (by simp) (by simp) (Or.inl rfl) (by simp)
  | true =>
    simp only [if_true] at hf
    by_cases hm : st1.multi = true
    · rw [if_pos hm] at hf
      split at hf
      · simp only [Prod.mk.injEq] at hf
        obtain ⟨rfl, rfl⟩ := hf
        exact early_round (ls := st1.lists) (Or.inl rfl) (Or.inl rfl)
      · rename_i ls hu
        exact decided_round rfl hf (Or.inr ⟨rfl, hm, _, hu⟩) (fun _ => ⟨ls, hu⟩)
      · rename_i ls hu
        exact finish_round hf (by simp) (by simp) (fun _ => Or.inr hm) (Or.inr ⟨rfl, hm, _, hu⟩)
          (by simp)
    · rw [if_neg hm] at hf
      exact decided_round (ls := st1.lists) rfl hf (Or.inl rfl) (fun hx => absurd hx hm)

end Verif.Monitor
