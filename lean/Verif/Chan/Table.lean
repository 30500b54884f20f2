/- C21: the table of channels (channels.c:486-543 `channel_new`, 735-799 `channel_free`, 247-262 `channel_by_id`). -/
import Verif.Chan.Props

namespace Verif.Chan
open Verif Wire

/-- channels.c:163-167: slots, free ones NULL. -/
abbrev Table := List (Option Chan)

/-- channels.c:238-240 `channel_init_channels`: ten free slots. -/
def Table.init : Table := List.replicate 10 none

/-- channels.c:496-503: the first free slot. -/
def firstFree : Table → Nat → Option Nat
  | [], _ => none
  | none :: _, i => some i
  | some _ :: t, i => firstFree t (i + 1)

/-- channels.c:486-543 `channel_new`; `none`: fatal, the table is full. -/
def channelNew (t : Table) (c : Chan) : Option (Nat × Table) :=
  match firstFree t 0 with
  | some i => some (i, t.set i (some c))
  | none =>
    if t.length > 10000 then none
    else some (t.length, (t ++ List.replicate 10 none).set t.length (some c))

/-- channels.c:247-262 `channel_by_id` -/
def byId (t : Table) (i : Nat) : Option Chan := (t[i]?).join

/-- Things that happen to the table: a channel is made, or an event is delivered to the channel with a number. -/
inductive TEv
  | new (c : Chan)
  | ev (i : Nat) (e : Ev)

/-- The effect of an event's outcome on the slot (channels.c:797: freeing clears it); `none`: the process ends. -/
def settle (t : Table) (i : Nat) : R → Option Table
  | .ok c _ => some (t.set i (some c))
  | .freed _ => some (t.set i none)
  | .fatal => none

def tstep (t : Table) : TEv → Option Table
  | .new c => (channelNew t c).map (·.2)
  | .ev i e =>
    match byId t i with
    | none => none          -- no such channel: the connection is closed
    | some c => settle t i (step c e)

def trun (t : Table) : List TEv → Option Table
  | [] => some t
  | e :: es => (tstep t e).bind fun t => trun t es

/-- The events delivered to number `i`. -/
def eventsOf (i : Nat) (es : List TEv) : List Ev :=
  es.filterMap fun e => match e with | .ev j e => if j = i then some e else none | .new _ => none

theorem firstFree_spec : ∀ (t : Table) (k i : Nat), firstFree t k = some i → k ≤ i ∧ t[i - k]? = some none := by
  intro t
  induction t with
  | nil => intro k i h; simp [firstFree] at h
  | cons x t ih =>
    intro k i h
    cases x with
    | none =>
      simp only [firstFree, Option.some.injEq] at h
      subst h
      exact ⟨Nat.le_refl _, by simp⟩
    | some c =>
      simp only [firstFree] at h
      obtain ⟨h1, h2⟩ := ih (k + 1) i h
      refine ⟨by omega, ?_⟩
      rw [show i - k = (i - (k + 1)) + 1 by omega]
      simpa using h2

theorem byId_set_same {t : Table} {i : Nat} (x : Option Chan) (h : i < t.length) : byId (t.set i x) i = x := by
  simp [byId, List.getElem?_set, h]

theorem byId_set_ne {t : Table} {i j : Nat} (x : Option Chan) (h : i ≠ j) : byId (t.set i x) j = byId t j := by
  simp [byId, List.getElem?_set, h]

theorem byId_grow (t : Table) (j : Nat) (n : Nat) : byId (t ++ List.replicate n none) j = byId t j := by
  unfold byId
  by_cases h : j < t.length
  · rw [List.getElem?_append_left h]
  · rw [List.getElem?_append_right (by omega), List.getElem?_eq_none (l := t) (by omega), List.getElem?_replicate]
    split <;> rfl

/-- C21: a new channel gets a number no live channel has, answers to it, and no other channel is disturbed. -/
theorem C21_new {t t' : Table} {c : Chan} {i : Nat} (h : channelNew t c = some (i, t')) :
    byId t i = none ∧ byId t' i = some c ∧ ∀ j, j ≠ i → byId t' j = byId t j := by
  unfold channelNew at h
  cases hf : firstFree t 0 with
  | some k =>
    rw [hf] at h
    simp only [Option.some.injEq, Prod.mk.injEq] at h
    obtain ⟨rfl, rfl⟩ := h
    obtain ⟨_, h2⟩ := firstFree_spec t 0 k hf
    rw [Nat.sub_zero] at h2
    have hlt : k < t.length := by
      rcases Nat.lt_or_ge k t.length with h | h
      · exact h
      · rw [List.getElem?_eq_none h] at h2; exact absurd h2 (by simp)
    exact ⟨by simp [byId, h2], byId_set_same _ hlt, fun j hj => byId_set_ne _ (Ne.symm hj)⟩
  | none =>
    rw [hf] at h
    dsimp only at h
    split at h
    · simp at h
    · simp only [Option.some.injEq, Prod.mk.injEq] at h
      obtain ⟨rfl, rfl⟩ := h
      refine ⟨by simp [byId], byId_set_same _ (by simp), fun j hj => ?_⟩
      rw [byId_set_ne _ (Ne.symm hj), byId_grow]

/-- C21: an event concerns only the channel it is delivered to. -/
theorem C21_event {t t' : Table} {i j : Nat} {e : Ev} (h : tstep t (.ev i e) = some t') (hj : j ≠ i) :
    byId t' j = byId t j := by
  simp only [tstep] at h
  cases hb : byId t i with
  | none => rw [hb] at h; simp at h
  | some c =>
    rw [hb] at h
    dsimp only at h
    cases hs : step c e with
    | ok c' o => rw [hs] at h; simp only [settle, Option.some.injEq] at h; subst h; exact byId_set_ne _ (Ne.symm hj)
    | freed o => rw [hs] at h; simp only [settle, Option.some.injEq] at h; subst h; exact byId_set_ne _ (Ne.symm hj)
    | fatal => rw [hs] at h; simp [settle] at h

theorem byId_lt {t : Table} {i : Nat} {c : Chan} (h : byId t i = some c) : i < t.length := by
  rcases Nat.lt_or_ge i t.length with hl | hl
  · exact hl
  · rw [byId, List.getElem?_eq_none hl] at h; exact absurd h (by simp)

/-- C21: over any history a number means the same channel until that channel is collected: whatever else is created,
closed or transferred, the channel found under the number is the one that was there, after exactly its own events. -/
theorem C21_identity {t t' : Table} {h : List TEv} {i : Nat} {c : Chan} (hc : byId t i = some c)
    (hr : trun t h = some t') (hn : ∀ o es, es <+: eventsOf i h → run c es ≠ .freed o) :
    ∃ c' o, run c (eventsOf i h) = .ok c' o ∧ byId t' i = some c' := by
  induction h generalizing t c with
  | nil =>
    simp only [trun, Option.some.injEq] at hr
    subst hr
    exact ⟨c, [], rfl, hc⟩
  | cons e h ih =>
    simp only [trun] at hr
    cases hs : tstep t e with
    | none => rw [hs] at hr; simp at hr
    | some t1 =>
      rw [hs] at hr
      simp only [Option.bind_some] at hr
      have same : byId t1 i = some c → eventsOf i (e :: h) = eventsOf i h →
          ∃ c' o, run c (eventsOf i (e :: h)) = .ok c' o ∧ byId t' i = some c' := by
        intro h1 h2
        rw [h2] at hn ⊢
        exact ih h1 hr hn
      cases e with
      | new x =>
        simp only [tstep] at hs
        cases hk : channelNew t x with
        | none => rw [hk] at hs; simp at hs
        | some p =>
          obtain ⟨k, t2⟩ := p
          rw [hk] at hs
          simp only [Option.map_some, Option.some.injEq] at hs
          subst hs
          obtain ⟨k1, _, k3⟩ := C21_new hk
          refine same ?_ rfl
          rw [k3 i (by rintro rfl; rw [hc] at k1; exact absurd k1 (by simp)), hc]
      | ev j e =>
        by_cases hj : j = i
        · subst hj
          have he : eventsOf j (TEv.ev j e :: h) = e :: eventsOf j h := by simp [eventsOf]
          rw [he] at hn ⊢
          simp only [tstep, hc] at hs
          cases hst : step c e with
          | fatal => rw [hst] at hs; simp [settle] at hs
          | freed o =>
            refine absurd ?_ (hn o [e] (by simp))
            simp [run, hst, R.bind]
          | ok c1 o1 =>
            rw [hst] at hs
            simp only [settle, Option.some.injEq] at hs
            subst hs
            obtain ⟨c', o, h1, h2⟩ := ih (c := c1) (byId_set_same _ (byId_lt hc)) hr (by
              intro o es hp hrun
              refine hn (o1 ++ o) (e :: es) (by simpa using hp) ?_
              simp [run, hst, R.bind, hrun, R.pre])
            exact ⟨c', o1 ++ o, by simp [run, hst, R.bind, h1, R.pre], h2⟩
        · refine same ?_ (by simp [eventsOf, hj])
          rw [C21_event hs (fun x => hj x.symm), hc]

/-- C21: a number is given to a new channel only after its previous holder was collected — with C20, after CLOSE went
both ways. -/
theorem C21_reuse {t t1 t2 : Table} {h : List TEv} {i : Nat} {c c2 : Chan} (hc : byId t i = some c)
    (hr : trun t h = some t1) (hn : channelNew t1 c2 = some (i, t2)) :
    ∃ o es, es <+: eventsOf i h ∧ run c es = .freed o := by
  refine Classical.byContradiction fun hcon => ?_
  obtain ⟨c', o, _, h2⟩ := C21_identity hc hr (fun o es hp hrun => hcon ⟨o, es, hp, hrun⟩)
  have := (C21_new hn).1
  rw [h2] at this
  exact absurd this (by simp)

/-- The table is never larger than 10010 slots (so numbers fit the wire format's 32 bits and `int`). -/
theorem C21_bound {t t' : Table} {h : List TEv} (ht : t.length ≤ 10010) (hr : trun t h = some t') : t'.length ≤ 10010 := by
  induction h generalizing t with
  | nil => simp only [trun, Option.some.injEq] at hr; subst hr; exact ht
  | cons e h ih =>
    simp only [trun] at hr
    cases hs : tstep t e with
    | none => rw [hs] at hr; simp at hr
    | some t1 =>
      rw [hs] at hr
      refine ih ?_ hr
      cases e with
      | new x =>
        simp only [tstep, channelNew] at hs
        split at hs
        · simp only [Option.map_some, Option.some.injEq] at hs; subst hs; simpa using ht
        · split at hs
          · simp at hs
          · simp only [Option.map_some, Option.some.injEq] at hs; subst hs
            simp; omega
      | ev j e =>
        simp only [tstep] at hs
        split at hs
        · simp at hs
        · next c _ =>
          cases hst : step c e with
          | fatal => rw [hst] at hs; simp [settle] at hs
          | freed o => rw [hst] at hs; simp only [settle, Option.some.injEq] at hs; subst hs; simpa using ht
          | ok c1 o1 => rw [hst] at hs; simp only [settle, Option.some.injEq] at hs; subst hs; simpa using ht

/-- Ten channels, the fourth collected and its number given out again; an eleventh makes the table grow. -/
example : ∃ t, trun Table.init
    (List.replicate 10 (.new {}) ++ [.ev 3 .markDead, .ev 3 (.gc false), .new { session := true }, .new {}]) = some t ∧
    byId t 3 = some { session := true } ∧ byId t 10 = some {} ∧ t.length = 20 := by
  refine ⟨_, rfl, ?_, ?_, ?_⟩ <;> decide

end Verif.Chan
