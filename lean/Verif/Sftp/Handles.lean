/-
Handles: C34.
-/
import Verif.Sftp.Spec

namespace Verif.Sftp
open Verif Wire

/-! ### The table -/

/-- What a place of the table holds. -/
def objOf (h : Handle) : Option Obj :=
  match h.use with
  | .unused => none
  | .file => some (.file h.obj h.flags.append h.name)
  | .dir => some (.dir h.obj h.name)

def objAt (t : Table) (i : Nat) : Option Obj := if i < 2 ^ 31 then objOf (t.handles.getD i noHandle) else none

def named (t : Table) (s : Bytes) : Option Obj := if s.length = 4 then objAt t (ofBE s) else none

/-- The places that are free, in the order in which they will be used. -/
def Chain (hs : List Handle) : Option Nat → List Nat → Prop
  | o, [] => o = none
  | o, i :: l => o = some i ∧ i < hs.length ∧ Chain hs (hs.getD i noHandle).nextUnused l

structure Inv (t : Table) : Prop where
  free : ∃ l, Chain t.handles t.first l ∧ l.Nodup ∧ ∀ i, i ∈ l ↔ i < t.handles.length ∧ (t.handles.getD i noHandle).use = .unused
  size : t.handles.length < 2 ^ 32

theorem getD_set (hs : List Handle) (i j : Nat) (h d : Handle) :
    (hs.set i h).getD j d = if i = j ∧ i < hs.length then h else hs.getD j d := by
  simp only [List.getD_eq_getElem?_getD, List.getElem?_set]
  by_cases hij : i = j
  · subst hij
    by_cases hl : i < hs.length
    · simp [hl]
    · simp [hl]
  · simp [hij]

theorem getD_append_one (hs : List Handle) (j : Nat) : (hs ++ [noHandle]).getD j noHandle = hs.getD j noHandle := by
  simp only [List.getD_eq_getElem?_getD]
  rcases Nat.lt_trichotomy j hs.length with h | h | h
  · rw [List.getElem?_append_left h]
  · subst h; simp
  · rw [List.getElem?_eq_none (by simp; omega), List.getElem?_eq_none (by omega)]

theorem chain_congr {hs hs' : List Handle} {o : Option Nat} {l : List Nat} (h : Chain hs o l) (hlen : hs.length ≤ hs'.length)
    (he : ∀ i ∈ l, (hs'.getD i noHandle).nextUnused = (hs.getD i noHandle).nextUnused) : Chain hs' o l := by
  induction l generalizing o with
  | nil => exact h
  | cons i l ih =>
    obtain ⟨h1, h2, h3⟩ := h
    refine ⟨h1, by omega, ?_⟩
    rw [he i (by simp)]
    exact ih h3 fun j hj => he j (by simp [hj])

theorem inv_start : Inv {} := by
  refine ⟨⟨[], rfl, by simp, fun i => ?_⟩, by simp⟩
  simp

/-- A place is given back. -/
theorem inv_unused {t : Table} {i : Nat} (h : Inv t) (hi : i < t.handles.length) (hu : (t.handles.getD i noHandle).use ≠ .unused) :
    Inv (handleUnused t i) := by
  obtain ⟨⟨l, hc, hn, hm⟩, hs⟩ := h
  have hil : i ∉ l := fun hx => hu ((hm i).1 hx).2
  refine ⟨⟨i :: l, ?_, ?_, ?_⟩, ?_⟩
  · refine ⟨rfl, by simp only [handleUnused, List.length_set]; exact hi, ?_⟩
    simp only [handleUnused]
    rw [getD_set, if_pos ⟨rfl, hi⟩]
    refine chain_congr hc (by simp) fun j hj => ?_
    rw [getD_set, if_neg]
    rintro ⟨rfl, -⟩
    exact hil hj
  · exact List.nodup_cons.2 ⟨hil, hn⟩
  · intro j
    simp only [handleUnused, List.length_set]
    rw [List.mem_cons, getD_set]
    by_cases hij : i = j
    · subst hij
      rw [if_pos ⟨rfl, hi⟩]
      simp [hi]
    · rw [if_neg (fun x => hij x.1), hm j]
      constructor
      · rintro (rfl | h)
        · exact absurd rfl hij
        · exact h
      · exact .inr
  · simp only [handleUnused, List.length_set]; exact hs

theorem grow_some {t t' : Table} (h : Inv t) (hg : grow t = some t') :
    Inv t' ∧ t'.first ≠ none ∧ ∀ j, objOf (t'.handles.getD j noHandle) = objOf (t.handles.getD j noHandle) := by
  unfold grow at hg
  split at hg
  · rename_i hf
    split at hg
    · simp at hg
    · rename_i hl
      simp only [Option.some.injEq] at hg
      subst hg
      obtain ⟨⟨l, hc, hn, hm⟩, hs⟩ := h
      have hl0 : l = [] := by
        cases l with
        | nil => rfl
        | cons i l => rw [hf] at hc; simp [Chain] at hc
      subst hl0
      have hz : (t.handles ++ [noHandle]).getD t.handles.length noHandle = noHandle := by
        rw [getD_append_one, List.getD_eq_getElem?_getD, List.getElem?_eq_none (by omega)]; rfl
      have hget : ∀ j, objOf ((handleUnused { t with handles := t.handles ++ [noHandle] } t.handles.length).handles.getD j noHandle) =
          objOf (t.handles.getD j noHandle) := by
        intro j
        simp only [handleUnused]
        rw [getD_set]
        split
        · rename_i hj
          rw [← hj.1]
          rw [List.getD_eq_getElem?_getD (l := t.handles), List.getElem?_eq_none (by omega)]
          rfl
        · rw [getD_append_one]
      refine ⟨⟨⟨[t.handles.length], ?_, by simp, fun j => ?_⟩, ?_⟩, by simp [handleUnused], hget⟩
      · refine ⟨rfl, by simp [handleUnused], ?_⟩
        simp only [handleUnused]
        rw [getD_set, if_pos (by simp)]
        exact hf
      · simp only [handleUnused, List.length_set, List.length_append, List.length_singleton, List.mem_singleton]
        rw [getD_set, getD_append_one]
        have hmj := hm j
        simp only [List.not_mem_nil, false_iff, not_and] at hmj
        split
        · rename_i hj; simp [← hj.1]
        · rename_i hj
          constructor
          · rintro rfl; exact absurd ⟨rfl, by simp⟩ hj
          · rintro ⟨h1, h2⟩
            rcases Nat.lt_or_ge j t.handles.length with h3 | h3
            · exact absurd (getD_append_one t.handles j ▸ h2) (hmj h3)
            · omega
      · simp only [handleUnused, List.length_set, List.length_append, List.length_singleton]; omega
  · rename_i hf
    simp only [Option.some.injEq] at hg
    subst hg
    exact ⟨h, hf, fun _ => rfl⟩

/-- A new handle: its place was free, and it is the only one that changes. -/
theorem handleNew_some {t t' : Table} {use : Use} {name : Bytes} {obj : Nat} {flags : OFlags} {i : Nat} (h : Inv t)
    (hu : use ≠ .unused) (hn : handleNew t use name obj flags = some (i, t')) :
    Inv t' ∧ i < 2 ^ 32 ∧ objOf (t.handles.getD i noHandle) = none ∧
      ∀ j, objOf (t'.handles.getD j noHandle) =
        if j = i then objOf ⟨use, obj, flags, name, none⟩ else objOf (t.handles.getD j noHandle) := by
  unfold handleNew at hn
  cases hg : grow t with
  | none => simp [hg] at hn
  | some t1 =>
    rw [hg] at hn
    simp only at hn
    obtain ⟨⟨⟨l, hc, hnd, hm⟩, hs⟩, hf, hobj⟩ := grow_some h hg
    cases l with
    | nil => exact absurd hc hf
    | cons k l =>
      obtain ⟨h1, h2, h3⟩ := hc
      rw [h1] at hn
      simp only [Option.some.injEq, Prod.mk.injEq] at hn
      obtain ⟨rfl, rfl⟩ := hn
      have hkl := (List.nodup_cons.1 hnd).1
      refine ⟨⟨⟨l, ?_, (List.nodup_cons.1 hnd).2, fun j => ?_⟩, by simpa using hs⟩, by omega, ?_, fun j => ?_⟩
      · refine chain_congr h3 (by simp) fun j hj => ?_
        rw [getD_set, if_neg]
        rintro ⟨rfl, -⟩
        exact hkl hj
      · simp only [List.length_set]
        rw [getD_set]
        split
        · rename_i hj
          rw [← hj.1]
          constructor
          · intro hx; exact absurd hx hkl
          · rintro ⟨-, hx⟩; exact absurd hx hu
        · rename_i hj
          rw [← hm j, List.mem_cons]
          constructor
          · exact .inr
          · rintro (rfl | hx)
            · exact absurd ⟨rfl, h2⟩ hj
            · exact hx
      · rw [← hobj k]
        have := ((hm k).1 (by simp)).2
        rw [objOf, this]
      · simp only
        rw [getD_set]
        by_cases hj : j = k
        · subst hj; rw [if_pos ⟨rfl, h2⟩, if_pos rfl]
        · rw [if_neg (fun x => hj x.1.symm), if_neg hj, hobj]

/-! ### Strings -/

theorem getD_beyond {t : Table} {i : Nat} (h : ¬ i < t.handles.length) : t.handles.getD i noHandle = noHandle := by
  rw [List.getD_eq_getElem?_getD, List.getElem?_eq_none (by omega)]; rfl

theorem isOk_iff (t : Table) (i : Nat) (use : Use) (hu : use ≠ .unused) :
    isOk t i use = true ↔ i < 2 ^ 31 ∧ (t.handles.getD i noHandle).use = use := by
  unfold isOk
  simp only [Bool.and_eq_true, decide_eq_true_eq]
  constructor
  · rintro ⟨⟨h1, -⟩, h3⟩; exact ⟨h1, h3⟩
  · rintro ⟨h1, h3⟩
    refine ⟨⟨h1, ?_⟩, h3⟩
    by_cases h : i < t.handles.length
    · exact h
    · rw [getD_beyond h] at h3; exact absurd h3.symm hu

theorem isOk_file (t : Table) (i : Nat) : isOk t i .file = true ↔ ∃ fd ap nm, objAt t i = some (.file fd ap nm) := by
  rw [isOk_iff t i .file (by simp)]
  unfold objAt objOf
  by_cases h : i < 2 ^ 31
  · rw [if_pos h]
    cases (t.handles.getD i noHandle).use <;> simp [h]
  · simp [h]

theorem isOk_dir (t : Table) (i : Nat) : isOk t i .dir = true ↔ ∃ d nm, objAt t i = some (.dir d nm) := by
  rw [isOk_iff t i .dir (by simp)]
  unfold objAt objOf
  by_cases h : i < 2 ^ 31
  · rw [if_pos h]
    cases (t.handles.getD i noHandle).use <;> simp [h]
  · simp [h]

theorem getHandle_eq (t : Table) (s : Bytes) :
    getHandle t s = if s.length = 4 ∧ (objAt t (ofBE s)).isSome then some (ofBE s) else none := by
  unfold getHandle fromStr
  by_cases h4 : s.length = 4
  · rw [if_pos (by omega), if_neg (by omega)]
    cases ho : objAt t (ofBE s) with
    | none =>
      have h1 : isOk t (ofBE s) .file = false := by
        cases hb : isOk t (ofBE s) .file with
        | false => rfl
        | true => obtain ⟨a, b, c, e⟩ := (isOk_file t _).1 hb; rw [ho] at e; cases e
      have h2 : isOk t (ofBE s) .dir = false := by
        cases hb : isOk t (ofBE s) .dir with
        | false => rfl
        | true => obtain ⟨a, b, e⟩ := (isOk_dir t _).1 hb; rw [ho] at e; cases e
      simp [h1, h2]
    | some o =>
      cases o with
      | file fd ap nm => rw [(isOk_file t _).2 ⟨fd, ap, nm, ho⟩]; simp [h4]
      | dir d nm => rw [(isOk_dir t _).2 ⟨d, nm, ho⟩]; simp [h4]
  · split <;> simp [h4]

/-- A string is taken exactly if it stands for something. -/
theorem getHandle_some {t : Table} {s : Bytes} {i : Nat} (h : getHandle t s = some i) :
    s = toStr i ∧ named t s = objAt t i ∧ (objAt t i).isSome := by
  rw [getHandle_eq] at h
  split at h
  · rename_i hc
    simp only [Option.some.injEq] at h
    subst h
    refine ⟨?_, by rw [named, if_pos hc.1], hc.2⟩
    have := be_ofBE s
    rw [hc.1] at this
    exact this.symm
  · simp at h

theorem getHandle_none {t : Table} {s : Bytes} (h : named t s = none) : getHandle t s = none := by
  rw [getHandle_eq, if_neg]
  rintro ⟨h1, h2⟩
  rw [named, if_pos h1] at h
  rw [h] at h2
  cases h2

theorem named_of_getHandle_none {t : Table} {s : Bytes} (h : getHandle t s = none) : named t s = none := by
  rw [getHandle_eq] at h
  unfold named
  by_cases h4 : s.length = 4
  · rw [if_pos h4]
    cases ho : objAt t (ofBE s) with
    | none => rfl
    | some o => simp [h4, ho] at h
  · rw [if_neg h4]

theorem toFd_some {t : Table} {s : Bytes} {fd : Nat} (h : toFd t (getHandle t s) = some fd) :
    ∃ ap nm, named t s = some (.file fd ap nm) := by
  cases hg : getHandle t s with
  | none => rw [hg] at h; simp [toFd] at h
  | some i =>
    rw [hg] at h
    unfold toFd at h
    simp only at h
    split at h
    · rename_i hk
      simp only [Option.some.injEq] at h
      obtain ⟨_, hn, _⟩ := getHandle_some hg
      obtain ⟨hi, hu⟩ := (isOk_iff t i .file (by simp)).1 hk
      exact ⟨(t.handles.getD i noHandle).flags.append, (t.handles.getD i noHandle).name, by rw [hn, objAt, if_pos hi, objOf, hu, h]⟩
    · simp at h

theorem toDir_some {t : Table} {s : Bytes} {d : Nat} (h : toDir t (getHandle t s) = some d) :
    ∃ nm, named t s = some (.dir d nm) := by
  cases hg : getHandle t s with
  | none => rw [hg] at h; simp [toDir] at h
  | some i =>
    rw [hg] at h
    unfold toDir at h
    simp only at h
    split at h
    · rename_i hk
      simp only [Option.some.injEq] at h
      obtain ⟨_, hn, _⟩ := getHandle_some hg
      obtain ⟨hi, hu⟩ := (isOk_iff t i .dir (by simp)).1 hk
      exact ⟨(t.handles.getD i noHandle).name, by rw [hn, objAt, if_pos hi, objOf, hu, h]⟩
    · simp at h

theorem toFd_of {t : Table} {s : Bytes} {fd : Nat} {ap : Bool} {nm : Bytes} (h : named t s = some (.file fd ap nm)) :
    toFd t (getHandle t s) = some fd ∧ toName t (getHandle t s) = nm ∧ toAppend t (getHandle t s) = ap := by
  have hg : getHandle t s = some (ofBE s) := by
    cases hg : getHandle t s with
    | none => rw [named_of_getHandle_none hg] at h; cases h
    | some i => rw [getHandle_eq] at hg; split at hg <;> simp_all
  obtain ⟨_, hn, _⟩ := getHandle_some hg
  rw [h] at hn
  have hk := (isOk_file t (ofBE s)).2 ⟨fd, ap, nm, hn.symm⟩
  obtain ⟨hi, hu⟩ := (isOk_iff t _ .file (by simp)).1 hk
  rw [objAt, if_pos hi, objOf, hu] at hn
  simp only [Option.some.injEq, Obj.file.injEq] at hn
  rw [hg]
  exact ⟨by simp only [toFd]; rw [if_pos hk, hn.1], by simp only [toName]; rw [hn.2.2], by simp only [toAppend]; rw [if_pos hk, hn.2.1]⟩

theorem toStr_length (i : Nat) : (toStr i).length = 4 := be_length _ _

theorem ofBE_toStr {i : Nat} (h : i < 2 ^ 32) : ofBE (toStr i) = i := ofBE_be_of_lt (by omega)

theorem eq_toStr_iff {s : Bytes} (h4 : s.length = 4) {i : Nat} (hi : i < 2 ^ 32) : s = toStr i ↔ ofBE s = i := by
  constructor
  · rintro rfl; exact ofBE_toStr hi
  · rintro rfl
    have := be_ofBE s
    rw [h4] at this
    exact this.symm

/-- Strings after something was opened. -/
theorem named_new {t t' : Table} {use : Use} {name : Bytes} {obj : Nat} {flags : OFlags} {i : Nat} (h : Inv t)
    (hu : use ≠ .unused) (hi : i < 2 ^ 31) (hn : handleNew t use name obj flags = some (i, t')) :
    named t (toStr i) = none ∧ ∀ s, named t' s = if s = toStr i then objOf ⟨use, obj, flags, name, none⟩ else named t s := by
  obtain ⟨-, h2, h3, h4⟩ := handleNew_some h hu hn
  constructor
  · rw [named, if_pos (toStr_length i), ofBE_toStr h2, objAt, if_pos hi, h3]
  · intro s
    by_cases hs : s.length = 4
    · rw [named, if_pos hs, objAt, h4]
      by_cases he : s = toStr i
      · rw [if_pos he, he, ofBE_toStr h2, if_pos hi, if_pos rfl]
      · rw [if_neg he, named, if_pos hs, objAt, if_neg (fun x => he ((eq_toStr_iff hs h2).2 x))]
    · have : s ≠ toStr i := fun e => hs (by rw [e]; exact toStr_length i)
      rw [if_neg this, named, named, if_neg hs, if_neg hs]

/-- … in a place whose number is negative. -/
theorem named_new_neg {t t' : Table} {use : Use} {name : Bytes} {obj : Nat} {flags : OFlags} {i : Nat} (h : Inv t)
    (hu : use ≠ .unused) (hi : ¬ i < 2 ^ 31) (hn : handleNew t use name obj flags = some (i, t')) (s : Bytes) :
    named t' s = named t s := by
  obtain ⟨-, -, -, h4⟩ := handleNew_some h hu hn
  by_cases hs : s.length = 4
  · rw [named, named, if_pos hs, if_pos hs, objAt, objAt, h4]
    by_cases hb : ofBE s < 2 ^ 31
    · rw [if_pos hb, if_pos hb, if_neg (by omega)]
    · rw [if_neg hb, if_neg hb]
  · rw [named, named, if_neg hs, if_neg hs]

/-- Strings after something was closed. -/
theorem named_unused {t : Table} {i : Nat} (hi : i < t.handles.length) (hs : t.handles.length < 2 ^ 32) (s : Bytes) :
    named (handleUnused t i) s = if s = toStr i then none else named t s := by
  have h2 : i < 2 ^ 32 := by omega
  have key : ∀ j, objOf ((handleUnused t i).handles.getD j noHandle) = if j = i then none else objOf (t.handles.getD j noHandle) := by
    intro j
    simp only [handleUnused]
    rw [getD_set]
    by_cases hj : j = i
    · subst hj; rw [if_pos ⟨rfl, hi⟩, if_pos rfl]; rfl
    · rw [if_neg (fun x => hj x.1.symm), if_neg hj]
  by_cases hl : s.length = 4
  · rw [named, if_pos hl, objAt, key]
    by_cases he : s = toStr i
    · rw [if_pos he, he, ofBE_toStr h2, if_pos rfl, ite_self]
    · rw [if_neg he, named, if_pos hl, objAt, if_neg (fun x => he ((eq_toStr_iff hl h2).2 x))]
  · have : s ≠ toStr i := fun e => hl (by rw [e]; exact toStr_length i)
    rw [if_neg this, named, named, if_neg hl, if_neg hl]

end Verif.Sftp
