/-
Places for channels, and the numbers in messages.
-/
import Verif.Proxy.Spec

namespace Verif.Proxy
open Verif Wire

theorem at_some {l : List (Option Ch)} {n : Nat} {c : Ch} : at? l n = some c ↔ l[n]? = some (some c) := by
  unfold at?
  cases h : l[n]? with
  | none => simp
  | some o => simp

theorem free_le (l : List (Option Ch)) : free l ≤ l.length := by
  induction l with
  | nil => exact Nat.le_refl 0
  | cons o l ih =>
    cases o with
    | none => exact Nat.zero_le _
    | some c => simpa [free] using ih

theorem free_none (l : List (Option Ch)) (c : Ch) : l[free l]? ≠ some (some c) := by
  induction l with
  | nil => simp
  | cons o l ih =>
    cases o with
    | none => simp [free]
    | some d => simpa [free] using ih

theorem place_self (c : Ch) (l : List (Option Ch)) : (place c l)[free l]? = some (some c) := by
  induction l with
  | nil => rfl
  | cons o l ih =>
    cases o with
    | none => rfl
    | some d => simpa [free, place] using ih

theorem place_other {c : Ch} {l : List (Option Ch)} {n : Nat} (h : n ≠ free l) : (place c l)[n]? = l[n]? := by
  induction l generalizing n with
  | nil =>
    cases n with
    | zero => exact absurd rfl h
    | succ n => simp [place]
  | cons o l ih =>
    cases o with
    | none =>
      cases n with
      | zero => exact absurd rfl h
      | succ n => simp [place]
    | some d =>
      cases n with
      | zero => rfl
      | succ n =>
        simp only [place, List.getElem?_cons_succ]
        exact ih (by simpa [free] using h)

theorem place_length (c : Ch) (l : List (Option Ch)) : l.length ≤ (place c l).length ∧ free l < (place c l).length := by
  induction l with
  | nil => simp [place, free]
  | cons o l ih =>
    cases o with
    | none => simp [place, free]
    | some d => simpa [place, free] using ih

/-- A channel that is there after a new one is placed is the new one, or was there. -/
theorem place_cases {c e : Ch} {l : List (Option Ch)} {n : Nat} (h : (place c l)[n]? = some (some e)) :
    (n = free l ∧ e = c) ∨ (n ≠ free l ∧ l[n]? = some (some e)) := by
  by_cases hn : n = free l
  · subst hn
    rw [place_self] at h
    simp only [Option.some.injEq] at h
    exact .inl ⟨rfl, h.symm⟩
  · rw [place_other hn] at h
    exact .inr ⟨hn, h⟩

theorem set_cases {e : Ch} {o : Option Ch} {l : List (Option Ch)} {n m : Nat} (h : (l.set m o)[n]? = some (some e)) :
    (n = m ∧ o = some e) ∨ (n ≠ m ∧ l[n]? = some (some e)) := by
  rw [List.getElem?_set] at h
  by_cases hn : m = n
  · subst hn
    rw [if_pos rfl] at h
    split at h
    · simp only [Option.some.injEq] at h
      exact .inl ⟨rfl, h⟩
    · cases h
  · rw [if_neg hn] at h
    exact .inr ⟨fun h => hn h.symm, h⟩

theorem byRemote_some {r n : Nat} {l : List (Option Ch)} (h : byRemote r l = some n) : ∃ c, l[n]? = some (some c) ∧ c.remote = some r := by
  induction l generalizing n with
  | nil => cases h
  | cons o l ih =>
    cases o with
    | none =>
      simp only [byRemote, Option.map_eq_some_iff] at h
      obtain ⟨m, hm, rfl⟩ := h
      simpa using ih hm
    | some d =>
      simp only [byRemote] at h
      split at h
      · rename_i hd
        simp only [Option.some.injEq] at h
        subst h
        exact ⟨d, rfl, hd⟩
      · simp only [Option.map_eq_some_iff] at h
        obtain ⟨m, hm, rfl⟩ := h
        simpa using ih hm

theorem alive_iff {l : List (Option Ch)} {u : Nat} : alive l u = true ↔ ∃ (n : Nat) (c : Ch), l[n]? = some (some c) ∧ Ch.uid c = u := by
  simp only [alive, List.any_eq_true, Option.any_eq_true, decide_eq_true_eq]
  constructor
  · rintro ⟨o, ho, c, rfl, rfl⟩
    obtain ⟨n, hn⟩ := List.mem_iff_getElem?.1 ho
    exact ⟨n, c, hn, rfl⟩
  · rintro ⟨n, c, hn, rfl⟩
    exact ⟨_, List.mem_iff_getElem?.2 ⟨n, hn⟩, c, rfl, rfl⟩

theorem isClient_iff {l : List (Option Ch)} {u : Nat} :
    isClient l u = true ↔ ∃ (n : Nat) (c : Ch), l[n]? = some (some c) ∧ Ch.uid c = u ∧ c.kind = .client := by
  simp only [isClient, List.any_eq_true, Option.any_eq_true, decide_eq_true_eq, Bool.and_eq_true]
  constructor
  · rintro ⟨o, ho, c, rfl, rfl, hk⟩
    obtain ⟨n, hn⟩ := List.mem_iff_getElem?.1 ho
    exact ⟨n, c, hn, rfl, hk⟩
  · rintro ⟨n, c, hn, rfl, hk⟩
    exact ⟨_, List.mem_iff_getElem?.2 ⟨n, hn⟩, c, rfl, rfl, hk⟩

/-! ### Messages -/

theorem str_inj {v w x y : Bytes} (hv : v.length ≤ 134217724) (hw : w.length ≤ 134217724) (h : str v ++ x = str w ++ y) : v = w ∧ x = y := by
  have h1 := getStr_append v x hv
  rw [h, getStr_append w y hw] at h1
  simp only [Option.some.injEq, Prod.mk.injEq] at h1
  exact ⟨h1.1.symm, h1.2.symm⟩

theorem be_app_inj {a b : Nat} {x y : Bytes} (ha : a < 2 ^ 32) (hb : b < 2 ^ 32) (h : be 4 a ++ x = be 4 b ++ y) : a = b ∧ x = y := by
  have h1 := getInt_append 4 a x ha
  rw [h, getInt_append 4 b y hb] at h1
  simp only [Option.some.injEq, Prod.mk.injEq] at h1
  exact ⟨h1.1.symm, h1.2.symm⟩

/-- A message announces one number. -/
theorem announces_inj {n m t : Nat} {b : Bytes} (hn : n < 2 ^ 32) (hm : m < 2 ^ 32) (h : Announces n t b) (h' : Announces m t b) : n = m := by
  cases h with
  | opens v rest hv =>
    generalize hb : str v ++ be 4 n ++ rest = b at h'
    cases h' with
    | opens w rest' hw =>
      rw [List.append_assoc, List.append_assoc] at hb
      exact (be_app_inj hn hm (str_inj hv hw hb).2).1
  | confirms r rest hr =>
    generalize hb : be 4 r ++ be 4 n ++ rest = b at h'
    cases h' with
    | confirms q rest' hq =>
      rw [List.append_assoc, List.append_assoc] at hb
      exact (be_app_inj hn hm (be_app_inj hr hq hb).2).1

theorem announces_type {n t : Nat} {b : Bytes} (h : Announces n t b) : t = 90 ∨ t = 91 := by
  cases h
  · exact .inl rfl
  · exact .inr rfl

theorem means_send {log : List Up} {n d id : Nat} {u : Up} (h : Means log n d id) (hu : ¬ Announces n u.type u.body) :
    Means (log ++ [u]) n d id := by
  obtain ⟨v, ⟨pre, post, rfl, ha, hp⟩, hs, hr⟩ := h
  refine ⟨v, ⟨pre, post ++ [u], by simp, ha, fun x hx => ?_⟩, hs, hr⟩
  rcases List.mem_append.1 hx with hx | hx
  · exact hp x hx
  · rw [List.mem_singleton.1 hx]
    exact hu

theorem means_new {log : List Up} {n d id : Nat} {u : Up} (hu : Announces n u.type u.body) (hs : u.src = some d)
    (hr : Renumbered id n u.type u.orig u.body) : Means (log ++ [u]) n d id :=
  ⟨u, ⟨log, [], rfl, hu, by simp⟩, hs, hr⟩

theorem openParts_iff {b ctype rest : Bytes} {id : Nat} :
    openParts b = some (ctype, id, rest) ↔
      id < 2 ^ 32 ∧ ∃ v, Named v ctype ∧ v.length ≤ 134217724 ∧ b = str v ++ be 4 id ++ rest := by
  simp only [openParts, bind, Option.bind_eq_some_iff, Prod.exists, pure, Option.some.injEq, Prod.mk.injEq]
  constructor
  · rintro ⟨c, b1, h1, i, b2, h2, rfl, rfl, rfl⟩
    obtain ⟨v, hv, rfl, hl⟩ := getCstr_named h1
    obtain ⟨rfl, hi⟩ := getInt_some h2
    exact ⟨hi, v, hv, hl, by simp⟩
  · rintro ⟨hi, v, hv, hl, rfl⟩
    refine ⟨ctype, be 4 id ++ rest, ?_, id, rest, getInt_append 4 id rest hi, rfl, rfl, rfl⟩
    rw [List.append_assoc]
    exact getCstr_of_named hv _ hl

theorem confirmParts_iff {b rest : Bytes} {r id : Nat} :
    confirmParts b = some (r, id, rest) ↔ r < 2 ^ 32 ∧ id < 2 ^ 32 ∧ b = be 4 r ++ be 4 id ++ rest := by
  simp only [confirmParts, bind, Option.bind_eq_some_iff, Prod.exists, pure, Option.some.injEq, Prod.mk.injEq]
  constructor
  · rintro ⟨c, b1, h1, i, b2, h2, rfl, rfl, rfl⟩
    obtain ⟨rfl, hr⟩ := getInt_some h1
    obtain ⟨rfl, hi⟩ := getInt_some h2
    exact ⟨hr, hi, by simp⟩
  · rintro ⟨hr, hi, rfl⟩
    refine ⟨r, be 4 id ++ rest, ?_, id, rest, getInt_append 4 id rest hi, rfl, rfl, rfl⟩
    rw [List.append_assoc]
    exact getInt_append 4 r _ hr

theorem listenParts_iff {b host : Bytes} {port : Nat} : listenParts b = some (host, port) ↔ Listens host port b := by
  simp only [listenParts, bind, Option.bind_eq_some_iff, Prod.exists]
  constructor
  · rintro ⟨name, b1, h1, h⟩
    split at h
    · simp at h
    rename_i hname
    simp only [Option.pure_def, Option.bind_some, Option.bind_eq_some_iff, Prod.exists] at h
    obtain ⟨x, b2, h2, c, b3, h3, p, b4, h4, h⟩ := h
    split at h
    · cases h
    rename_i hp
    simp only [Option.some.injEq, Prod.mk.injEq] at h
    obtain ⟨rfl, rfl⟩ := h
    obtain ⟨v, hv, rfl, -⟩ := getCstr_named h1
    obtain ⟨y, rfl, -⟩ := getInt_one h2
    obtain ⟨w, hw, rfl, hl⟩ := getCstr_named h3
    obtain ⟨rfl, -⟩ := getInt_some h4
    have hname : name = b!"tcpip-forward" := Classical.byContradiction hname
    rw [hname] at hv
    have := Listens.mk v w b4 y hv hw hl (Nat.le_of_not_lt hp)
    simpa using this
  · rintro ⟨v, w, more, x, hv, hw, hl, hp⟩
    have hvl : v.length ≤ maxString := by
      rcases hv.1 with h | h <;> rw [h] <;> decide
    refine ⟨_, _, getCstr_of_named hv _ hvl, ?_⟩
    rw [if_neg (by decide)]
    simp only [Option.pure_def, Option.bind_some, Option.bind_eq_some_iff, Prod.exists]
    refine ⟨_, _, getInt_cons x _, host, be 4 port ++ more, ?_, port, more, getInt_append 4 port more (by omega), ?_⟩
    · rw [List.append_assoc]
      exact getCstr_of_named hw _ hl
    · rw [if_neg (by omega)]

theorem renumbered_open {v ctype rest : Bytes} {id n : Nat} (hv : Named v ctype) (hl : v.length ≤ 134217724) :
    Announces n 90 (str ctype ++ be 4 n ++ rest) ∧ Renumbered id n 90 (str v ++ be 4 id ++ rest) (str ctype ++ be 4 n ++ rest) := by
  refine ⟨.opens _ _ ?_, .opens _ _ _ hv⟩
  rcases hv.1 with h | h
  · rw [← h]; exact hl
  · rw [h] at hl
    simp at hl
    omega

end Verif.Proxy
