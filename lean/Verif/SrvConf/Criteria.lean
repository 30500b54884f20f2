/- The server's Match lines: a block applies if all its criteria hold. -/
import Verif.SrvConf.Spec

namespace Verif.SrvConf
open Verif Match
open _root_.Verif.Conf (same)

theorem known_ok {ci : Option Conn} {f : Conn → Option Bytes} {p : Bytes → Bool} {b : Bool}
    (h : (known ci f).map (fun x => x.any p) = some b) : b = true ↔ ∃ c u, ci = some c ∧ f c = some u ∧ p u = true := by
  simp only [known] at h
  split at h
  · simp only [Option.map_some, Option.any_none, Option.some.injEq] at h; simp [← h]
  · rename_i c
    split at h
    · rename_i x hx
      simp only [Option.map_some, Option.any_some, Option.some.injEq] at h
      simp [← h, hx]
    · rename_i hx
      split at h
      · simp only [Option.map_some, Option.any_none, Option.some.injEq] at h; simp [← h, hx]
      · cases h

theorem addr_ok {E : Env} {ci : Option Conn} {f : Conn → Option Bytes} {a : Bytes} {b : Bool}
    (h : addrHolds E (known ci f) a = some b) :
    b = true ↔ ∃ c x, ci = some c ∧ f c = some x ∧ Addr.matchList E.pton (some x) a = 1 := by
  simp only [known] at h
  cases ci with
  | none =>
    simp only [addrHolds] at h
    split at h
    · cases h
    · simp only [Option.some.injEq] at h; simp [← h]
  | some c =>
    simp only at h
    cases hx : f c with
    | some x =>
      rw [hx] at h
      simp only [addrHolds] at h
      split at h
      · cases h
      · simp only [Option.some.injEq] at h; simp [← h, hx]
    | none =>
      rw [hx] at h
      simp only at h
      split at h
      · simp only [addrHolds] at h
        split at h
        · cases h
        · simp only [Option.some.injEq] at h; simp [← h, hx]
      · cases h

theorem inGroup_iff {W : World} {u a : Bytes} :
    inGroup W u a = true ↔ ∃ g, W.groups u = some g ∧ g ≠ [] ∧ Access.gaMatchPatternList g a = true := by
  simp only [inGroup]
  cases h : W.groups u with
  | none => simp
  | some g => by_cases hg : g = [] <;> simp [hg]

theorem critHolds_ok {E : Env} {W : World} {ci : Option Conn} {c : Crit} {a : Bytes} {b : Bool}
    (h : critHolds E W ci c a = some b) : b = true ↔ Holds E W ci (.crit c a) := by
  cases c with
  | user => rw [known_ok h]; simp [Holds]
  | group =>
    rw [known_ok h]
    simp only [Holds, inGroup_iff]
    constructor
    · rintro ⟨c, u, h1, h2, g, h3⟩; exact ⟨c, u, g, h1, h2, h3⟩
    · rintro ⟨c, u, g, h1, h2, h3⟩; exact ⟨c, u, h1, h2, g, h3⟩
  | host => rw [known_ok h]; simp [Holds]
  | address => exact addr_ok h
  | localAddress => exact addr_ok h
  | localPort =>
    simp only [critHolds] at h
    split at h
    · cases h
    · rename_i hp
      cases ci with
      | none => simp only [Option.some.injEq] at h; simp [← h, Holds]
      | some c =>
        simp only at h
        split at h
        · rename_i ht
          simp only [Option.some.injEq] at h
          simp only [Bool.and_eq_true, decide_eq_true_eq] at ht
          simp [← h, Holds, ht.2]
        · split at h
          · cases h
          · rename_i h0
            simp only [Option.some.injEq] at h
            simp only [← h, decide_eq_true_eq, Holds, Option.some.injEq]
            constructor
            · intro e; exact ⟨c, rfl, e.symm, e ▸ hp, h0⟩
            · rintro ⟨_, rfl, e, _⟩; exact e.symm
  | rdomain => rw [known_ok h]; simp [Holds]
  | version => simp only [critHolds, Option.some.injEq] at h; simp [← h, Holds]

theorem crit_names : ∀ x ∈ critNames, x.1 = Crit.name x.2 := by decide

theorem critOf_ok {name arg : Bytes} {r r' : List Bytes} {c : Crit} {x : Bytes} (h : takeCrit.critOf name arg r = some (c, x, r')) :
    x = arg ∧ r' = r ∧ x ≠ [] ∧ x.head? ≠ some 35 ∧ same name (Crit.name c) = true := by
  simp only [takeCrit.critOf] at h
  split at h
  · cases h
  · rename_i hn
    simp only [not_or] at hn
    rw [Option.map_eq_some_iff] at h
    obtain ⟨y, h1, h2⟩ := h
    simp only [Prod.mk.injEq] at h2
    obtain ⟨rfl, rfl, rfl⟩ := h2
    refine ⟨rfl, rfl, hn.1, hn.2, ?_⟩
    have := List.find?_some h1
    rw [crit_names y (List.mem_of_find?_eq_some h1)] at this
    exact this

theorem takeCrit_ok {a : Bytes} {r r' : List Bytes} {c : Crit} {x : Bytes} (h : takeCrit a r = some (c, x, r')) {cs : List Cond}
    (hc : Conds r' cs) (ha : .all ∉ cs) : Conds (a :: r) (.crit c x :: cs) := by
  simp only [takeCrit] at h
  split at h
  · rename_i name arg he
    obtain ⟨rfl, rfl, h1, h2, h3⟩ := critOf_ok h
    simp only [eqForm] at he
    split at he
    · cases he
    · rename_i hd
      split at he
      · simp only [Option.some.injEq, Prod.mk.injEq] at he
        obtain ⟨rfl, rfl⟩ := he
        refine .joined a _ c _ _ cs ?_ h3 h1 h2 hc ha
        have hs := List.takeWhile_append_dropWhile (p := fun b => decide (b ≠ 61)) (l := a)
        have hh := List.head?_dropWhile_not (fun b : UInt8 => decide (b ≠ 61)) a
        cases hw : List.dropWhile (fun b => decide (b ≠ 61)) a with
        | nil => exact (hd hw).elim
        | cons y ys =>
          rw [hw] at hh hs
          simp only [List.head?_cons, decide_eq_true_eq, decide_not, Bool.not_eq_false', decide_eq_true_eq] at hh
          have hy : y = 61 := by simpa using hh
          subst hy
          simpa using hs.symm
      · cases he
  · split at h
    · cases h
    · obtain ⟨rfl, rfl, h1, h2, h3⟩ := critOf_ok h
      exact .pair a c _ _ cs h3 h1 h2 hc ha

theorem matchLoop_ok {E : Env} {W : World} {ci : Option Conn} (fuel n : Nat) (so : Bool) (args : List Bytes) {b : Bool}
    (hso : n = 0 → so = true) (h : matchLoop E W ci fuel n so args = some (b, [])) :
    ∃ cs, Conds args cs ∧ (n = 0 → cs ≠ []) ∧ (n ≠ 0 → .all ∉ cs) ∧ (b = true ↔ so = true ∧ ∀ c ∈ cs, Holds E W ci c) := by
  induction fuel generalizing n so args with
  | zero => cases h
  | succ fuel ih =>
    cases args with
    | nil =>
      simp only [matchLoop] at h
      split at h
      · cases h
      · rename_i hn
        cases h
        exact ⟨[], .done, fun e => (hn e).elim, by simp, by simp⟩
    | cons a r =>
      simp only [matchLoop] at h
      split at h
      · rename_i ha
        split at h
        · cases h
        · rename_i hn
          cases h
          exact ⟨[], .mark a r ha, fun e => (hn e).elim, by simp, by simp⟩
      split at h
      · rename_i ha
        split at h
        · rename_i hn
          rw [Option.map_eq_some_iff] at h
          obtain ⟨r', h1, h2⟩ := h
          simp only [Prod.mk.injEq] at h2
          obtain ⟨rfl, rfl⟩ := h2
          refine ⟨[.all], ?_, by simp, fun e => (e hn).elim, by simp [hso hn, Holds]⟩
          cases r with
          | nil => exact .all a ha
          | cons y ys =>
            simp only [afterAll] at h1
            split at h1
            · rename_i hy
              cases h1
              subst hy
              exact .allEmpty a ha
            · split at h1
              · rename_i hy; exact .allMark a y ys ha hy
              · cases h1
        · cases h
      split at h
      · rename_i ha
        obtain ⟨cs, h1, _, h3, h4⟩ := ih (n + 1) _ r (by simp) h
        refine ⟨.invalidUser :: cs, .invalidUser a r cs ha h1 (h3 (by simp)), by simp, by simp [h3 (Nat.succ_ne_zero n)], ?_⟩
        rw [h4]
        simp only [Bool.and_eq_true, List.forall_mem_cons, Holds]
        cases ci <;> simp [and_assoc]
      · split at h
        · cases h
        · rename_i c x r' ht
          split at h
          · cases h
          · rename_i b' hb
            obtain ⟨cs, h1, _, h3, h4⟩ := ih (n + 1) _ r' (by simp) h
            refine ⟨.crit c x :: cs, takeCrit_ok ht h1 (h3 (by simp)), by simp, by simp [h3 (Nat.succ_ne_zero n)], ?_⟩
            rw [h4]
            simp only [Bool.and_eq_true, List.forall_mem_cons, critHolds_ok hb, and_assoc]

/-- C78: an accepted Match line is a list of conditions, at least one, and the block applies exactly if all of them hold. -/
theorem C78_match {E : Env} {W : World} {ci : Option Conn} {args : List Bytes} {b : Bool} (h : matchLine E W ci args = some (b, [])) :
    ∃ cs, Conds args cs ∧ cs ≠ [] ∧ (b = true ↔ ∀ c ∈ cs, Holds E W ci c) := by
  obtain ⟨cs, h1, h2, _, h4⟩ := matchLoop_ok _ 0 true args (fun _ => rfl) h
  exact ⟨cs, h1, h2 rfl, by simpa using h4⟩

/-- C78: before there is a connection, a block applies only if it is for all, or for versions of the server. -/
theorem C78_start {E : Env} {W : World} {args : List Bytes} (h : matchLine E W none args = some (true, [])) :
    ∃ cs, Conds args cs ∧ cs ≠ [] ∧ ∀ c ∈ cs, c = .all ∨ ∃ v, c = .crit .version v ∧ matchPatternList W.release v false = 1 := by
  obtain ⟨cs, h1, h2, h3⟩ := C78_match h
  refine ⟨cs, h1, h2, fun c hc => ?_⟩
  have := h3.mp rfl c hc
  cases c with
  | all => exact .inl rfl
  | invalidUser => obtain ⟨_, h, _⟩ := this; cases h
  | crit c x =>
    cases c with
    | version => exact .inr ⟨x, rfl, this⟩
    | group => obtain ⟨_, _, _, h, _⟩ := this; cases h
    | localPort => obtain ⟨_, h, _⟩ := this; cases h
    | _ => obtain ⟨_, _, h, _⟩ := this; cases h

end Verif.SrvConf
