/-
Which method is tried next.
-/
import Verif.CliAuth.Lemmas

namespace Verif.CliAuth
open Verif Wire Text
open _root_.Verif.Match (names matchPatternList matchList selectGo names_strsep proposals_eq proposals)
open scoped _root_.Verif.Match

theorem isEnabled_iff (C : Conf) (off : List Meth) (m : Meth) : isEnabled C off m = true ↔ m ∉ off ∧ Configured C m := by
  unfold isEnabled
  by_cases h : m ∈ off
  · simp [h]
  · rw [if_neg h]
    cases m <;> simp [Configured, h]

theorem lookup_iff (n : Bytes) (m : Meth) : lookup n = some m ↔ n = m.name := by
  constructor
  · intro h
    have := List.find?_some h
    simpa using this
  · rintro rfl
    cases m <;> decide

theorem name_inj {a b : Meth} (h : a.name = b.name) : a = b := by
  have := (lookup_iff a.name b).2 h
  rw [(lookup_iff a.name a).2 rfl] at this
  simpa using this

theorem selectGo_rest {server : List Bytes} {client n : Bytes} {k : Nat} : ∀ (fuel : Nat) (pre s : Bytes),
    client = pre ++ s → selectGo server client.length fuel pre.length (some s) = (some n, k) →
    ∃ before, names s = before ++ n :: names (client.drop k) ∧ n ∈ server ∧ ∀ x ∈ before, x ∉ server := by
  intro fuel
  induction fuel with
  | zero => intro pre s hc h; simp [selectGo] at h
  | succ fuel ih =>
    intro pre s hc h
    rw [selectGo] at h
    rw [names_strsep]
    by_cases hp : (strsep COMMA s).1 = []
    · simp [hp] at h
    · rw [if_neg hp]
      simp only [hp, if_false] at h
      by_cases hm : (strsep COMMA s).1 ∈ server
      · simp only [hm, if_true, Prod.mk.injEq, Option.some.injEq] at h
        obtain ⟨rfl, hk⟩ := h
        refine ⟨[], ?_, hm, by simp⟩
        cases hr : (strsep COMMA s).2 with
        | none =>
          rw [hr] at hk
          subst hk
          simp [names, split]
        | some r =>
          rw [hr] at hk
          have h1 := strsep_rest hr
          have h2 : client = (pre ++ (strsep COMMA s).1 ++ [COMMA]) ++ r := by
            rw [hc]; conv => lhs; rw [h1]
            simp
          have h3 : client.drop k = r := by
            rw [h2]
            refine List.drop_left' ?_
            simp only [List.length_append, List.length_singleton]
            exact hk
          simp [h3]
      · simp only [hm, if_false] at h
        cases hr : (strsep COMMA s).2 with
        | none =>
          rw [hr] at h
          cases fuel <;> simp [selectGo] at h
        | some r =>
          rw [hr] at h
          have h1 := strsep_rest hr
          obtain ⟨before, hb, hn, hx⟩ := ih (pre ++ (strsep COMMA s).1 ++ [COMMA]) r (by
            rw [hc]; conv => lhs; rw [h1]
            simp) (by
            simp only [List.length_append, List.length_singleton]
            exact h)
          refine ⟨(strsep COMMA s).1 :: before, by simp [hb], hn, fun x hx' => ?_⟩
          rcases List.mem_cons.1 hx' with rfl | hx'
          · exact hm
          · exact hx x hx'

theorem matchList_rest {client server n : Bytes} {k : Nat} (h : matchList client server = (some n, k)) :
    ∃ before, names client = before ++ n :: names (client.drop k) ∧ n ∈ (names server).take 40 ∧
      ∀ x ∈ before, x ∉ (names server).take 40 := by
  unfold matchList at h
  rw [proposals_eq _ _ _ (by omega)] at h
  exact selectGo_rest _ [] client rfl h

theorem names_length (s : Bytes) : (names s).length ≤ s.length := by
  suffices h : ∀ n (s : Bytes), s.length ≤ n → (names s).length ≤ s.length from h _ _ (Nat.le_refl _)
  intro n
  induction n with
  | zero =>
    intro s h
    have : s = [] := List.length_eq_zero_iff.1 (by omega)
    subst this
    decide
  | succ n ih =>
    intro s h
    rw [names_strsep]
    split
    · simp
    · cases hr : (strsep COMMA s).2 with
      | none =>
        rename_i hp
        have := strsep_last hr
        rw [this] at hp
        have : 0 < s.length := List.length_pos_iff.2 hp
        simp only [List.length_cons, List.length_nil]
        omega
      | some r =>
        have h1 := strsep_length hr
        have h2 := ih r (by omega)
        simp only [List.length_cons]
        omega

/-- As `Usable`, with the list the server is taken to have sent. -/
def UsableIn (C : Conf) (off : List Meth) (l : Bytes) (n : Bytes) : Prop :=
  n ∈ (names l).take 40 ∧ ∃ m : Meth, n = m.name ∧ m ∉ off ∧ Configured C m

theorem usable_iff (C : Conf) (off : List Meth) (a : Option Bytes) (n : Bytes) :
    Usable C off a n ↔ UsableIn C off (effective C a) n := Iff.rfl

theorem UsableIn.less {C : Conf} {off : List Meth} {m : Meth} {l n : Bytes} (h : UsableIn C (m :: off) l n) :
    UsableIn C off l n := by
  obtain ⟨h1, x, h2, h3, h4⟩ := h
  exact ⟨h1, x, h2, fun hm => h3 (List.mem_cons_of_mem _ hm), h4⟩

theorem getGo_spec (C : Conf) (off : List Meth) (l : Bytes) : ∀ (fuel : Nat) (p : Bytes), (names p).length < fuel →
    (∀ m p', getGo C off l fuel p = (some m, p') → UsableIn C off l m.name ∧
      ∃ before, names p = before ++ m.name :: names p' ∧ ∀ n ∈ before, ¬ UsableIn C off l n) ∧
    (∀ p', getGo C off l fuel p = (none, p') →
      (∃ before, names p = before ++ names p') ∧ ∀ n ∈ names p, ¬ UsableIn C off l n) := by
  intro fuel
  induction fuel with
  | zero => intro p h; omega
  | succ fuel ih =>
    intro p hf
    rw [getGo]
    cases hm : matchList p l with
    | mk o k =>
      cases o with
      | none =>
        refine ⟨fun m p' h => by simp at h, fun p' h => ?_⟩
        simp only [Prod.mk.injEq, true_and] at h
        subst h
        refine ⟨⟨[], rfl⟩, fun n hn hu => ?_⟩
        exact (Match.C07_none_iff p l).1 (by rw [hm]) n hn hu.1
      | some n =>
        obtain ⟨before, hb, hn, hx⟩ := matchList_rest hm
        have hlen : (names (p.drop k)).length < fuel := by
          have := congrArg List.length hb
          simp at this; omega
        have hbx : ∀ x ∈ before, ¬ UsableIn C off l x := fun x hxb hu => hx x hxb hu.1
        have next : ¬ UsableIn C off l n →
            (∀ m p', getGo C off l fuel (p.drop k) = (some m, p') → UsableIn C off l m.name ∧
              ∃ before, names p = before ++ m.name :: names p' ∧ ∀ n ∈ before, ¬ UsableIn C off l n) ∧
            (∀ p', getGo C off l fuel (p.drop k) = (none, p') →
              (∃ before, names p = before ++ names p') ∧ ∀ n ∈ names p, ¬ UsableIn C off l n) := by
          intro hu
          obtain ⟨h1, h2⟩ := ih _ hlen
          refine ⟨fun m p' h => ?_, fun p' h => ?_⟩
          · obtain ⟨h3, b, h4, h5⟩ := h1 m p' h
            refine ⟨h3, before ++ n :: b, by rw [hb, h4]; simp, fun x hx' => ?_⟩
            simp only [List.mem_append, List.mem_cons] at hx'
            rcases hx' with hx' | rfl | hx'
            · exact hbx x hx'
            · exact hu
            · exact h5 x hx'
          · obtain ⟨⟨b, h4⟩, h5⟩ := h2 p' h
            refine ⟨⟨before ++ n :: b, by rw [hb, h4]; simp⟩, fun x hx' => ?_⟩
            rw [hb] at hx'
            simp only [List.mem_append, List.mem_cons] at hx'
            rcases hx' with hx' | rfl | hx'
            · exact hbx x hx'
            · exact hu
            · exact h5 x hx'
        show (∀ m p', (match lookup n with
            | some m => if isEnabled C off m then (some m, p.drop k) else getGo C off l fuel (p.drop k)
            | none => getGo C off l fuel (p.drop k)) = (some m, p') → _) ∧
          (∀ p', (match lookup n with
            | some m => if isEnabled C off m then (some m, p.drop k) else getGo C off l fuel (p.drop k)
            | none => getGo C off l fuel (p.drop k)) = (none, p') → _)
        cases hl : lookup n with
        | none =>
          refine next ?_
          rintro ⟨-, m, rfl, -⟩
          rw [(lookup_iff _ m).2 rfl] at hl
          simp at hl
        | some m =>
          have hnm := (lookup_iff _ _).1 hl
          subst hnm
          by_cases he : isEnabled C off m = true
          · simp only [he, if_true]
            refine ⟨fun m' p' h => ?_, fun p' h => by simp at h⟩
            simp only [Prod.mk.injEq, Option.some.injEq] at h
            obtain ⟨rfl, rfl⟩ := h
            obtain ⟨h1, h2⟩ := (isEnabled_iff _ _ _).1 he
            exact ⟨⟨hn, m, rfl, h1, h2⟩, before, hb, hbx⟩
          · simp only [he]
            refine next ?_
            rintro ⟨-, m', h1, h2, h3⟩
            have := name_inj h1
            subst this
            exact he ((isEnabled_iff _ _ _).2 ⟨h2, h3⟩)

/-- Of the preferred methods those before what is left of the list are of no use, but for the one in use. -/
def MethodInv (C : Conf) (s : St) : Prop :=
  ∀ l, s.supported = some l → ∃ pre, names (preferredList C) = pre ++ names s.preferred ∧
    (s.current = none → ∀ n ∈ pre, ¬ UsableIn C s.off l n) ∧
    (∀ m, s.current = some m → m.name ∈ (names l).take 40 ∧
      ∃ b, pre = b ++ [m.name] ∧ ∀ n ∈ b, ¬ UsableIn C s.off l n)

/-- What `methodGet` does. -/
structure Got (C : Conf) (s : St) (r : Option Meth) (t : St) : Prop where
  state : ∃ l p c, t = { s with supported := l, preferred := p, current := c }
  inv : MethodInv C t
  some : ∀ m, r = some m → First C s.off s.authlist m
  none : r = none → ∀ n ∈ names (preferredList C), ¬ Usable C s.off s.authlist n

theorem getFrom_got (C : Conf) (s : St) (p : Bytes) (pre : List Bytes) (hp : names (preferredList C) = pre ++ names p)
    (hpre : ∀ n ∈ pre, ¬ UsableIn C s.off (effective C s.authlist) n) :
    Got C s (getFrom C s (effective C s.authlist) p).1 (getFrom C s (effective C s.authlist) p).2 := by
  have hg := getGo_spec C s.off (effective C s.authlist) (p.length + 1) p (by have := names_length p; omega)
  unfold getFrom
  cases hx : getGo C s.off (effective C s.authlist) (p.length + 1) p with
  | mk m p' =>
    cases m with
    | none =>
      obtain ⟨⟨before, h1⟩, h2⟩ := hg.2 p' hx
      have hall : ∀ n ∈ names (preferredList C), ¬ UsableIn C s.off (effective C s.authlist) n := by
        intro n hn
        rw [hp] at hn
        rcases List.mem_append.1 hn with hn | hn
        · exact hpre n hn
        · exact h2 n hn
      refine ⟨⟨_, _, _, rfl⟩, ?_, fun m h => by simp at h, fun _ => hall⟩
      intro l hl
      simp only [Option.some.injEq] at hl
      subst hl
      refine ⟨pre ++ before, by rw [hp, h1, List.append_assoc], fun _ n hn => ?_, fun m h => by simp at h⟩
      refine hall n ?_
      rw [hp, h1, ← List.append_assoc]
      exact List.mem_append_left _ hn
    | some m =>
      obtain ⟨hu, before, h1, h2⟩ := hg.1 m p' hx
      have hb : ∀ n ∈ pre ++ before, ¬ UsableIn C s.off (effective C s.authlist) n := by
        intro n hn
        rcases List.mem_append.1 hn with hn | hn
        · exact hpre n hn
        · exact h2 n hn
      refine ⟨⟨_, _, _, rfl⟩, ?_, fun m' h => ?_, fun h => by simp at h⟩
      · intro l hl
        simp only [Option.some.injEq] at hl
        subst hl
        refine ⟨pre ++ before ++ [m.name], by rw [hp, h1]; simp, fun h => by simp at h, fun m' h => ?_⟩
        simp only [Option.some.injEq] at h
        subst h
        exact ⟨hu.1, pre ++ before, rfl, hb⟩
      · simp only [Option.some.injEq] at h
        subst h
        exact ⟨pre ++ before, names p', by rw [hp, h1, List.append_assoc], hu, hb⟩

theorem methodGet_got {C : Conf} {s : St} (h : MethodInv C s) : Got C s (methodGet C s).1 (methodGet C s).2 := by
  unfold methodGet
  by_cases h1 : s.supported ≠ some (effective C s.authlist)
  · rw [if_pos h1]
    exact getFrom_got C s (preferredList C) [] rfl (by simp)
  · rw [if_neg h1]
    simp only [ne_eq, Decidable.not_not] at h1
    obtain ⟨pre, hp, hnone, hsome⟩ := h _ h1
    by_cases h2 : s.current.any (isEnabled C s.off) = true
    · rw [if_pos h2]
      cases hc : s.current with
      | none => simp [hc] at h2
      | some m =>
        simp only [hc, Option.any_some] at h2
        obtain ⟨h3, b, h4, h5⟩ := hsome m hc
        obtain ⟨h6, h7⟩ := (isEnabled_iff _ _ _).1 h2
        refine ⟨⟨s.supported, s.preferred, s.current, rfl⟩, h, fun m' h => ?_, fun h => by simp at h⟩
        simp only [Option.some.injEq] at h
        subst h
        exact ⟨b, names s.preferred, by rw [hp, h4, List.append_assoc]; rfl, ⟨h3, m, rfl, h6, h7⟩, h5⟩
    · rw [if_neg h2]
      refine getFrom_got C s s.preferred pre hp (fun n hn hu => ?_)
      cases hc : s.current with
      | none => exact hnone hc n hn hu
      | some m =>
        obtain ⟨h3, b, h4, h5⟩ := hsome m hc
        rw [h4] at hn
        rcases List.mem_append.1 hn with hn | hn
        · exact h5 n hn hu
        · simp only [List.mem_singleton] at hn
          subst hn
          obtain ⟨-, m', h6, h7, h8⟩ := hu
          have := name_inj h6
          subst this
          rw [hc] at h2
          exact h2 ((isEnabled_iff _ _ _).2 ⟨h7, h8⟩)

theorem MethodInv.off {C : Conf} {s t : St} (h : MethodInv C s) (m : Meth) (h1 : t.supported = s.supported)
    (h2 : t.preferred = s.preferred) (h3 : t.current = s.current) (h4 : t.off = m :: s.off) : MethodInv C t := by
  intro l hl
  rw [h1] at hl
  obtain ⟨pre, ha, hb, hc⟩ := h l hl
  refine ⟨pre, by rw [h2]; exact ha, fun hn n hm hu => ?_, fun m' hm => ?_⟩
  · rw [h3] at hn; rw [h4] at hu
    exact hb hn n hm hu.less
  · rw [h3] at hm
    obtain ⟨hd, b, he, hf⟩ := hc m' hm
    refine ⟨hd, b, he, fun n hn hu => ?_⟩
    rw [h4] at hu
    exact hf n hn hu.less

theorem MethodInv.same {C : Conf} {s t : St} (h : MethodInv C s) (h1 : t.supported = s.supported)
    (h2 : t.preferred = s.preferred) (h3 : t.current = s.current) (h4 : t.off = s.off) : MethodInv C t := by
  intro l hl
  rw [h1] at hl
  rw [h2, h3, h4]
  exact h l hl

end Verif.CliAuth
