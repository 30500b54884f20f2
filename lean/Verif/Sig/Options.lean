/-
C67, first part: the options of an allowed signers entry are read as documented.
-/
import Verif.Sig.Spec

namespace Verif.Sig
open Verif Spec
open _root_.Verif.KeyOpts (optFlag optMatch dequote advance isBlank nameByte)

/-- the effect of one option -/
def meaning (pt : Bytes → Option Nat) : Item → SigOpts → Option SigOpts
  | .ca, o => some { o with ca := true }
  | .namespaces v, o => if o.namespaces ≠ none then none else some { o with namespaces := some v }
  | .after v, o => if o.validAfter ≠ 0 then none else
      match pt v with
      | none => none
      | some t => if t = 0 then none else some { o with validAfter := t }
  | .before v, o => if o.validBefore ≠ 0 then none else
      match pt v with
      | none => none
      | some t => if t = 0 then none else some { o with validBefore := t }

def meanings (pt : Bytes → Option Nat) : List Item → SigOpts → Option SigOpts
  | [], o => some o
  | i :: is, o => (meaning pt i o).bind (meanings pt is)

variable {pt : Bytes → Option Nat}

theorem sigOne_written {i : Item} {t r : Bytes} {o : SigOpts} (h : Written i t) :
    sigOne pt (t ++ r) o = (meaning pt i o).map fun o' => (o', r) := by
  unfold sigOne
  have hf : ∀ {k t' : Bytes}, t'.map Match.toLower = k → KeyOpts.Apart b!"cert-authority" k → ∀ r,
      optFlag b!"cert-authority" false (t' ++ r) = none :=
    fun e ha r => KeyOpts.optFlag_none ha (fun h => by simp at h) e
  have hm : ∀ {n k t' : Bytes}, t'.map Match.toLower = k → KeyOpts.Apart n k → ∀ r, optMatch n (t' ++ r) = none :=
    fun e ha r => KeyOpts.optMatch_none ha e
  have hs : ∀ {t' q : Bytes} (r : Bytes), t' ++ 61 :: 34 :: (q ++ [34]) ++ r = t' ++ 61 :: (34 :: (q ++ 34 :: r)) := by
    intros; simp
  cases h with
  | ca e =>
    rw [KeyOpts.optFlag_of (v := true) (by decide) (by rw [e]; rfl) (by simp) (by decide)]
    rfl
  | @namespaces t q v e hq =>
    rw [hs, hf e (by decide), KeyOpts.optMatch_of (by decide) e]
    simp only [onceText, meaning, KeyOpts.dequote_of hq]
    split <;> rfl
  | @after t q v e hq =>
    rw [hs, hf e (by decide), hm e (by decide), KeyOpts.optMatch_of (by decide) e]
    simp only [onceTime, meaning, KeyOpts.dequote_of hq]
    split
    · rfl
    · cases pt v with
      | none => rfl
      | some t => by_cases h0 : t = 0 <;> simp [h0]
  | @before t q v e hq =>
    rw [hs, hf e (by decide), hm e (by decide), hm e (by decide), KeyOpts.optMatch_of (by decide) e]
    simp only [onceTime, meaning, KeyOpts.dequote_of hq]
    split
    · rfl
    · cases pt v with
      | none => rfl
      | some t => by_cases h0 : t = 0 <;> simp [h0]

/-- either an option is read here, or nothing is -/
theorem sigOne_some {s r : Bytes} {o o' : SigOpts} (h : sigOne pt s o = some (o', r)) :
    (∃ i t, Written i t ∧ s = t ++ r) ∨ (r = s ∧ o' = o) := by
  have hq : ∀ {n t : Bytes} {r' v : Bytes}, s = t ++ 61 :: r' → dequote r' = some (v, r) →
      ∃ q, KeyOpts.Spec.Quoted q v ∧ s = (t ++ 61 :: 34 :: (q ++ [34])) ++ r := by
    intro n t r' v e hd
    obtain ⟨q, hq, e2⟩ := KeyOpts.dequote_some hd
    exact ⟨q, hq, by rw [e, e2]; simp⟩
  have ht : ∀ {old : Nat} {r' : Bytes} {x : Nat × Bytes}, onceTime pt old r' = some x → ∃ v, dequote r' = some (v, x.2) := by
    intro old r' x h
    unfold onceTime at h
    split at h
    · simp at h
    split at h
    · simp at h
    rename_i v r'' hd
    split at h
    · simp at h
    split at h
    · simp at h
    simp only [Option.some.injEq] at h
    subst h
    exact ⟨v, hd⟩
  unfold sigOne at h
  split at h
  · rename_i v r' hf
    obtain ⟨t, e1, e2, e3⟩ := KeyOpts.optFlag_some (by decide) hf
    simp only [Option.some.injEq, Prod.mk.injEq] at h
    obtain ⟨rfl, rfl⟩ := h
    cases v with
    | false => simp at e3
    | true => exact .inl ⟨.ca, t, .ca e1, e2⟩
  split at h
  · rename_i r' hf
    obtain ⟨t, e1, e2⟩ := KeyOpts.optMatch_some (by decide) hf
    obtain ⟨x, hx, h⟩ := Option.map_eq_some_iff.1 h
    simp only [Prod.mk.injEq] at h
    unfold onceText at hx
    split at hx
    · simp at hx
    obtain ⟨v, r''⟩ := x
    simp only at h
    rw [h.2] at hx
    obtain ⟨q, h1, h2⟩ := hq (n := t) e2 hx
    exact .inl ⟨_, _, .namespaces e1 h1, h2⟩
  split at h
  · rename_i r' hf
    obtain ⟨t, e1, e2⟩ := KeyOpts.optMatch_some (by decide) hf
    obtain ⟨x, hx, h⟩ := Option.map_eq_some_iff.1 h
    simp only [Prod.mk.injEq] at h
    obtain ⟨v, hv⟩ := ht hx
    rw [h.2] at hv
    obtain ⟨q, h1, h2⟩ := hq (n := t) e2 hv
    exact .inl ⟨_, _, .after e1 h1, h2⟩
  split at h
  · rename_i r' hf
    obtain ⟨t, e1, e2⟩ := KeyOpts.optMatch_some (by decide) hf
    obtain ⟨x, hx, h⟩ := Option.map_eq_some_iff.1 h
    simp only [Prod.mk.injEq] at h
    obtain ⟨v, hv⟩ := ht hx
    rw [h.2] at hv
    obtain ⟨q, h1, h2⟩ := hq (n := t) e2 hv
    exact .inl ⟨_, _, .before e1 h1, h2⟩
  · simp only [Option.some.injEq, Prod.mk.injEq] at h
    exact .inr ⟨h.2.symm, h.1.symm⟩

/-! ### Whole texts -/

/-- options up to a blank -/
inductive Upto : List Item → Bytes → Bytes → Prop where
  | done {rest} : KeyOpts.Spec.Ends rest → Upto [] rest rest
  | last {i t rest} : Written i t → KeyOpts.Spec.Ends rest → Upto [i] (t ++ rest) rest
  | empty {is r rest} : r ≠ [] → Upto is r rest → Upto is (44 :: r) rest
  | more {i is t r rest} : Written i t → r ≠ [] → Upto is r rest → Upto (i :: is) (t ++ 44 :: r) rest

theorem written_head {i : Item} {t : Bytes} (h : Written i t) : ∃ c r, t = c :: r ∧ nameByte c = true := by
  have aux : ∀ {t k : Bytes}, t.map Match.toLower = k → k.all nameByte = true → k ≠ [] → ∃ c r, t = c :: r ∧ nameByte c = true := by
    intro t k ht hk hne
    cases t with
    | nil => exact absurd ht.symm hne
    | cons c r =>
      have := KeyOpts.toLower_name ht hk
      rw [List.all_cons, Bool.and_eq_true] at this
      exact ⟨c, r, rfl, this.1⟩
  cases h with
  | ca e => exact aux e (by decide) (by decide)
  | namespaces e _ =>
    obtain ⟨c, r, rfl, h⟩ := aux e (by decide) (by decide)
    exact ⟨c, _, rfl, h⟩
  | after e _ =>
    obtain ⟨c, r, rfl, h⟩ := aux e (by decide) (by decide)
    exact ⟨c, _, rfl, h⟩
  | before e _ =>
    obtain ⟨c, r, rfl, h⟩ := aux e (by decide) (by decide)
    exact ⟨c, _, rfl, h⟩

theorem upto_options {is : List Item} {s : Bytes} : Upto is s [] ↔ Options is s := by
  constructor
  · intro h
    generalize hr : ([] : Bytes) = rest at h
    induction h with
    | done _ => subst hr; exact .none
    | last hw _ => subst hr; rw [List.append_nil]; exact .last hw
    | empty h1 _ ih => exact .empty h1 (ih hr)
    | more hw h1 _ ih => exact .more hw h1 (ih hr)
  · intro h
    induction h with
    | none => exact .done (.inl rfl)
    | @last i t hw => have := Upto.last hw (rest := []) (.inl rfl); rwa [List.append_nil] at this
    | empty h1 _ ih => exact .empty h1 ih
    | more hw h1 _ ih => exact .more hw h1 ih

theorem comma_one {r : Bytes} {o : SigOpts} : sigOne pt (44 :: r) o = some (o, 44 :: r) := by
  have key : ∀ {t x : Bytes} {n : Bytes}, t.map Match.toLower = n → n.all nameByte = true → n ≠ [] → 44 :: r ≠ t ++ x := by
    intro t x n e ha hn e2
    have hb := KeyOpts.toLower_name e ha
    cases t with
    | nil => exact hn e.symm
    | cons c t =>
      simp only [List.cons_append, List.cons.injEq] at e2
      rw [List.all_cons, ← e2.1] at hb
      simp [nameByte] at hb
  have hm : ∀ n : Bytes, n.map Match.toLower = n → n.all nameByte = true → n ≠ [] → optMatch n (44 :: r) = none := by
    intro n h1 h2 h3
    cases h : optMatch n (44 :: r) with
    | none => rfl
    | some x =>
      obtain ⟨t, e1, e2⟩ := KeyOpts.optMatch_some h1 h
      exact absurd e2 (key e1 h2 h3)
  have hf : optFlag b!"cert-authority" false (44 :: r) = none := by
    cases h : optFlag b!"cert-authority" false (44 :: r) with
    | none => rfl
    | some x =>
      obtain ⟨v, x⟩ := x
      obtain ⟨t, e1, e2, e3⟩ := KeyOpts.optFlag_some (by decide) h
      cases v with
      | false => simp at e3
      | true => exact absurd e2 (key e1 (by decide) (by decide))
  unfold sigOne
  rw [hf, hm _ (by decide) (by decide) (by decide), hm _ (by decide) (by decide) (by decide),
    hm _ (by decide) (by decide) (by decide)]

theorem loop_upto {is : List Item} {s rest : Bytes} (h : Upto is s rest) :
    ∀ (fuel : Nat) (o : SigOpts), s.length < fuel → sigLoop pt fuel s o = meanings pt is o := by
  induction h with
  | @done rest he =>
    intro fuel o hf
    cases fuel with
    | zero => omega
    | succ k =>
      rcases he with rfl | ⟨c, r, rfl, hc⟩
      · rfl
      · simp [sigLoop, meanings, KeyOpts.isBlank_iff.2 hc]
  | @last i t rest hw he =>
    intro fuel o hf
    cases fuel with
    | zero => omega
    | succ k =>
      obtain ⟨c, t', rfl, hc⟩ := written_head hw
      have hp := sigOne_written (pt := pt) (r := rest) (o := o) hw
      rw [List.cons_append] at hp ⊢
      simp only [sigLoop, KeyOpts.nameByte_blank hc, Bool.false_eq_true, if_false, hp, meanings]
      cases hm : meaning pt i o with
      | none => simp
      | some o' =>
        rcases he with rfl | ⟨d, r, rfl, hd⟩
        · simp [meanings]
        · simp [meanings, KeyOpts.isBlank_iff.2 hd]
  | @empty is r rest hr _ ih =>
    intro fuel o hf
    cases fuel with
    | zero => omega
    | succ k =>
      have hb : isBlank 44 = false := rfl
      simp only [sigLoop, hb, Bool.false_eq_true, if_false, comma_one, ne_eq, not_true_eq_false, hr]
      exact ih k o (by simp at hf; omega)
  | @more i is t r rest hw hr _ ih =>
    intro fuel o hf
    cases fuel with
    | zero => omega
    | succ k =>
      obtain ⟨c, t', rfl, hc⟩ := written_head hw
      have hp := sigOne_written (pt := pt) (r := 44 :: r) (o := o) hw
      rw [List.cons_append] at hp ⊢
      simp only [sigLoop, KeyOpts.nameByte_blank hc, Bool.false_eq_true, if_false, hp, meanings]
      cases hm : meaning pt i o with
      | none => simp
      | some o' =>
        have hb : isBlank 44 = false := rfl
        simp only [Option.map_some, hb, Bool.false_eq_true, if_false, ne_eq, not_true_eq_false, hr, Option.bind_some]
        exact ih k o' (by simp at hf; omega)

theorem upto_loop : ∀ (fuel : Nat) (s : Bytes) (o o' : SigOpts), sigLoop pt fuel s o = some o' → ∃ is rest, Upto is s rest := by
  intro fuel
  induction fuel with
  | zero => intro s o o' h; simp [sigLoop] at h
  | succ k ih =>
    intro s o o' h
    cases s with
    | nil => exact ⟨[], [], .done (.inl rfl)⟩
    | cons c t =>
      simp only [sigLoop] at h
      split at h
      · rename_i hb
        exact ⟨[], _, .done (.inr ⟨c, t, rfl, KeyOpts.isBlank_iff.1 hb⟩)⟩
      · rename_i hb
        split at h
        · simp at h
        · rename_i o1 h1
          rcases sigOne_some h1 with ⟨i, u, hw, hs⟩ | ⟨hs, -⟩
          · rw [hs]; exact ⟨[i], [], .last hw (.inl rfl)⟩
          · simp at hs
        · rename_i o1 d r h1
          split at h
          · rename_i hd
            rcases sigOne_some h1 with ⟨i, u, hw, hs⟩ | ⟨hs, -⟩
            · rw [hs]; exact ⟨[i], _, .last hw (.inr ⟨d, r, rfl, KeyOpts.isBlank_iff.1 hd⟩)⟩
            · simp only [List.cons.injEq] at hs
              rw [hs.1] at hd; exact absurd hd hb
          · split at h
            · simp at h
            · rename_i hd
              simp only [ne_eq, Decidable.not_not] at hd
              subst hd
              split at h
              · simp at h
              · rename_i hr
                obtain ⟨is, rest, hl⟩ := ih _ _ _ h
                rcases sigOne_some h1 with ⟨i, u, hw, hs⟩ | ⟨hs, -⟩
                · rw [hs]; exact ⟨i :: is, rest, .more hw hr hl⟩
                · simp only [List.cons.injEq] at hs
                  rw [← hs.1, ← hs.2]; exact ⟨is, rest, .empty hr hl⟩

theorem advance_written {i : Item} {t : Bytes} (r : Bytes) (h : Written i t) : advance false (t ++ r) = advance false r := by
  have aux : ∀ {t n q v : Bytes}, t.map Match.toLower = n → n.all nameByte = true → KeyOpts.Spec.Quoted q v →
      advance false (t ++ 61 :: 34 :: (q ++ [34]) ++ r) = advance false r := by
    intro t n q v ht hn hq
    have e : t ++ 61 :: 34 :: (q ++ [34]) ++ r = (t ++ [61]) ++ 34 :: (q ++ 34 :: r) := by simp
    rw [e, KeyOpts.advance_name]
    · have : advance false (34 :: (q ++ 34 :: r)) = advance true (q ++ 34 :: r) := by
        rw [advance]
        · simp [isBlank]
        · intro _ h _; simp at h
      rw [this, KeyOpts.advance_quoted _ hq]
    · rw [List.all_append, KeyOpts.toLower_name ht hn]; rfl
  cases h with
  | ca e => exact KeyOpts.advance_name _ _ _ (KeyOpts.toLower_name e (by decide))
  | namespaces e hq => exact aux e (by decide) hq
  | after e hq => exact aux e (by decide) hq
  | before e hq => exact aux e (by decide) hq

theorem advance_comma (r : Bytes) : advance false (44 :: r) = advance false r := by
  rw [advance]
  · simp [isBlank]
  · intro _ h _; simp at h

theorem advance_ends {rest : Bytes} (h : KeyOpts.Spec.Ends rest) : advance false rest = some rest := by
  rcases h with rfl | ⟨c, r, rfl, hc⟩
  · rfl
  · rw [advance]
    · simp [KeyOpts.isBlank_iff.2 hc]
    · intro _ h _
      rcases hc with rfl | rfl <;> simp at h

theorem advance_upto {is : List Item} {s rest : Bytes} (h : Upto is s rest) : advance false s = some rest := by
  induction h with
  | done he => exact advance_ends he
  | last hw he => rw [advance_written _ hw]; exact advance_ends he
  | empty _ _ ih => rw [advance_comma]; exact ih
  | more hw _ _ ih => rw [advance_written _ hw, advance_comma]; exact ih

/-- a text of options is passed over entirely -/
theorem advance_options {is : List Item} {s x : Bytes} (h : Options is s) : advance false (s ++ x) = advance false x := by
  induction h with
  | none => rfl
  | last hw => exact advance_written _ hw
  | empty _ _ ih => rw [List.cons_append, advance_comma]; exact ih
  | more hw _ _ ih => rw [List.append_assoc, advance_written _ hw, List.cons_append, advance_comma]; exact ih

/-- what is left starts with a blank, and is an end of the text -/
theorem advance_suffix : ∀ (n : Nat) (q : Bool) (s r : Bytes), s.length < n → advance q s = some r →
    ∃ t, s = t ++ r ∧ KeyOpts.Spec.Ends r := by
  intro n
  induction n with
  | zero => intro q s r hl; omega
  | succ n ih =>
    intro q s r hl h
    match s, h, hl with
    | [], h, _ =>
      rw [advance] at h
      split at h
      · simp at h
      · simp only [Option.some.injEq] at h
        exact ⟨[], h, .inl h.symm⟩
    | c :: s, h, hl =>
      by_cases he : c = 92 ∧ s.head? = some 34
      · obtain ⟨rfl, he⟩ := he
        cases s with
        | nil => simp at he
        | cons d s =>
          simp only [List.head?_cons, Option.some.injEq] at he
          subst he
          rw [advance] at h
          obtain ⟨t, e, he⟩ := ih _ _ _ (by simp at hl; omega) h
          exact ⟨92 :: 34 :: t, by rw [e]; rfl, he⟩
      · rw [advance] at h
        · split at h
          · rename_i hb
            simp only [Option.some.injEq] at h
            subst h
            simp only [Bool.and_eq_true, Bool.not_eq_true'] at hb
            exact ⟨[], rfl, .inr ⟨c, s, rfl, KeyOpts.isBlank_iff.1 hb.2⟩⟩
          · split at h
            · obtain ⟨t, e, he⟩ := ih _ _ _ (by simp at hl; omega) h
              exact ⟨c :: t, by rw [e]; rfl, he⟩
            · obtain ⟨t, e, he⟩ := ih _ _ _ (by simp at hl; omega) h
              exact ⟨c :: t, by rw [e]; rfl, he⟩
        · intro r' h1 h2
          exact he ⟨h1, by rw [h2]; rfl⟩

/-! ### What a list of options means -/

theorem means_nil : Means pt [] {} where
  onceNs := by simp
  onceAfter := by simp
  onceBefore := by simp
  ca := by simp
  ns := by simp
  after := by simp
  noAfter := by simp
  before := by simp
  noBefore := by simp

theorem filter_none {p : Item → Bool} {l : List Item} (h : ∀ i ∈ l, p i = false) : l.filter p = [] := by
  rw [List.filter_eq_nil_iff]
  intro i hi
  rw [h i hi]; simp

theorem none_of_filter {p : Item → Bool} {l : List Item} {i : Item} (hp : p i = true) (h : ((l ++ [i]).filter p).length ≤ 1) :
    ∀ j ∈ l, p j = false := by
  intro j hj
  cases hpj : p j with
  | false => rfl
  | true =>
    have : j ∈ l.filter p := by simp [hj, hpj]
    have := List.length_pos_of_mem this
    simp only [List.filter_append, List.length_append, List.filter_cons, hp, if_true, List.filter_nil, List.length_cons,
      List.length_nil] at h
    omega

/-- one more option -/
theorem means_step {pre : List Item} {i : Item} {o o' : SigOpts} (hm : Means pt pre o) :
    meaning pt i o = some o' ↔ Means pt (pre ++ [i]) o' := by
  have len : ∀ {p : Item → Bool} {j : Item}, p j = false → ((pre ++ [j]).filter p).length = (pre.filter p).length := by
    intro p j h; simp [List.filter_append, h]
  have len1 : ∀ {p : Item → Bool} {j : Item}, (∀ x ∈ pre, p x = false) → ((pre ++ [j]).filter p).length ≤ 1 := by
    intro p j h
    rw [List.filter_append, filter_none h]
    exact Nat.le_trans (List.length_filter_le _ _) (by simp)
  have nsNone : o.namespaces = none ↔ ∀ x ∈ pre, isNs x = false := by
    constructor
    · intro h x hx
      cases x with
      | namespaces v => have := (hm.ns v).2 hx; rw [h] at this; simp at this
      | _ => rfl
    · intro h
      cases hn : o.namespaces with
      | none => rfl
      | some v => have := h _ ((hm.ns v).1 hn); simp [isNs] at this
  have afNone : o.validAfter = 0 ↔ ∀ x ∈ pre, isAfter x = false := by
    constructor
    · intro h x hx
      cases x with
      | after v => exact absurd h (hm.after v hx).2
      | _ => rfl
    · intro h
      refine hm.noAfter fun v hv => ?_
      have := h _ hv; simp [isAfter] at this
  have beNone : o.validBefore = 0 ↔ ∀ x ∈ pre, isBefore x = false := by
    constructor
    · intro h x hx
      cases x with
      | before v => exact absurd h (hm.before v hx).2
      | _ => rfl
    · intro h
      refine hm.noBefore fun v hv => ?_
      have := h _ hv; simp [isBefore] at this
  -- the parts of the result that do not change
  have back : ∀ {o' : SigOpts}, Means pt (pre ++ [i]) o' →
      (i ≠ .ca → o'.ca = o.ca) ∧ ((∀ v, i ≠ .namespaces v) → o'.namespaces = o.namespaces) ∧
      ((∀ v, i ≠ .after v) → o'.validAfter = o.validAfter) ∧ ((∀ v, i ≠ .before v) → o'.validBefore = o.validBefore) := by
    intro o' h
    refine ⟨fun hi => ?_, fun hi => ?_, fun hi => ?_, fun hi => ?_⟩
    · have : o'.ca = true ↔ o.ca = true := by
        rw [h.ca, hm.ca]; simp [hi.symm]
      cases h1 : o'.ca <;> cases h2 : o.ca <;> simp_all
    · have : ∀ v, o'.namespaces = some v ↔ o.namespaces = some v := by
        intro v; rw [h.ns, hm.ns]
        have := hi v
        simp [this.symm]
      cases h1 : o'.namespaces with
      | none =>
        cases h2 : o.namespaces with
        | none => rfl
        | some v => have := (this v).2 h2; rw [h1] at this; exact this
      | some v => exact ((this v).1 h1).symm
    · by_cases hx : ∃ v, Item.after v ∈ pre
      · obtain ⟨v, hv⟩ := hx
        have h1 := (hm.after v hv).1
        have h2 := (h.after v (by simp [hv])).1
        rw [h1] at h2; exact (Option.some.inj h2).symm
      · rw [h.noAfter, hm.noAfter]
        · exact fun v hv => hx ⟨v, hv⟩
        · intro v hv
          rcases List.mem_append.1 hv with hv | hv
          · exact hx ⟨v, hv⟩
          · simp only [List.mem_singleton] at hv; exact hi v hv.symm
    · by_cases hx : ∃ v, Item.before v ∈ pre
      · obtain ⟨v, hv⟩ := hx
        have h1 := (hm.before v hv).1
        have h2 := (h.before v (by simp [hv])).1
        rw [h1] at h2; exact (Option.some.inj h2).symm
      · rw [h.noBefore, hm.noBefore]
        · exact fun v hv => hx ⟨v, hv⟩
        · intro v hv
          rcases List.mem_append.1 hv with hv | hv
          · exact hx ⟨v, hv⟩
          · simp only [List.mem_singleton] at hv; exact hi v hv.symm
  cases i with
  | ca =>
    simp only [meaning, Option.some.injEq]
    constructor
    · rintro rfl
      exact { onceNs := by rw [len rfl]; exact hm.onceNs
              onceAfter := by rw [len rfl]; exact hm.onceAfter
              onceBefore := by rw [len rfl]; exact hm.onceBefore
              ca := by simp
              ns := fun v => by rw [hm.ns]; simp
              after := fun v hv => hm.after v (by simpa using hv)
              noAfter := fun h => hm.noAfter fun v hv => h v (by simp [hv])
              before := fun v hv => hm.before v (by simpa using hv)
              noBefore := fun h => hm.noBefore fun v hv => h v (by simp [hv]) }
    · intro h
      obtain ⟨-, b2, b3, b4⟩ := back h
      have b1 : o'.ca = true := h.ca.2 (by simp)
      rw [← b2 (by simp), ← b3 (by simp), ← b4 (by simp), ← b1]
  | namespaces v =>
    simp only [meaning]
    constructor
    · intro h
      split at h
      · simp at h
      rename_i hn
      simp only [ne_eq, Decidable.not_not] at hn
      simp only [Option.some.injEq] at h
      subst h
      have hp := nsNone.1 hn
      exact { onceNs := len1 hp
              onceAfter := by rw [len rfl]; exact hm.onceAfter
              onceBefore := by rw [len rfl]; exact hm.onceBefore
              ca := by rw [hm.ca]; simp
              ns := fun v' => by
                simp only [Option.some.injEq, List.mem_append, List.mem_singleton, Item.namespaces.injEq]
                constructor
                · exact fun h => .inr h.symm
                · rintro (h | h)
                  · have := hp _ h; simp [isNs] at this
                  · exact h.symm
              after := fun v hv => hm.after v (by simpa using hv)
              noAfter := fun h => hm.noAfter fun v hv => h v (by simp [hv])
              before := fun v hv => hm.before v (by simpa using hv)
              noBefore := fun h => hm.noBefore fun v hv => h v (by simp [hv]) }
    · intro h
      obtain ⟨b1, -, b3, b4⟩ := back h
      have b2 : o'.namespaces = some v := (h.ns v).2 (by simp)
      rw [if_neg (by simp only [ne_eq, Decidable.not_not]; exact nsNone.2 (none_of_filter (i := .namespaces v) rfl h.onceNs))]
      rw [← b1 (by simp), ← b3 (by simp), ← b4 (by simp), ← b2]
  | after v =>
    simp only [meaning]
    constructor
    · intro h
      split at h
      · simp at h
      rename_i hn
      simp only [ne_eq, Decidable.not_not] at hn
      split at h
      · simp at h
      rename_i t ht
      split at h
      · simp at h
      rename_i h0
      simp only [Option.some.injEq] at h
      subst h
      have hp := afNone.1 hn
      exact { onceNs := by rw [len rfl]; exact hm.onceNs
              onceAfter := len1 hp
              onceBefore := by rw [len rfl]; exact hm.onceBefore
              ca := by rw [hm.ca]; simp
              ns := fun v => by rw [hm.ns]; simp
              after := fun v' hv => by
                rcases List.mem_append.1 hv with hv | hv
                · have := hp _ hv; simp [isAfter] at this
                · simp only [List.mem_singleton, Item.after.injEq] at hv
                  subst hv; exact ⟨ht, h0⟩
              noAfter := fun h => absurd (by simp) (h v)
              before := fun v hv => hm.before v (by simpa using hv)
              noBefore := fun h => hm.noBefore fun v hv => h v (by simp [hv]) }
    · intro h
      obtain ⟨b1, b2, -, b4⟩ := back h
      obtain ⟨b3, h0⟩ := h.after v (by simp)
      rw [if_neg (by simp only [ne_eq, Decidable.not_not]; exact afNone.2 (none_of_filter (i := .after v) rfl h.onceAfter))]
      rw [b3]
      simp only [h0, if_false]
      rw [← b1 (by simp), ← b2 (by simp), ← b4 (by simp)]
  | before v =>
    simp only [meaning]
    constructor
    · intro h
      split at h
      · simp at h
      rename_i hn
      simp only [ne_eq, Decidable.not_not] at hn
      split at h
      · simp at h
      rename_i t ht
      split at h
      · simp at h
      rename_i h0
      simp only [Option.some.injEq] at h
      subst h
      have hp := beNone.1 hn
      exact { onceNs := by rw [len rfl]; exact hm.onceNs
              onceAfter := by rw [len rfl]; exact hm.onceAfter
              onceBefore := len1 hp
              ca := by rw [hm.ca]; simp
              ns := fun v => by rw [hm.ns]; simp
              after := fun v hv => hm.after v (by simpa using hv)
              noAfter := fun h => hm.noAfter fun v hv => h v (by simp [hv])
              before := fun v' hv => by
                rcases List.mem_append.1 hv with hv | hv
                · have := hp _ hv; simp [isBefore] at this
                · simp only [List.mem_singleton, Item.before.injEq] at hv
                  subst hv; exact ⟨ht, h0⟩
              noBefore := fun h => absurd (by simp) (h v) }
    · intro h
      obtain ⟨b1, b2, b3, -⟩ := back h
      obtain ⟨b4, h0⟩ := h.before v (by simp)
      rw [if_neg (by simp only [ne_eq, Decidable.not_not]; exact beNone.2 (none_of_filter (i := .before v) rfl h.onceBefore))]
      rw [b4]
      simp only [h0, if_false]
      rw [← b1 (by simp), ← b2 (by simp), ← b3 (by simp)]

theorem filter_prefix_le (p : Item → Bool) (a b : List Item) : (a.filter p).length ≤ ((a ++ b).filter p).length := by
  simp [List.filter_append]

/-- the meaning of an initial part, given that the whole has one -/
theorem means_front {pre is : List Item} {o : SigOpts} (h : Means pt (pre ++ is) o) : ∃ o1, Means pt pre o1 := by
  classical
  refine ⟨{ ca := decide (.ca ∈ pre), namespaces := if ∃ v, Item.namespaces v ∈ pre then o.namespaces else none,
            validAfter := if ∃ v, Item.after v ∈ pre then o.validAfter else 0,
            validBefore := if ∃ v, Item.before v ∈ pre then o.validBefore else 0 }, ?_⟩
  have le := fun p => filter_prefix_le p pre is
  exact { onceNs := Nat.le_trans (le _) h.onceNs
          onceAfter := Nat.le_trans (le _) h.onceAfter
          onceBefore := Nat.le_trans (le _) h.onceBefore
          ca := by simp
          ns := fun v => by
            simp only
            constructor
            · intro hv
              split at hv
              · rename_i hx
                obtain ⟨v', hv'⟩ := hx
                have := (h.ns v').2 (by simp [hv'])
                rw [this] at hv
                rw [← Option.some.inj hv]; exact hv'
              · simp at hv
            · intro hv
              rw [if_pos ⟨v, hv⟩]
              exact (h.ns v).2 (by simp [hv])
          after := fun v hv => by
            simp only [if_pos (⟨v, hv⟩ : ∃ v, Item.after v ∈ pre)]
            exact h.after v (by simp [hv])
          noAfter := fun hn => by
            simp only
            rw [if_neg]
            rintro ⟨v, hv⟩; exact hn v hv
          before := fun v hv => by
            simp only [if_pos (⟨v, hv⟩ : ∃ v, Item.before v ∈ pre)]
            exact h.before v (by simp [hv])
          noBefore := fun hn => by
            simp only
            rw [if_neg]
            rintro ⟨v, hv⟩; exact hn v hv }

theorem meanings_iff (is : List Item) : ∀ (pre : List Item) (o o' : SigOpts), Means pt pre o →
    (meanings pt is o = some o' ↔ Means pt (pre ++ is) o') := by
  induction is with
  | nil =>
    intro pre o o' hm
    simp only [meanings, Option.some.injEq, List.append_nil]
    constructor
    · rintro rfl; exact hm
    · intro h
      -- a list of options has one meaning only
      have h1 : o.ca = o'.ca := by
        have : o.ca = true ↔ o'.ca = true := by rw [hm.ca, h.ca]
        cases ha : o.ca <;> cases hb : o'.ca <;> simp_all
      have h2 : o.namespaces = o'.namespaces := by
        have : ∀ v, o.namespaces = some v ↔ o'.namespaces = some v := fun v => by rw [hm.ns, h.ns]
        cases ha : o.namespaces with
        | none =>
          cases hb : o'.namespaces with
          | none => rfl
          | some v => have := (this v).2 hb; rw [ha] at this; exact this
        | some v => exact ((this v).1 ha).symm
      have h3 : o.validAfter = o'.validAfter := by
        by_cases hx : ∃ v, Item.after v ∈ pre
        · obtain ⟨v, hv⟩ := hx
          have e := (hm.after v hv).1
          rw [(h.after v hv).1] at e; exact (Option.some.inj e).symm
        · rw [hm.noAfter fun v hv => hx ⟨v, hv⟩, h.noAfter fun v hv => hx ⟨v, hv⟩]
      have h4 : o.validBefore = o'.validBefore := by
        by_cases hx : ∃ v, Item.before v ∈ pre
        · obtain ⟨v, hv⟩ := hx
          have e := (hm.before v hv).1
          rw [(h.before v hv).1] at e; exact (Option.some.inj e).symm
        · rw [hm.noBefore fun v hv => hx ⟨v, hv⟩, h.noBefore fun v hv => hx ⟨v, hv⟩]
      cases o; cases o'; simp only at h1 h2 h3 h4; subst h1 h2 h3 h4; rfl
  | cons i is ih =>
    intro pre o o' hm
    have e : pre ++ i :: is = (pre ++ [i]) ++ is := by simp
    cases hi : meaning pt i o with
    | none =>
      simp only [meanings, hi, Option.bind_none, reduceCtorEq, false_iff]
      intro h
      rw [e] at h
      obtain ⟨o1, h1⟩ := means_front h
      have := (means_step hm).2 h1
      rw [hi] at this; simp at this
    | some o1 =>
      simp only [meanings, hi, Option.bind_some]
      rw [e]
      exact ih _ _ _ ((means_step hm).1 hi)

/-- the options text of an entry -/
theorem sigOpts_iff {s : Bytes} {o : SigOpts} (hb : ∀ is rest, Upto is s rest → rest = []) :
    sigOpts pt s = some o ↔ ∃ is, Options is s ∧ Means pt is o ∧ Consistent o := by
  have hcons : ∀ o : SigOpts, (o.validAfter ≠ 0 ∧ o.validBefore ≠ 0 ∧ o.validBefore ≤ o.validAfter) ↔ ¬ Consistent o := by
    intro o; unfold Consistent; omega
  unfold sigOpts
  constructor
  · intro h
    split at h
    · simp at h
    rename_i o1 h1
    split at h
    · simp at h
    rename_i hc
    simp only [Option.some.injEq] at h
    subst h
    obtain ⟨is, rest, hl⟩ := upto_loop _ _ _ _ h1
    rw [loop_upto hl _ _ (by omega)] at h1
    have := hb _ _ hl
    subst this
    refine ⟨is, upto_options.1 hl, (meanings_iff is [] _ _ means_nil).1 h1, ?_⟩
    unfold Consistent
    omega
  · rintro ⟨is, ho, hm, hc⟩
    have hl := upto_options.2 ho
    rw [loop_upto hl _ _ (by omega), (meanings_iff is [] _ _ means_nil).2 hm]
    simp only
    rw [if_neg]
    rw [hcons]
    exact fun h => h hc

/-- **C67: the options of an entry.**  A text without blanks outside quotes is accepted as options exactly when it is a
list of known options, no clause twice, with readable times in the right order. -/
theorem C67_options {s : Bytes} {o : SigOpts} (h : advance false s = some []) :
    sigOpts pt s = some o ↔ ∃ is, Options is s ∧ Means pt is o ∧ Consistent o := by
  refine sigOpts_iff fun is rest hu => ?_
  rw [advance_upto hu] at h
  exact Option.some.inj h

end Verif.Sig
