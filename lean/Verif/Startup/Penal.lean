/-
The penalty tables implement the ledger.
-/
import Verif.Startup.Table

namespace Verif.Startup
open Verif Text
open Verif.Addr (XAddr Family Known width bit)

def toPen (e : Entry) : Pen := ⟨e.expiry, e.active, e.reason⟩

/-- The tables hold what the ledger says, purged at time `t`. -/
structure PInv (c : Cfg) (log : List Act) (p : Penal) (t : Int) : Prop where
  t4 : TInv c .inet p.t4.list
  n4 : p.t4.n = p.t4.list.length
  m4 : p.t4.list.length ≤ c.max4
  t6 : TInv c .inet6 p.t6.list
  n6 : p.t6.n = p.t6.list.length
  m6 : p.t6.list.length ≤ c.max6
  rep : ∀ a, Known a → ∀ q : Pen, (∃ e ∈ (tableOf a p).list, SameNet c a e.addr ∧ toPen e = q) ↔
    ledger c log a = some q ∧ t ≤ q.expiry

theorem PInv.tab {c : Cfg} {log : List Act} {p : Penal} {t : Int} (h : PInv c log p t) (a : XAddr) (hk : Known a) :
    TInv c a.af (tableOf a p).list ∧ (tableOf a p).n = (tableOf a p).list.length ∧
      (tableOf a p).list.length ≤ maxSources c a := by
  rcases hk with e | e
  · simp only [tableOf, maxSources, e, if_true]; exact ⟨h.t4, h.n4, h.m4⟩
  · simp only [tableOf, maxSources, e, reduceCtorEq, if_false]; exact ⟨h.t6, h.n6, h.m6⟩

theorem pinv_init (c : Cfg) (t : Int) : PInv c [] penalInit t := by
  refine ⟨TInv.nil _ _, rfl, by simp [penalInit], TInv.nil _ _, rfl, by simp [penalInit], fun a _ q => ?_⟩
  have : (tableOf a penalInit).list = [] := by unfold tableOf; split <;> rfl
  simp [this, ledger]

/-- Purging keeps the agreement. -/
theorem purge_inv {c : Cfg} {log : List Act} {p : Penal} {t t' : Int} (h : PInv c log p t) (ht : t ≤ t') :
    ∃ p', expireAll t' p = some p' ∧ PInv c log p' t' := by
  obtain ⟨l4, a1, a2, a3, a4⟩ := expireList_spec t' h.t4
  obtain ⟨l6, b1, b2, b3, b4⟩ := expireList_spec t' h.t6
  refine ⟨⟨⟨l4, l4.length⟩, ⟨l6, l6.length⟩⟩, ?_, ?_⟩
  · simp [expireAll, h.n4, h.n6, a1, b1]
  · refine ⟨a2, rfl, Nat.le_trans a4 h.m4, b2, rfl, Nat.le_trans b4 h.m6, fun a hk q => ?_⟩
    have hmem : ∀ e, e ∈ (tableOf a ⟨⟨l4, l4.length⟩, ⟨l6, l6.length⟩⟩).list ↔ e ∈ (tableOf a p).list ∧ t' ≤ e.expiry := by
      intro e
      unfold tableOf
      split
      · exact a3 e
      · exact b3 e
    constructor
    · rintro ⟨e, he, hs, hq⟩
      obtain ⟨he, hte⟩ := (hmem e).1 he
      refine ⟨((h.rep a hk q).1 ⟨e, he, hs, hq⟩).1, ?_⟩
      rw [← hq]; exact hte
    · rintro ⟨hl, hte⟩
      obtain ⟨e, he, hs, hq⟩ := (h.rep a hk q).2 ⟨hl, Int.le_trans ht hte⟩
      exact ⟨e, (hmem e).2 ⟨he, by rw [← hq] at hte; exact hte⟩, hs, hq⟩

theorem ledger_append (c : Cfg) (log : List Act) (x : Act) (a : XAddr) :
    ledger c (log ++ [x]) a = ledgerStep c a (ledger c log a) x := by
  simp [ledger, List.foldl_append]

/-- A call that changes neither tables nor ledger. -/
theorem PInv.same {c : Cfg} {log : List Act} {p : Penal} {t : Int} (h : PInv c log p t) (x : Act)
    (hx : ∀ a old, ledgerStep c a old x = old) : PInv c (log ++ [x]) p t := by
  refine ⟨h.t4, h.n4, h.m4, h.t6, h.n6, h.m6, fun a hk q => ?_⟩
  rw [ledger_append, hx]
  exact h.rep a hk q

theorem sameNet_known {c : Cfg} {a b : XAddr} (h : SameNet c a b) (hk : Known b) : Known a := by
  unfold Known at *; rw [h.1]; exact hk

/-- Which table is seen after one was replaced. -/
theorem tableOf_set {a b : XAddr} (p : Penal) (t : Table) (ha : Known a) (hb : Known b) :
    tableOf b (setTable a t p) = if b.af = a.af then t else tableOf b p := by
  rcases ha with e | e <;> rcases hb with e' | e' <;> simp [tableOf, setTable, e, e']

/-- `charge` on the ledger is what the tables do to an entry. -/
theorem charge_more (c : Cfg) (t : Int) (k : Kind) (e : Entry) (h : t ≤ e.expiry) :
    charge c t k (some (toPen e)) = toPen (accumulate c t (c.secs k) k e) := by
  have h1 : (if e.expiry + c.secs k - t > c.pmax then t + c.pmax else e.expiry + c.secs k) =
      min (e.expiry + c.secs k) (t + c.pmax) := by
    split <;> omega
  have h2 : (min (e.expiry + c.secs k) (t + c.pmax) - t > c.pmin) ↔ (c.pmin < min (e.expiry + c.secs k - t) c.pmax) := by
    omega
  have h3 : ¬ (toPen e).expiry < t := by simp only [toPen]; omega
  simp only [charge, h3, if_false]
  simp only [further, toPen, accumulate, h1]
  congr 2
  exact (decide_eq_decide.2 h2).symm

theorem charge_expiry (c : Cfg) (h : c.Ok) (t : Int) (k : Kind) (old : Option Pen) :
    t ≤ (charge c t k old).expiry := by
  have h1 := h.secs k
  have h2 := h.pmax
  unfold charge
  split
  · simp [first]; omega
  · split
    · simp [first]; omega
    · simp [further]; omega

/-- Replacing the table of `a`'s family keeps the invariant when the new table says what the new ledger
says about that family and the ledger of the other family is unchanged. -/
theorem set_inv {c : Cfg} {log : List Act} {p : Penal} {t : Int} (h : PInv c log p t) (a : XAddr) (hk : Known a)
    (x : Act) (l : List Entry) (hl : TInv c a.af l) (hm : l.length ≤ maxSources c a)
    (hother : ∀ b, b.af ≠ a.af → ledgerStep c b (ledger c log b) x = ledger c log b)
    (hrep : ∀ b, b.af = a.af → ∀ q : Pen, (∃ e ∈ l, SameNet c b e.addr ∧ toPen e = q) ↔
      ledgerStep c b (ledger c log b) x = some q ∧ t ≤ q.expiry) :
    PInv c (log ++ [x]) (setTable a ⟨l, l.length⟩ p) t := by
  have hr : ∀ b, Known b → ∀ q : Pen,
      (∃ e ∈ (tableOf b (setTable a ⟨l, l.length⟩ p)).list, SameNet c b e.addr ∧ toPen e = q) ↔
      ledger c (log ++ [x]) b = some q ∧ t ≤ q.expiry := by
    intro b hb q
    rw [tableOf_set p _ hk hb, ledger_append]
    by_cases e : b.af = a.af
    · rw [if_pos e]; exact hrep b e q
    · rw [if_neg e, hother b e]; exact h.rep b hb q
  rcases hk with e | e
  · refine ⟨?_, ?_, ?_, ?_, ?_, ?_, hr⟩ <;> simp only [setTable, e, if_true]
    · rw [e] at hl; exact hl
    · simpa [maxSources, e] using hm
    · exact h.t6
    · exact h.n6
    · exact h.m6
  · refine ⟨?_, ?_, ?_, ?_, ?_, ?_, hr⟩ <;> simp only [setTable, e, reduceCtorEq, if_false]
    · exact h.t4
    · exact h.n4
    · exact h.m4
    · rw [e] at hl; exact hl
    · simpa [maxSources, e] using hm

/-- A further penalty. -/
theorem more_inv {c : Cfg} (hc : c.Ok) {log : List Act} {p : Penal} {t : Int} (h : PInv c log p t)
    {a m : XAddr} (k : Kind) (ha : mask a (bits c a) = some m) {e : Entry}
    (hf : findAddr m (tableOf a p).list = some e) :
    ∃ p', penaliseMore c t a k e p = some (p', .more) ∧ PInv c (log ++ [.offence t a k .more]) p' t := by
  have hk := known_of_mask ha
  obtain ⟨hT, hn, hmx⟩ := h.tab a hk
  obtain ⟨hel, hes⟩ := (findAddr_spec hc ha hT e).1 hf
  obtain ⟨r1, r2, r3⟩ := removeExpiry_spec hc e hT hel
  have hacc : (accumulate c t (c.secs k) k e).addr = e.addr := rfl
  obtain ⟨l', i1, i2, i3, i4⟩ := insertExpiry_spec hc (accumulate c t (c.secs k) k e)
    (hT.fam e hel) (hT.masked e hel) r1 (fun x hx => ((r2 x).1 hx).2)
  have hte : ledger c log a = some (toPen e) ∧ t ≤ (toPen e).expiry := (h.rep a hk _).1 ⟨e, hel, hes, rfl⟩
  refine ⟨setTable a ⟨l', (tableOf a p).n⟩ p, by simp [penaliseMore, i1], ?_⟩
  have hlen : (tableOf a p).n = l'.length := by rw [hn, i4, ← r3]
  rw [hlen]
  refine set_inv h a hk _ l' i2 (by omega) ?_ ?_
  · intro b hb
    have : ¬ SameNet c b a := fun hs => hb hs.1
    simp [ledgerStep, this]
  · intro b hb q
    have hkb : Known b := by unfold Known at *; rw [hb]; exact hk
    have hold := h.rep b hkb q
    have htab : tableOf b p = tableOf a p := by simp [tableOf, hb]
    rw [htab] at hold
    by_cases hs : SameNet c b a
    · have hbl : ledger c log b = some (toPen e) := ((h.rep b hkb _).1 ⟨e, by rw [htab]; exact hel, hs.trans hes, rfl⟩).1
      simp only [ledgerStep, hs, if_true, hbl, charge_more c t k e hte.2, Option.some.injEq]
      have hce := charge_expiry c hc t k (some (toPen e))
      rw [charge_more c t k e hte.2] at hce
      constructor
      · rintro ⟨x, hx, hsx, hq⟩
        rcases (i3 x).1 hx with rfl | hx
        · rw [← hq]; exact ⟨rfl, hce⟩
        · exact absurd ((hs.trans hes).symm.trans hsx) ((r2 x).1 hx).2
      · rintro ⟨rfl, _⟩
        exact ⟨_, (i3 _).2 (Or.inl rfl), hs.trans hes, rfl⟩
    · simp only [ledgerStep, hs, if_false]
      rw [← hold]
      constructor
      · rintro ⟨x, hx, hsx, hq⟩
        rcases (i3 x).1 hx with rfl | hx
        · exact absurd (hsx.trans hes.symm) hs
        · exact ⟨x, ((r2 x).1 hx).1, hsx, hq⟩
      · rintro ⟨x, hx, hsx, hq⟩
        refine ⟨x, (i3 x).2 (Or.inr ((r2 x).2 ⟨hx, fun hs' => ?_⟩)), hsx, hq⟩
        exact hs ((hsx.trans hs'.symm).trans hes.symm)

/-- What a first penalty drops: only networks of the same family, only when the table overflows, the
soonest to expire first. -/
structure Dropped (c : Cfg) (t : Int) (log : List Act) (a : XAddr) (k : Kind) (p : Penal) (L : List XAddr) : Prop where
  fam : ∀ d ∈ L, d.af = a.af
  none : (tableOf a p).list.length < maxSources c a → L = []
  some : (tableOf a p).list.length ≥ maxSources c a → L.length = 1
  least : ∀ d ∈ L, ∃ q, ledgerStep c d (ledger c log d) (.offence t a k (.fresh [])) = Option.some q ∧
    ∀ b, b.af = a.af → ∀ q', ledgerStep c b (ledger c log b) (.offence t a k (.fresh [])) = Option.some q' →
      t ≤ q'.expiry → q.expiry ≤ q'.expiry

/-- A first penalty. -/
theorem new_inv {c : Cfg} (hc : c.Ok) {log : List Act} {p : Penal} {t : Int} (h : PInv c log p t)
    {a m : XAddr} (k : Kind) (ha : mask a (bits c a) = some m)
    (hf : findAddr m (tableOf a p).list = none) :
    ∃ p' L, penaliseNew c t a m k p = some (p', .fresh L) ∧
      PInv c (log ++ [.offence t a k (.fresh L)]) p' t ∧ Dropped c t log a k p L := by
  have hk := known_of_mask ha
  obtain ⟨hT, hn, hmx⟩ := h.tab a hk
  have hfn := (findAddr_none hc ha hT).1 hf
  have hmm : Masked c m := ⟨a, hk, ha⟩
  have hsm := sameNet_mask c hc ha
  have hmaf : m.af = a.af := hsm.1.symm
  have hdead : ∀ q, ledger c log a = some q → q.expiry < t := by
    intro q hq
    apply Classical.byContradiction
    intro hlt
    obtain ⟨e, he, hs, _⟩ := (h.rep a hk q).2 ⟨hq, by omega⟩
    exact hfn e he hs
  have hcharge : ∀ b, SameNet c b a → Known b → charge c t k (ledger c log b) = first c t k := by
    intro b hs hkb
    cases hl : ledger c log b with
    | none => rfl
    | some q =>
      have : q.expiry < t := by
        apply Classical.byContradiction
        intro hlt
        obtain ⟨e, he, hs', _⟩ := (h.rep b hkb q).2 ⟨hl, by omega⟩
        have htab : tableOf b p = tableOf a p := by simp [tableOf, hs.1]
        rw [htab] at he
        exact hfn e he (hs.symm.trans hs')
      simp [charge, this]
  obtain ⟨l', i1, i2, i3, i4⟩ := insertExpiry_spec hc ⟨m, t + c.secs k, decide (c.secs k > c.pmin), k⟩
    hmaf hmm hT (fun x hx hs => hfn x hx (hsm.trans hs))
  -- the table with the new entry says what the ledger would say without dropping anything
  have hrep : ∀ b, b.af = a.af → ∀ q : Pen, (∃ e ∈ l', SameNet c b e.addr ∧ toPen e = q) ↔
      ledgerStep c b (ledger c log b) (.offence t a k (.fresh [])) = some q ∧ t ≤ q.expiry := by
    intro b hb q
    have hkb : Known b := by unfold Known at *; rw [hb]; exact hk
    have hold := h.rep b hkb q
    have htab : tableOf b p = tableOf a p := by simp [tableOf, hb]
    rw [htab] at hold
    by_cases hs : SameNet c b a
    · simp only [ledgerStep, List.not_mem_nil, false_and, exists_false, if_false, hs, if_true, hcharge b hs hkb,
        Option.some.injEq]
      have hsec := hc.secs k
      constructor
      · rintro ⟨x, hx, hsx, hq⟩
        rcases (i3 x).1 hx with rfl | hx
        · rw [← hq]; exact ⟨rfl, by simp [toPen, first]; omega⟩
        · exact absurd (hs.symm.trans hsx) (hfn x hx)
      · rintro ⟨rfl, _⟩
        exact ⟨_, (i3 _).2 (Or.inl rfl), hs.trans hsm, rfl⟩
    · simp only [ledgerStep, List.not_mem_nil, false_and, exists_false, if_false, hs]
      rw [← hold]
      constructor
      · rintro ⟨x, hx, hsx, hq⟩
        rcases (i3 x).1 hx with rfl | hx
        · exact absurd (hsx.trans hsm.symm) hs
        · exact ⟨x, hx, hsx, hq⟩
      · rintro ⟨x, hx, hsx, hq⟩
        exact ⟨x, (i3 x).2 (Or.inr hx), hsx, hq⟩
  by_cases hov : (tableOf a p).n + 1 > maxSources c a
  · -- the table overflows
    have hlen : (tableOf a p).n + 1 = l'.length := by rw [hn, i4]
    obtain ⟨l2, d, e1, e2, e3⟩ := earlyList_spec (max := maxSources c a) i2
    have hother : ∀ (f : Family) (l : List Entry), TInv c f l → ∀ mx, l.length ≤ mx →
        earlyList mx l l.length = some (⟨l, l.length⟩, []) := by
      intro f l hl mx hle
      cases l with
      | nil => simp [earlyList]
      | cons x l => unfold earlyList; rw [if_neg (by omega)]
    have hearly : earlyAll c (setTable a ⟨l', l'.length⟩ p) = some (setTable a ⟨l2, l2.length⟩ p, d) := by
      rcases hk with e | e
      · have := hother _ _ h.t6 _ h.m6
        simp only [maxSources, e, if_true] at e1
        simp [earlyAll, setTable, e, e1, h.n6, this]
        rw [← h.n6]
      · have := hother _ _ h.t4 _ h.m4
        simp only [maxSources, e, reduceCtorEq, if_false] at e1
        simp [earlyAll, setTable, e, e1, h.n4, this]
        rw [← h.n4]
    have hdl : d.length = 1 := by
      have : d.length + l2.length = l'.length := by rw [e2]; simp
      omega
    have hdfam : ∀ x ∈ d, x.addr.af = a.af := fun x hx => i2.fam x (by rw [e2]; simp [hx])
    refine ⟨setTable a ⟨l2, l2.length⟩ p, d.map (·.addr), ?_, ?_, ?_⟩
    · rw [hlen] at hov
      simp only [penaliseNew, i1, hlen, hearly, hov, if_true, Option.map_some]
    · have hT2 : TInv c a.af l2 := by rw [e2] at i2; exact i2.drop
      refine set_inv h a hk _ l2 hT2 (by omega) ?_ ?_
      · intro b hb
        have h1 : ¬ SameNet c b a := fun hs => hb hs.1
        have h2 : ¬ ∃ x ∈ d.map (·.addr), SameNet c b x := by
          rintro ⟨x, hx, hs⟩
          obtain ⟨y, hy, rfl⟩ := List.mem_map.1 hx
          exact hb (hs.1.trans (hdfam y hy))
        simp only [ledgerStep, h1, h2, if_false]
      · intro b hb q
        have hr := hrep b hb q
        by_cases hdr : ∃ x ∈ d.map (·.addr), SameNet c b x
        · simp only [ledgerStep, hdr, if_true]
          obtain ⟨x, hx, hs⟩ := hdr
          obtain ⟨y, hy, rfl⟩ := List.mem_map.1 hx
          constructor
          · rintro ⟨z, hz, hsz, _⟩
            rw [e2] at i2
            exact absurd (hs.symm.trans hsz) ((List.pairwise_append.1 i2.apart).2.2 y hy z hz)
          · rintro ⟨h', _⟩; cases h'
        · have hrs : ledgerStep c b (ledger c log b) (.offence t a k (.fresh (d.map (·.addr)))) =
              ledgerStep c b (ledger c log b) (.offence t a k (.fresh [])) := by
            simp only [ledgerStep, hdr, if_false, List.not_mem_nil, false_and, exists_false]
          rw [hrs, ← hr]
          constructor
          · rintro ⟨z, hz, hsz, hq⟩
            exact ⟨z, by rw [e2]; simp [hz], hsz, hq⟩
          · rintro ⟨z, hz, hsz, hq⟩
            rw [e2] at hz
            rcases List.mem_append.1 hz with hz | hz
            · exact absurd ⟨z.addr, List.mem_map.2 ⟨z, hz, rfl⟩, hsz⟩ hdr
            · exact ⟨z, hz, hsz, hq⟩
    · refine ⟨?_, ?_, ?_, ?_⟩
      · intro x hx
        obtain ⟨y, hy, rfl⟩ := List.mem_map.1 hx
        exact hdfam y hy
      · intro hlt; omega
      · intro _; simp [hdl]
      · intro x hx
        obtain ⟨y, hy, rfl⟩ := List.mem_map.1 hx
        have hyl : y ∈ l' := by rw [e2]; simp [hy]
        have h1 := (hrep y.addr (hdfam y hy) (toPen y)).1 ⟨y, hyl, SameNet.refl c _, rfl⟩
        refine ⟨toPen y, h1.1, fun b hb q' hq' ht' => ?_⟩
        obtain ⟨z, hz, hsz, rfl⟩ := (hrep b hb q').2 ⟨hq', ht'⟩
        simp only [toPen]
        rw [e2] at hz
        rcases List.mem_append.1 hz with hz | hz
        · match d, hdl, hy, hz with
          | [w], _, hy, hz =>
            rw [List.mem_singleton.1 hy, List.mem_singleton.1 hz]; omega
        · rw [e2] at i2
          exact (List.pairwise_append.1 i2.ord).2.2 y hy z hz
  · have hlen : (tableOf a p).n + 1 = l'.length := by rw [hn, i4]
    refine ⟨setTable a ⟨l', l'.length⟩ p, [], ?_, ?_, ?_⟩
    · simp [penaliseNew, i1, hlen] at hov ⊢
      omega
    · refine set_inv h a hk _ l' i2 (by omega) ?_ hrep
      intro b hb
      have h1 : ¬ SameNet c b a := fun hs => hb hs.1
      simp [ledgerStep, h1]
    · exact ⟨by simp, fun _ => rfl, fun hge => by omega, by simp⟩

end Verif.Startup
