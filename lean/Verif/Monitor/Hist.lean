/-
The record over a whole conversation.
-/
import Verif.Monitor.Loop

namespace Verif.Monitor

open Wire Spec
open Auth (updateLists)
open Auth.Spec (Fulfils steps Usable Multi RootMay Sat stepOf Known)

variable {w : World} {c : Cfg} {h : List (Ev × Out)} {ev : Ev}
  {st st1 st' : St} {e : Ent} {v : Bool} {a : Act} {m : Bytes} {o : Out}

structure Inv (w : World) (c : Cfg) (h : List (Ev × Out)) (st : St) : Prop where
  a : InvA w c (acts h) (grants h) st
  before : ¬ Served .pwnam (acts h) → wins h = []
  multi : Served .pwnam (acts h) → (st.multi = true ↔ Multi c.auth)
  lists : Served .pwnam (acts h) → Lists c (wins h) st.lists
  count : st.failures = failed h
  lim : failed h ≤ c.auth.maxTries

theorem inv_init (w : World) (c : Cfg) : Inv w c [] (init c) := by
  refine ⟨?_, by simp [wins], fun h => absurd h (served_nil _), fun h => absurd h (served_nil _),
    rfl, by simp [failed]⟩
  constructor
  · intro r hr
    simp only [init, decide_eq_true_eq] at hr
    rcases hr with rfl | rfl | rfl <;> exact served_nil _
  · exact fun h => absurd h (served_nil _)
  · exact fun h => absurd h (served_nil _)
  · exact fun h => absurd h (served_nil _)
  · exact fun h => absurd h (served_nil _)
  · exact fun h => h.elim (fun h => absurd h (served_nil _)) (fun h => absurd h (served_nil _))
  · simp [init, acts, served_nil]
  · simp [acts]
  · simp [init]
  · simp [init]
  · simp [acts]
  · intro _; exact served_nil _
  · simp [init]
  · simp [init, acts, Talking, last_nil]
  · simp [init]
  · simp [init]
  · simp [acts, last_nil]
  · simp [init, acts, usedKeys]
  · rfl

theorem invA_fresh {as g} (hi : InvA w c as g st) :
    InvA w c as g { st with method := b!"unknown", sub := none } :=
  ⟨hi.perm, hi.order1, hi.order2, hi.order3, hi.order4, hi.order5, hi.attempt, hi.who, hi.nobody, hi.valid,
    hi.style, hi.noSid, hi.sid, hi.talking, hi.pamOk, hi.key, hi.noUser, hi.prev, hi.opts⟩

theorem invA_loop {as g} (hi : InvA w c as g st) {ls : List Bytes} {f : Nat} :
    InvA w c as g { st with lists := ls, failures := f } :=
  ⟨hi.perm, hi.order1, hi.order2, hi.order3, hi.order4, hi.order5, hi.attempt, hi.who, hi.nobody, hi.valid,
    hi.style, hi.noSid, hi.sid, hi.talking, hi.pamOk, hi.key, hi.noUser, hi.prev, hi.opts⟩

/-- A round in which the request was not served. -/
def Unserved (o : Out) : Prop := o.act = none ∧ o.log = none ∧ (o.fate = .dead ∨ o.fate = .crashed)

/-- A round in which the request was served. -/
structure Served1 (w : World) (c : Cfg) (h : List (Ev × Out)) (st : St) (ev : Ev) (o : Out) (st' : St)
    (e : Ent) (m : Bytes) (v : Bool) (st1 : St) (a : Act) : Prop where
  ent : e ∈ preTable
  msg : ev.msg = e.req.code :: m
  good : Good w c (acts h) (grants h) ev st e v st1 a
  facts : Facts w c (acts h) (grants h).1 ev.ans st a st1.method st1.sub
  round : Round c e (useOnce e st1) ev a v o st'

theorem step_round (hi : Inv w c h st) (hs : step w c st ev = (o, st')) :
    Unserved o ∨ ∃ e m v st1 a, Served1 w c h st ev o st' e m v st1 a := by
  unfold step at hs
  split at hs
  · simp only [Prod.mk.injEq] at hs
    obtain ⟨rfl, rfl⟩ := hs
    exact Or.inl ⟨rfl, rfl, Or.inl rfl⟩
  · rename_i e m hg
    obtain ⟨g1, g2, g3⟩ := gate_some hg
    split at hs
    · simp only [Prod.mk.injEq] at hs
      obtain ⟨rfl, rfl⟩ := hs
      exact Or.inl ⟨rfl, rfl, Or.inl rfl⟩
    · simp only [Prod.mk.injEq] at hs
      obtain ⟨rfl, rfl⟩ := hs
      exact Or.inl ⟨rfl, rfl, Or.inr rfl⟩
    · rename_i v st1 a hh
      obtain ⟨hgood, hfacts⟩ := handle_good (ev := ev) (invA_fresh hi.a) g1 g2 rfl rfl hh
      right
      refine ⟨e, m, v, st1, a, g1, g3, ⟨hgood.inv, hgood.may, hgood.kind, hgood.says, hgood.lists,
        hgood.failures, hgood.setup⟩, ⟨hfacts.may, hfacts.approved, ?_, hfacts.method, ?_, hfacts.pam,
        hfacts.signable⟩, after_round hs⟩
      · have := hfacts.verified
        cases a <;> first | trivial | exact this
      · have := hfacts.password
        cases a with
        | password pw ok => cases ok <;> first | trivial | exact this
        | _ => trivial

theorem yes_decides (he : e ∈ preTable) (hk : kind a = e.req) (hy : yes a = true) : e.decides = true := by
  simp only [preTable, List.mem_cons, List.not_mem_nil, or_false] at he
  rcases he with rfl | rfl | rfl | rfl | rfl | rfl | rfl | rfl | rfl | rfl | rfl | rfl | rfl | rfl | rfl <;>
    cases a <;> simp [kind, yes] at hk hy ⊢

theorem decides_yes (he : e ∈ preTable) (hd : e.decides = true) : e.req ≠ .pamAccount := by
  simp only [preTable, List.mem_cons, List.not_mem_nil, or_false] at he
  rcases he with rfl | rfl | rfl | rfl | rfl | rfl | rfl | rfl | rfl | rfl | rfl | rfl | rfl | rfl | rfl <;>
    simp at hd ⊢

theorem methodOf_name {as : List Act} {mt : Bytes} {sub : Option Bytes} (h : MethodOf as a mt sub)
    (hy : yes a = true ∨ kind a = .pamAccount) : NameOk mt sub := by
  cases a with
  | password pw ok =>
    obtain ⟨rfl, rfl | ⟨rfl, _⟩⟩ := h <;> exact ⟨by decide, by simp, by simp⟩
  | keyVerify b s d al ok =>
    obtain ⟨rfl, u, _, _, _, rfl⟩ := h
    cases u <;> exact ⟨by decide, by simp, by simp⟩
  | pamFree ok =>
    obtain ⟨rfl, rfl⟩ := h
    exact ⟨by decide, by simp, by simp⟩
  | pamAccount ok =>
    obtain ⟨rfl, rfl⟩ := h
    exact ⟨by decide, by simp, by simp⟩
  | _ => simp [yes, kind] at hy

theorem wins_snoc (h : List (Ev × Out)) (ev : Ev) (o : Out) :
    wins (h ++ [(ev, o)]) = wins h ++ (match o.act, o.log with
      | some a, some l => if yes a then [(l.method, l.sub)] else []
      | _, _ => []) := by
  unfold wins
  rw [List.filterMap_append]
  congr 1
  cases hx : o.act <;> cases hy : o.log <;> simp [hx, hy]
  split <;> simp_all

theorem failed_snoc (h : List (Ev × Out)) (ev : Ev) (o : Out) :
    failed (h ++ [(ev, o)]) = failed h + (match o.log with
      | some l => if l.verdict = .failed then 1 else 0
      | none => 0) := by
  unfold failed
  rw [List.countP_append]
  congr 1
  cases hy : o.log with
  | none => simp [hy]
  | some l => by_cases hv : l.verdict = .failed <;> simp [hy, hv]

theorem served_invA (hs : Served1 w c h st ev o st' e m v st1 a) :
    InvA w c (acts (h ++ [(ev, o)])) (grants (h ++ [(ev, o)])) st' := by
  obtain ⟨ls, f, hsame⟩ := hs.round.same
  rw [acts_snoc, grants_snoc, hs.round.act, hsame]
  exact invA_loop (hs.good.inv o hs.round.act)

/-- **The record after one more round.** -/
theorem step_inv (hi : Inv w c h st) (hs : step w c st ev = (o, st')) (hgo : o.fate = .go) :
    Inv w c (h ++ [(ev, o)]) st' := by
  rcases step_round hi hs with ⟨_, _, hd | hd⟩ | ⟨e, m, v, st1, a, hserved⟩
  · simp [hgo] at hd
  · simp [hgo] at hd
  have hA := served_invA hserved
  obtain ⟨he, hmsg, hgood, hfacts, hround⟩ := hserved
  obtain ⟨_, _, _, _, _, _, _, _, _, _, _, u12, u13, u14, u15, u16⟩ := useOnce_rest e st1
  obtain ⟨ls, f, hsame⟩ := hround.same
  have hact := hround.act
  have hsm : st'.multi = st1.multi := by rw [hsame]; exact u12
  have hacts : acts (h ++ [(ev, o)]) = acts h ++ [a] := by rw [acts_snoc, hact]; rfl
  obtain ⟨c1, c2⟩ := hround.count hgo
  have hcount : st'.failures = failed (h ++ [(ev, o)]) := by
    rw [failed_snoc, c1, u14, hgood.failures, hi.count]
    cases o.log <;> rfl
  refine ⟨hA, ?_, ?_, ?_, ?_, ?_⟩
  · intro hn
    rw [hacts, served_snoc] at hn
    rw [wins_snoc, hi.before fun hx => hn (Or.inl hx), hact]
    cases hl : o.log with
    | none => rfl
    | some l =>
      simp only
      cases hy : yes a with
      | false => simp
      | true =>
        exfalso
        have hm := hgood.may
        rw [← hgood.kind] at hm
        have h2 := hi.a.order2
        have hn1 : ¬ Served .pwnam (acts h) := fun hx => hn (Or.inl hx)
        cases a <;> simp [yes] at hy <;> simp only [kind, May] at hm
        · exact hn1 (h2 hm.1)
        · exact hn1 (h2 hm.1)
        · -- a PAM conversation was opened, so PAM was started
          exact hn1 (hi.a.order3 (hi.a.order5 (Or.inl (last_served hm))))
  · intro hsv
    rw [hsm]
    rw [hacts, served_snoc] at hsv
    by_cases hp : e.req = .pwnam
    · rw [(hgood.setup hp).2.1]
      exact (monLists_ok c).1
    · rw [(hgood.lists hp).1]
      rcases hsv with hsv | hsv
      · exact hi.multi hsv
      · rw [hgood.kind] at hsv; exact absurd hsv hp
  · intro hsv
    rw [hacts, served_snoc] at hsv
    by_cases hp : e.req = .pwnam
    · obtain ⟨s1, s2, s3, s4⟩ := hgood.setup hp
      rcases hround.lists with hsl | ⟨hv, _⟩
      · rw [hsl, u13, s3, wins_snoc, hi.before s4]
        exact lists_more (monLists_ok c).2
      · rw [s1] at hv; simp at hv
    · have hsv' : Served .pwnam (acts h) := by
        rcases hsv with hsv | hsv
        · exact hsv
        · rw [hgood.kind] at hsv; exact absurd hsv hp
      have hl0 := hi.lists hsv'
      obtain ⟨_, hgl⟩ := hgood.lists hp
      rcases hround.lists with hsl | ⟨hv, hmu, b, hu⟩
      · rw [hsl, u13, hgl, wins_snoc]
        exact lists_more hl0
      · rw [u15, u16, u13, hgl] at hu
        have hsays := hgood.says hv
        have hname := methodOf_name hfacts.method (by rw [hgood.kind]; exact hsays)
        obtain ⟨k1, k2, k3⟩ := update_lists hl0 hname hu
        rcases hsays with hy | hpa
        · have hd := yes_decides he hgood.kind hy
          cases hl : o.log with
          | none =>
            have := hround.logged (Or.inl hgo) hl
            rw [hd] at this
            simp at this
          | some l =>
            obtain ⟨_, l1, l2, _⟩ := hround.log l hl
            rw [u15] at l1
            rw [u16] at l2
            rw [wins_snoc, hact, hl]
            simp only [hy, if_true, l1, l2]
            exact k1
        · exfalso
          have hmm := hfacts.method
          have hk := hgood.kind
          rw [hpa] at hk
          cases a <;> simp [kind] at hk
          exact k2 rfl hmm.1
  · exact hcount
  · rw [← hcount]; exact c2

theorem hist_inv (hh : Hist w c h st) : Inv w c h st := by
  induction hh with
  | nil => exact inv_init w c
  | snoc ev _ hs hgo ih => exact step_inv ih hs hgo

end Verif.Monitor
