/-
Lemmas on signed data, actions and tables of the monitor.
-/
import Verif.Monitor.Spec
import Verif.Auth.Lists
import Verif.Auth.Inv

namespace Verif.Monitor

open Wire Spec
open Auth.Spec (Fulfils steps Usable Multi RootMay Sat stepOf Known)

/-! ### Reading -/

theorem getCstr_some {l s r : Bytes} (h : getCstr l = some (s, r)) : ∃ v, Text v s ∧ l = str v ++ r := by
  unfold getCstr at h
  split at h
  · simp at h
  · rename_i v rest hv
    split at h
    · simp at h
    · rename_i s' hs
      simp only [Option.some.injEq, Prod.mk.injEq] at h
      obtain ⟨rfl, rfl⟩ := h
      refine ⟨v, ?_, (getStr_some hv).1⟩
      unfold cstr at hs
      split at hs
      · simp at hs
      · split at hs
        · rename_i hl
          simp only [Option.some.injEq] at hs
          subst hs
          right
          obtain ⟨ys, hys⟩ := List.getLast?_eq_some_iff.1 hl
          subst hys
          simp
        · simp only [Option.some.injEq] at hs
          exact Or.inl hs

theorem takeSid_some {c : Cfg} {sid : Option Bytes} {d r : Bytes}
    (h : takeSid c.oldSid sid d = some (true, r)) : ∃ s, sid = some s ∧ d = sidPart c s ++ r := by
  unfold takeSid at h
  cases ho : c.oldSid with
  | true =>
    simp only [ho, if_true] at h
    split at h
    · simp at h
    · simp only [Option.some.injEq, Prod.mk.injEq, Bool.and_eq_true, decide_eq_true_eq] at h
      obtain ⟨⟨h1, h2⟩, h3⟩ := h
      cases sid with
      | none => simp at h1
      | some s =>
        simp only [Option.getD_some] at h2 h3
        refine ⟨s, rfl, ?_⟩
        simp only [sidPart, ho, if_true]
        rw [← h3]
        conv => lhs; rw [← List.take_append_drop s.length d, h2]
  | false =>
    simp only [ho, Bool.false_eq_true, if_false] at h
    split at h
    · simp at h
    · rename_i s rest hs
      simp only [Option.some.injEq, Prod.mk.injEq, decide_eq_true_eq] at h
      obtain ⟨h1, rfl⟩ := h
      refine ⟨s, h1, ?_⟩
      simp only [sidPart, ho, Bool.false_eq_true, if_false]
      exact (getStr_some hs).1

theorem stripDot_eq {s t : Bytes} (h : stripDot s = t) : s = t ∨ s = t ++ b!"." := by
  unfold stripDot at h
  split at h
  · rename_i hl
    right
    obtain ⟨ys, hys⟩ := List.getLast?_eq_some_iff.1 hl
    subst hys
    subst h
    simp
  · exact Or.inl h

theorem userblob_spec {w : World} {c : Cfg} {st : St} {d : Bytes}
    (h : validUserblob w c st d = some true) :
    ∃ sid, st.sid = some sid ∧ UserRequest w c sid (userStyle st) d := by
  unfold validUserblob at h
  simp only [Option.bind_eq_bind, Option.bind_eq_some_iff, Prod.exists, Option.pure_def,
    Option.some.injEq, Bool.and_eq_true, decide_eq_true_eq, Bool.or_eq_true] at h
  obtain ⟨b, r0, h0, t, r1, h1, u, r2, h2, v, r3, h3, n, r4, h4, g, r5, h5, al, r6, h6, bl, r7, h7,
    r8, h8, ⟨⟨⟨⟨hb, ht⟩, hu⟩, hn⟩, hg⟩, hr⟩ := h
  subst hb hr ht
  obtain ⟨sid, e1, e0⟩ := takeSid_some h0
  obtain ⟨e1', _⟩ := getInt_some h1
  obtain ⟨u', hu', e2⟩ := getCstr_some h2
  obtain ⟨e3, _⟩ := getStr_some h3
  obtain ⟨n', hn', e4⟩ := getCstr_some h4
  obtain ⟨e5, hg2⟩ := getInt_some h5
  obtain ⟨e6, _⟩ := getStr_some h6
  obtain ⟨e7, _⟩ := getStr_some h7
  subst e0 e1' e2 e3 e4 e5 e6 e7 hu
  refine ⟨sid, e1, u', v, n', al, bl, g, hu', hg, by simpa using hg2, ?_⟩
  unfold takeHost at h8
  split at h8
  · rename_i hb
    simp only [decide_eq_true_eq] at hb
    subst hb
    simp only [Option.bind_eq_bind, Option.bind_eq_some_iff, Prod.exists, Option.pure_def,
      Option.some.injEq] at h8
    obtain ⟨host, r9, h9, k, hk, i, hi, rfl⟩ := h8
    obtain ⟨e9, _⟩ := getStr_some h9
    subst e9
    right
    exact ⟨host, k, i, hn', hk, hi, by simp [List.append_assoc]⟩
  · rename_i hb
    simp only [decide_eq_true_eq] at hb
    rcases hn with rfl | hn
    · left
      simp only [Option.some.injEq] at h8
      subst h8
      exact ⟨hn', by simp [List.append_assoc]⟩
    · exact absurd hn hb

theorem hostblob_spec {st : St} {d cuser chost : Bytes}
    (h : validHostblob st d cuser chost = some true) :
    ∃ sid, st.sid = some sid ∧ HostRequest sid (userStyle st) cuser chost d := by
  unfold validHostblob at h
  simp only [Option.bind_eq_bind, Option.bind_eq_some_iff, Prod.exists, Option.pure_def,
    Option.some.injEq, Bool.and_eq_true, decide_eq_true_eq] at h
  obtain ⟨b, r0, h0, t, r1, h1, u, r2, h2, v, r3, h3, n, r4, h4, al, r6, h6, bl, r7, h7,
    hh, r8, h8, ru, r9, h9, ⟨⟨⟨⟨⟨⟨hb, ht⟩, hu⟩, hn⟩, hhost⟩, hru⟩, hr⟩⟩ := h
  subst hb hr ht hn hru
  have h0' : ∃ s, st.sid = some s ∧ d = str s ++ r0 := by
    unfold takeSid at h0
    simp only [Bool.false_eq_true, if_false] at h0
    split at h0
    · simp at h0
    · rename_i s rest hs
      simp only [Option.some.injEq, Prod.mk.injEq, decide_eq_true_eq] at h0
      obtain ⟨hs1, rfl⟩ := h0
      exact ⟨s, hs1, (getStr_some hs).1⟩
  obtain ⟨sid, e1, e0⟩ := h0'
  obtain ⟨e1', _⟩ := getInt_some h1
  obtain ⟨u', hu', e2⟩ := getCstr_some h2
  obtain ⟨e3, _⟩ := getStr_some h3
  obtain ⟨n', hn', e4⟩ := getCstr_some h4
  obtain ⟨e6, _⟩ := getStr_some h6
  obtain ⟨e7, _⟩ := getStr_some h7
  obtain ⟨hh', hhh', e8⟩ := getCstr_some h8
  obtain ⟨ru', hru', e9⟩ := getCstr_some h9
  subst e0 e1' e2 e3 e4 e6 e7 e8 e9 hu
  refine ⟨sid, e1, u', v, n', al, bl, hh', ru', hu', hn', ?_, hru', by simp [List.append_assoc]⟩
  rcases stripDot_eq hhost with rfl | rfl
  · exact Or.inl hhh'
  · exact Or.inr hhh'

/-! ### Actions so far -/

theorem acts_snoc (h : List (Ev × Out)) (ev : Ev) (o : Out) :
    acts (h ++ [(ev, o)]) = acts h ++ o.act.toList := by
  unfold acts
  rw [List.filterMap_append]
  cases hx : o.act <;> simp [hx]

theorem served_snoc (r : Req) (as : List Act) (a : Act) :
    Served r (as ++ [a]) ↔ Served r as ∨ kind a = r := by
  unfold Served
  constructor
  · rintro ⟨x, hx, hk⟩
    rcases List.mem_append.1 hx with hx | hx
    · exact Or.inl ⟨x, hx, hk⟩
    · rw [List.mem_singleton.1 hx] at hk; exact Or.inr hk
  · rintro (⟨x, hx, hk⟩ | hk)
    · exact ⟨x, by simp [hx], hk⟩
    · exact ⟨a, by simp, hk⟩

theorem served_nil (r : Req) : ¬ Served r [] := by simp [Served]

theorem last_snoc (rs : List Req) (as : List Act) (a : Act) :
    last rs (as ++ [a]) = if kind a ∈ rs then some a else last rs as := by
  unfold last
  rw [List.filter_append]
  split
  · rename_i h; simp [h]
  · rename_i h; simp [h]

theorem last_nil (rs : List Req) : last rs [] = none := rfl

theorem grants_snoc (h : List (Ev × Out)) (x : Ev × Out) : grants (h ++ [x]) = grantStep (grants h) x := by
  simp [grants]

/-! ### The gate -/

theorem gate_some {t : List Ent} {st : St} {msg m : Bytes} {e : Ent} (h : gate t st msg = some (e, m)) :
    e ∈ t ∧ st.permit e.req = true ∧ msg = e.req.code :: m := by
  unfold gate at h
  split at h
  · simp at h
  · rename_i ty m'
    split at h
    · simp at h
    · rename_i e' he
      split at h
      · rename_i hp
        simp only [Option.some.injEq, Prod.mk.injEq] at h
        obtain ⟨rfl, rfl⟩ := h
        unfold findEnt at he
        refine ⟨List.mem_of_find?_eq_some he, hp, ?_⟩
        have := List.find?_some he
        simp only [decide_eq_true_eq] at this
        rw [this]
      · simp at h

end Verif.Monitor
