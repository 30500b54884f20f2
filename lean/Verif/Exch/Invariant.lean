/-
The invariant of `Record` holds in every state that can be reached.
-/
import Verif.Exch.Record

namespace Verif.Exch
open Verif Wire Text
open scoped Verif.Match
open _root_.Verif.Kex (Support Flags Conf KeySet Err chooseConf wellFormed deriveKeys prop2buf buf2prop)

/-! ### Finishing an exchange -/

theorem finish_fields {E : Env} {s s' : St} {r : Rec} (h : finish E s r = .ok s') :
    ∃ sid kin kout,
      deriveKeys (E.H r.conf.kex) (E.mdsz r.conf.kex) E.server s.flags.initial s.sid r.conf.need r.hash r.secret =
        .ok (sid, kin, kout) ∧
      s'.vc = s.vc ∧ s'.vs = s.vs ∧ s'.sid = sid ∧ s'.pendIn = some kin ∧ s'.curOut = some kout ∧ s'.curIn = s.curIn ∧
      s'.recs = s.recs ++ [{ r with sid := sid, keysIn := kin, keysOut := kout }] ∧ s'.firstKey = s.firstKey ∧
      s'.done = s.done ∧ s'.flags = s.flags ∧ (∀ x ∈ s.sent, x ∈ s'.sent) ∧
      s'.table = setH 21 .newkeys (resetH s.table) ∧ s'.my = s.my ∧ s'.initSent = s.initSent := by
  unfold finish at h
  split at h
  · cases h
  · rename_i sid kin kout hd
    refine ⟨sid, kin, kout, hd, ?_⟩
    simp only [sendNewkeys] at h
    injection h with h
    subst h
    rcases sendExtInfo_or E { send { ({ s with
      sid := sid, pendIn := some kin, pendOut := some kout, eph := none, dh := none
      recs := s.recs ++ [{ r with sid := sid, keysIn := kin, keysOut := kout }] } : St) with
        table := resetH s.table } 21 [] with
        curOut := some kout, pendOut := none
        table := setH 21 .newkeys (resetH s.table) } with h | ⟨h, _⟩
    · rw [h]
      refine ⟨rfl, rfl, rfl, rfl, rfl, rfl, rfl, rfl, rfl, rfl, fun x hx => ?_, rfl, rfl, rfl⟩
      exact List.mem_append_left _ hx
    · rw [h]
      refine ⟨rfl, rfl, rfl, rfl, rfl, rfl, rfl, rfl, rfl, rfl, fun x hx => ?_, rfl, rfl, rfl⟩
      exact List.mem_append_left _ (List.mem_append_left _ hx)

/-- Everything `Good` says except about the keys. -/
structure Pre (E : Env) (vc vs : Bytes) (sent hist : List (Nat × Bytes)) (r : Rec) : Prop where
  vc : r.vc = vc
  vs : r.vs = vs
  conf : ∃ f q, chooseConf E.S E.server f q (r.own E.server) (r.peers E.server) = .ok r.conf
  own : (20, r.own E.server) ∈ sent
  peers : (20, r.peers E.server) ∈ hist
  parts : (E.method r.conf.kexType = some .gen ∧ GenParts E sent hist r) ∨
    (E.method r.conf.kexType = some .gex ∧ GexParts E sent hist r)
  auth : if E.server then
      E.hostKey r.conf.hostkeyType = some r.hostKey ∧ ∃ σ, E.sign r.hostKey r.hash r.conf.hostkey σ = some r.sig
    else
      E.keyType r.hostKey = some r.conf.hostkeyType ∧ E.trusted r.hostKey = true ∧
      E.verify r.hostKey r.sig r.hash r.conf.hostkey = true

theorem parts_hash {E : Env} {sent hist : List (Nat × Bytes)} {r : Rec} (hH : ∀ k x, E.H k x ≠ [])
    (h : (E.method r.conf.kexType = some .gen ∧ GenParts E sent hist r) ∨
      (E.method r.conf.kexType = some .gex ∧ GexParts E sent hist r)) : r.hash ≠ [] := by
  rcases h with ⟨_, qc, qs, _, _, h, _⟩ | ⟨_, _, _, _, _, _, _, _, _, _, _, h, _⟩
  · rw [h]; exact hH _ _
  · rw [h]; exact hH _ _

/-- The table after NEWKEYS was sent. -/
theorem await_newkeys {tab : Nat → Handler} {X : Nat} {h : Handler} (ha : Await tab X h) (hX : 1 ≤ X ∧ X ≤ 49) :
    Await (setH 21 .newkeys (resetH (setH X .kexError tab))) 21 .newkeys := by
  constructor
  · unfold setH; rw [if_pos rfl]
  · intro t ht
    unfold setH
    rw [if_neg ht]
    unfold resetH
    split
    · rfl
    · rename_i hr
      show plain (if t = X then .kexError else tab t) = true
      rw [if_neg (by omega)]
      exact ha.2 t (by omega)

theorem await_next {tab : Nat → Handler} {X Y : Nat} {h k : Handler} (ha : Await tab X h) :
    Await (setH Y k (setH X .kexError tab)) Y k := by
  constructor
  · unfold setH; rw [if_pos rfl]
  · intro t ht
    unfold setH
    rw [if_neg ht]
    split
    · rfl
    · rename_i hX; exact ha.2 t hX

theorem deriveKeys_ok {H : Bytes → Bytes} {m : Nat} {server initial : Bool} {sid : Bytes} {need : Nat} {h z sid' : Bytes}
    {ki ko : KeySet} (hd : deriveKeys H m server initial sid need h z = .ok (sid', ki, ko)) :
    (initial = true ∧ sid = [] ∧ sid' = h) ∨ (initial = false ∧ sid ≠ [] ∧ sid' = sid) := by
  unfold deriveKeys at hd
  split at hd
  · cases hd
  · rename_i h1
    split at hd
    · cases hd
    · rename_i h2
      injection hd with hd
      cases initial with
      | true =>
        refine Or.inl ⟨rfl, Decidable.not_not.1 fun hs => h1 ⟨rfl, hs⟩, ?_⟩
        have := congrArg Prod.fst hd
        simpa using this.symm
      | false =>
        refine Or.inr ⟨rfl, fun hs => h2 ⟨by decide, hs⟩, ?_⟩
        have := congrArg Prod.fst hd
        simpa using this.symm

theorem finish_inv {E : Env} {vc vs : Bytes} {hist : List (Nat × Bytes)} {s s' : St} {r : Rec}
    (hH : ∀ k x, E.H k x ≠ []) (h : finish E s r = .ok s') (hvc : s.vc = vc) (hvs : s.vs = vs) (hd : s.done = false)
    (ht : Await (setH 21 .newkeys (resetH s.table)) 21 .newkeys)
    (hg : ∀ x ∈ s.recs, Good E vc vs s.sent hist x) (hids : Ids s) (hkeys : Keys s)
    (hri : r.initial = s.flags.initial) (hp : Pre E vc vs s.sent hist r) :
    s'.vc = vc ∧ s'.vs = vs ∧ Where E hist s' ∧ (∀ x ∈ s'.recs, Good E vc vs s'.sent hist x) ∧ Keys s' ∧
    s'.firstKey = s.firstKey ∧ s'.flags = s.flags ∧
    ∃ r', s'.recs = s.recs ++ [r'] ∧ r'.hash = r.hash ∧ r'.hostKey = r.hostKey ∧ r'.initial = s.flags.initial ∧
      r'.sid = s'.sid ∧
      ((s.recs = [] ∧ s.flags.initial = true ∧ s'.sid = r.hash) ∨
       (s.recs ≠ [] ∧ s.flags.initial = false ∧ s'.sid = s.sid)) := by
  obtain ⟨sid, kin, kout, hk, a1, a2, a3, a4, a5, a6, a7, a8, a9, a10, a11, a12, a13, a14⟩ := finish_fields h
  have hcase : (s.recs = [] ∧ s.flags.initial = true ∧ sid = r.hash) ∨
       (s.recs ≠ [] ∧ s.flags.initial = false ∧ sid = s.sid) := by
    rcases deriveKeys_ok hk with ⟨b1, b2, b3⟩ | ⟨b1, b2, b3⟩
    · refine Or.inl ⟨?_, b1, b3⟩
      cases hrecs : s.recs with
      | nil => rfl
      | cons x l =>
        exfalso
        have hx := hids.first x l hrecs
        rw [b2] at hx
        exact parts_hash hH (hg x (by rw [hrecs]; exact List.mem_cons_self ..)).parts hx.1.symm
    · refine Or.inr ⟨fun hn => b2 (hids.none hn).1, b1, b3⟩
  have hlast : s'.recs.getLast? = some { r with sid := sid, keysIn := kin, keysOut := kout } := by rw [a7]; simp
  have hgood : Good E vc vs s.sent hist { r with sid := sid, keysIn := kin, keysOut := kout } := by
    refine ⟨hp.vc, hp.vs, hp.conf, hp.own, hp.peers, hp.parts, ?_, hp.auth⟩
    show deriveKeys (E.H r.conf.kex) (E.mdsz r.conf.kex) E.server r.initial (if r.initial then [] else sid)
      r.conf.need r.hash r.secret = .ok (sid, kin, kout)
    rw [← hk, hri]
    rcases deriveKeys_ok hk with ⟨b1, b2, b3⟩ | ⟨b1, b2, b3⟩
    · rw [b1, b2]; rfl
    · rw [b1, b3]; rfl
  refine ⟨a1.trans hvc, a2.trans hvs, ?_, ?_, ?_, a8, a10, _, a7, rfl, rfl, hri, a3.symm, ?_⟩
  · exact .fin (by rw [a12]; exact ht) (by rw [a9]; exact hd) _ hlast a4 a5
  · rw [a7]
    intro x hx
    rcases List.mem_append.1 hx with hx | hx
    · exact (hg x hx).mono a11 fun _ h => h
    · rw [List.mem_singleton] at hx
      subst hx
      exact hgood.mono a11 fun _ h => h
  · refine ⟨fun k hk => ?_, fun k hk => ?_, fun hd' => ?_⟩
    · rw [a6] at hk
      obtain ⟨x, hx, e⟩ := hkeys.curIn k hk
      exact ⟨x, by rw [a7]; exact List.mem_append_left _ hx, e⟩
    · rw [a5] at hk
      injection hk with hk
      exact ⟨_, by rw [a7]; exact List.mem_append_right _ (List.mem_singleton_self _), hk⟩
    · rw [a9, hd] at hd'; cases hd'
  · rw [a3]; exact hcase

/-- The identifiers after an exchange, if the host key of the first one was saved. -/
theorem ids_after {s s' : St} {r r' : Rec} (hids : Ids s) (hr : s'.recs = s.recs ++ [r'])
    (hh : r'.hash = r.hash) (hk : r'.hostKey = r.hostKey) (hi : r'.initial = s.flags.initial) (hsid : r'.sid = s'.sid)
    (hc : (s.recs = [] ∧ s.flags.initial = true ∧ s'.sid = r.hash ∧ s'.firstKey = some r.hostKey) ∨
       (s.recs ≠ [] ∧ s.flags.initial = false ∧ s'.sid = s.sid ∧ s'.firstKey = s.firstKey)) : Ids s' := by
  rcases hc with ⟨b1, b2, b3, b4⟩ | ⟨b1, b2, b3, b4⟩
  · rw [b1, List.nil_append] at hr
    refine ⟨fun hn => ?_, fun x l hx => ?_, fun x hx => ?_⟩
    · rw [hr] at hn; cases hn
    · rw [hr] at hx
      injection hx with e1 e2
      subst e1 e2
      exact ⟨by rw [b3, hh], by rw [hi]; exact b2, by rw [b4, hk], fun x hx => by cases hx⟩
    · rw [hr, List.mem_singleton] at hx
      subst hx; exact hsid
  · cases hrecs : s.recs with
    | nil => exact absurd hrecs b1
    | cons y m =>
      rw [hrecs, List.cons_append] at hr
      obtain ⟨c1, c2, c3, c4⟩ := hids.first y m hrecs
      refine ⟨fun hn => ?_, fun x l hx => ?_, fun x hx => ?_⟩
      · rw [hr] at hn; cases hn
      · rw [hr] at hx
        injection hx with e1 e2
        subst e1 e2
        refine ⟨by rw [b3]; exact c1, c2, by rw [b4]; exact c3, fun x hx => ?_⟩
        rcases List.mem_append.1 hx with hx | hx
        · exact c4 x hx
        · rw [List.mem_singleton] at hx; subst hx; rw [hi]; exact b2
      · rw [hr, ← List.cons_append] at hx
        rcases List.mem_append.1 hx with hx | hx
        · rw [b3]; exact hids.all x (by rw [hrecs]; exact hx)
        · rw [List.mem_singleton] at hx; subst hx; exact hsid

theorem finishClient_inv {E : Env} {vc vs : Bytes} {hist : List (Nat × Bytes)} {s s' : St} {r : Rec}
    (hH : ∀ k x, E.H k x ≠ []) (h : finishClient E s r = .ok s') (hvc : s.vc = vc) (hvs : s.vs = vs) (hd : s.done = false)
    (ht : Await (setH 21 .newkeys (resetH s.table)) 21 .newkeys)
    (hg : ∀ x ∈ s.recs, Good E vc vs s.sent hist x) (hids : Ids s) (hkeys : Keys s)
    (hri : r.initial = s.flags.initial)
    (hp : E.verify r.hostKey r.sig r.hash r.conf.hostkey = true → Pre E vc vs s.sent hist r) : Inv E vc vs hist s' := by
  unfold finishClient at h
  split at h
  · rename_i hv
    split at h
    · cases h
    · rename_i s1 h1
      obtain ⟨a1, a2, a3, a4, a5, a6, a7, r', b1, b2, b3, b4, b5, b6⟩ := finish_inv hH h1 hvc hvs hd ht hg hids hkeys hri (hp hv)
      split at h
      · rename_i hi
        split at h
        · cases h
        · injection h with h; subst h
          refine ⟨a1, a2, ?_, a4, ?_, ?_⟩
          · cases a3 with
            | idle h1 h2 h3 => exact .idle h1 h2 h3
            | genS c hr hb ht => exact .genS c ⟨hr.1, hr.2, hr.3, hr.4, hr.5, hr.6⟩ hb ht
            | genC c hr hb ht x1 x2 x3 x4 x5 x6 => exact .genC c ⟨hr.1, hr.2, hr.3, hr.4, hr.5, hr.6⟩ hb ht x1 x2 x3 x4 x5 x6
            | gexS0 c hr hb ht => exact .gexS0 c ⟨hr.1, hr.2, hr.3, hr.4, hr.5, hr.6⟩ hb ht
            | gexS1 c hr hb ht x1 x2 x3 x4 x5 x6 x7 => exact .gexS1 c ⟨hr.1, hr.2, hr.3, hr.4, hr.5, hr.6⟩ hb ht x1 x2 x3 x4 x5 x6 x7
            | gexC0 c hr hb ht x1 x2 => exact .gexC0 c ⟨hr.1, hr.2, hr.3, hr.4, hr.5, hr.6⟩ hb ht x1 x2
            | gexC1 c hr hb ht x1 x2 x3 x4 x5 x6 x7 x8 => exact .gexC1 c ⟨hr.1, hr.2, hr.3, hr.4, hr.5, hr.6⟩ hb ht x1 x2 x3 x4 x5 x6 x7 x8
            | fin x1 x2 x3 x4 x5 x6 => exact .fin x1 x2 x3 x4 x5 x6
          · refine ids_after (s := s) (r := r) hids b1 b2 b3 b4 b5 ?_
            rcases b6 with ⟨c1, c2, c3⟩ | ⟨c1, c2, c3⟩
            · exact Or.inl ⟨c1, c2, c3, rfl⟩
            · rw [a7, c2] at hi; cases hi
          · exact ⟨a5.1, a5.2, a5.3⟩
      · rename_i hi
        injection h with h; subst h
        refine ⟨a1, a2, a3, a4, ?_, a5⟩
        refine ids_after (s := s) (r := r) hids b1 b2 b3 b4 b5 ?_
        rcases b6 with ⟨c1, c2, c3⟩ | ⟨c1, c2, c3⟩
        · rw [a7, c2] at hi; exact absurd rfl hi
        · exact Or.inr ⟨c1, c2, c3, a6⟩
  · cases h

theorem finishServer_inv {E : Env} {vc vs : Bytes} {hist : List (Nat × Bytes)} {s s' : St} {t : Nat} {p : Bytes} {r : Rec}
    (hH : ∀ k x, E.H k x ≠ []) (h : finishServer E s t p r = .ok s') (hvc : s.vc = vc) (hvs : s.vs = vs) (hd : s.done = false)
    (ht : Await (setH 21 .newkeys (resetH s.table)) 21 .newkeys)
    (hg : ∀ x ∈ s.recs, Good E vc vs s.sent hist x) (hids : Ids s) (hkeys : Keys s)
    (hri : r.initial = s.flags.initial) (hp : Pre E vc vs (s.sent ++ [(t, p)]) hist r) : Inv E vc vs hist s' := by
  unfold finishServer at h
  split at h
  · cases h
  · rename_i s1 h1
    obtain ⟨a1, a2, a3, a4, a5, a6, a7, r', b1, b2, b3, b4, b5, b6⟩ := finish_inv (s := send s t p) hH h1 hvc hvs hd ht
      (fun x hx => (hg x hx).mono (fun y hy => List.mem_append_left _ hy) fun _ h => h)
      ⟨hids.none, hids.first, hids.all⟩ ⟨hkeys.1, hkeys.2, hkeys.3⟩ hri hp
    injection h with h; subst h
    refine ⟨a1, a2, ?_, a4, ?_, ?_⟩
    · cases a3 with
      | idle h1 h2 h3 => exact .idle h1 h2 h3
      | genS c hr hb ht => exact .genS c ⟨hr.1, hr.2, hr.3, hr.4, hr.5, hr.6⟩ hb ht
      | genC c hr hb ht x1 x2 x3 x4 x5 x6 => exact .genC c ⟨hr.1, hr.2, hr.3, hr.4, hr.5, hr.6⟩ hb ht x1 x2 x3 x4 x5 x6
      | gexS0 c hr hb ht => exact .gexS0 c ⟨hr.1, hr.2, hr.3, hr.4, hr.5, hr.6⟩ hb ht
      | gexS1 c hr hb ht x1 x2 x3 x4 x5 x6 x7 => exact .gexS1 c ⟨hr.1, hr.2, hr.3, hr.4, hr.5, hr.6⟩ hb ht x1 x2 x3 x4 x5 x6 x7
      | gexC0 c hr hb ht x1 x2 => exact .gexC0 c ⟨hr.1, hr.2, hr.3, hr.4, hr.5, hr.6⟩ hb ht x1 x2
      | gexC1 c hr hb ht x1 x2 x3 x4 x5 x6 x7 x8 => exact .gexC1 c ⟨hr.1, hr.2, hr.3, hr.4, hr.5, hr.6⟩ hb ht x1 x2 x3 x4 x5 x6 x7 x8
      | fin x1 x2 x3 x4 x5 x6 => exact .fin x1 x2 x3 x4 x5 x6
    · refine ids_after (s := s) (r := r) hids b1 b2 b3 b4 b5 ?_
      have e : s1.firstKey = s.firstKey := a6
      rcases b6 with ⟨c1, c2, c3⟩ | ⟨c1, c2, c3⟩
      · refine Or.inl ⟨c1, c2, c3, ?_⟩
        show (if s1.firstKey.isSome then s1.firstKey else some r.hostKey) = _
        rw [e, (hids.none c1).2]; rfl
      · refine Or.inr ⟨c1, c2, c3, ?_⟩
        show (if s1.firstKey.isSome then s1.firstKey else some r.hostKey) = _
        rw [e]
        cases hrecs : s.recs with
        | nil => exact absurd hrecs c1
        | cons y m => rw [(hids.first y m hrecs).2.2.1]; rfl
    · exact ⟨a5.1, a5.2, a5.3⟩

end Verif.Exch
