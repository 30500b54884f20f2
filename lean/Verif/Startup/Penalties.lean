/-
C31: the penalties of source networks.
-/
import Verif.Startup.Penal

namespace Verif.Startup
open Verif Text
open Verif.Addr (XAddr Family Known width bit)

theorem isExempt_iff (c : Cfg) (a : XAddr) : isExempt c a = true ↔ Exempt c a := by
  unfold isExempt Exempt
  cases c.exempt with
  | none => simp
  | some l =>
    cases c.ntop a with
    | none => simp
    | some s => simp

theorem sources_eq (c : Cfg) (a : XAddr) : maxSources c a = sources c a.af := rfl

theorem strict_iff (c : Cfg) (a : XAddr) : denyAll c a = true ↔ strict c a.af := Iff.rfl

theorem PInv.listed {c : Cfg} (hc : c.Ok) {log : List Act} {p : Penal} {t : Int} (h : PInv c log p t)
    {a : XAddr} (hk : Known a) : Listed c log t a.af ((tableOf a p).list.map (·.addr)) := by
  obtain ⟨hT, _, _⟩ := h.tab a hk
  refine ⟨?_, ?_, fun b hb => ?_⟩
  · intro x hx
    obtain ⟨e, he, rfl⟩ := List.mem_map.1 hx
    exact hT.fam e he
  · exact List.pairwise_map.2 hT.apart
  · have hkb : Known b := by unfold Known at *; rw [hb]; exact hk
    have htab : tableOf b p = tableOf a p := by simp [tableOf, hb]
    constructor
    · rintro ⟨q, hq⟩
      obtain ⟨e, he, hs, _⟩ := (h.rep b hkb q).2 hq
      rw [htab] at he
      exact ⟨e.addr, List.mem_map.2 ⟨e, he, rfl⟩, hs⟩
    · rintro ⟨x, hx, hs⟩
      obtain ⟨e, he, rfl⟩ := List.mem_map.1 hx
      exact ⟨toPen e, (h.rep b hkb _).1 ⟨e, by rw [htab]; exact he, hs, rfl⟩⟩

theorem map_le_of_cover (c : Cfg) : ∀ (l m : List XAddr), l.Pairwise (fun a b => ¬ SameNet c a b) →
    (∀ a ∈ l, ∃ b ∈ m, SameNet c a b) → l.length ≤ m.length := by
  intro l
  induction l with
  | nil => intro m _ _; simp
  | cons a l ih =>
    intro m hp hm
    obtain ⟨b, hb, hs⟩ := hm a (by simp)
    have hp' := List.pairwise_cons.1 hp
    have := ih (m.erase b) hp'.2 (by
      intro x hx
      obtain ⟨y, hy, hs'⟩ := hm x (by simp [hx])
      refine ⟨y, ?_, hs'⟩
      by_cases e : y = b
      · subst e; exact absurd (hs.trans hs'.symm) (hp'.1 x hx)
      · exact (List.mem_erase_of_ne e).2 hy)
    rw [List.length_erase_of_mem hb] at this
    have := List.length_pos_of_mem hb
    simp; omega

/-- The number of penalised networks does not depend on how they are listed. -/
theorem Listed.length_eq {c : Cfg} {log : List Act} {t : Int} {f : Family} {L M : List XAddr}
    (h : Listed c log t f L) (h' : Listed c log t f M) : L.length = M.length := by
  apply Nat.le_antisymm
  · exact map_le_of_cover c L M h.apart fun a ha =>
      (h'.all a (h.fam a ha)).1 ((h.all a (h.fam a ha)).2 ⟨a, ha, SameNet.refl c a⟩)
  · exact map_le_of_cover c M L h'.apart fun a ha =>
      (h.all a (h'.fam a ha)).1 ((h'.all a (h'.fam a ha)).2 ⟨a, ha, SameNet.refl c a⟩)

/-- What one call of `penalise` does, on tables in order. -/
theorem penalise_inv {c : Cfg} (hc : c.Ok) {log : List Act} {p : Penal} {t t' : Int} (h : PInv c log p t)
    (ht : t ≤ t') (a : XAddr) (k : Kind) :
    (∃ p' e, penalise c t' a k p = some (p', e) ∧
      (∃ u, u ≤ t' ∧ PInv c (log ++ [.offence t' a k e]) p' u) ∧
      (e = .nothing ↔ Spared c a ∨ k = .none ∨ ¬ Known a) ∧
      (¬ (Spared c a ∨ k = .none ∨ ¬ Known a) → ∃ q, PInv c log q t' ∧
        ((strict c a.af ∧ sources c a.af ≤ (tableOf a q).list.length) ∧ e = .full ∨
         ¬ (strict c a.af ∧ sources c a.af ≤ (tableOf a q).list.length) ∧
           ((∃ x, Running c log t' a x) ∧ e = .more ∨
            (¬ ∃ x, Running c log t' a x) ∧ ∃ L, e = .fresh L ∧ Dropped c t' log a k q L)))) := by
  unfold penalise
  split
  · rename_i he
    exact ⟨p, .nothing, rfl, ⟨t, ht, h.same _ (fun _ _ => rfl)⟩, by simp [Spared, he],
      fun hn => absurd (Or.inl (Or.inl he)) hn⟩
  · rename_i he
    split
    · rename_i hx
      have hx' := (isExempt_iff c a).1 hx
      exact ⟨p, .nothing, rfl, ⟨t, ht, h.same _ (fun _ _ => rfl)⟩, by simp [Spared, hx'],
        fun hn => absurd (Or.inl (Or.inr hx')) hn⟩
    · rename_i hx
      rw [isExempt_iff] at hx
      split
      · rename_i hk
        exact ⟨p, .nothing, rfl, ⟨t, ht, h.same _ (fun _ _ => rfl)⟩, by simp [hk],
          fun hn => absurd (Or.inr (Or.inl hk)) hn⟩
      · rename_i hk
        have hsp : ¬ Spared c a := by
          rintro (h' | h')
          · exact he h'
          · exact hx h'
        by_cases hkn : Known a
        · obtain ⟨m, hm, _⟩ := mask_spec c hc a hkn
          obtain ⟨q, hq, hqi⟩ := purge_inv h ht
          have hnn : ¬ (Spared c a ∨ k = .none ∨ ¬ Known a) := by
            rintro (h' | h' | h')
            · exact hsp h'
            · exact hk h'
            · exact h' hkn
          obtain ⟨hT, hn, hmx⟩ := hqi.tab a hkn
          simp only [hm, hq, Option.bind_some, penalisePurged, hn]
          have hrun : (∃ x, Running c log t' a x) ↔ ∃ e ∈ (tableOf a q).list, SameNet c a e.addr := by
            constructor
            · rintro ⟨x, hx⟩
              obtain ⟨e, he, hs, _⟩ := (hqi.rep a hkn x).2 hx
              exact ⟨e, he, hs⟩
            · rintro ⟨e, he, hs⟩
              exact ⟨toPen e, (hqi.rep a hkn _).1 ⟨e, he, hs, rfl⟩⟩
          split
          · rename_i hfull
            refine ⟨q, .full, rfl, ⟨t', Int.le_refl _, hqi.same _ (fun _ _ => rfl)⟩, ?_, fun _ => ⟨q, hqi, Or.inl ?_⟩⟩
            · simp only [reduceCtorEq, false_iff]; exact hnn
            · exact ⟨⟨(strict_iff c a).1 hfull.2, hfull.1⟩, rfl⟩
          · rename_i hfull
            have hfull' : ¬ (strict c a.af ∧ sources c a.af ≤ (tableOf a q).list.length) :=
              fun hh => hfull ⟨hh.2, (strict_iff c a).2 hh.1⟩
            cases hf : findAddr m (tableOf a q).list with
            | none =>
              obtain ⟨p', L, n1, n2, n3⟩ := new_inv hc hqi k hm hf
              refine ⟨p', .fresh L, n1, ⟨t', Int.le_refl _, n2⟩, ?_, fun _ => ⟨q, hqi, Or.inr ⟨hfull', Or.inr ⟨?_, L, rfl, n3⟩⟩⟩⟩
              · simp only [reduceCtorEq, false_iff]; exact hnn
              · rw [hrun]
                rintro ⟨e, he, hs⟩
                exact (findAddr_none hc hm hT).1 hf e he hs
            | some e =>
              obtain ⟨p', n1, n2⟩ := more_inv hc hqi k hm hf
              refine ⟨p', .more, n1, ⟨t', Int.le_refl _, n2⟩, ?_, fun _ => ⟨q, hqi, Or.inr ⟨hfull', Or.inl ⟨?_, rfl⟩⟩⟩⟩
              · simp only [reduceCtorEq, false_iff]; exact hnn
              · rw [hrun]
                obtain ⟨h1, h2⟩ := (findAddr_spec hc hm hT e).1 hf
                exact ⟨e, h1, h2⟩
        · rw [mask_unknown a _ hkn]
          exact ⟨p, .nothing, rfl, ⟨t, ht, h.same _ (fun _ _ => rfl)⟩, by simp [hkn],
            fun hn => absurd (Or.inr (Or.inr hkn)) hn⟩

/-- What one question does. -/
theorem query_inv {c : Cfg} {log : List Act} {p : Penal} {t t' : Int} (h : PInv c log p t)
    (ht : t ≤ t') (peer : Option XAddr) :
    ∃ p' ans, penaltyCheck c t' peer p = some (p', ans) ∧
      ∃ u, u ≤ t' ∧ PInv c (log ++ [.query t' peer ans]) p' u := by
  unfold penaltyCheck
  split
  · exact ⟨p, .allow, rfl, t, ht, h.same _ (fun _ _ => rfl)⟩
  · split
    · exact ⟨p, .allow, rfl, t, ht, h.same _ (fun _ _ => rfl)⟩
    · split
      · exact ⟨p, .allow, rfl, t, ht, h.same _ (fun _ _ => rfl)⟩
      · obtain ⟨q, hq, hqi⟩ := purge_inv h ht
        exact ⟨q, _, by rw [hq]; rfl, t', Int.le_refl _, hqi.same _ (fun _ _ => rfl)⟩

theorem hist_inv {c : Cfg} (hc : c.Ok) {log : List Act} {p : Penal} {t : Int} (h : PHist c log p t) :
    ∃ u, u ≤ t ∧ PInv c log p u := by
  induction h with
  | init t => exact ⟨t, Int.le_refl _, pinv_init c t⟩
  | @offence log p t t' a k p' e _ ht hp ih =>
    obtain ⟨u, hu, hi⟩ := ih
    obtain ⟨p2, e2, h1, h2, _⟩ := penalise_inv hc hi (Int.le_trans hu ht) a k
    rw [hp] at h1; cases h1
    exact h2
  | @query log p t t' peer p' ans _ ht hp ih =>
    obtain ⟨u, hu, hi⟩ := ih
    obtain ⟨p2, e2, h1, h2⟩ := query_inv hi (Int.le_trans hu ht) peer
    rw [hp] at h1; cases h1
    exact h2

/-- C31.  The tables never become inconsistent: every call succeeds. -/
theorem C31_total (c : Cfg) (hc : c.Ok) (log : List Act) (p : Penal) (t t' : Int) (h : PHist c log p t) (ht : t ≤ t') :
    (∀ a k, ∃ r, penalise c t' a k p = some r) ∧ (∀ peer, ∃ r, penaltyCheck c t' peer p = some r) := by
  obtain ⟨u, hu, hi⟩ := hist_inv hc h
  constructor
  · intro a k
    obtain ⟨p', e, h1, _⟩ := penalise_inv hc hi (Int.le_trans hu ht) a k
    exact ⟨_, h1⟩
  · intro peer
    obtain ⟨p', e, h1, _⟩ := query_inv hi (Int.le_trans hu ht) peer
    exact ⟨_, h1⟩

/-- C31.  Who is refused: with penalties on, an address that is not exempt is refused exactly when its
network has a running penalty that is enforced, or, in deny-all mode, when the number of penalised networks
has reached the configured one.  An address that cannot be determined is not refused. -/
theorem C31_check (c : Cfg) (hc : c.Ok) (log : List Act) (p p' : Penal) (t t' : Int) (h : PHist c log p t) (ht : t ≤ t')
    (a : XAddr) (hk : Known a) (ans : Answer) (hq : penaltyCheck c t' (some a) p = some (p', ans)) :
    ∃ L, Listed c log t' a.af L ∧
      (ans = .tooMany ↔ ¬ Spared c a ∧ strict c a.af ∧ sources c a.af ≤ L.length) ∧
      (∀ k, ans = .penalised k ↔ ¬ Spared c a ∧ ¬ (strict c a.af ∧ sources c a.af ≤ L.length) ∧
        ∃ q, Running c log t' a q ∧ q.active = true ∧ q.reason = k) := by
  obtain ⟨u, hu, hi⟩ := hist_inv hc h
  obtain ⟨q, hq', hqi⟩ := purge_inv hi (Int.le_trans hu ht)
  refine ⟨_, hqi.listed hc hk, ?_⟩
  rw [List.length_map]
  unfold penaltyCheck at hq
  simp only at hq
  split at hq
  · rename_i he
    cases hq
    simp [Spared, he]
  · rename_i he
    split at hq
    · rename_i hx
      cases hq
      have hx' := (isExempt_iff c a).1 hx
      simp [Spared, hx']
    · rename_i hx
      rw [isExempt_iff] at hx
      have hsp : ¬ Spared c a := by
        rintro (h' | h')
        · exact he h'
        · exact hx h'
      rw [hq'] at hq
      simp only [Option.map_some, Option.some.injEq, Prod.mk.injEq] at hq
      obtain ⟨_, hans⟩ := hq
      obtain ⟨hT, hn, hmx⟩ := hqi.tab a hk
      obtain ⟨m, hm, _⟩ := mask_spec c hc a hk
      unfold checkPurged at hans
      rw [hn, hm] at hans
      by_cases hfull : strict c a.af ∧ sources c a.af ≤ (tableOf a q).list.length
      · rw [if_pos ⟨hfull.2, (strict_iff c a).2 hfull.1⟩] at hans
        subst hans
        simp [hsp, hfull]
      · rw [if_neg (fun hh => hfull ⟨(strict_iff c a).1 hh.2, hh.1⟩)] at hans
        simp only at hans
        have key : ∀ k, ans = .penalised k ↔ ∃ e ∈ (tableOf a q).list, SameNet c a e.addr ∧ e.active = true ∧ e.reason = k := by
          intro k
          unfold verdict at hans
          cases hf : findAddr m (tableOf a q).list with
          | none =>
            rw [hf] at hans
            subst hans
            simp only [answerOf, reduceCtorEq, false_iff]
            rintro ⟨e, he, hs, _⟩
            exact (findAddr_none hc hm hT).1 hf e he hs
          | some e =>
            rw [hf] at hans
            simp only at hans
            obtain ⟨h1, h2⟩ := (findAddr_spec hc hm hT e).1 hf
            have hex := ((hqi.rep a hk _).1 ⟨e, h1, h2, rfl⟩).2
            simp only [toPen] at hex
            rw [if_neg (by omega)] at hans
            have huniq : ∀ e' ∈ (tableOf a q).list, SameNet c a e'.addr → e' = e := by
              intro e' he' hs'
              have := (findAddr_spec hc hm hT e').2 ⟨he', hs'⟩
              rw [hf] at this
              exact (Option.some.inj this).symm
            by_cases hact : e.active = false
            · rw [if_pos hact] at hans
              subst hans
              simp only [answerOf, reduceCtorEq, false_iff]
              rintro ⟨e', he', hs', ha', _⟩
              rw [huniq e' he' hs', hact] at ha'
              cases ha'
            · rw [if_neg hact] at hans
              subst hans
              simp only [answerOf, Answer.penalised.injEq]
              constructor
              · rintro rfl
                exact ⟨e, h1, h2, by simpa using hact, rfl⟩
              · rintro ⟨e', he', hs', _, hr⟩
                rw [huniq e' he' hs'] at hr
                exact hr
        constructor
        · have : ans ≠ .tooMany := by
            rw [← hans]
            cases verdict t' m (tableOf a q).list <;> simp [answerOf]
          simp only [this, false_iff]
          exact fun hh => hfull hh.2
        · intro k
          rw [key k]
          constructor
          · rintro ⟨e, he, hs, ha, hr⟩
            exact ⟨hsp, hfull, toPen e, (hqi.rep a hk _).1 ⟨e, he, hs, rfl⟩, ha, hr⟩
          · rintro ⟨_, _, x, hx, ha, hr⟩
            obtain ⟨e, he, hs, rfl⟩ := (hqi.rep a hk x).2 hx
            exact ⟨e, he, hs, ha, hr⟩

/-- C31.  The number of penalised networks of a family never exceeds the configured one. -/
theorem C31_size (c : Cfg) (hc : c.Ok) (log : List Act) (p : Penal) (t t' : Int) (h : PHist c log p t) (ht : t ≤ t')
    (a : XAddr) (hk : Known a) :
    (∃ L, Listed c log t' a.af L) ∧ ∀ L, Listed c log t' a.af L → L.length ≤ sources c a.af := by
  obtain ⟨u, hu, hi⟩ := hist_inv hc h
  obtain ⟨q, hq', hqi⟩ := purge_inv hi (Int.le_trans hu ht)
  refine ⟨⟨_, hqi.listed hc hk⟩, fun L hL => ?_⟩
  rw [hL.length_eq (hqi.listed hc hk), List.length_map]
  exact (hqi.tab a hk).2.2

/-- C31.  What an offence does.  It is not recorded when penalties do not concern the address or there is no
penalty for it, nor, in deny-all mode, when the configured number of networks is reached; otherwise it is.
Another network is forgiven only when that number would be exceeded, exactly one is, and it is one whose
penalty ends first (it may be the offender's own). -/
theorem C31_offence (c : Cfg) (hc : c.Ok) (log : List Act) (p p' : Penal) (t t' : Int) (h : PHist c log p t) (ht : t ≤ t')
    (a : XAddr) (k : Kind) (e : Effect) (hp : penalise c t' a k p = some (p', e)) (L : List XAddr)
    (hL : Listed c log t' a.af L) :
    (e = .nothing ↔ Spared c a ∨ k = .none ∨ ¬ Known a) ∧
    (e = .full ↔ ¬ (Spared c a ∨ k = .none ∨ ¬ Known a) ∧ strict c a.af ∧ sources c a.af ≤ L.length) ∧
    (∀ D, e = .fresh D → (∀ d ∈ D, d.af = a.af) ∧ (L.length < sources c a.af → D = []) ∧
      (sources c a.af ≤ L.length → D.length = 1 ∧ ¬ strict c a.af ∧ ¬ ∃ x, Running c log t' a x) ∧
      ∀ d ∈ D, ∃ q, ledger c (log ++ [.offence t' a k (.fresh [])]) d = some q ∧
        ∀ b, b.af = a.af → ∀ q', Running c (log ++ [.offence t' a k (.fresh [])]) t' b q' → q.expiry ≤ q'.expiry) ∧
    (e = .more → ∃ x, Running c log t' a x) := by
  obtain ⟨u, hu, hi⟩ := hist_inv hc h
  obtain ⟨p2, e2, h1, _, h3, h4⟩ := penalise_inv hc hi (Int.le_trans hu ht) a k
  rw [hp] at h1; cases h1
  by_cases hs : Spared c a ∨ k = .none ∨ ¬ Known a
  · have := h3.2 hs
    subst this
    simp [hs]
  · have hk : Known a := Classical.byContradiction fun hk => hs (Or.inr (Or.inr hk))
    obtain ⟨q, hqi, hcase⟩ := h4 hs
    have hlen : (tableOf a q).list.length = L.length := by
      have := (hqi.listed hc hk).length_eq hL
      rwa [List.length_map] at this
    rw [hlen] at hcase
    refine ⟨h3, ?_⟩
    rcases hcase with ⟨hf, rfl⟩ | ⟨hf, ⟨hr, rfl⟩ | ⟨hr, D, rfl, hD⟩⟩
    · simp [hs, hf]
    · simp [hs, hr]
      exact fun h' => Nat.lt_of_not_le fun hge => hf ⟨h', hge⟩
    · refine ⟨?_, ?_, by simp⟩
      · simp only [reduceCtorEq, false_iff]
        exact fun hh => hf hh.2
      · intro D' he
        cases he
        refine ⟨hD.fam, fun hlt => hD.none (by rw [hlen]; exact hlt), fun hge => ⟨hD.some (by rw [hlen]; exact hge), fun hst => hf ⟨hst, hge⟩, hr⟩, ?_⟩
        intro d hd
        obtain ⟨q1, hq1, hq2⟩ := hD.least d hd
        refine ⟨q1, by rw [ledger_append]; exact hq1, fun b hb q' hq' => ?_⟩
        unfold Running at hq'
        rw [ledger_append] at hq'
        exact hq2 b hb q' hq'.1 hq'.2

theorem list_snoc_ind {α : Type} {P : List α → Prop} (h0 : P []) (h1 : ∀ l x, P l → P (l ++ [x])) : ∀ l, P l := by
  intro l
  have : ∀ m : List α, P m.reverse := by
    intro m
    induction m with
    | nil => exact h0
    | cons x m ih => rw [List.reverse_cons]; exact h1 _ _ ih
  have h := this l.reverse
  rwa [List.reverse_reverse] at h

/-- C31.  A penalty comes from a recorded offence of the network, and never lasts longer, counted from the
last such offence, than the maximum or than that offence's own penalty.  Partial: the documentation promises
the maximum alone; `C31_first_uncapped` shows that a first penalty is not limited by it. -/
theorem C31_bound_partial (c : Cfg) (log : List Act) (a : XAddr) (q : Pen) (h : ledger c log a = some q) :
    ∃ u t b e v, log = u ++ [.offence t b q.reason e] ++ v ∧ SameNet c a b ∧ Recorded e ∧
      q.expiry ≤ t + max (c.secs q.reason) c.pmax ∧
      ∀ x ∈ v, ∀ t' b' k' e', x = .offence t' b' k' e' → Recorded e' → ¬ SameNet c a b' := by
  revert q
  refine list_snoc_ind (P := fun log => ∀ q, ledger c log a = some q → ∃ u t b e v, log = u ++ [.offence t b q.reason e] ++ v ∧
      SameNet c a b ∧ Recorded e ∧ q.expiry ≤ t + max (c.secs q.reason) c.pmax ∧
      ∀ x ∈ v, ∀ t' b' k' e', x = .offence t' b' k' e' → Recorded e' → ¬ SameNet c a b') ?_ ?_ log
  · intro q h; simp [ledger] at h
  · intro log x ih q h
    rw [ledger_append] at h
    have keep : ledger c log a = some q → (∀ t' b' k' e', x = .offence t' b' k' e' → Recorded e' → ¬ SameNet c a b') →
        ∃ u t b e v, log ++ [x] = u ++ [.offence t b q.reason e] ++ v ∧ SameNet c a b ∧ Recorded e ∧
        q.expiry ≤ t + max (c.secs q.reason) c.pmax ∧
        ∀ x ∈ v, ∀ t' b' k' e', x = .offence t' b' k' e' → Recorded e' → ¬ SameNet c a b' := by
      intro hl hx
      obtain ⟨u, t, b, e, v, h1, h2, h3, h4, h5⟩ := ih q hl
      refine ⟨u, t, b, e, v ++ [x], by rw [h1]; simp, h2, h3, h4, fun y hy => ?_⟩
      rcases List.mem_append.1 hy with hy | hy
      · exact h5 y hy
      · rw [List.mem_singleton] at hy; subst hy; exact hx
    have new : ∀ t b k e, x = .offence t b k e → SameNet c a b → Recorded e → q = charge c t k (ledger c log a) →
        ∃ u t b e v, log ++ [x] = u ++ [.offence t b q.reason e] ++ v ∧ SameNet c a b ∧ Recorded e ∧
        q.expiry ≤ t + max (c.secs q.reason) c.pmax ∧
        ∀ x ∈ v, ∀ t' b' k' e', x = .offence t' b' k' e' → Recorded e' → ¬ SameNet c a b' := by
      intro t b k e hx hs hr hq
      have hk : q.reason = k := by
        rw [hq]; unfold charge; split
        · rfl
        · split <;> rfl
      refine ⟨log, t, b, e, [], by rw [hx, hk]; simp, hs, hr, ?_, by simp⟩
      rw [hk, hq]
      unfold charge
      split
      · simp only [first]; omega
      · split
        · simp only [first]; omega
        · simp only [further]; omega
    cases x with
    | query t peer ans => exact keep h (by simp)
    | offence t b k e =>
      cases e with
      | nothing => exact keep h (by rintro _ _ _ _ h' hr; cases h'; exact hr.elim)
      | full => exact keep h (by rintro _ _ _ _ h' hr; cases h'; exact hr.elim)
      | more =>
        simp only [ledgerStep] at h
        split at h
        · rename_i hs
          exact new t b k _ rfl hs trivial (Option.some.inj h).symm
        · rename_i hs
          exact keep h (by rintro _ _ _ _ h' _; cases h'; exact hs)
      | fresh D =>
        simp only [ledgerStep] at h
        split at h
        · cases h
        · split at h
          · rename_i hs
            exact new t b k _ rfl hs trivial (Option.some.inj h).symm
          · rename_i hs
            exact keep h (by rintro _ _ _ _ h' _; cases h'; exact hs)

end Verif.Startup
