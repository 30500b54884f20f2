/-
The whole check: both passes, without and with the port.
-/
import Verif.HostKey.Reasons

namespace Verif.HostKey
open Verif Verif.Hostfile

theorem AddWhy.mono {C : Cfg} {W : World} {X : Ctx} {k : Key} {ro ro' : RO} {s s1 : St} {a : Bytes × Key}
    (hl : Left s.replies s1.replies) (hw : Weaker s1.opts s.opts) (hro : ro' = .rw → ro = .rw)
    (h : AddWhy C W X k ro' s1 a) : AddWhy C W X k ro s a := by
  obtain ⟨a1, a2, a3, a4, a5, a6⟩ := h
  refine ⟨hro a1, a2, a3, a4, a5, ?_⟩
  rcases a6 with ⟨b1, b2, b3⟩ | ⟨b1, b2, b3⟩
  · exact .inl ⟨b1, hw.2.2.2.2.2.2.2.2 b2, b3⟩
  · refine .inr ⟨b1, b2.of_left hl, ?_⟩
    rcases b3 with b3 | ⟨c1, c2⟩
    · exact .inl b3
    · exact .inr ⟨hw.2.2.2.2.2.2.2.2 c1, c2⟩

theorem UpdateWhy.mono {C : Cfg} {W : World} {X : Ctx} {k : Key} {s s1 : St} (hl : Left s.replies s1.replies)
    (h : UpdateWhy C W X k s1) : UpdateWhy C W X k s := by
  rcases h with h | ⟨a, b, c⟩
  · exact .inl h
  · exact .inr ⟨a, b, c.of_left hl⟩

/-- All about both passes. -/
structure Both (C : Cfg) (W : World) (H : Srv) (X : Ctx) (nested : Key → St → Res × St) (k : Key) (ro : RO) (s : St)
    (o : Res × St) : Prop where
  left : Left s.replies o.2.replies
  weaker : Weaker o.2.opts s.opts
  adds : ∃ new, o.2.adds = s.adds ++ new ∧ ∀ a ∈ new, ∃ k', Form k k' ∧ AddWhy C W X k' ro s a
  why : o.1 = .accept → ∃ k' s1 ro1, Form k k' ∧ Same s s1 ∧ (ro1 = .rw → ro = .rw) ∧ Why C W H X nested k' ro1 s1 o.2 ∧
    (k' = k ∨ ¬ (algOk C W k = true ∧ Revoked X.hostKeys k ∧ C.strict ≠ .off))
  update : o.1 = .accept → o.2.opts.update = true → ∃ k', Form k k' ∧ UpdateWhy C W X k' s

theorem pass_revoked {C : Cfg} {W : World} {H : Srv} {X : Ctx} {nested : Key → St → Res × St} {k : Key} {ro : RO}
    {s : St} (ha : algOk C W k = true) (hr : Revoked X.hostKeys k) (hs : C.strict ≠ .off) :
    ∃ ro', pass C W H X nested k ro s = .fail (some .revoked) ro' s := by
  have h0 : (found X k).status = .revoked := by rw [(found_host X k).1]; exact status_revoked.mpr hr
  unfold pass
  rw [ha, h0]
  exact ⟨settle C (found X k) ro, by simp [caseRevoked, hs]⟩

theorem passes_all (C : Cfg) (W : World) (H : Srv) (X : Ctx) (nested : Key → St → Res × St)
    (hnest : ∀ k s, Same s (nested k s).2) (k : Key) (ro : RO) (s : St) :
    Both C W H X nested k ro s (passes C W H X nested k ro s) := by
  have hp := pass_all C W H X nested hnest k ro s
  unfold passes
  cases ho : pass C W H X nested k ro s with
  | done r s' =>
    rw [ho] at hp
    obtain ⟨p1, p2, ⟨new, p3, p4⟩, p5, p6, _⟩ := hp
    refine ⟨p1, p2, ⟨new, p3, fun a ha => ⟨k, .inl rfl, p4 a ha⟩⟩, ?_, ?_⟩
    · intro h
      have h : r = .accept := h
      subst h
      exact ⟨k, s, ro, .inl rfl, Same.refl s, id, p5 s' rfl, .inl rfl⟩
    · intro h hu
      have h : r = .accept := h
      subst h
      exact ⟨k, .inl rfl, p6 s' rfl hu⟩
  | fail st ro' s' =>
    rw [ho] at hp
    obtain ⟨p1, p2, ⟨new, p3, p4⟩, _, _, p7⟩ := hp
    obtain ⟨q1, q2, q3⟩ := p7 st ro' s' rfl
    have stop : ∀ r, r ≠ Res.accept → Both C W H X nested k ro s (r, s') := by
      intro r hr
      exact ⟨p1, p2, ⟨new, p3, fun a ha => ⟨k, .inl rfl, p4 a ha⟩⟩, fun h => absurd h hr, fun h => absurd h hr⟩
    show Both C W H X nested k ro s (if (k.isCert && decide (st ≠ some .revoked)) = true then _ else _)
    split
    · rename_i c
      rw [Bool.and_eq_true, decide_eq_true_eq] at c
      cases hd : dropCert k with
      | none => exact stop .fatal (by decide)
      | some raw =>
        have hcert := isCert_iff.mp c.1
        -- the first pass added nothing
        have hnew : new = [] := by
          cases new with
          | nil => rfl
          | cons a l => exact absurd (p4 a List.mem_cons_self).2.2.1 hcert
        subst hnew
        rw [List.append_nil] at p3
        have hsame : Same s s' := ⟨p3, p1, p2⟩
        have hgo : ¬ (algOk C W k = true ∧ Revoked X.hostKeys k ∧ C.strict ≠ .off) := by
          rintro ⟨a, b, d⟩
          obtain ⟨r1, hr⟩ := pass_revoked (H := H) (nested := nested) (ro := ro) (s := s) a b d
          rw [hr] at ho
          cases ho
          exact c.2 rfl
        have hp2 := pass_all C W H X nested hnest raw ro' s'
        show Both C W H X nested k ro s (second C W H X nested raw ro' s')
        unfold second
        cases ho2 : pass C W H X nested raw ro' s' with
        | done r s2 =>
          rw [ho2] at hp2
          obtain ⟨t1, t2, ⟨new2, t3, t4⟩, t5, t6, _⟩ := hp2
          refine ⟨hsame.left.trans t1, t2.trans hsame.opts, ⟨new2, by rw [show (r, s2).2 = s2 from rfl, ← p3]; exact t3, ?_⟩, ?_, ?_⟩
          · intro a ha
            exact ⟨raw, .inr hd, (t4 a ha).mono hsame.left hsame.opts q2⟩
          · intro h
            have h : r = .accept := h
            subst h
            exact ⟨raw, s', ro', .inr hd, hsame, q2, t5 s2 rfl, .inr hgo⟩
          · intro h hu
            have h : r = .accept := h
            subst h
            exact ⟨raw, .inr hd, (t6 s2 rfl hu).mono hsame.left⟩
        | fail st2 ro2 s2 =>
          rw [ho2] at hp2
          obtain ⟨t1, t2, ⟨new2, t3, t4⟩, _, _, _⟩ := hp2
          have fin : ∀ r, r ≠ Res.accept → Both C W H X nested k ro s (r, s2) := by
            intro r hr
            refine ⟨hsame.left.trans t1, t2.trans hsame.opts, ⟨new2, by rw [show (r, s2).2 = s2 from rfl, ← p3]; exact t3, ?_⟩,
              fun h => absurd h hr, fun h => absurd h hr⟩
            intro a ha
            exact ⟨raw, .inr hd, (t4 a ha).mono hsame.left hsame.opts q2⟩
          cases st2 with
          | none => exact fin .fatal (by decide)
          | some _ => exact fin .refuse (by decide)
    · exact stop .refuse (by decide)

theorem tuneIp_same (C : Cfg) (H : Srv) (ip : Bytes) (s : St) : Same s (tuneIp C H ip s) := by
  unfold tuneIp
  split
  · exact ⟨rfl, Left.refl _, ⟨id, id, id, id, Nat.le_refl _, Nat.le_refl _, id, id, fun h => (by cases h)⟩⟩
  · exact Same.refl s

/-! ## Without the port -/

/-- Why the check without the port accepts. -/
def BareWhy (C : Cfg) (W : World) (H : Srv) (k : Key) (o : Opts) : Prop :=
  ∃ k', Form k k' ∧ (Good C W (who C H) (W.known (hostName C H 0)) k' ∨ (C.strict = .off ∧ Harmless o))

theorem portless_all (C : Cfg) (W : World) (H : Srv) (k : Key) (s : St) :
    Same s (portless C W H k s).2 ∧ ((portless C W H k s).1 = .accept → Waived C H ∨ BareWhy C W H k (portless C W H k s).2.opts) := by
  unfold portless checkWith
  split
  · rename_i c
    exact ⟨noUpdate_same s, fun _ => .inl ⟨c.1, c.2.1, c.2.2⟩⟩
  rename_i hw
  have hlines : ∀ inv n, lines C W true inv k n = some (W.known n) := by
    intro inv n; unfold lines; simp
  rw [show (if true = true then 0 else 0) = 0 from rfl, hlines]
  dsimp only
  have hip : ∃ ik, ipLines C W true k (ipName C H 0)
      (tuneIp C H (ipName C H 0) s) = some ik := by
    unfold ipLines; split
    · rw [hlines]; exact ⟨_, rfl⟩
    · exact ⟨_, rfl⟩
  obtain ⟨ik, hik⟩ := hip
  rw [hik]
  dsimp only
  have hb := passes_all C W H ⟨hostName C H 0, ipName C H 0,
    W.known (hostName C H 0), ik, 0, true⟩ (fun _ s => (.refuse, s)) (fun k s => Same.refl s) k
    (if oddName H.hostname then .ro else .quiet) (tuneIp C H (ipName C H 0) s)
  have hro : (if oddName H.hostname = true then RO.ro else RO.quiet) ≠ .rw := by split <;> decide
  obtain ⟨b1, b2, ⟨new, b3, b4⟩, b5, _⟩ := hb
  have ht := tuneIp_same C H (ipName C H 0) s
  have hnew : new = [] := by
    cases new with
    | nil => rfl
    | cons a l =>
      obtain ⟨_, _, h⟩ := b4 a List.mem_cons_self
      exact absurd h.1 hro
  subst hnew
  refine ⟨⟨by rw [b3, List.append_nil, ht.adds], ht.left.trans b1, b2.trans ht.opts⟩, ?_⟩
  intro h
  obtain ⟨k', s1, ro1, hf, _, hro1, ⟨ha, hw4⟩, _⟩ := b5 h
  refine .inr ⟨k', hf, ?_⟩
  rcases hw4 with ⟨x, y, z⟩ | ⟨_, _, _, _, z, _⟩ | ⟨_, _, z, _⟩ | ⟨x, _, z⟩
  · exact .inl ⟨ha, x, y, z⟩
  · cases z
  · exact absurd (hro1 z) hro
  · exact .inr ⟨x, z⟩

theorem nested_same (C : Cfg) (W : World) (H : Srv) (k : Key) (s : St) : Same s (portless C W H k s).2 :=
  (portless_all C W H k s).1

/-- The lines for the address, when it is checked. -/
def AddrLines (C : Cfg) (W : World) (H : Srv) (k : Key) (es : List Ent) : Prop :=
  lines C W false b!"ADDRESS" k (ipName C H H.port) = some es

/-- The whole check is two passes over the lines, unless the key is not checked or the command fails. -/
theorem check_cases (C : Cfg) (W : World) (H : Srv) (k : Key) (s : St) :
    (Waived C H ∧ check C W H k s = (.accept, noUpdate s)) ∨
    (¬ Waived C H ∧ check C W H k s = (.fatal, s)) ∨
    (¬ Waived C H ∧ ∃ own ik, OwnLines C W H k own ∧
      (k.cert = none → (tuneIp C H (ipName C H H.port) s).opts.checkIp = true → ∃ es, ik = some es ∧ AddrLines C W H k es) ∧
      (∀ es, ik = some es → k.cert = none ∧ AddrLines C W H k es) ∧
      check C W H k s = passes C W H ⟨hostName C H H.port, ipName C H H.port, own, ik, H.port, false⟩ (portless C W H) k
        (if oddName H.hostname then .ro else .rw) (tuneIp C H (ipName C H H.port) s)) := by
  unfold check checkWith
  by_cases hw : C.noHostAuth ∧ H.isLocal ∧ C.alias = none
  · rw [if_pos hw]; exact .inl ⟨hw, rfl⟩
  rw [if_neg hw]
  rw [show (if false = true then 0 else H.port) = H.port from rfl]
  right
  cases hl : lines C W false b!"HOSTNAME" k (hostName C H H.port) with
  | none => exact .inl ⟨hw, rfl⟩
  | some own =>
    dsimp only
    cases hi : ipLines C W false k (ipName C H H.port) (tuneIp C H (ipName C H H.port) s) with
    | none => exact .inl ⟨hw, rfl⟩
    | some ik =>
      refine .inr ⟨hw, own, ik, hl, ?_, ?_, rfl⟩
      · intro hc ht
        unfold ipLines at hi
        rw [isCert_false.mpr hc, ht] at hi
        simp only [Bool.not_false, Bool.and_self, if_true] at hi
        cases ha : lines C W false b!"ADDRESS" k (ipName C H H.port) with
        | none => rw [ha] at hi; cases hi
        | some es => rw [ha] at hi; cases hi; exact ⟨es, rfl, ha⟩
      · intro es he
        subst he
        unfold ipLines at hi
        split at hi
        · rename_i c
          rw [Bool.and_eq_true, Bool.not_eq_true'] at c
          refine ⟨isCert_false.mp c.1, ?_⟩
          cases ha : lines C W false b!"ADDRESS" k (ipName C H H.port) with
          | none => rw [ha] at hi; cases hi
          | some es' => rw [ha] at hi; cases hi; exact ha
        · cases hi

end Verif.HostKey
