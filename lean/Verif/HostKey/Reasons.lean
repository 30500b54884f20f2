/-
Why one pass of the check accepts a key, what it adds to the file and what it turns off.
-/
import Verif.HostKey.Passes

namespace Verif.HostKey
open Verif Verif.Hostfile

/-- A key nobody knows yet may be taken. -/
def MayTake (C : Cfg) (W : World) (k : Key) (rs : List Bytes) : Prop :=
  Agreed C (some (W.fp k)) rs ∨ C.strict = .new ∨ C.strict = .off

theorem MayTake.of_left {C : Cfg} {W : World} {k : Key} {a b : List Bytes} (h : Left a b) (h' : MayTake C W k b) :
    MayTake C W k a := by
  rcases h' with h' | h'
  · exact .inl (h'.of_left h)
  · exact .inr h'

/-- Why a line is added. -/
def AddWhy (C : Cfg) (W : World) (X : Ctx) (k : Key) (ro : RO) (s : St) (a : Bytes × Key) : Prop :=
  ro = .rw ∧ C.userFiles ≠ [] ∧ k.cert = none ∧ a.2 = k ∧ algOk C W k = true ∧
  ((a.1 = X.ip ∧ s.opts.checkIp = true ∧ ¬ Revoked X.hostKeys k ∧ Listed X.hostKeys k ∧
      ∃ es, X.ipKeys = some es ∧ Unknown es k) ∨
   (Unknown X.hostKeys k ∧ MayTake C W k s.replies ∧
      (a.1 = X.host ∨ (s.opts.checkIp = true ∧ (∀ es, X.ipKeys = some es → Unknown es k) ∧
        (a.1 = X.ip ∨ a.1 = (X.host ++ b!"," ++ X.ip).take 999)))))

/-- Why a pass accepts. -/
def Why (C : Cfg) (W : World) (H : Srv) (X : Ctx) (nested : Key → St → Res × St) (k : Key) (ro : RO) (s s' : St) :
    Prop :=
  algOk C W k = true ∧
  ((¬ Revoked X.hostKeys k ∧ Listed X.hostKeys k ∧ (k.cert ≠ none → W.certOk k (who C H) = true)) ∨
   (Unknown X.hostKeys k ∧ C.alias = none ∧ X.port ≠ 0 ∧ X.port ≠ 22 ∧ X.clobber = false ∧
      ∃ s1, nested k s = (.accept, s1) ∧ Same s1 s') ∨
   (Unknown X.hostKeys k ∧ k.cert = none ∧ ro = .rw ∧ MayTake C W k s.replies) ∨
   (C.strict = .off ∧ (Revoked X.hostKeys k ∨ Changed X.hostKeys k) ∧ Harmless s'.opts))

/-- Why further keys may still be learned. -/
def UpdateWhy (C : Cfg) (W : World) (X : Ctx) (k : Key) (s : St) : Prop :=
  (k.cert = none ∧ ∃ e ∈ X.hostKeys, Vouches e.entry k ∧ e.file ∉ C.sysFiles ∧ e.note = false) ∨
  (Unknown X.hostKeys k ∧ k.cert = none ∧ Agreed C (some (W.fp k)) s.replies)

/-- All about a pass. -/
structure Pass (C : Cfg) (W : World) (H : Srv) (X : Ctx) (nested : Key → St → Res × St) (k : Key) (ro : RO) (s : St)
    (o : Out) : Prop where
  left : Left s.replies o.st.replies
  weaker : Weaker o.st.opts s.opts
  adds : ∃ new, o.st.adds = s.adds ++ new ∧ ∀ a ∈ new, AddWhy C W X k ro s a
  why : ∀ s', o = .done .accept s' → Why C W H X nested k ro s s'
  update : ∀ s', o = .done .accept s' → s'.opts.update = true → UpdateWhy C W X k s
  rev : ∀ st ro' s', o = .fail st ro' s' → (st = some .revoked → Revoked X.hostKeys k ∧ algOk C W k = true) ∧
    (ro' = .rw → ro = .rw) ∧ (st = none → algOk C W k = false)

theorem settle_rw {C : Cfg} {F : Found} {ro : RO} (h : settle C F ro = .rw) :
    ro = .rw ∧ C.userFiles ≠ [] ∧ F.ent.any Ent.note = false := by
  unfold settle at h
  split at h
  · cases h
  · rename_i c
    subst h
    simp only [true_and, not_or, Bool.not_eq_true] at c
    exact ⟨rfl, c.1, c.2⟩

theorem same_pass {C : Cfg} {W : World} {H : Srv} {X : Ctx} {nested : Key → St → Res × St} {k : Key} {ro : RO} {s : St}
    {o : Out} (h : Same s o.st)
    (why : ∀ s', o = .done .accept s' → Why C W H X nested k ro s s')
    (update : ∀ s', o = .done .accept s' → s'.opts.update = true → UpdateWhy C W X k s)
    (rev : ∀ st ro' s', o = .fail st ro' s' → (st = some .revoked → Revoked X.hostKeys k ∧ algOk C W k = true) ∧
      (ro' = .rw → ro = .rw) ∧ (st = none → algOk C W k = false)) :
    Pass C W H X nested k ro s o :=
  ⟨h.left, h.opts, ⟨[], by rw [h.adds]; simp, by simp⟩, why, update, rev⟩

theorem afterSwitch_fail {C : Cfg} {F : Found} {ro : RO} {t : Bool} {s : St} {st : Option HostStatus} {ro' : RO}
    {s' : St} (h : afterSwitch C F ro t s = .fail st ro' s') : st = some F.status ∧ ro' = ro := by
  unfold afterSwitch at h
  split at h
  · split at h
    · split at h <;> cases h
      exact ⟨rfl, rfl⟩
    · cases h
    · cases h; exact ⟨rfl, rfl⟩
  · cases h

theorem unsafe_pass {C : Cfg} {W : World} {H : Srv} {X : Ctx} {nested : Key → St → Res × St} {k : Key} {ro : RO}
    {s : St} (ha : algOk C W k = true) (hs : C.strict = .off)
    (h : Revoked X.hostKeys k ∨ Changed X.hostKeys k) (hrev : (found X k).status = .revoked → Revoked X.hostKeys k)
    (ro1 : RO) (hro : ro1 = .rw → ro = .rw) :
    Pass C W H X nested k ro s (unsafe_ C (found X k) ro1 s) := by
  unfold unsafe_
  have hh : Harmless (disarm s.opts) := ⟨rfl, rfl, rfl, rfl, rfl, rfl, rfl, rfl⟩
  split
  · exact same_pass (disarm_same s) (fun s' h => by cases h) (fun s' h => by cases h) (fun _ _ _ h => by cases h)
  · have hsame := afterSwitch_same C (found X k) ro1 false { s with opts := disarm s.opts }
    refine same_pass ((disarm_same s).trans hsame) ?_ ?_ ?_
    · intro s' hd
      rw [hd] at hsame
      exact ⟨ha, .inr (.inr (.inr ⟨hs, h, hh.of_weaker hsame.opts⟩))⟩
    · intro s' hd hu
      rw [hd] at hsame
      have := (hh.of_weaker hsame.opts).2.2.2.2.2.2.2
      rw [show (Out.done Res.accept s').st = s' from rfl, hu] at this
      cases this
    · intro st ro' s' hf
      obtain ⟨a, b⟩ := afterSwitch_fail hf
      refine ⟨fun hst => ⟨?_, ha⟩, fun h => hro (b ▸ h), fun hn => by rw [hn] at a; cases a⟩
      rw [hst] at a
      exact hrev (Option.some.inj a).symm

theorem caseOk_pass {C : Cfg} {W : World} {H : Srv} {X : Ctx} {nested : Key → St → Res × St} {k : Key} {ro : RO}
    {s : St} (ha : algOk C W k = true) (hst : (found X k).status = .ok)
    (hr : ¬ Revoked X.hostKeys k) (hl : Listed X.hostKeys k) :
    Pass C W H X nested k ro s (caseOk C W H X (found X k) k (settle C (found X k) ro) s) := by
  unfold caseOk
  have e1 := settle_rw (C := C) (F := found X k) (ro := ro)
  split
  · exact same_pass (Same.refl s) (fun s' h => by cases h) (fun s' h => by cases h)
      (fun st ro' s' h => by
        cases h
        exact ⟨fun h => (by cases h), fun h => (e1 h).1, fun h => by cases h⟩)
  rename_i hc
  have hc' : k.cert ≠ none → W.certOk k (who C H) = true := by
    intro h
    rw [isCert_iff.mpr h] at hc
    simpa [who] using hc
  have hu : Same s (okUpdate C (found X k) k s) := by
    unfold okUpdate; split
    · exact noUpdate_same s
    · exact Same.refl s
  have hu1 : (okUpdate C (found X k) k s).opts.checkIp = s.opts.checkIp := by
    unfold okUpdate; split <;> rfl
  have hop : (okAdd W X (found X k) k (settle C (found X k) ro) (okUpdate C (found X k) k s)).opts =
      (okUpdate C (found X k) k s).opts := by
    unfold okAdd; split
    · exact (add_same _ _ _ _).1
    · rfl
  have hrp : (okAdd W X (found X k) k (settle C (found X k) ro) (okUpdate C (found X k) k s)).replies =
      (okUpdate C (found X k) k s).replies := by
    unfold okAdd; split
    · exact (add_same _ _ _ _).2
    · rfl
  have had : ∃ new, (okAdd W X (found X k) k (settle C (found X k) ro) (okUpdate C (found X k) k s)).adds =
      s.adds ++ new ∧ ∀ a ∈ new, AddWhy C W X k ro s a := by
    unfold okAdd; split
    · rename_i c
      obtain ⟨c1, c2, c3, c4⟩ := c
      have c4' : k.isCert = false := by simpa using c4
      rcases add_adds W X.ip k (okUpdate C (found X k) k s) with h | h
      · exact ⟨[], by rw [h, hu.adds]; simp, by simp⟩
      · refine ⟨[(X.ip, k)], by rw [h, hu.adds], ?_⟩
        intro a hm
        simp at hm
        subst hm
        refine ⟨(e1 c3).1, (e1 c3).2.1, isCert_false.mp c4', rfl, ha, .inl ⟨rfl, hu1 ▸ c1, hr, hl, ?_⟩⟩
        cases hi : X.ipKeys with
        | none =>
          exfalso
          have : (found X k).ipStatus = (found X k).status := by
            unfold found; rw [c4', hi]; rfl
          rw [c2, hst] at this; cases this
        | some es =>
          refine ⟨es, rfl, ?_⟩
          rw [(found_ip hi c4').1] at c2
          have hnr : ¬ Revoked es k := by
            intro h; rw [status_revoked.mpr h] at c2; cases c2
          exact (status_rest hnr).2.2.mp c2
    · exact ⟨[], by rw [hu.adds]; simp, by simp⟩
  have hsame := afterSwitch_same C (found X k) (settle C (found X k) ro) true
    (okAdd W X (found X k) k (settle C (found X k) ro) (okUpdate C (found X k) k s))
  refine ⟨?_, ?_, ?_, ?_, ?_, ?_⟩
  · have := hsame.left; rw [hrp] at this; exact hu.left.trans this
  · have := hsame.opts; rw [hop] at this; exact this.trans hu.opts
  · rw [hsame.adds]; exact had
  · intro s' hd
    exact ⟨ha, .inl ⟨hr, hl, hc'⟩⟩
  · intro s' hd hup
    rw [hd] at hsame
    have hx := hsame.opts
    rw [hop] at hx
    have hup1 := hx.2.2.2.2.2.2.2.1 hup
    unfold okUpdate at hup1
    split at hup1
    · cases hup1
    · rename_i c
      simp only [Bool.or_eq_true, not_or, Bool.not_eq_true] at c
      obtain ⟨⟨⟨c1, c2⟩, _⟩, c4⟩ := c
      have hst' := hst
      rw [(found_host X k).1] at hst'
      obtain ⟨e, he, hf, hv⟩ := findKey_ent hst'
      rw [(found_host X k).2, hf] at c2 c4
      simp at c2 c4
      exact .inl ⟨isCert_false.mp c1, e, he, hv, c2, c4⟩
  · intro st ro' s' hf
    obtain ⟨a, b⟩ := afterSwitch_fail hf
    refine ⟨fun h => ?_, fun h => (e1 (b ▸ h)).1, fun h => by rw [h] at a; cases a⟩
    rw [h, hst] at a; cases a

theorem caseNew_pass {C : Cfg} {W : World} {H : Srv} {X : Ctx} {nested : Key → St → Res × St} {k : Key} {ro : RO}
    {s s1 : St} (ha : algOk C W k = true) (hst : (found X k).status = .new) (hn : Unknown X.hostKeys k)
    (h1 : Same s s1) :
    Pass C W H X nested k ro s (caseNew C W X (found X k) k (settle C (found X k) ro) s1) := by
  have e1 := settle_rw (C := C) (F := found X k) (ro := ro)
  have ffail : ∀ (st : Option HostStatus) (ro' : RO) (s2 s' : St),
      Out.fail (some .new) (settle C (found X k) ro) s2 = .fail st ro' s' →
      (st = some .revoked → Revoked X.hostKeys k ∧ algOk C W k = true) ∧ (ro' = .rw → ro = .rw) ∧
        (st = none → algOk C W k = false) := by
    intro st ro' s2 s' h
    cases h
    exact ⟨fun h => (by cases h), fun h => (e1 h).1, fun h => by cases h⟩
  -- recording, and then the rest
  have rest : ∀ (t : Bool) (s2 : St), Same s s2 → k.cert = none → settle C (found X k) ro = .rw →
      MayTake C W k s.replies → (t = true → Agreed C (some (W.fp k)) s.replies) →
      Pass C W H X nested k ro s (afterSwitch C (found X k) (settle C (found X k) ro) t
        (record C W X (found X k) k s2)) := by
    intro t s2 h2 hc hro hm ht
    have hsame := afterSwitch_same C (found X k) (settle C (found X k) ro) t (record C W X (found X k) k s2)
    obtain ⟨ro1, ro2⟩ := record_same C W X (found X k) k s2
    obtain ⟨new, hadd, hwhy⟩ := record_adds C W X (found X k) k s2
    refine ⟨?_, ?_, ?_, ?_, ?_, ?_⟩
    · have := hsame.left; rw [ro2] at this; exact h2.left.trans this
    · have := hsame.opts; rw [ro1] at this; exact this.trans h2.opts
    · refine ⟨new, by rw [hsame.adds, hadd, h2.adds], ?_⟩
      intro a hm'
      obtain ⟨w1, w2⟩ := hwhy a hm'
      refine ⟨(e1 hro).1, (e1 hro).2.1, hc, w1, ha, .inr ⟨hn, hm, ?_⟩⟩
      rcases w2 with w2 | ⟨w2, w3, w4⟩
      · exact .inl w2
      · refine .inr ⟨h2.opts.2.2.2.2.2.2.2.2 w2, ?_, w4⟩
        intro es hes
        rw [(found_ip hes (isCert_false.mpr hc)).1] at w3
        have hnr : ¬ Revoked es k := by
          intro h; rw [status_revoked.mpr h] at w3; cases w3
        exact (status_rest hnr).2.2.mp w3
    · intro s' hd
      exact ⟨ha, .inr (.inr (.inl ⟨hn, hc, (e1 hro).1, hm⟩))⟩
    · intro s' hd hup
      have := (afterSwitch_done hd).2.2 hup
      exact .inr ⟨hn, hc, ht this⟩
    · intro st ro' s' hf
      obtain ⟨a, b⟩ := afterSwitch_fail hf
      refine ⟨fun h => ?_, fun h => (e1 (b ▸ h)).1, fun h => by rw [h] at a; cases a⟩
      rw [h, hst] at a; cases a
  unfold caseNew
  split
  · exact same_pass h1 (fun s' h => by cases h) (fun s' h => by cases h) (fun st ro' s' => ffail st ro' _ s')
  rename_i c
  simp only [ne_eq, not_or, Bool.not_eq_true, Classical.not_not] at c
  have hc := isCert_false.mp c.2
  split
  · exact same_pass h1 (fun s' h => by cases h) (fun s' h => by cases h) (fun st ro' s' => ffail st ro' _ s')
  · rename_i hs
    have h2 : Same s { s1 with replies := (confirm C.batch (some (W.fp k)) s1.replies).2 } :=
      h1.trans (replies_same s1 (confirm_suffix _ _ _))
    split
    · rename_i hcf
      obtain ⟨a, b⟩ := confirm_iff.mp hcf
      have hag : Agreed C (some (W.fp k)) s.replies := ⟨hs, a, _, h1.left, b⟩
      exact rest true _ h2 hc c.1 (.inl hag) (fun _ => hag)
    · exact same_pass h2 (fun s' h => by cases h) (fun s' h => by cases h) (fun st ro' s' => ffail st ro' _ s')
  · rename_i x1 x2
    have hm : MayTake C W k s.replies := by
      right
      cases h : C.strict with
      | off => exact .inr rfl
      | new => exact .inl rfl
      | yes => exact absurd h x1
      | ask => exact absurd h x2
    exact rest false s1 h1 hc c.1 hm (fun h => by cases h)

theorem pass_all (C : Cfg) (W : World) (H : Srv) (X : Ctx) (nested : Key → St → Res × St)
    (hnest : ∀ k s, Same s (nested k s).2) (k : Key) (ro : RO) (s : St) :
    Pass C W H X nested k ro s (pass C W H X nested k ro s) := by
  have e1 := settle_rw (C := C) (F := found X k) (ro := ro)
  unfold pass
  split
  · rename_i ha
    exact same_pass (Same.refl s) (fun s' h => by cases h) (fun s' h => by cases h)
      (fun st ro' s' h => by
        cases h
        exact ⟨fun h => (by cases h), id, fun _ => by simpa using ha⟩)
  rename_i ha
  have ha' : algOk C W k = true := by simpa using ha
  rcases status_cases X k with ⟨h0, hr, hl⟩ | ⟨h0, hn⟩ | ⟨h0, hr⟩ | ⟨h0, hr, hch⟩
  · rw [h0]; exact caseOk_pass ha' h0 hr hl
  · rw [h0]
    show Pass C W H X nested k ro s (caseNewPort C W X (found X k) nested k (settle C (found X k) ro) s)
    unfold caseNewPort
    split
    · rename_i c
      have hs1 := hnest k s
      cases hne : nested k s with
      | mk r s1 =>
        rw [hne] at hs1
        cases r with
        | accept =>
          have hsame := afterSwitch_same C (found X k) (settle C (found X k) ro) false s1
          refine same_pass (hs1.trans hsame) ?_ ?_ ?_
          · intro s' hd
            refine ⟨ha', .inr (.inl ⟨hn, c.1, c.2.1, c.2.2.1, by simpa using c.2.2.2, s1, hne, ?_⟩)⟩
            have hd' : afterSwitch C (found X k) (settle C (found X k) ro) false s1 = .done .accept s' := hd
            rw [hd'] at hsame; exact hsame
          · intro s' hd hup
            have := (afterSwitch_done hd).2.2 hup
            cases this
          · intro st ro' s' hf
            obtain ⟨a, b⟩ := afterSwitch_fail hf
            refine ⟨fun h => ?_, fun h => (e1 (b ▸ h)).1, fun h => by rw [h] at a; cases a⟩
            rw [h, h0] at a; cases a
        | refuse => exact caseNew_pass ha' h0 hn hs1
        | fatal => exact same_pass hs1 (fun s' h => by cases h) (fun s' h => by cases h) (fun _ _ _ h => by cases h)
        | crash => exact same_pass hs1 (fun s' h => by cases h) (fun s' h => by cases h) (fun _ _ _ h => by cases h)
    · exact caseNew_pass ha' h0 hn (Same.refl s)
  · rw [h0]
    show Pass C W H X nested k ro s (caseRevoked C (found X k) (settle C (found X k) ro) s)
    unfold caseRevoked
    split
    · exact same_pass (Same.refl s) (fun s' h => by cases h) (fun s' h => by cases h)
        (fun st ro' s' h => by
          cases h
          exact ⟨fun _ => ⟨hr, ha'⟩, fun h => (e1 h).1, fun h => by cases h⟩)
    · rename_i hs
      exact unsafe_pass ha' (Classical.not_not.mp hs) (.inl hr) (fun _ => hr) _ (fun h => (e1 h).1)
  · rw [h0]
    show Pass C W H X nested k ro s (caseChanged C (found X k) (X.ipKeys.isSome && !k.isCert) k
      (settle C (found X k) ro) s)
    have ff : ∀ (st : Option HostStatus) (ro' : RO) (s' : St),
        Out.fail (some .changed) (settle C (found X k) ro) s = .fail st ro' s' →
        (st = some .revoked → Revoked X.hostKeys k ∧ algOk C W k = true) ∧ (ro' = .rw → ro = .rw) ∧
          (st = none → algOk C W k = false) := by
      intro st ro' s' h
      cases h
      exact ⟨fun h => (by cases h), fun h => (e1 h).1, fun h => by cases h⟩
    unfold caseChanged
    split
    · exact same_pass (Same.refl s) (fun s' h => by cases h) (fun s' h => by cases h) ff
    split
    · exact same_pass (Same.refl s) (fun s' h => by cases h) (fun s' h => by cases h) ff
    split
    · exact same_pass (Same.refl s) (fun s' h => by cases h) (fun s' h => by cases h) (fun _ _ _ h => by cases h)
    split
    · exact same_pass (Same.refl s) (fun s' h => by cases h) (fun s' h => by cases h) ff
    · rename_i hs
      exact unsafe_pass ha' (Classical.not_not.mp hs) (.inr hch) (fun h => by rw [h0] at h; cases h) _
        (fun h => (e1 h).1)

end Verif.HostKey
