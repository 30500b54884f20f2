/-
C82: what checking the server's address adds.
-/
import Verif.HostKey.Strict

namespace Verif.HostKey
open Verif Verif.Hostfile

theorem afterSwitch_keep (C : Cfg) (F : Found) (ro : RO) (t : Bool) (s : St) :
    (afterSwitch C F ro t s).st.opts.checkIp = s.opts.checkIp := by
  unfold afterSwitch
  split
  · split
    · split
      · cases t <;> rfl
      · rfl
    · cases t <;> rfl
    · rfl
  · cases t <;> rfl

theorem okUpdate_keep (C : Cfg) (F : Found) (k : Key) (s : St) :
    (okUpdate C F k s).opts.checkIp = s.opts.checkIp ∧ (okUpdate C F k s).replies = s.replies := by
  unfold okUpdate; split <;> exact ⟨rfl, rfl⟩

theorem okAdd_keep (W : World) (X : Ctx) (F : Found) (k : Key) (ro : RO) (s : St) :
    (okAdd W X F k ro s).opts = s.opts ∧ (okAdd W X F k ro s).replies = s.replies := by
  unfold okAdd; split
  · exact add_same _ _ _ _
  · exact ⟨rfl, rfl⟩

theorem unsafe_keep (C : Cfg) (F : Found) (ro : RO) (s : St) : (unsafe_ C F ro s).st.opts.checkIp = s.opts.checkIp := by
  unfold unsafe_; split
  · rfl
  · exact afterSwitch_keep C F ro false _

theorem caseNew_keep (C : Cfg) (W : World) (X : Ctx) (F : Found) (k : Key) (ro : RO) (s : St) :
    (caseNew C W X F k ro s).st.opts.checkIp = s.opts.checkIp := by
  unfold caseNew
  split
  · rfl
  split
  · rfl
  · split
    · rw [afterSwitch_keep, (record_same C W X F k _).1]
    · rfl
  · rw [afterSwitch_keep, (record_same C W X F k _).1]

theorem pass_keep (C : Cfg) (W : World) (H : Srv) (X : Ctx) (nested : Key → St → Res × St)
    (hn : ∀ k s, (nested k s).2.opts.checkIp = s.opts.checkIp) (k : Key) (ro : RO) (s : St) :
    (pass C W H X nested k ro s).st.opts.checkIp = s.opts.checkIp := by
  unfold pass
  split
  · rfl
  split
  · unfold caseOk; split
    · rfl
    · rw [afterSwitch_keep, (okAdd_keep _ _ _ _ _ _).1, (okUpdate_keep _ _ _ _).1]
  · unfold caseNewPort; split
    · have := hn k s
      cases hne : nested k s with
      | mk r s1 =>
        rw [hne] at this
        cases r with
        | accept => dsimp only; rw [afterSwitch_keep]; exact this
        | refuse => dsimp only; rw [caseNew_keep]; exact this
        | fatal => exact this
        | crash => exact this
    · exact caseNew_keep C W X _ k _ s
  · unfold caseRevoked; split
    · rfl
    · exact unsafe_keep C _ _ s
  · unfold caseChanged
    split
    · rfl
    split
    · rfl
    split
    · rfl
    split
    · rfl
    · exact unsafe_keep C _ _ s
  · rfl

theorem passes_keep (C : Cfg) (W : World) (H : Srv) (X : Ctx) (nested : Key → St → Res × St)
    (hn : ∀ k s, (nested k s).2.opts.checkIp = s.opts.checkIp) (k : Key) (ro : RO) (s : St) :
    (passes C W H X nested k ro s).2.opts.checkIp = s.opts.checkIp := by
  have h1 := pass_keep C W H X nested hn k ro s
  unfold passes
  cases ho : pass C W H X nested k ro s with
  | done r s' => rw [ho] at h1; exact h1
  | fail st ro' s' =>
    rw [ho] at h1
    have h1 : s'.opts.checkIp = s.opts.checkIp := h1
    dsimp only
    split
    · cases hd : dropCert k with
      | none => exact h1
      | some raw =>
        dsimp only
        have h2 := pass_keep C W H X nested hn raw ro' s'
        unfold second
        cases ho2 : pass C W H X nested raw ro' s' with
        | done r s2 => rw [ho2] at h2; exact h2.trans h1
        | fail st2 ro2 s2 =>
          rw [ho2] at h2
          cases st2 <;> exact h2.trans h1
    · exact h1

/-- The check without the port leaves the checking of the address as it is, if it has been decided. -/
theorem portless_keep (C : Cfg) (W : World) (H : Srv) (hl : H.isLocal = false) (hp : C.proxy = false)
    (hne : H.hostname ≠ H.addr) (k : Key) (s : St) : (portless C W H k s).2.opts.checkIp = s.opts.checkIp := by
  have ht : ∀ s, tuneIp C H (ipName C H 0) s = s := by
    intro s
    unfold tuneIp ipName putHostPort
    rw [hl, hp]
    simp [hne]
  unfold portless checkWith
  split
  · rfl
  have hlines : ∀ inv n, lines C W true inv k n = some (W.known n) := by
    intro inv n; unfold lines; simp
  rw [show (if true = true then 0 else 0) = 0 from rfl, hlines]
  dsimp only
  rw [ht]
  have hip : ∃ ik, ipLines C W true k (ipName C H 0) s = some ik := by
    unfold ipLines; split
    · rw [hlines]; exact ⟨_, rfl⟩
    · exact ⟨_, rfl⟩
  obtain ⟨ik, hik⟩ := hip
  rw [hik]
  exact passes_keep C W H _ _ (fun _ _ => rfl) k _ s

/-- A pass that accepts a key although the address is known by other keys. -/
theorem pass_address {C : Cfg} {W : World} {H : Srv} {X : Ctx} {nested : Key → St → Res × St}
    (hn : ∀ k s, (nested k s).2.opts.checkIp = s.opts.checkIp) (hnest : ∀ k s, Same s (nested k s).2)
    {k : Key} {ro : RO} {s s' : St} (h : pass C W H X nested k ro s = .done .accept s')
    (hi : s.opts.checkIp = true) (hs : (found X k).status ≠ .changed) (hip : (found X k).ipStatus = .changed) :
    C.strict = .off ∨ Agreed C none s.replies := by
  have fin : ∀ {ro' t s1 s'}, afterSwitch C (found X k) ro' t s1 = .done .accept s' → s1.opts.checkIp = true →
      Left s.replies s1.replies → C.strict = .off ∨ Agreed C none s.replies := by
    intro ro' t s1 s' h hi hl
    rcases (afterSwitch_done h).2.1 hi hs hip with h | h
    · exact .inl h
    · exact .inr (h.of_left hl)
  have hnew : ∀ {s1 s'}, caseNew C W X (found X k) k (settle C (found X k) ro) s1 = .done .accept s' →
      s1.opts.checkIp = true → Left s.replies s1.replies → C.strict = .off ∨ Agreed C none s.replies := by
    intro s1 s' h hi hl
    unfold caseNew at h
    split at h
    · cases h
    split at h
    · cases h
    · split at h
      · refine fin h ?_ ?_
        · rw [(record_same C W X _ k _).1]; exact hi
        · rw [(record_same C W X _ k _).2]
          exact hl.trans (confirm_suffix _ _ _)
      · cases h
    · refine fin h ?_ ?_
      · rw [(record_same C W X _ k _).1]; exact hi
      · rw [(record_same C W X _ k _).2]; exact hl
  unfold pass at h
  split at h
  · cases h
  split at h
  · unfold caseOk at h; split at h
    · cases h
    · refine fin h ?_ ?_
      · rw [(okAdd_keep _ _ _ _ _ _).1, (okUpdate_keep _ _ _ _).1]; exact hi
      · rw [(okAdd_keep _ _ _ _ _ _).2, (okUpdate_keep _ _ _ _).2]; exact Left.refl _
  · unfold caseNewPort at h; split at h
    · have h1 := hn k s
      have h2 := hnest k s
      cases hne : nested k s with
      | mk r s1 =>
        rw [hne] at h1 h2 h
        have h1 : s1.opts.checkIp = s.opts.checkIp := h1
        cases r with
        | accept => exact fin h (h1.trans hi) h2.left
        | refuse => exact hnew h (h1.trans hi) h2.left
        | fatal => cases h
        | crash => cases h
    · exact hnew h hi (Left.refl _)
  · unfold caseRevoked at h; split at h
    · cases h
    · unfold unsafe_ at h; split at h
      · cases h
      · exact fin h hi (Left.refl _)
  · rename_i hch; exact absurd hch hs
  · cases h

/-- C82: when the address is checked too and is known by other keys only, a plain key that is right (or new)
for the name is accepted only with checking off or if the user agrees to that as well. -/
theorem C82_address (C : Cfg) (W : World) (H : Srv) (k : Key) (s s' : St) (own es : List Ent)
    (ho : OwnLines C W H k own) (he : AddrLines C W H k es) (hk : k.cert = none) (hi : s.opts.checkIp = true)
    (hl : H.isLocal = false) (hp : C.proxy = false) (hne : H.hostname ≠ H.addr)
    (hne' : H.hostname ≠ ipName C H H.port) (hname : ¬ Changed own k) (hr : ¬ Revoked es k) (hc : Changed es k)
    (h : check C W H k s = (.accept, s')) : C.strict = .off ∨ Agreed C none s.replies := by
  have ht : tuneIp C H (ipName C H H.port) s = s := by
    unfold tuneIp
    rw [hl, hp]
    simp [hne']
  rcases check_cases C W H k s with ⟨hw, _⟩ | ⟨_, h'⟩ | ⟨_, own', ik, ho', hik, _, h'⟩
  · exact absurd hw.2.1 (by rw [hl]; simp)
  · rw [h] at h'; cases h'
  · have : own' = own := Option.some.inj (ho'.symm.trans ho)
    subst this
    rw [ht] at hik h'
    obtain ⟨es', e1, e2⟩ := hik hk hi
    have : es' = es := Option.some.inj (e2.symm.trans he)
    subst this
    subst e1
    rw [h] at h'
    have hcf := isCert_false.mpr hk
    -- a plain key has one pass only
    have hone : ∃ s2, pass C W H ⟨hostName C H H.port, ipName C H H.port, own', some es', H.port, false⟩ (portless C W H) k
        (if oddName H.hostname then .ro else .rw) s = .done .accept s2 := by
      unfold passes at h'
      cases hx : pass C W H ⟨hostName C H H.port, ipName C H H.port, own', some es', H.port, false⟩ (portless C W H) k
        (if oddName H.hostname then .ro else .rw) s with
      | done r s2 => rw [hx] at h'; cases h'; exact ⟨_, rfl⟩
      | fail st ro' s2 =>
        rw [hx] at h'
        dsimp only at h'
        rw [hcf] at h'
        cases h'
    obtain ⟨s2, hx⟩ := hone
    refine pass_address (portless_keep C W H hl hp hne) (nested_same C W H) hx hi ?_ ?_
    · rcases status_cases ⟨hostName C H H.port, ipName C H H.port, own', some es', H.port, false⟩ k with
        ⟨h0, _⟩ | ⟨h0, _⟩ | ⟨h0, _⟩ | ⟨_, _, hch⟩
      · rw [h0]; decide
      · rw [h0]; decide
      · rw [h0]; decide
      · exact absurd hch hname
    · rw [(found_ip (X := ⟨hostName C H H.port, ipName C H H.port, own', some es', H.port, false⟩) rfl hcf).1]
      exact (status_rest hr).2.1.mpr hc

end Verif.HostKey
