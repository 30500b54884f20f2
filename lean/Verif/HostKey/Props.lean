/-
C81: when the client accepts a server's host key.
C82: what it records, and what it no longer dares to do.
-/
import Verif.HostKey.Whole

namespace Verif.HostKey
open Verif Verif.Hostfile

/-- C81: a key is accepted only for one of these reasons: host keys are not checked for a local server; the
known hosts lines for the server's name (with its port, or if they say nothing about the key, without it)
support the key or the certificate; nothing is known and the user agreed or the options say that new keys are
taken; or checking is off, and then nothing is left that someone in the middle could profit from. -/
theorem C81_accept (C : Cfg) (W : World) (H : Srv) (k : Key) (s s' : St) (h : check C W H k s = (.accept, s')) :
    Waived C H ∨ ∃ own, OwnLines C W H k own ∧ ∃ k', Form k k' ∧
      (Good C W (who C H) own k' ∨
       (Unknown own k' ∧ OtherPort C H ∧ ∃ k'', Form k' k'' ∧ Good C W (who C H) (W.known H.hostname) k'') ∨
       (Unknown own k' ∧ k'.cert = none ∧ algOk C W k' = true ∧
          (Agreed C (some (W.fp k')) s.replies ∨ C.strict = .new ∨ C.strict = .off)) ∨
       (C.strict = .off ∧ Harmless s'.opts)) := by
  rcases check_cases C W H k s with ⟨hw, _⟩ | ⟨_, h'⟩ | ⟨hw, own, ik, ho, _, _, h'⟩
  · exact .inl hw
  · rw [h] at h'; cases h'
  · right
    refine ⟨own, ho, ?_⟩
    have hb := passes_all C W H ⟨hostName C H H.port, ipName C H H.port, own, ik, H.port, false⟩ (portless C W H)
      (nested_same C W H) k (if oddName H.hostname then .ro else .rw) (tuneIp C H (ipName C H H.port) s)
    rw [← h', h] at hb
    have ht := tuneIp_same C H (ipName C H H.port) s
    obtain ⟨k', s1, ro1, hf, hs1, _, ⟨ha, hwhy⟩, _⟩ := hb.why rfl
    refine ⟨k', hf, ?_⟩
    rcases hwhy with ⟨x, y, z⟩ | ⟨x, y, z1, z2, _, s2, hn, hsame⟩ | ⟨x, y, _, z⟩ | ⟨x, _, z⟩
    · exact .inl ⟨ha, x, y, z⟩
    · have hp := portless_all C W H k' s1
      rw [hn] at hp
      rcases hp.2 rfl with hp | ⟨k'', hf'', hp⟩
      · exact absurd hp hw
      · rcases hp with hp | ⟨hp, hp'⟩
        · refine .inr (.inl ⟨x, ⟨y, z1, z2⟩, k'', hf'', ?_⟩)
          have : hostName C H 0 = H.hostname := by
            unfold hostName putHostPort
            have y : C.alias = none := y
            rw [y]; simp
          rw [this] at hp; exact hp
        · exact .inr (.inr (.inr ⟨hp, hp'.of_weaker hsame.opts⟩))
    · refine .inr (.inr (.inl ⟨x, y, ha, ?_⟩))
      exact MayTake.of_left (ht.left.trans hs1.left) z
    · exact .inr (.inr (.inr ⟨x, z⟩))

/-- C81: with strict checking, only a key that the known hosts files support is accepted. -/
theorem C81_strict (C : Cfg) (W : World) (H : Srv) (k : Key) (s s' : St) (hs : C.strict = .yes)
    (h : check C W H k s = (.accept, s')) :
    Waived C H ∨ ∃ k', Form k k' ∧ ((∃ own, OwnLines C W H k own ∧ Good C W (who C H) own k') ∨
      (OtherPort C H ∧ Good C W (who C H) (W.known H.hostname) k')) := by
  rcases C81_accept C W H k s s' h with h | ⟨own, ho, k', hf, h | ⟨_, hp, k'', hf', h⟩ | ⟨_, _, _, h⟩ | ⟨h, _⟩⟩
  · exact .inl h
  · exact .inr ⟨k', hf, .inl ⟨own, ho, h⟩⟩
  · refine .inr ⟨k'', ?_, .inr ⟨hp, h⟩⟩
    rcases hf with rfl | hf
    · exact hf'
    · rcases hf' with rfl | hf'
      · exact .inr hf
      · exact absurd (dropCert_plain hf).1 (dropCert_plain hf').2.1
  · rcases h with ⟨h, _⟩ | h | h <;> rw [hs] at h <;> cases h
  · rw [hs] at h; cases h

theorem form_pub {k k' : Key} (h : Form k k') : k'.pub = k.pub := by
  rcases h with rfl | h
  · rfl
  · exact (dropCert_plain h).2.2

/-- C81: unless checking is off, a key marked as revoked for the server's name is never accepted, whatever
else the files say, whatever the user types, and even if a certificate is offered for it. -/
theorem C81_revoked (C : Cfg) (W : World) (H : Srv) (k : Key) (s s' : St) (own : List Ent) (ho : OwnLines C W H k own)
    (hs : C.strict ≠ .off) (hw : ¬ Waived C H)
    (hr : ∃ e ∈ own, e.entry.marker = .revoke ∧ e.entry.key.pub = k.pub) : check C W H k s ≠ (.accept, s') := by
  intro h
  have hrev : ∀ k', Form k k' → Revoked own k' := by
    intro k' hf
    obtain ⟨e, he, hm, hp⟩ := hr
    exact ⟨e, he, hm, .inl (by rw [form_pub hf]; exact hp)⟩
  rcases C81_accept C W H k s s' h with hx | ⟨own', ho', k', hf, hx⟩
  · exact hw hx
  · have : own' = own := Option.some.inj (ho'.symm.trans ho)
    subst this
    rcases hx with h | ⟨h, _⟩ | ⟨h, _⟩ | ⟨h, _⟩
    · exact h.2.1 (hrev k' hf)
    · exact h.1 (hrev k' hf)
    · exact h.1 (hrev k' hf)
    · exact hs h

/-- C81: the same for a certificate whose authority is marked as revoked; there is then no falling back to
the plain key. -/
theorem C81_revoked_authority (C : Cfg) (W : World) (H : Srv) (k : Key) (s s' : St) (own : List Ent)
    (ho : OwnLines C W H k own) (hs : C.strict ≠ .off) (hw : ¬ Waived C H) (ha : algOk C W k = true)
    (hr : Revoked own k) : check C W H k s ≠ (.accept, s') := by
  intro h
  rcases check_cases C W H k s with ⟨hw', _⟩ | ⟨_, h'⟩ | ⟨_, own', ik, ho', _, _, h'⟩
  · exact hw hw'
  · rw [h] at h'; cases h'
  · have : own' = own := Option.some.inj (ho'.symm.trans ho)
    subst this
    obtain ⟨ro', hp⟩ := pass_revoked (H := H) (nested := portless C W H)
      (X := ⟨hostName C H H.port, ipName C H H.port, own', ik, H.port, false⟩)
      (ro := if oddName H.hostname then .ro else .rw) (s := tuneIp C H (ipName C H H.port) s) ha hr hs
    rw [h] at h'
    unfold passes at h'
    rw [hp] at h'
    simp at h'

/-- C81: unless checking is off, a plain key is not accepted for a name that is known by other keys only. -/
theorem C81_changed (C : Cfg) (W : World) (H : Srv) (k : Key) (s s' : St) (own : List Ent) (ho : OwnLines C W H k own)
    (hs : C.strict ≠ .off) (hw : ¬ Waived C H) (hc : Changed own k) : check C W H k s ≠ (.accept, s') := by
  intro h
  obtain ⟨hk, hl, hsome⟩ := hc
  rcases C81_accept C W H k s s' h with hx | ⟨own', ho', k', hf, hx⟩
  · exact hw hx
  · have : own' = own := Option.some.inj (ho'.symm.trans ho)
    subst this
    have hkk : k' = k := by
      rcases hf with hf | hf
      · exact hf
      · exact absurd hk (dropCert_plain hf).2.1
    subst hkk
    rcases hx with h | ⟨h, _⟩ | ⟨h, _⟩ | ⟨h, _⟩
    · exact hl h.2.2.1
    · exact h.2.2 hk hsome
    · exact h.2.2 hk hsome
    · exact hs h

/-- C81: and in particular a changed or revoked key is accepted only with checking off and with passwords,
agent, X11 and every forwarding turned off, and never leads to the learning of further keys. -/
theorem C81_unsafe (C : Cfg) (W : World) (H : Srv) (k : Key) (s s' : St) (own : List Ent) (ho : OwnLines C W H k own)
    (hw : ¬ Waived C H) (hk : k.cert = none) (hc : Revoked own k ∨ Changed own k)
    (h : check C W H k s = (.accept, s')) : C.strict = .off ∧ Harmless s'.opts := by
  rcases C81_accept C W H k s s' h with hx | ⟨own', ho', k', hf, hx⟩
  · exact absurd hx hw
  · have : own' = own := Option.some.inj (ho'.symm.trans ho)
    subst this
    have hkk : k' = k := by
      rcases hf with hf | hf
      · exact hf
      · exact absurd hk (dropCert_plain hf).2.1
    subst hkk
    have no : ∀ {p : Prop}, Unknown own' k' → p := by
      intro p hu
      rcases hc with hc | ⟨_, _, hc⟩
      · exact absurd hc hu.1
      · exact absurd hc (hu.2.2 hk)
    rcases hx with h | ⟨h, _⟩ | ⟨h, _⟩ | h
    · rcases hc with hc | ⟨_, hc, _⟩
      · exact absurd hc h.2.1
      · exact absurd h.2.2.1 hc
    · exact no h
    · exact no h
    · exact h

/-- C82: whatever the outcome, every line added to the user's file gives the plain key just offered, and it
is added either under the server's address, because the address is checked, the key is supported for the
name and the address is unknown, or under the name (perhaps with the address) because nothing was known for
the name and the user agreed or the options take new keys.  Names with odd characters are never written. -/
theorem C82_adds (C : Cfg) (W : World) (H : Srv) (k : Key) (s : St) :
    ∃ new, (check C W H k s).2.adds = s.adds ++ new ∧ ∀ a ∈ new, oddName H.hostname = false ∧ C.userFiles ≠ [] ∧
      ∃ own, OwnLines C W H k own ∧ Form k a.2 ∧ a.2.cert = none ∧ algOk C W a.2 = true ∧
        ((a.1 = ipName C H H.port ∧ s.opts.checkIp = true ∧ Good C W (who C H) own a.2 ∧
            ∃ es, AddrLines C W H k es ∧ Unknown es a.2) ∨
         (Unknown own a.2 ∧ (Agreed C (some (W.fp a.2)) s.replies ∨ C.strict = .new ∨ C.strict = .off) ∧
            (a.1 = hostName C H H.port ∨ (s.opts.checkIp = true ∧
              (k.cert = none → ∀ es, AddrLines C W H k es → Unknown es a.2) ∧ (a.1 = ipName C H H.port ∨
              a.1 = (hostName C H H.port ++ b!"," ++ ipName C H H.port).take 999))))) := by
  rcases check_cases C W H k s with ⟨_, h'⟩ | ⟨_, h'⟩ | ⟨_, own, ik, ho, hik', hik, h'⟩
  · rw [h']; exact ⟨[], by simp [noUpdate], by simp⟩
  · rw [h']; exact ⟨[], by simp, by simp⟩
  · have hb := passes_all C W H ⟨hostName C H H.port, ipName C H H.port, own, ik, H.port, false⟩ (portless C W H)
      (nested_same C W H) k (if oddName H.hostname then .ro else .rw) (tuneIp C H (ipName C H H.port) s)
    rw [← h'] at hb
    have ht := tuneIp_same C H (ipName C H H.port) s
    obtain ⟨new, h1, h2⟩ := hb.adds
    refine ⟨new, by rw [h1, ht.adds], ?_⟩
    intro a ha
    obtain ⟨k', hf, w1, w2, w3, w4, w5, w6⟩ := h2 a ha
    subst w4
    refine ⟨?_, w2, own, ho, hf, w3, w5, ?_⟩
    · cases hodd : oddName H.hostname with
      | false => rfl
      | true => rw [hodd] at w1; cases w1
    · rcases w6 with ⟨v1, v2, v3, v4, es, v5, v6⟩ | ⟨v1, v2, v3⟩
      · refine .inl ⟨v1, ht.opts.2.2.2.2.2.2.2.2 v2, ⟨w5, v3, v4, fun h => absurd w3 h⟩, es, (hik es v5).2, v6⟩
      · refine .inr ⟨v1, MayTake.of_left ht.left v2, ?_⟩
        rcases v3 with v3 | ⟨v3, v4, v5⟩
        · exact .inl v3
        · refine .inr ⟨ht.opts.2.2.2.2.2.2.2.2 v3, ?_, v5⟩
          intro hk es hes
          obtain ⟨es', he', ha'⟩ := hik' hk v3
          have : es' = es := Option.some.inj (ha'.symm.trans hes)
          subst this
          exact v4 es' he'

/-- C82: with strict checking no line is added under the server's name. -/
theorem C82_strict_adds (C : Cfg) (W : World) (H : Srv) (k : Key) (s : St) (hs : C.strict = .yes) :
    ∃ new, (check C W H k s).2.adds = s.adds ++ new ∧ ∀ a ∈ new, a.1 = ipName C H H.port ∧ s.opts.checkIp = true ∧
      ∃ own, OwnLines C W H k own ∧ Good C W (who C H) own a.2 := by
  obtain ⟨new, h1, h2⟩ := C82_adds C W H k s
  refine ⟨new, h1, ?_⟩
  intro a ha
  obtain ⟨_, _, own, ho, _, _, _, h⟩ := h2 a ha
  rcases h with ⟨x, y, z, _⟩ | ⟨_, h, _⟩
  · exact ⟨x, y, own, ho, z⟩
  · rcases h with ⟨h, _⟩ | h | h <;> rw [hs] at h <;> cases h

/-- C82: the check never turns anything on. -/
theorem C82_weaker (C : Cfg) (W : World) (H : Srv) (k : Key) (s : St) : Weaker (check C W H k s).2.opts s.opts := by
  rcases check_cases C W H k s with ⟨_, h'⟩ | ⟨_, h'⟩ | ⟨_, own, ik, ho, _, _, h'⟩
  · rw [h']; exact (noUpdate_same s).opts
  · rw [h']; exact Weaker.refl _
  · have hb := passes_all C W H ⟨hostName C H H.port, ipName C H H.port, own, ik, H.port, false⟩ (portless C W H)
      (nested_same C W H) k (if oddName H.hostname then .ro else .rw) (tuneIp C H (ipName C H H.port) s)
    rw [← h'] at hb
    exact hb.weaker.trans (tuneIp_same C H (ipName C H H.port) s).opts

/-- C82: the server may announce further keys only if the plain key it used is in a file of the user's (not
only in a system file, given by the command or certified), or the user has just agreed to it. -/
theorem C82_update (C : Cfg) (W : World) (H : Srv) (k : Key) (s s' : St) (h : check C W H k s = (.accept, s'))
    (hu : s'.opts.update = true) : s.opts.update = true ∧ ∃ own, OwnLines C W H k own ∧ ∃ k', Form k k' ∧ k'.cert = none ∧
      ((∃ e ∈ own, Vouches e.entry k' ∧ e.file ∉ C.sysFiles ∧ e.note = false) ∨
       (Unknown own k' ∧ Agreed C (some (W.fp k')) s.replies)) := by
  have hw := C82_weaker C W H k s
  rw [h] at hw
  refine ⟨hw.2.2.2.2.2.2.2.1 hu, ?_⟩
  rcases check_cases C W H k s with ⟨_, h'⟩ | ⟨_, h'⟩ | ⟨_, own, ik, ho, _, _, h'⟩
  · rw [h] at h'; cases h'; cases hu
  · rw [h] at h'; cases h'
  · have hb := passes_all C W H ⟨hostName C H H.port, ipName C H H.port, own, ik, H.port, false⟩ (portless C W H)
      (nested_same C W H) k (if oddName H.hostname then .ro else .rw) (tuneIp C H (ipName C H H.port) s)
    rw [← h', h] at hb
    have ht := tuneIp_same C H (ipName C H H.port) s
    obtain ⟨k', hf, hx⟩ := hb.update rfl hu
    refine ⟨own, ho, k', hf, ?_⟩
    rcases hx with ⟨a, b⟩ | ⟨a, b, c⟩
    · exact ⟨a, .inl b⟩
    · exact ⟨b, .inr ⟨a, c.of_left ht.left⟩⟩

/-! ## The question -/

/-- C82: the user has agreed exactly when the first clear answer is `yes` or the fingerprint; with batch mode
nobody is asked. -/
theorem C82_question (batch : Bool) (fp : Option Bytes) (rs : List Bytes) :
    (confirm batch fp rs).1 = true ↔ batch = false ∧ Agrees fp rs := confirm_iff

/-! ## Everything before the check -/

/-- C81: a key refused by the revocation file is refused, unless it is the very key already accepted in this
session. -/
theorem C81_revocation_file (C : Cfg) (W : World) (H : Srv) (E : Extra) (prev : Option Key) (k : Key) (s : St)
    (f : Key → Bool) (hf : E.clean = some f) (hk : f k = false) (hp : ∀ p, prev = some p → equal p k = false) :
    verify C W H E prev k s = (.refuse, prev, s) := by
  unfold verify
  rw [if_neg, if_pos]
  · rw [hf]; simp [hk]
  · cases prev with
    | none => simp
    | some p => simp [hp p rfl]

/-- C81: a key is accepted only if it is the one accepted before, or is not in the revocation file and either
DNS vouches for it securely or the check accepts it.  What is remembered is the key last accepted. -/
theorem C81_verify (C : Cfg) (W : World) (H : Srv) (E : Extra) (prev : Option Key) (k : Key) (s s' : St)
    (p' : Option Key) (h : verify C W H E prev k s = (.accept, p', s')) :
    p' = some k ∧ ((∃ p, prev = some p ∧ p.type = k.type ∧ p.pub = k.pub ∧ (p.cert ≠ none → p.cert.map Prod.fst = k.cert.map Prod.fst)) ∨
      ((∀ f, E.clean = some f → f k = true) ∧ ((∃ p, E.dns p = true ∧ Form k p ∧ p.cert = none) ∨
        check C W H k s = (.accept, s')))) := by
  unfold verify at h
  split at h
  · rename_i c
    cases h
    refine ⟨rfl, .inl ?_⟩
    cases hp : prev with
    | none => rw [hp] at c; simp at c
    | some p =>
      rw [hp] at c
      simp only [Option.any_some, equal, equalPublic, Bool.and_eq_true, Bool.or_eq_true, decide_eq_true_eq,
        Bool.not_eq_true'] at c
      refine ⟨p, rfl, c.1.1, c.2, ?_⟩
      intro hc
      rcases c.1.2 with h | h
      · exact absurd (isCert_false.mp h) hc
      · exact h
  split at h
  · cases h
  rename_i c
  have hcl : ∀ f, E.clean = some f → f k = true := by
    intro f hf; rw [hf] at c; simpa using c
  split at h
  · rename_i hd
    cases h
    refine ⟨rfl, .inr ⟨hcl, .inl ⟨_, hd, ?_, ?_⟩⟩⟩
    · cases hdr : dropCert k with
      | none => exact .inl rfl
      | some raw => exact .inr hdr
    · cases hdr : dropCert k with
      | none =>
        unfold dropCert at hdr
        split at hdr
        · cases hdr
        · rename_i hc; exact isCert_false.mp (by simpa using hc)
      | some raw => exact (dropCert_plain hdr).1
  · split at h
    · rename_i heq
      cases h
      exact ⟨rfl, .inr ⟨hcl, .inr heq⟩⟩
    · rename_i r s2 hne heq
      simp only [Prod.mk.injEq] at h
      exact (hne h.1).elim

end Verif.HostKey
