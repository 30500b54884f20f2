/-
C81: with strict checking, exactly which keys are accepted; and what checking the address adds.
-/
import Verif.HostKey.Props

namespace Verif.HostKey
open Verif Verif.Hostfile

/-! ## Strict checking, without looking at the address -/

/-- One way of accepting the key `k`, given its lines: they support it, or they say nothing and `bare` holds. -/
def Step (C : Cfg) (W : World) (w : Bytes) (es : List Ent) (k : Key) (bare : Prop) : Prop :=
  Good C W w es k ∨ (algOk C W k = true ∧ Unknown es k ∧ bare)

/-- The key, or else — unless it is a revoked certificate — the plain key of the certificate. -/
def EitherForm (C : Cfg) (W : World) (w : Bytes) (es : List Ent) (k : Key) (bare : Key → Prop) : Prop :=
  Step C W w es k (bare k) ∨
  (¬ (algOk C W k = true ∧ Revoked es k) ∧ ∃ raw, dropCert k = some raw ∧ Step C W w es raw (bare raw))

/-- A pass with strict checking and without the address. -/
theorem pass_strict {C : Cfg} {W : World} {H : Srv} {X : Ctx} {nested : Key → St → Res × St} {bare : Key → Prop}
    (hs : C.strict = .yes) (hkeep : ∀ k s, s.opts.checkIp = false → (nested k s).2.opts.checkIp = false)
    (hbare : ∀ k s, s.opts.checkIp = false → ((nested k s).1 = .accept ↔ bare k))
    (k : Key) (ro : RO) (s : St) (hi : s.opts.checkIp = false) :
    ((∃ s', pass C W H X nested k ro s = .done .accept s') ↔
      Step C W (who C H) X.hostKeys k (C.alias = none ∧ X.port ≠ 0 ∧ X.port ≠ 22 ∧ X.clobber = false ∧ bare k)) ∧
    (∀ st ro' s', pass C W H X nested k ro s = .fail st ro' s' → s'.opts.checkIp = false ∧
      (st = some .revoked ↔ algOk C W k = true ∧ Revoked X.hostKeys k)) ∧
    (∀ r s', pass C W H X nested k ro s = .done r s' → r ≠ .accept → Unknown X.hostKeys k ∧ algOk C W k = true ∧
      C.alias = none ∧ X.port ≠ 0 ∧ X.port ≠ 22 ∧ X.clobber = false ∧ (nested k s).1 = r) := by
  have hso : C.strict ≠ .off := by rw [hs]; decide
  unfold pass Step Good
  cases ha : algOk C W k with
  | false =>
    refine ⟨⟨?_, ?_⟩, ?_, ?_⟩
    · rintro ⟨s', h⟩; cases h
    · rintro (⟨h, _⟩ | ⟨h, _⟩) <;> cases h
    · intro st ro' s' h
      cases h
      exact ⟨hi, ⟨fun h => (by cases h), fun h => (by cases h.1)⟩⟩
    · intro r s' h; cases h
  | true =>
  rw [if_neg (by simp)]
  rcases status_cases X k with ⟨h0, hr, hl⟩ | ⟨h0, hn⟩ | ⟨h0, hr⟩ | ⟨h0, hr, hch⟩
  · rw [h0]
    dsimp only
    unfold caseOk
    split
    · rename_i c
      rw [Bool.and_eq_true, Bool.not_eq_true'] at c
      refine ⟨⟨?_, ?_⟩, ?_, ?_⟩
      · rintro ⟨s', h⟩; cases h
      · rintro (⟨_, _, _, h⟩ | ⟨_, h, _⟩)
        · rw [show C.alias.getD H.hostname = who C H from rfl, h (isCert_iff.mp c.1)] at c
          cases c.2
        · exact absurd hl h.2.1
      · intro st ro' s' h
        cases h
        exact ⟨hi, ⟨fun h => (by cases h), fun h => absurd h.2 hr⟩⟩
      · intro r s' h; cases h
    · rename_i c
      have hi1 : (okAdd W X (found X k) k (settle C (found X k) ro) (okUpdate C (found X k) k s)).opts.checkIp = false := by
        have : (okUpdate C (found X k) k s).opts.checkIp = s.opts.checkIp := by unfold okUpdate; split <;> rfl
        unfold okAdd
        split
        · rw [(add_same _ _ _ _).1, this, hi]
        · rw [this, hi]
      obtain ⟨s2, h2⟩ := afterSwitch_noip (C := C) (F := found X k) (ro := settle C (found X k) ro) (t := true) hi1
      rw [h2]
      refine ⟨⟨?_, ?_⟩, ?_, ?_⟩
      · intro _
        refine .inl ⟨rfl, hr, hl, ?_⟩
        intro h
        rw [isCert_iff.mpr h] at c
        simpa [who] using c
      · intro _; exact ⟨s2, rfl⟩
      · intro st ro' s' h; cases h
      · intro r s' h hra; cases h; exact absurd rfl hra
  · rw [h0]
    dsimp only
    have cn : ∀ s1 : St, s1.opts.checkIp = false →
        caseNew C W X (found X k) k (settle C (found X k) ro) s1 = .fail (some .new) (settle C (found X k) ro) s1 := by
      intro s1 _
      unfold caseNew
      split
      · rfl
      · rw [hs]
    unfold caseNewPort
    split
    · rename_i c
      have hk1 := hkeep k s hi
      have hb1 := hbare k s hi
      cases hne : nested k s with
      | mk r s1 =>
        rw [hne] at hk1 hb1
        cases r with
        | accept =>
          obtain ⟨s2, h2⟩ := afterSwitch_noip (C := C) (F := found X k) (ro := settle C (found X k) ro) (t := false) hk1
          dsimp only
          rw [h2]
          refine ⟨⟨?_, ?_⟩, ?_, ?_⟩
          · intro _
            exact .inr ⟨rfl, hn, c.1, c.2.1, c.2.2.1, by simpa using c.2.2.2, hb1.mp rfl⟩
          · intro _; exact ⟨s2, rfl⟩
          · intro st ro' s' h; cases h
          · intro r s' h hra; cases h; exact absurd rfl hra
        | refuse =>
          dsimp only
          rw [cn s1 hk1]
          refine ⟨⟨?_, ?_⟩, ?_, ?_⟩
          · rintro ⟨s', h⟩; cases h
          · rintro (⟨_, _, h, _⟩ | ⟨_, _, _, _, _, _, h⟩)
            · exact absurd h hn.2.1
            · cases hb1.mpr h
          · intro st ro' s' h
            cases h
            exact ⟨hk1, ⟨fun h => (by cases h), fun h => absurd h.2 hn.1⟩⟩
          · intro r s' h; cases h
        | fatal =>
          dsimp only
          refine ⟨⟨?_, ?_⟩, ?_, ?_⟩
          · rintro ⟨s', h⟩; cases h
          · rintro (⟨_, _, h, _⟩ | ⟨_, _, _, _, _, _, h⟩)
            · exact absurd h hn.2.1
            · cases hb1.mpr h
          · intro st ro' s' h; cases h
          · intro r s' h _; cases h
            exact ⟨hn, rfl, c.1, c.2.1, c.2.2.1, by simpa using c.2.2.2, rfl⟩
        | crash =>
          dsimp only
          refine ⟨⟨?_, ?_⟩, ?_, ?_⟩
          · rintro ⟨s', h⟩; cases h
          · rintro (⟨_, _, h, _⟩ | ⟨_, _, _, _, _, _, h⟩)
            · exact absurd h hn.2.1
            · cases hb1.mpr h
          · intro st ro' s' h; cases h
          · intro r s' h _; cases h
            exact ⟨hn, rfl, c.1, c.2.1, c.2.2.1, by simpa using c.2.2.2, rfl⟩
    · rename_i c
      rw [cn s hi]
      refine ⟨⟨?_, ?_⟩, ?_, ?_⟩
      · rintro ⟨s', h⟩; cases h
      · rintro (⟨_, _, h, _⟩ | ⟨_, _, h1, h2, h3, h4, _⟩)
        · exact absurd h hn.2.1
        · exact absurd ⟨h1, h2, h3, by simp [h4]⟩ c
      · intro st ro' s' h
        cases h
        exact ⟨hi, ⟨fun h => (by cases h), fun h => absurd h.2 hn.1⟩⟩
      · intro r s' h; cases h
  · rw [h0]
    dsimp only
    unfold caseRevoked
    rw [if_pos hso]
    refine ⟨⟨?_, ?_⟩, ?_, ?_⟩
    · rintro ⟨s', h⟩; cases h
    · rintro (⟨_, h, _⟩ | ⟨_, h, _⟩)
      · exact absurd hr h
      · exact absurd hr h.1
    · intro st ro' s' h
      cases h
      exact ⟨hi, ⟨fun _ => ⟨rfl, hr⟩, fun _ => rfl⟩⟩
    · intro r s' h; cases h
  · rw [h0]
    dsimp only
    have : caseChanged C (found X k) (X.ipKeys.isSome && !k.isCert) k (settle C (found X k) ro) s =
        .fail (some .changed) (settle C (found X k) ro) s := by
      unfold caseChanged
      rw [hi]
      split
      · rfl
      split
      · rfl
      simp [hso]
    rw [this]
    refine ⟨⟨?_, ?_⟩, ?_, ?_⟩
    · rintro ⟨s', h⟩; cases h
    · rintro (⟨_, _, h, _⟩ | ⟨_, h, _⟩)
      · exact absurd h hch.2.1
      · exact absurd hch.2.2 (h.2.2 hch.1)
    · intro st ro' s' h
      cases h
      exact ⟨hi, ⟨fun h => (by cases h), fun h => absurd h.2 hr⟩⟩
    · intro r s' h; cases h

/-- When a pass is cut short by the check without the port, the plain key has no better chance. -/
theorem passes_strict {C : Cfg} {W : World} {H : Srv} {X : Ctx} {nested : Key → St → Res × St} {bare : Key → Prop}
    (hs : C.strict = .yes) (hkeep : ∀ k s, s.opts.checkIp = false → (nested k s).2.opts.checkIp = false)
    (hbare : ∀ k s, s.opts.checkIp = false → ((nested k s).1 = .accept ↔ bare k))
    (hstop : ∀ k s, s.opts.checkIp = false → (nested k s).1 ≠ .accept → (nested k s).1 ≠ .refuse →
      ∀ raw, dropCert k = some raw → algOk C W raw = false)
    (k : Key) (ro : RO) (s : St) (hi : s.opts.checkIp = false) :
    ((passes C W H X nested k ro s).1 = .accept ↔
      EitherForm C W (who C H) X.hostKeys k
        (fun k' => C.alias = none ∧ X.port ≠ 0 ∧ X.port ≠ 22 ∧ X.clobber = false ∧ bare k')) := by
  obtain ⟨p1, p2, p3⟩ := pass_strict (H := H) (X := X) hs hkeep hbare k ro s hi
  have noStep : ∀ {k' : Key} {p : Prop}, algOk C W k' = false → ¬ Step C W (who C H) X.hostKeys k' p := by
    intro k' p h
    rintro (⟨h', _⟩ | ⟨h', _⟩) <;> rw [h] at h' <;> cases h'
  unfold passes EitherForm
  cases ho : pass C W H X nested k ro s with
  | done r s' =>
    by_cases hr : r = .accept
    · subst hr
      exact ⟨fun _ => .inl (p1.mp ⟨s', ho⟩), fun _ => rfl⟩
    · refine ⟨fun h => absurd h hr, ?_⟩
      obtain ⟨q1, q2, q3, q4, q5, q6, q7⟩ := p3 r s' ho hr
      have hrr : (nested k s).1 ≠ .refuse := by
        intro hrf
        unfold pass at ho
        have h0 : (found X k).status = .new := by
          rw [(found_host X k).1]; exact (status_rest q1.1).2.2.mpr q1
        rw [q2, h0] at ho
        simp only [Bool.not_true, Bool.false_eq_true, if_false] at ho
        unfold caseNewPort at ho
        rw [if_pos ⟨q3, q4, q5, by simp [q6]⟩] at ho
        cases hne : nested k s with
        | mk r2 s2 =>
          rw [hne] at ho hrf
          have hrf : r2 = .refuse := hrf
          subst hrf
          dsimp only at ho
          unfold caseNew at ho
          split at ho
          · cases ho
          · rw [hs] at ho; cases ho
      rintro (h | ⟨_, raw, hd, h⟩)
      · obtain ⟨s2, h2⟩ := p1.mpr h
        rw [ho] at h2; cases h2; exact absurd rfl hr
      · exact absurd h (noStep (hstop k s hi (by rw [q7]; exact hr) hrr raw hd))
  | fail st ro' s' =>
    obtain ⟨f1, f2⟩ := p2 st ro' s' ho
    have no1 : ¬ Step C W (who C H) X.hostKeys k
        (C.alias = none ∧ X.port ≠ 0 ∧ X.port ≠ 22 ∧ X.clobber = false ∧ bare k) := by
      intro h
      obtain ⟨s2, h2⟩ := p1.mpr h
      rw [ho] at h2; cases h2
    show (if (k.isCert && decide (st ≠ some .revoked)) = true then
        (match dropCert k with
          | some raw => second C W H X nested raw ro' s'
          | none => (.fatal, s'))
      else (Res.refuse, s')).1 = .accept ↔ _
    split
    · rename_i c
      rw [Bool.and_eq_true, decide_eq_true_eq] at c
      cases hd : dropCert k with
      | none =>
        dsimp only
        refine ⟨fun h => (by cases h), ?_⟩
        rintro (h | ⟨_, raw, hd', _⟩)
        · exact absurd h no1
        · cases hd'
      | some raw =>
        dsimp only
        obtain ⟨t1, t2, t3⟩ := pass_strict (H := H) (X := X) hs hkeep hbare raw ro' s' f1
        have hnr : ¬ (algOk C W k = true ∧ Revoked X.hostKeys k) := fun h => c.2 (f2.mpr h)
        unfold second
        constructor
        · intro h
          cases ho2 : pass C W H X nested raw ro' s' with
          | done r s2 =>
            rw [ho2] at h
            have h : r = .accept := h
            subst h
            exact .inr ⟨hnr, raw, rfl, t1.mp ⟨s2, ho2⟩⟩
          | fail st2 ro2 s2 =>
            rw [ho2] at h
            cases st2 <;> cases h
        · rintro (h | ⟨_, raw', hd', h⟩)
          · exact absurd h no1
          · cases hd'
            obtain ⟨s2, h2⟩ := t1.mpr h
            rw [h2]
    · rename_i c
      rw [Bool.and_eq_true, decide_eq_true_eq] at c
      refine ⟨fun h => (by cases h), ?_⟩
      rintro (h | ⟨hnr, raw, hd, _⟩)
      · exact absurd h no1
      · have hk : k.isCert = true := isCert_iff.mpr (dropCert_plain hd).2.1
        have : st = some .revoked := Classical.byContradiction fun h => c ⟨hk, h⟩
        exact absurd (f2.mp this) hnr

theorem tuneIp_false {C : Cfg} {H : Srv} {ip : Bytes} {s : St} (h : s.opts.checkIp = false) : tuneIp C H ip s = s := by
  unfold tuneIp; rw [h]; simp

theorem hostName_bare {C : Cfg} {H : Srv} (h : C.alias = none) : hostName C H 0 = H.hostname := by
  unfold hostName putHostPort; rw [h]; simp

/-- The check without the port, with strict checking. -/
theorem portless_strict {C : Cfg} {W : World} {H : Srv} (hs : C.strict = .yes) (hw : ¬ Waived C H) (k : Key) (s : St)
    (hi : s.opts.checkIp = false) :
    ((portless C W H k s).1 = .accept ↔ EitherForm C W (who C H) (W.known (hostName C H 0)) k (fun _ => False)) ∧
    ((portless C W H k s).1 ≠ .accept → (portless C W H k s).1 ≠ .refuse →
      ∀ raw, dropCert k = some raw → algOk C W raw = false) := by
  have hb : portless C W H k s = passes C W H ⟨hostName C H 0, ipName C H 0, W.known (hostName C H 0), none, 0, true⟩
      (fun _ s => (.refuse, s)) k (if oddName H.hostname then .ro else .quiet) s := by
    unfold portless checkWith
    rw [if_neg (show ¬ (C.noHostAuth = true ∧ H.isLocal = true ∧ C.alias = none) from hw)]
    have hlines : ∀ inv n, lines C W true inv k n = some (W.known n) := by
      intro inv n; unfold lines; simp
    rw [show (if true = true then 0 else 0) = 0 from rfl, hlines]
    dsimp only
    rw [tuneIp_false hi]
    unfold ipLines
    rw [hi]
    simp
  have hkeep : ∀ (k : Key) (s : St), s.opts.checkIp = false → ((Res.refuse, s) : Res × St).2.opts.checkIp = false :=
    fun _ _ h => h
  have hbare : ∀ (k : Key) (s : St), s.opts.checkIp = false → (((Res.refuse, s) : Res × St).1 = .accept ↔ False) := by
    intro k s _; simp
  constructor
  · rw [hb]
    have := passes_strict (H := H) (X := ⟨hostName C H 0, ipName C H 0, W.known (hostName C H 0), none, 0, true⟩)
      (W := W) (nested := fun _ s => (.refuse, s)) (bare := fun _ => False) hs hkeep hbare
      (fun k s _ _ h => absurd rfl h) k (if oddName H.hostname then .ro else .quiet) s hi
    rw [this]
    unfold EitherForm Step
    simp
  · rw [hb]
    intro h1 h2 raw hd
    unfold passes at h1 h2
    obtain ⟨p1, p2, p3⟩ := pass_strict (H := H)
      (X := ⟨hostName C H 0, ipName C H 0, W.known (hostName C H 0), none, 0, true⟩)
      (nested := fun _ s => (.refuse, s)) (bare := fun _ => False) hs hkeep hbare k
      (if oddName H.hostname then .ro else .quiet) s hi
    cases ho : pass C W H ⟨hostName C H 0, ipName C H 0, W.known (hostName C H 0), none, 0, true⟩
        (fun _ s => (.refuse, s)) k (if oddName H.hostname then .ro else .quiet) s with
    | done r s' =>
      rw [ho] at h1 h2
      obtain ⟨_, _, _, _, _, q, _⟩ := p3 r s' ho h1
      cases q
    | fail st ro' s' =>
      rw [ho] at h1 h2
      dsimp only at h1 h2
      rw [hd] at h1 h2
      dsimp only at h1 h2
      split at h2
      · rename_i c
        rw [if_pos c] at h1
        unfold second at h1 h2
        obtain ⟨t1, t2, t3⟩ := pass_strict (H := H)
          (X := ⟨hostName C H 0, ipName C H 0, W.known (hostName C H 0), none, 0, true⟩)
          (nested := fun _ s => (.refuse, s)) (bare := fun _ => False) hs hkeep hbare raw ro' s' (p2 st ro' s' ho).1
        have hall := pass_all C W H ⟨hostName C H 0, ipName C H 0, W.known (hostName C H 0), none, 0, true⟩
          (fun _ s => (.refuse, s)) (fun k s => Same.refl s) raw ro' s'
        cases ho2 : pass C W H ⟨hostName C H 0, ipName C H 0, W.known (hostName C H 0), none, 0, true⟩
            (fun _ s => (.refuse, s)) raw ro' s' with
        | done r s2 =>
          rw [ho2] at h1 h2
          obtain ⟨_, _, _, _, _, q, _⟩ := t3 r s2 ho2 h1
          cases q
        | fail st2 ro2 s2 =>
          rw [ho2] at h1 h2 hall
          cases st2 with
          | none => exact (hall.rev none ro2 s2 rfl).2.2 rfl
          | some x => exact absurd rfl h2
      · exact absurd rfl h2

/-- C81: with strict checking and without looking at the address, exactly this decides: the lines for the
name with its port; if they say nothing about the key and the port is unusual, the lines for the bare name;
first for the key as offered, then for the plain key of a certificate, but never after a certificate found to
be revoked. -/
theorem C81_strict_iff (C : Cfg) (W : World) (H : Srv) (k : Key) (s : St) (own : List Ent)
    (ho : OwnLines C W H k own) (hs : C.strict = .yes) (hi : s.opts.checkIp = false) (hw : ¬ Waived C H) :
    (check C W H k s).1 = .accept ↔
      EitherForm C W (who C H) own k (fun k' => OtherPort C H ∧
        EitherForm C W (who C H) (W.known H.hostname) k' (fun _ => False)) := by
  have hb : check C W H k s = passes C W H ⟨hostName C H H.port, ipName C H H.port, own, none, H.port, false⟩
      (portless C W H) k (if oddName H.hostname then .ro else .rw) s := by
    unfold check checkWith
    rw [if_neg (show ¬ (C.noHostAuth = true ∧ H.isLocal = true ∧ C.alias = none) from hw)]
    rw [show (if false = true then 0 else H.port) = H.port from rfl]
    rw [show lines C W false b!"HOSTNAME" k (hostName C H H.port) = some own from ho]
    dsimp only
    rw [tuneIp_false hi]
    unfold ipLines
    rw [hi]
    simp
  have hkeep : ∀ (k : Key) (s : St), s.opts.checkIp = false → (portless C W H k s).2.opts.checkIp = false := by
    intro k s h
    have := (nested_same C W H k s).opts.2.2.2.2.2.2.2.2
    cases hc : (portless C W H k s).2.opts.checkIp with
    | false => rfl
    | true => rw [h] at this; exact absurd (this hc) (by simp)
  rw [hb, passes_strict (X := ⟨hostName C H H.port, ipName C H H.port, own, none, H.port, false⟩)
    (bare := fun k' => EitherForm C W (who C H) (W.known (hostName C H 0)) k' (fun _ => False)) hs hkeep
    (fun k s h => (portless_strict hs hw k s h).1) (fun k s h => (portless_strict hs hw k s h).2) k _ s hi]
  have heq : (fun k' => C.alias = none ∧ H.port ≠ 0 ∧ H.port ≠ 22 ∧ False = False ∧
      EitherForm C W (who C H) (W.known (hostName C H 0)) k' (fun _ => False)) =
      (fun k' => OtherPort C H ∧ EitherForm C W (who C H) (W.known H.hostname) k' (fun _ => False)) := by
    funext k'
    apply propext
    unfold OtherPort
    constructor
    · rintro ⟨a, b, c, _, d⟩
      rw [hostName_bare a] at d
      exact ⟨⟨a, b, c⟩, d⟩
    · rintro ⟨⟨a, b, c⟩, d⟩
      rw [← hostName_bare (H := H) a] at d
      exact ⟨a, b, c, rfl, d⟩
  rw [← heq]
  unfold EitherForm Step
  simp

end Verif.HostKey
