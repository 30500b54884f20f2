/-
The loop: what one round does, and the record over a whole conversation.
-/
import Verif.Monitor.Keys

namespace Verif.Monitor

open Wire Spec
open Auth.Spec (Fulfils steps Usable Multi RootMay Sat stepOf Known)

variable {w : World} {c : Cfg} {as : List Act} {g : Option KeyOpts.Opts × List KeyOpts.Opts} {ev : Ev}
  {st st1 : St} {e : Ent} {v : Bool} {a : Act} {m : Bytes}

/-! ### What the answers mean -/

/-- The method name logged for an action. -/
def MethodOf (as : List Act) (a : Act) (mt : Bytes) (sub : Option Bytes) : Prop :=
  match a with
  | .password pw _ => sub = none ∧ (mt = b!"password" ∨ (mt = b!"none" ∧ pw = []))
  | .keyVerify blob _ _ _ _ => sub = none ∧ ∃ user cu ch,
      last [.keyallowed, .keyverify] as = some (.keyAllowed user blob cu ch true) ∧
      mt = if user then b!"publickey" else b!"hostbased"
  | .pamFree _ => mt = b!"keyboard-interactive" ∧ sub = some b!"pam"
  | .pamAccount _ => mt = b!"unknown" ∧ sub = none
  | _ => True

/-- What a good password means. -/
def PasswordOk (c : Cfg) (st : St) (an : Ans) : Act → Prop
  | .password pw true => pw.length ≤ 1024 ∧ an.password = true ∧ st.valid = true ∧
      (st.uid = some 0 → c.auth.root = .yes) ∧ (pw = [] → c.permitEmpty = true)
  | _ => True

/-- What the end of a PAM conversation means. -/
def PamOk (as : List Act) : Act → Prop
  | .pamFree true =>
      last [.pamInit, .pamQuery, .pamRespond, .pamFree] as = some (.pamQuery true) ∨
      last [.pamInit, .pamQuery, .pamRespond, .pamFree] as = some (.pamRespond true)
  | _ => True

structure Facts (w : World) (c : Cfg) (as : List Act) (pend : Option KeyOpts.Opts) (an : Ans) (st : St)
    (a : Act) (mt : Bytes) (sub : Option Bytes) : Prop where
  may : May c as (kind a)
  approved : Approved w c as an a
  verified : Verified w c as pend st a
  method : MethodOf as a mt sub
  password : PasswordOk c st an a
  pam : PamOk as a
  signable : ∀ k d, a = .sign k d → Signable w as k d

theorem password_facts {an : Ans} (h : answerPassword c st m an = .ret v st1 a) (hs : st.sub = none) :
    ∃ pw ok, a = .password pw ok ∧ PasswordOk c st an a ∧ MethodOf as a st1.method st1.sub := by
  unfold answerPassword at h
  split at h
  · split at h
    · simp at h
    · rename_i pw _ _
      rw [Res.ret.injEq] at h
      obtain ⟨rfl, rfl, rfl⟩ := h
      refine ⟨pw, _, rfl, ?_, hs, ?_⟩
      · cases hb : authPassword c st pw an with
        | false => trivial
        | true =>
          unfold authPassword at hb
          split at hb
          · simp at hb
          · rename_i h1
            split at hb
            · simp at hb
            · rename_i h2
              simp only [Bool.and_eq_true, Bool.not_eq_true', Bool.and_eq_false_iff,
                decide_eq_false_iff_not] at hb
              obtain ⟨⟨h3, h4⟩, h5⟩ := hb
              refine ⟨by omega, h3, h4, ?_, ?_⟩
              · intro hu
                rcases h5 with h5 | h5
                · exact absurd hu h5
                · simpa using h5
              · intro hp
                cases hpe : c.permitEmpty with
                | true => rfl
                | false => exact absurd ⟨hp, hpe⟩ h2
      · simp only
        split
        · rename_i hc; exact Or.inr ⟨rfl, hc.1⟩
        · exact Or.inl rfl
  · simp at h

theorem keyverify_method (hi : InvA w c as g st) (h : answerKeyVerify w c st m = .ret v st1 a)
    (hs : st.sub = none) : MethodOf as a st1.method st1.sub := by
  unfold answerKeyVerify at h
  split at h
  · simp at h
  · split at h
    · simp at h
    · rename_i ks hks
      split at h
      · rename_i hblob
        split at h
        · simp at h
        · split at h
          · split at h
            · simp at h
            · rw [Res.ret.injEq] at h
              obtain ⟨rfl, rfl, rfl⟩ := h
              obtain ⟨k1, _⟩ := hi.key ks hks
              rw [hblob] at k1
              exact ⟨hs, _, _, _, k1, rfl⟩
          · simp at h
      · simp at h

theorem preTable_req (he : e ∈ preTable) : e.req ≠ .pty ∧ e.req ≠ .ptycleanup ∧ e.req ≠ .term := by
  simp only [preTable, List.mem_cons, List.not_mem_nil, or_false] at he
  rcases he with rfl | rfl | rfl | rfl | rfl | rfl | rfl | rfl | rfl | rfl | rfl | rfl | rfl | rfl | rfl <;>
    simp

/-- **Every handler that returns has done what it says.** -/
theorem handle_good (hi : InvA w c as g st) (he : e ∈ preTable) (hp : st.permit e.req = true)
    (hs : st.sub = none) (hm : st.method = b!"unknown")
    (h : handle w c st e.req m ev.ans = .ret v st1 a) :
    Good w c as g ev st e v st1 a ∧ Facts w c as g.1 ev.ans st a st1.method st1.sub := by
  have key : Good w c as g ev st e v st1 a ∧ Approved w c as ev.ans a ∧ Verified w c as g.1 st a ∧
      MethodOf as a st1.method st1.sub ∧ PasswordOk c st ev.ans a ∧ PamOk as a ∧
      (∀ k d, a = .sign k d → Signable w as k d) := by
    cases hr : e.req with
    | state =>
      rw [hr] at h
      simp only [handle, Res.ret.injEq] at h
      obtain ⟨rfl, rfl, rfl⟩ := h
      exact ⟨good_state hi he hr hp, trivial, trivial, trivial, trivial, trivial, by simp⟩
    | banner =>
      rw [hr] at h
      simp only [handle, Res.ret.injEq] at h
      obtain ⟨rfl, rfl, rfl⟩ := h
      exact ⟨good_banner hi he hr hp, trivial, trivial, trivial, trivial, trivial, by simp⟩
    | moduli =>
      rw [hr] at h
      simp only [handle] at h
      have hg := good_moduli (ev := ev) hi he hr hp h
      have hk := hg.kind
      rw [hr] at hk
      cases a <;> simp [kind] at hk
      exact ⟨hg, trivial, trivial, trivial, trivial, trivial, by simp⟩
    | sign =>
      rw [hr] at h
      simp only [handle] at h
      obtain ⟨hg, k, d, rfl, hsg⟩ := good_sign (ev := ev) hi he hr hp h
      refine ⟨hg, trivial, trivial, trivial, trivial, trivial, ?_⟩
      intro k' d' hkd
      simp only [Act.sign.injEq] at hkd
      obtain ⟨rfl, rfl⟩ := hkd
      exact hsg
    | pwnam =>
      rw [hr] at h
      simp only [handle] at h
      have hg := good_pwnam (ev := ev) hi he hr hp h
      have hk := hg.kind
      rw [hr] at hk
      cases a <;> simp [kind] at hk
      exact ⟨hg, trivial, trivial, trivial, trivial, trivial, by simp⟩
    | authserv =>
      rw [hr] at h
      simp only [handle] at h
      have hg := good_authserv (ev := ev) hi he hr hp h
      have hk := hg.kind
      rw [hr] at hk
      cases a <;> simp [kind] at hk
      exact ⟨hg, trivial, trivial, trivial, trivial, trivial, by simp⟩
    | authpassword =>
      rw [hr] at h
      simp only [handle] at h
      have hg := good_password (ev := ev) hi he hr hp h
      obtain ⟨pw, ok, rfl, h1, h2⟩ := password_facts (as := as) h hs
      exact ⟨hg, trivial, trivial, h2, h1, trivial, by simp⟩
    | pamStart =>
      rw [hr] at h
      simp only [handle] at h
      have hg := good_pamStart (ev := ev) hi he hr hp h
      have hk := hg.kind
      rw [hr] at hk
      cases a <;> simp [kind] at hk
      exact ⟨hg, trivial, trivial, trivial, trivial, trivial, by simp⟩
    | pamAccount =>
      rw [hr] at h
      simp only [handle] at h
      have hg := good_pamAccount (ev := ev) hi he hr hp h
      unfold answerPamAccount at h
      split at h
      · simp only [Res.ret.injEq] at h
        obtain ⟨rfl, rfl, rfl⟩ := h
        exact ⟨hg, trivial, trivial, ⟨hm, hs⟩, trivial, trivial, by simp⟩
      · simp at h
    | pamInit =>
      rw [hr] at h
      simp only [handle] at h
      have hg := good_pamInit (ev := ev) hi he hr hp h
      have hk := hg.kind
      rw [hr] at hk
      cases a <;> simp [kind] at hk
      exact ⟨hg, trivial, trivial, trivial, trivial, trivial, by simp⟩
    | pamQuery =>
      rw [hr] at h
      simp only [handle] at h
      have hg := good_pamQuery (ev := ev) hi he hr h
      have hk := hg.kind
      rw [hr] at hk
      cases a <;> simp [kind] at hk
      exact ⟨hg, trivial, trivial, trivial, trivial, trivial, by simp⟩
    | pamRespond =>
      rw [hr] at h
      simp only [handle] at h
      have hg := good_pamRespond (ev := ev) hi he hr hp h
      have hk := hg.kind
      rw [hr] at hk
      cases a <;> simp [kind] at hk
      exact ⟨hg, trivial, trivial, trivial, trivial, trivial, by simp⟩
    | pamFree =>
      rw [hr] at h
      simp only [handle] at h
      have hg := good_pamFree (ev := ev) hi he hr h
      unfold answerPamFree at h
      split at h
      · simp only [Res.ret.injEq] at h
        obtain ⟨rfl, rfl, rfl⟩ := h
        refine ⟨hg, trivial, trivial, ⟨rfl, rfl⟩, trivial, ?_, by simp⟩
        cases hok : st.pamOk with
        | false => trivial
        | true => exact hi.pamOk hok
      · simp at h
    | keyallowed =>
      rw [hr] at h
      simp only [handle] at h
      obtain ⟨hg, hap⟩ := good_keyallowed (ev := ev) hi he hr hp h
      have hk := hg.kind
      rw [hr] at hk
      refine ⟨hg, hap, ?_⟩
      cases a <;> simp [kind] at hk
      exact ⟨trivial, trivial, trivial, trivial, by simp⟩
    | keyverify =>
      rw [hr] at h
      simp only [handle] at h
      obtain ⟨hg, hv⟩ := good_keyverify (ev := ev) hi he hr hp h
      have hme := keyverify_method hi h hs
      have hk := hg.kind
      rw [hr] at hk
      refine ⟨hg, ?_, hv, hme, ?_⟩
      · cases a <;> simp [kind] at hk
        trivial
      · cases a <;> simp [kind] at hk
        exact ⟨trivial, trivial, by simp⟩
    | pty => exact absurd hr (preTable_req he).1
    | ptycleanup => exact absurd hr (preTable_req he).2.1
    | term => exact absurd hr (preTable_req he).2.2
  obtain ⟨h1, h2, h3, h4, h5, h6, h7⟩ := key
  exact ⟨h1, by rw [h1.kind]; exact h1.may, h2, h3, h4, h5, h6, h7⟩

end Verif.Monitor
