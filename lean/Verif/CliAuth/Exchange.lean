/-
The methods are tried in turn, and messages are answered.
-/
import Verif.CliAuth.Pubkey

namespace Verif.CliAuth
open Verif Wire Text
open _root_.Verif.PubKey (Key Kind Curve Pub sigalgByName toBlob fromBlob typeFromName)
open _root_.Verif.Match (names)
open scoped _root_.Verif.Match

theorem First.turn {C : Conf} {off : List Meth} {al : Option Bytes} {m : Meth} (h : First C off al m) : Turn C al m := ⟨off, h⟩

theorem First.fresh {C : Conf} {off : List Meth} {al : Option Bytes} {m : Meth} (h : First C off al m) :
    m ∉ off ∧ Configured C m := by
  obtain ⟨b, a, -, ⟨-, m', hn, h1, h2⟩, -⟩ := h
  rw [name_inj hn]
  exact ⟨h1, h2⟩

theorem runMethod_after {C : Conf} {W : World} {s : St} (h : Core C W s) (hf : First C s.off s.authlist s.method)
    (hs : s.slot = .none) (hr : s.status = .running) : After C W s (runMethod C W s) := by
  unfold runMethod
  have ht := hf.turn
  cases hm : s.method with
  | hostbased => rw [hm] at ht; exact hostbased_after h hm ht hs hr
  | kbdint => rw [hm] at ht; exact kbdint_after h hm ht hs hr
  | password => rw [hm] at ht; exact passwd_after h hm ht hs hr
  | nothing =>
    rw [hm] at hf
    exact absurd hf.fresh.2 (by simp [Configured])
  | publickey =>
    rw [hm] at ht
    show After C W s (userauthPubkey C W s)
    unfold userauthPubkey
    split
    · rename_i hp
      exact pubkeyGo_after _ h hp hm ht hs hr
    · rename_i hp
      have hp : s.prepared = false := by simpa using hp
      have hC : Core C W { s with keys := prepare C W s, prepared := true } :=
        ⟨h.methods.same rfl rfl rfl rfl, fun id hid => (prepare_ok hid).1, by simp, prepare_length C W s, h.host, h.ktypes,
          h.active, h.pw, h.kb, h.hb, h.crash⟩
      refine After.trans (t := { s with keys := prepare C W s, prepared := true }) ⟨rfl, rfl, rfl, rfl, rfl, rfl⟩
        ⟨[], by simp, by simp⟩ ?_ rfl (pubkeyGo_after _ hC rfl hm ht hs hr)
      unfold potential
      have h1 := prepare_length C W s
      have h2 := untried_le (prepare C W s)
      simp only [hp, Bool.false_eq_true, if_false, if_true]
      omega

/-- Only public-key authentication ends the client. -/
theorem runMethod_stop {C : Conf} {W : World} {s t : St} (h : runMethod C W s = .stop t) : s.method = .publickey := by
  unfold runMethod at h
  split at h
  · unfold userauthHostbased at h
    split at h
    · cases h
    · unfold hostSend at h
      split at h
      · split at h <;> cases h
      · cases h
  · assumption
  · unfold userauthKbdint at h
    split at h
    · cases h
    · split at h <;> cases h
  · unfold userauthPasswd at h
    split at h
    · cases h
    · split at h; cases h
  · cases h

/-- The methods there are. -/
def allMeths : List Meth := [.hostbased, .publickey, .kbdint, .password]

def left (off : List Meth) : Nat := allMeths.countP fun m => decide (m ∉ off)

theorem left_cons {off : List Meth} {m : Meth} (h : m ∉ off) (hm : m ≠ .nothing) : left (m :: off) < left off := by
  have hle : ∀ x : Meth, (if decide (x ∉ m :: off) = true then 1 else 0) ≤ (if decide (x ∉ off) = true then 1 else 0) := by
    intro x
    by_cases hx : x ∈ off
    · simp [hx]
    · simp only [decide_eq_true_eq, if_pos hx]
      split <;> omega
  have h1 := hle .hostbased
  have h2 := hle .publickey
  have h3 := hle .kbdint
  have h4 := hle .password
  have hm1 : (if decide (m ∉ m :: off) = true then 1 else 0) = 0 := by simp
  have hm2 : (if decide (m ∉ off) = true then 1 else 0) = 1 := by simp [h]
  unfold left allMeths
  simp only [List.countP_cons, List.countP_nil]
  cases m with
  | nothing => exact absurd rfl hm
  | hostbased => omega
  | publickey => omega
  | kbdint => omega
  | password => omega

theorem left_le (off : List Meth) : left off ≤ 4 := List.countP_le_length

/-- After the methods have been tried. -/
structure Tried (C : Conf) (W : World) (s t : St) : Prop where
  core : Core C W t
  authlist : t.authlist = s.authlist
  sigAlgs : t.sigAlgs = s.sigAlgs
  hasHostbound : t.hasHostbound = s.hasHostbound
  started : t.started = s.started
  grows : Grows (DoesIn C W s) s t
  off : ∃ l, t.off = l ++ s.off
  potential : potential C W t ≤ potential C W s
  packets : packets t.out ≤ packets s.out + 1
  running : t.status = .running → SlotOk t ∧ First C t.off t.authlist t.method ∧ CliAuth.packets t.out = CliAuth.packets s.out + 1
  notSuccess : t.status ≠ .success
  gaveUp : t.status = .ended → (∀ n ∈ names (preferredList C), ¬ Usable C t.off t.authlist n) ∨ t.method = .publickey

theorem userauthGo_tried {C : Conf} {W : World} : ∀ (n : Nat) {s : St}, left s.off < n → Core C W s → s.status = .running →
    Tried C W s (userauthGo C W n s) := by
  intro n
  induction n with
  | zero => intro s h; exact absurd h (Nat.not_lt_zero _)
  | succ n ih =>
    intro s hn h hr
    have hg := methodGet_got h.methods
    rw [userauthGo]
    cases hx : methodGet C s with
    | mk o u =>
      rw [hx] at hg
      obtain ⟨⟨l, p, c, rfl⟩, hinv, hsome, hnone⟩ := hg
      have hC : ∀ (m : Meth) (sl : Slot), Core C W { s with supported := l, preferred := p, current := c, method := m, slot := sl } := by
        intro m sl
        exact ⟨hinv.same rfl rfl rfl rfl, h.keys, h.fresh, h.len, h.host, h.ktypes, h.active, h.pw, h.kb, h.hb, h.crash⟩
      cases o with
      | none =>
        refine ⟨⟨hinv.same rfl rfl rfl rfl, h.keys, h.fresh, h.len, h.host, h.ktypes, h.active, h.pw, h.kb, h.hb,
          fun h => (by cases h)⟩, rfl, rfl, rfl, rfl, ⟨[], by simp, by simp⟩, ⟨[], rfl⟩, Nat.le_refl _, Nat.le_succ _,
          fun h => (by cases h), fun h => (by cases h), fun _ => .inl (hnone rfl)⟩
      | some m =>
        simp only
        have hf := hsome m rfl
        have haf := runMethod_after (hC m .none) (s := { s with supported := l, preferred := p, current := c, method := m, slot := .none })
          hf rfl hr
        cases hrm : runMethod C W { s with supported := l, preferred := p, current := c, method := m, slot := .none } with
        | sent t =>
          rw [hrm] at haf
          obtain ⟨h1, h2, h3, h4, h5, h6, h7⟩ := haf
          refine ⟨h1, h2.authlist, h2.sigAlgs, h2.hasHostbound, h2.started, h3, ⟨[], h2.off⟩, h6, Nat.le_of_eq h7,
            fun _ => ⟨h4, ?_, h7⟩, (by rw [h5]; exact fun h => (by cases h)),
            fun hx => (by rw [h5] at hx; cases hx)⟩
          rw [h2.off, h2.authlist, h2.method]
          exact hf
        | stop t =>
          rw [hrm] at haf
          obtain ⟨h1, h2, h3, h4, h6, h7⟩ := haf
          refine ⟨h1, h2.authlist, h2.sigAlgs, h2.hasHostbound, h2.started, h3, ⟨[], h2.off⟩, h6, ?_,
            fun h => absurd h h4.1, h4.2, fun _ => .inr (h2.method.trans (runMethod_stop hrm))⟩
          rw [h7]; exact Nat.le_succ _
        | unsent t =>
          rw [hrm] at haf
          obtain ⟨h1, h2, h3, h4, h5, h6, h7⟩ := haf
          have hoff : t.off = s.off := h2.off
          have hlt : left (m :: t.off) < n := by
            rw [hoff]
            have := left_cons hf.fresh.1 (m := m) (by rintro rfl; exact hf.fresh.2)
            omega
          have hCt : Core C W { t with off := m :: t.off } :=
            ⟨h1.methods.off m rfl rfl rfl rfl, h1.keys, h1.fresh, h1.len, h1.host, h1.ktypes, h1.active, h1.pw, h1.kb, h1.hb, h1.crash⟩
          have hi := ih (s := { t with off := m :: t.off }) hlt hCt h5
          have e1 : t.authlist = s.authlist := h2.authlist
          have e2 : t.sigAlgs = s.sigAlgs := h2.sigAlgs
          have e3 : t.hasHostbound = s.hasHostbound := h2.hasHostbound
          have e4 : t.started = s.started := h2.started
          refine ⟨hi.core, hi.authlist.trans e1, hi.sigAlgs.trans e2, hi.hasHostbound.trans e3, hi.started.trans e4, ?_, ?_,
            Nat.le_trans hi.potential h6, ?_, fun hrun => ?_, hi.notSuccess, hi.gaveUp⟩
          · refine Grows.trans (t := { t with off := m :: t.off }) h3 (hi.grows.mono fun a ha => ?_)
            have ha' : Does C W t.authlist t.sigAlgs t.hasHostbound a := ha
            rw [e1, e2, e3] at ha'
            exact ha'
          · obtain ⟨l', hl'⟩ := hi.off
            exact ⟨l' ++ [m], by rw [hl']; simp [hoff]⟩
          · refine Nat.le_trans hi.packets (Nat.le_of_eq ?_)
            show packets t.out + 1 = _
            rw [h7]
          · obtain ⟨j1, j2, j3⟩ := hi.running hrun
            refine ⟨j1, j2, j3.trans ?_⟩
            show packets t.out + 1 = _
            rw [h7]

theorem userauth_tried {C : Conf} {W : World} {s : St} (h : Core C W s) (hr : s.status = .running) :
    Tried C W s (userauth C W s) :=
  userauthGo_tried 5 (Nat.lt_of_le_of_lt (left_le _) (by decide)) h hr

end Verif.CliAuth
