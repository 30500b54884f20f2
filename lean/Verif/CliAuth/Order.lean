/-
A method is given up only when it has run out: keys are tried in order, each of them.
-/
import Verif.CliAuth.Props

namespace Verif.CliAuth
open Verif Wire Text
open _root_.Verif.PubKey (Key Kind Curve Pub sigalgByName toBlob fromBlob typeFromName)
open _root_.Verif.Match (names)
open scoped _root_.Verif.Match

def Res.st : Res → St
  | .sent t => t
  | .unsent t => t
  | .stop t => t

/-- What has been tried has not changed. -/
structure Still (s t : St) : Prop where
  keys : t.keys = s.keys
  prepared : t.prepared = s.prepared
  pw : t.attemptPw = s.attemptPw
  kb : t.attemptKbd = s.attemptKbd
  seen : t.infoReqSeen = s.infoReqSeen

theorem Still.refl (s : St) : Still s s := ⟨rfl, rfl, rfl, rfl, rfl⟩

theorem Still.trans {s t u : St} (h : Still s t) (k : Still t u) : Still s u :=
  ⟨k.1.trans h.1, k.2.trans h.2, k.3.trans h.3, k.4.trans h.4, k.5.trans h.5⟩

theorem Quiet.still {P : Act → Prop} {s t : St} (h : Quiet P s t) : Still s t := by
  obtain ⟨a, l, rfl, -⟩ := h
  exact ⟨rfl, rfl, rfl, rfl, rfl⟩

theorem trySign_still (C : Conf) (W : World) (sid : Ident) (k : Key) (w : Bool) (again : St → Res) (s : St)
    (ha : ∀ t, Still s t → Still s (again t).st) : Still s (trySign C W sid k w again s).st := by
  unfold trySign
  split
  · exact Still.refl s
  · rename_i alg _
    split
    · exact ⟨rfl, rfl, rfl, rfl, rfl⟩
    · rename_i data _
      have hq := (identitySign_quiet C W sid data alg s).still
      cases hx : identitySign C W sid data alg s with
      | mk r t =>
        rw [hx] at hq
        cases r with
        | ok sig => exact ⟨hq.1, hq.2, hq.3, hq.4, hq.5⟩
        | notFound => exact hq
        | wrongPin => exact hq
        | error => exact hq
        | algUnsupported =>
          show Still s (if w then _ else _ : Res).st
          split
          · split
            · exact ⟨hq.1, hq.2, hq.3, hq.4, hq.5⟩
            · exact ha t hq
          · exact hq

theorem signAndSend_still (C : Conf) (W : World) (keys : List Ident) (id : Ident) (k : Key) (s : St) :
    Still s (signAndSend C W keys id k s).st := by
  unfold signAndSend
  split
  · exact Still.refl s
  · refine trySign_still C W _ k true _ s (fun t ht => ?_)
    exact ht.trans (trySign_still C W _ k false .unsent t (fun u hu => hu))

/-- Keys not tried yet are before those that have been. -/
def Sorted (l : List Ident) : Prop :=
  ∃ a b, l = a ++ b ∧ (∀ x ∈ a, x.tried = false) ∧ ∀ x ∈ b, x.tried = true

theorem sorted_fresh {l : List Ident} (h : ∀ x ∈ l, x.tried = false) : Sorted l := ⟨l, [], by simp, h, by simp⟩

theorem Sorted.rotate {id : Ident} {l : List Ident} (h : Sorted (id :: l)) (ht : id.tried = false) :
    Sorted (l ++ [{ id with tried := true }]) := by
  obtain ⟨a, b, h1, h2, h3⟩ := h
  cases a with
  | nil =>
    have : id ∈ b := by rw [List.nil_append] at h1; rw [← h1]; exact List.mem_cons_self
    rw [h3 id this] at ht; cases ht
  | cons x a =>
    simp only [List.cons_append, List.cons.injEq] at h1
    obtain ⟨rfl, rfl⟩ := h1
    refine ⟨a, b ++ [{ id with tried := true }], by simp, fun y hy => h2 y (List.mem_cons_of_mem _ hy), fun y hy => ?_⟩
    rcases List.mem_append.1 hy with hy | hy
    · exact h3 y hy
    · simp only [List.mem_singleton] at hy
      subst hy; rfl

theorem Sorted.all {id : Ident} {l : List Ident} (h : Sorted (id :: l)) (ht : id.tried = true) : ∀ x ∈ id :: l, x.tried = true := by
  obtain ⟨a, b, h1, h2, h3⟩ := h
  cases a with
  | nil => rw [h1]; simpa using h3
  | cons x a =>
    simp only [List.cons_append, List.cons.injEq] at h1
    obtain ⟨rfl, rfl⟩ := h1
    rw [h2 id List.mem_cons_self] at ht; cases ht

/-- After the keys have been gone through. -/
structure Through (s : St) (r : Res) : Prop where
  sorted : Sorted r.st.keys
  prepared : r.st.prepared = s.prepared
  pw : r.st.attemptPw = s.attemptPw
  kb : r.st.attemptKbd = s.attemptKbd
  seen : r.st.infoReqSeen = s.infoReqSeen
  all : ∀ t, r = .unsent t → ∀ x ∈ t.keys, x.tried = true

theorem pubkeyGo_through (C : Conf) (W : World) : ∀ (n : Nat) (s : St), Sorted s.keys → untried s.keys < n →
    Through s (pubkeyGo C W n s) := by
  intro n
  induction n with
  | zero => intro s _ h; exact absurd h (Nat.not_lt_zero _)
  | succ n ih =>
    intro s hs hn
    rw [pubkeyGo]
    split
    · rename_i hk
      refine ⟨hs, rfl, rfl, rfl, rfl, fun t ht x hx => ?_⟩
      cases ht
      rw [hk] at hx; cases hx
    · rename_i id l hk
      rw [hk] at hs hn
      split
      · rename_i ht
        refine ⟨by show Sorted s.keys; rw [hk]; exact hs, rfl, rfl, rfl, rfl, fun t hx x hxx => ?_⟩
        cases hx
        rw [hk] at hxx
        exact hs.all ht x hxx
      · rename_i ht
        have ht : id.tried = false := by simpa using ht
        have hrot := hs.rotate ht
        rw [untried_rotate ht] at hn
        have go : ∀ u : St, Still { s with keys := l ++ [{ id with tried := true }] } u → Through s (pubkeyGo C W n u) := by
          intro u hu
          have hk' : u.keys = l ++ [{ id with tried := true }] := hu.keys
          obtain ⟨i1, i2, i3, i4, i5, i6⟩ := ih u (by rw [hk']; exact hrot) (by rw [hk']; omega)
          exact ⟨i1, i2.trans hu.prepared, i3.trans hu.pw, i4.trans hu.kb, i5.trans hu.seen, i6⟩
        have fin : ∀ r : Res, (∀ t, r ≠ .unsent t) → Still { s with keys := l ++ [{ id with tried := true }] } r.st → Through s r := by
          intro r hr hu
          refine ⟨?_, hu.prepared, hu.pw, hu.kb, hu.seen, fun t ht => absurd ht (hr t)⟩
          have hk' : r.st.keys = l ++ [{ id with tried := true }] := hu.keys
          rw [hk']; exact hrot
        split
        · rename_i k _
          rcases pubkeyTest_cases C k { s with keys := l ++ [{ id with tried := true }] } with hc | ⟨alg, blob, -, -, hc⟩
          · rw [hc]
            exact go _ (Still.refl _)
          · rw [hc]
            exact fin _ (fun t ht => (by cases ht)) ⟨rfl, rfl, rfl, rfl, rfl⟩
        · have hq := (loadFile_quiet C W id.file { s with keys := l ++ [{ id with tried := true }] }).still
          cases hx : loadFile C W id.file { s with keys := l ++ [{ id with tried := true }] } with
          | mk o u =>
            rw [hx] at hq
            cases o with
            | none => exact go u hq
            | some k =>
              simp only
              have hst := signAndSend_still C W (l ++ [{ id with tried := true, key := some k, isPrivate := true }])
                { id with tried := true, key := some k, isPrivate := true } k u
              cases hy : signAndSend C W (l ++ [{ id with tried := true, key := some k, isPrivate := true }])
                { id with tried := true, key := some k, isPrivate := true } k u with
              | unsent v => rw [hy] at hst; exact go v (Still.trans hq hst)
              | sent v => rw [hy] at hst; exact fin _ (fun t ht => (by cases ht)) (Still.trans hq hst)
              | stop v => rw [hy] at hst; exact fin _ (fun t ht => (by cases ht)) (Still.trans hq hst)

/-- What a method uses up. -/
structure Uses (C : Conf) (s : St) (r : Res) : Prop where
  sorted : Sorted r.st.keys
  others : ∀ m, m ≠ s.method → Exhausted C s m → Exhausted C r.st m
  own : ∀ t, r = .unsent t → Exhausted C t s.method

theorem exhausted_still {C : Conf} {s t : St} (h : Still s t) (m : Meth) (he : Exhausted C s m) : Exhausted C t m := by
  cases m with
  | password => show C.prompts < t.attemptPw; rw [h.pw]; exact he
  | kbdint => show C.prompts < t.attemptKbd ∨ (1 < t.attemptKbd ∧ t.infoReqSeen = false); rw [h.kb, h.seen]; exact he
  | publickey => show t.prepared = true ∧ ∀ id ∈ t.keys, id.tried = true; rw [h.prepared, h.keys]; exact he
  | hostbased => trivial
  | nothing => trivial

theorem runMethod_uses (C : Conf) (W : World) (s : St) (hs : Sorted s.keys) (hp : s.prepared = false → s.keys = []) :
    Uses C s (runMethod C W s) := by
  unfold runMethod
  cases hm : s.method with
  | nothing =>
    exact ⟨hs, fun m _ he => exhausted_still (t := userauthNone C s) ⟨rfl, rfl, rfl, rfl, rfl⟩ m he, fun t ht => (by cases ht)⟩
  | hostbased =>
    show Uses C s (userauthHostbased C W s)
    have : Still s (userauthHostbased C W s).st := by
      unfold userauthHostbased
      split
      · exact ⟨rfl, rfl, rfl, rfl, rfl⟩
      · unfold hostSend
        split
        · split <;> exact ⟨rfl, rfl, rfl, rfl, rfl⟩
        · exact ⟨rfl, rfl, rfl, rfl, rfl⟩
    exact ⟨by rw [this.keys]; exact hs, fun m _ he => exhausted_still this m he, fun t _ => by rw [hm]; trivial⟩
  | password =>
    show Uses C s (userauthPasswd C s)
    unfold userauthPasswd
    split
    · rename_i hge
      refine ⟨hs, fun m hne he => ?_, fun t ht => ?_⟩
      · cases m with
        | password => exact absurd hm.symm hne
        | _ => exact he
      · cases ht
        rw [hm]
        exact Nat.lt_succ_of_le hge
    · have hq := (read_quiet (P := fun _ => True) { s with attemptPw := s.attemptPw + 1 }
        (t := C.user ++ b!"@" ++ hostName C ++ b!"'s password: ") (e := false) trivial).still
      cases hx : read { s with attemptPw := s.attemptPw + 1 } (C.user ++ b!"@" ++ hostName C ++ b!"'s password: ") false with
      | mk pw u =>
        rw [hx] at hq
        refine ⟨?_, fun m hne he => ?_, fun t ht => (by cases ht)⟩
        · show Sorted u.keys
          rw [hq.keys]; exact hs
        · cases m with
          | password => exact absurd hm.symm hne
          | kbdint =>
            show C.prompts < u.attemptKbd ∨ (1 < u.attemptKbd ∧ u.infoReqSeen = false)
            rw [hq.kb, hq.seen]; exact he
          | publickey =>
            show u.prepared = true ∧ ∀ id ∈ u.keys, id.tried = true
            rw [hq.prepared, hq.keys]; exact he
          | hostbased => trivial
          | nothing => trivial
  | kbdint =>
    show Uses C s (userauthKbdint C s)
    unfold userauthKbdint
    have hoth : ∀ (t : St) (m : Meth), t.keys = s.keys → t.prepared = s.prepared → t.attemptPw = s.attemptPw → m ≠ s.method →
        Exhausted C s m → Exhausted C t m := by
      intro t m h1 h2 h3 hne he
      cases m with
      | kbdint => exact absurd hm.symm hne
      | password => show C.prompts < t.attemptPw; rw [h3]; exact he
      | publickey => show t.prepared = true ∧ ∀ id ∈ t.keys, id.tried = true; rw [h1, h2]; exact he
      | hostbased => trivial
      | nothing => trivial
    split
    · rename_i hge
      refine ⟨hs, fun m hne he => hoth _ m rfl rfl rfl hne he, fun t ht => ?_⟩
      cases ht
      rw [hm]
      exact .inl (Nat.lt_succ_of_le hge)
    · split
      · rename_i hsn
        refine ⟨hs, fun m hne he => hoth _ m rfl rfl rfl hne he, fun t ht => ?_⟩
        cases ht
        rw [hm]
        exact .inr hsn
      · exact ⟨hs, fun m hne he => hoth _ m rfl rfl rfl hne he, fun t ht => (by cases ht)⟩
  | publickey =>
    show Uses C s (userauthPubkey C W s)
    have hfin : ∀ u : St, Sorted u.keys → u.attemptPw = s.attemptPw → u.attemptKbd = s.attemptKbd → u.infoReqSeen = s.infoReqSeen →
        u.prepared = true → Uses C s (pubkeyGo C W (u.keys.length + 1) u) := by
      intro u h1 h2 h3 h4 h5
      obtain ⟨i1, i2, i3, i4, i5, i6⟩ := pubkeyGo_through C W (u.keys.length + 1) u h1 (by have := untried_le u.keys; omega)
      refine ⟨i1, fun m hne he => ?_, fun t ht => ?_⟩
      · cases m with
        | publickey => exact absurd hm.symm hne
        | password => show C.prompts < (pubkeyGo C W _ u).st.attemptPw; rw [i3, h2]; exact he
        | kbdint =>
          show C.prompts < (pubkeyGo C W _ u).st.attemptKbd ∨
            (1 < (pubkeyGo C W _ u).st.attemptKbd ∧ (pubkeyGo C W _ u).st.infoReqSeen = false)
          rw [i4, i5, h3, h4]; exact he
        | hostbased => trivial
        | nothing => trivial
      · rw [hm]
        refine ⟨?_, i6 t ht⟩
        rw [ht] at i2
        exact i2.trans h5
    unfold userauthPubkey
    split
    · rename_i hp1
      exact hfin s hs rfl rfl rfl hp1
    · exact hfin { s with keys := prepare C W s, prepared := true } (sorted_fresh fun x hx => (prepare_ok hx).2.1) rfl rfl rfl rfl

/-- What has been given up. -/
structure Spent (C : Conf) (s t : St) : Prop where
  sorted : Sorted t.keys
  given : ∀ m ∈ t.off, m ∈ s.off ∨ Exhausted C t m
  kept : ∀ m ∈ s.off, Exhausted C s m → Exhausted C t m

theorem userauthGo_spent {C : Conf} {W : World} : ∀ (n : Nat) {s : St}, left s.off < n → Core C W s → s.status = .running →
    Sorted s.keys → Spent C s (userauthGo C W n s) := by
  intro n
  induction n with
  | zero => intro s h; exact absurd h (Nat.not_lt_zero _)
  | succ n ih =>
    intro s hn h hr hsort
    have hg := methodGet_got h.methods
    rw [userauthGo]
    cases hx : methodGet C s with
    | mk o u =>
      rw [hx] at hg
      obtain ⟨⟨l, p, c, rfl⟩, hinv, hsome, hnone⟩ := hg
      have hC : ∀ (m : Meth) (sl : Slot), Core C W { s with supported := l, preferred := p, current := c, method := m, slot := sl } := by
        intro m sl
        exact ⟨hinv.same rfl rfl rfl rfl, h.keys, h.fresh, h.len, h.host, h.ktypes, h.active, h.pw, h.kb, h.hb, h.crash⟩
      cases o with
      | none => exact ⟨hsort, fun m hm => .inl hm, fun m _ he => exhausted_still ⟨rfl, rfl, rfl, rfl, rfl⟩ m he⟩
      | some m =>
        simp only
        have hf := hsome m rfl
        have haf := runMethod_after (hC m .none) (s := { s with supported := l, preferred := p, current := c, method := m, slot := .none })
          hf rfl hr
        have hus := runMethod_uses C W { s with supported := l, preferred := p, current := c, method := m, slot := .none } hsort h.fresh
        have hne : ∀ x ∈ s.off, x ≠ m := fun x hx he => hf.fresh.1 (he ▸ hx)
        cases hrm : runMethod C W { s with supported := l, preferred := p, current := c, method := m, slot := .none } with
        | sent t =>
          rw [hrm] at haf hus
          obtain ⟨h1, h2, -⟩ := haf
          have hoff : t.off = s.off := h2.off
          exact ⟨hus.sorted, fun x hx => .inl (hoff ▸ hx), fun x hx he => hus.others x (hne x hx) (exhausted_still ⟨rfl, rfl, rfl, rfl, rfl⟩ x he)⟩
        | stop t =>
          rw [hrm] at haf hus
          obtain ⟨h1, h2, -⟩ := haf
          have hoff : t.off = s.off := h2.off
          exact ⟨hus.sorted, fun x hx => .inl (hoff ▸ hx), fun x hx he => hus.others x (hne x hx) (exhausted_still ⟨rfl, rfl, rfl, rfl, rfl⟩ x he)⟩
        | unsent t =>
          rw [hrm] at haf hus
          obtain ⟨h1, h2, h3, h4, h5, h6, h7⟩ := haf
          have hoff : t.off = s.off := h2.off
          have hlt : left (m :: t.off) < n := by
            rw [hoff]
            have := left_cons hf.fresh.1 (m := m) (by rintro rfl; exact hf.fresh.2)
            omega
          have hCt : Core C W { t with off := m :: t.off } :=
            ⟨h1.methods.off m rfl rfl rfl rfl, h1.keys, h1.fresh, h1.len, h1.host, h1.ktypes, h1.active, h1.pw, h1.kb, h1.hb, h1.crash⟩
          have hi := ih (s := { t with off := m :: t.off }) hlt hCt h5 hus.sorted
          have hown : Exhausted C { t with off := m :: t.off } m :=
            exhausted_still (s := t) ⟨rfl, rfl, rfl, rfl, rfl⟩ m (hus.own t rfl)
          refine ⟨hi.sorted, fun x hx => ?_, fun x hx he => ?_⟩
          · rcases hi.given x hx with h | h
            · rcases List.mem_cons.1 h with rfl | h
              · exact .inr (hi.kept _ List.mem_cons_self hown)
              · exact .inl (hoff ▸ h)
            · exact .inr h
          · refine hi.kept x (List.mem_cons_of_mem _ (hoff ▸ hx)) ?_
            exact exhausted_still (s := t) ⟨rfl, rfl, rfl, rfl, rfl⟩ x
              (hus.others x (hne x hx) (exhausted_still ⟨rfl, rfl, rfl, rfl, rfl⟩ x he))

theorem userauth_spent {C : Conf} {W : World} {s : St} (h : Core C W s) (hr : s.status = .running) (hs : Sorted s.keys) :
    Spent C s (userauth C W s) :=
  userauthGo_spent 5 (Nat.lt_of_le_of_lt (left_le _) (by decide)) h hr hs

theorem extGo_keys : ∀ (n : Nat) (b : Bytes) (s : St), (extGo n b s).keys = s.keys := by
  intro n
  induction n with
  | zero => intro b s; rw [extGo]; split <;> rfl
  | succ n ih =>
    intro b s
    rw [extGo]
    split
    · rfl
    · split
      · rfl
      · rename_i name _ _ _ val _ _
        split
        · rfl
        · rename_i t ht
          rw [ih]
          unfold extEntry at ht
          split at ht
          · split at ht
            · cases ht
            · cases ht; rfl
          · split at ht
            · split at ht
              · cases ht
              · cases ht
                split <;> rfl
            · split at ht
              · split at ht
                · cases ht
                · cases ht; rfl
              · cases ht; rfl

theorem reset_core {C : Conf} {W : World} {s : St} (hc : Core C W s) (al : Option Bytes) :
    Core C W { resetKeys s with authlist := al } := by
  refine ⟨hc.methods.same rfl rfl rfl rfl, ?_, ?_, ?_, hc.host, hc.ktypes, hc.active, hc.pw, hc.kb, hc.hb, hc.crash⟩
  · intro id hid
    have hid' : id ∈ s.keys.map fun id => { id with tried := false } := hid
    simp only [List.mem_map] at hid'
    obtain ⟨x, hx, rfl⟩ := hid'
    exact (hc.keys x hx).tried false
  · intro hx
    show s.keys.map _ = []
    rw [hc.fresh hx]; rfl
  · show (s.keys.map _).length ≤ _
    rw [List.length_map]; exact hc.len

theorem reset_sorted (s : St) : Sorted (resetKeys s).keys := by
  refine sorted_fresh fun x hx => ?_
  have hx' : x ∈ s.keys.map fun id => { id with tried := false } := hx
  simp only [List.mem_map] at hx'
  obtain ⟨y, -, rfl⟩ := hx'
  rfl

theorem list_core {C : Conf} {W : World} {s : St} (hc : Core C W s) (al : Option Bytes) : Core C W { s with authlist := al } :=
  ⟨hc.methods.same rfl rfl rfl rfl, hc.keys, hc.fresh, hc.len, hc.host, hc.ktypes, hc.active, hc.pw, hc.kb, hc.hb, hc.crash⟩

theorem changeReq_keys (C : Conf) (s : St) (b : Bytes) : (changeReq C s b).keys = s.keys := by
  unfold changeReq
  split
  · rfl
  · rename_i info _ _
    split
    · rfl
    · have h0 := (show?_quiet (P := fun _ => True) s (t := info) trivial).still
      generalize hs0 : (if info = [] then s else s.act (.shown info)) = s0
      have h0 : Still s s0 := by rw [← hs0]; exact h0
      have h1 := (read_quiet (P := fun _ => True) s0 (t := changePrompt C b!"Enter " ++ b!"'s old password: ") (e := false) trivial).still
      cases hx : read s0 (changePrompt C b!"Enter " ++ b!"'s old password: ") false with
      | mk old u =>
        rw [hx] at h1
        simp only
        have h2 := (newPassword_quiet C (u.answers.length + 1) u).still
        cases hy : newPassword C (u.answers.length + 1) u with
        | mk o v =>
          rw [hy] at h2
          have h3 : v.keys = s.keys := ((h0.trans h1).trans h2).keys
          cases o with
          | none => exact h3
          | some pw => exact h3

theorem infoReq_keys (C : Conf) (s : St) (b : Bytes) : (infoReq C s b).keys = s.keys := by
  unfold infoReq
  split
  · rfl
  · rename_i name _ _
    split
    · rfl
    · rename_i inst _ _
      split
      · rfl
      · have h1 := (show?_quiet (P := fun _ => True) { s with infoReqSeen := true } (t := name) trivial).still
        have h2 := (show?_quiet (P := fun _ => True) (show? { s with infoReqSeen := true } name) (t := inst) trivial).still
        have h3 : (show? (show? { s with infoReqSeen := true } name) inst).keys = s.keys := (Still.trans h1 h2).keys
        split
        · exact h3
        · rename_i n b4 _
          have h4 := (infoPrompts_spec C n b4 (be 4 n) (show? (show? { s with infoReqSeen := true } name) inst)).1.still
          cases hx : infoPrompts C n b4 (be 4 n) (show? (show? { s with infoReqSeen := true } name) inst) with
          | mk o u =>
            rw [hx] at h4
            have h5 : u.keys = s.keys := h4.keys.trans h3
            cases o with
            | none => exact h5
            | some q =>
              obtain ⟨rest, acc⟩ := q
              simp only
              split <;> exact h5

theorem step_sorted {C : Conf} {W : World} {s : St} (h : Inv C W s) (hr : s.status = .running) (hs : Sorted s.keys) (m : Msg) :
    Sorted (step C W s m).keys := by
  unfold step
  rw [if_neg (by rw [hr]; simp)]
  split
  · unfold serviceAccept
    split
    · exact hs
    · split <;> exact hs
  · split
    · split
      · unfold extInfo
        split
        · exact hs
        · split
          · exact hs
          · split
            · exact hs
            · rw [extGo_keys]; exact hs
      · exact hs
      · exact hs
    · split
      · unfold failure
        split
        · exact hs
        · rename_i list _ _
          split
          · exact hs
          · split
            · exact hs
            · split
              · exact (userauth_spent (reset_core h.core (some list)) hr (reset_sorted s)).sorted
              · exact (userauth_spent (list_core h.core (some list)) hr hs).sorted
      · split
        · exact hs
        · split
          · unfold banner
            split
            · exact hs
            · split
              · exact hs
              · rename_i msg _ _ _ _ _ _
                rw [((show?_quiet (P := fun _ => True) s (t := msg) trivial).still).keys]
                exact hs
          · split
            · split
              · exact hs
              · unfold pkOk
                split
                · exact hs
                · split
                  · exact hs
                  · split
                    · exact hs
                    · split
                      · split
                        · exact hs
                        · split
                          · have hsl : s.slot = .pkOk := by assumption
                            rename_i k ext agent file tried priv hfind
                            have hmem := List.mem_of_find?_eq_some hfind
                            rw [List.mem_reverse] at hmem
                            obtain ⟨ho, -, -⟩ := h.core.keys _ hmem
                            have hst := signAndSend_still C W s.keys ⟨some k, ext, agent, file, tried, priv⟩ k s
                            have hsign := signAndSend_spec (W := W) (listed_keysOk h.core.keys) hmem (k := k) rfl s
                            have hfin := sign_after h.core hr ((h.slot hr).1 hsl) (.inr hsl) (fun _ => ho) hsign
                            cases hrs : signAndSend C W s.keys ⟨some k, ext, agent, file, tried, priv⟩ k s with
                            | sent u => rw [hrs] at hst; show Sorted u.keys; rw [show u.keys = s.keys from hst.keys]; exact hs
                            | stop u => rw [hrs] at hst; show Sorted u.keys; rw [show u.keys = s.keys from hst.keys]; exact hs
                            | unsent u =>
                              rw [hrs] at hst hfin
                              obtain ⟨h1, h2, h3, h4, h5, -⟩ := hfin
                              exact (userauth_spent h1 h5 (by rw [show u.keys = s.keys from hst.keys]; exact hs)).sorted
                          · exact hs
                      · exact hs
              · rw [changeReq_keys]; exact hs
              · rw [infoReq_keys]; exact hs
            · exact hs

theorem reach_sorted {C : Conf} {W : World} {s : St} (h : Reach C W s) : Sorted s.keys := by
  induction h with
  | start b a => exact sorted_fresh (by simp [init])
  | @step s m hs ih =>
    by_cases hr : s.status = .running
    · exact step_sorted (reach_inv hs) hr ih m
    · rw [step_stopped hr]; exact ih

/-- A method is given up only when it has run out. -/
theorem C106_given_up {C : Conf} {W : World} {s : St} (h : Reach C W s) (hr : s.status = .running) (hst : s.started = true)
    {v list : Bytes} (hv : Named v list) (hl : v.length ≤ maxString) (p : UInt8) (seq : Nat) :
    ∀ m ∈ (step C W s ⟨51, seq, str v ++ [p]⟩).off, m ∈ s.off ∨ Exhausted C (step C W s ⟨51, seq, str v ++ [p]⟩) m := by
  have hs : step C W s ⟨51, seq, str v ++ [p]⟩ = failure C W s (str v ++ [p]) := by
    unfold step
    rw [if_neg (by rw [hr]; simp), if_neg (by simp), if_neg (by simp), if_pos ⟨rfl, hst⟩]
  have hf : failure C W s (str v ++ [p]) = if p.toNat ≠ 0 then userauth C W { resetKeys s with authlist := some list }
      else userauth C W { s with authlist := some list } := by
    unfold failure
    rw [getCstr_of_named hv [p] hl]
    simp only [getInt_cons]
    simp
  have hc := (reach_inv h).core
  rw [hs, hf]
  split
  · exact (userauth_spent (reset_core hc (some list)) hr (reset_sorted s)).given
  · exact (userauth_spent (list_core hc (some list)) hr (show Sorted s.keys from reach_sorted h)).given

end Verif.CliAuth
