/-
The client serves the requests of the server as it should.
-/
import Verif.Match.Props
import Verif.Loop.ServerProps
import Verif.Loop.ClientSpec

namespace Verif.Loop
open Verif Verif.Wire

theorem fwdPathFields_iff {p path : Bytes} : fwdPathFields p = some path ↔ FwdPath path p := by
  simp only [fwdPathFields, bind, Option.bind_eq_some_iff, Prod.exists, pure]
  constructor
  · rintro ⟨c, p1, h1, w, p2, h2, h3⟩
    split at h3
    · cases h3
      rename_i hp; subst hp
      obtain ⟨v, hv, rfl⟩ := cstr_iff.1 h1
      obtain ⟨h4, h5⟩ := getStr_some h2
      rw [h4, List.append_nil]
      exact .mk v w hv h5
    · cases h3
  · rintro ⟨v, w, hv, hw⟩
    refine ⟨path, str w, cstr_iff.2 ⟨v, hv, rfl⟩, w, [], ?_, by simp⟩
    have := getStr_append w [] hw
    rwa [List.append_nil] at this

theorem x11Fields_iff {p : Bytes} : (∃ x, x11Fields p = some x) ↔ X11From p := by
  simp only [x11Fields, bind, Option.bind_eq_some_iff, Prod.exists, pure]
  constructor
  · rintro ⟨o, n, c, p1, h1, w, p2, h2, h3⟩
    split at h3
    · rename_i hp; subst hp
      obtain ⟨v, hv, rfl⟩ := cstr_iff.1 h1
      obtain ⟨hw, rfl⟩ := u32_iff.1 h2
      rw [List.append_nil]
      exact .mk v c w hv hw
    · cases h3
  · rintro ⟨v, orig, port, hv, hp⟩
    exact ⟨orig, port, orig, be 4 port, cstr_iff.2 ⟨v, hv, rfl⟩, port, [], u32_iff.2 ⟨hp, by simp⟩, by simp⟩

/-! ### Connections -/

theorem connectTo_cases (W : CWorld) (host : Bytes) (port : Int) :
    (∃ a, connectTo W host port = ([], a) ∧ a = .failed) ∨
    (∃ q o, connectTo W host port = ([.connect q port], o) ∧ (o = .failed ∨ ∃ c, o = .connecting c) ∧
      ((port = -2 ∧ Address host q) ∨ (port ≠ -2 ∧ q = host))) := by
  unfold connectTo
  by_cases hp : port = -2
  · simp only [hp, if_true]
    cases hs : sunPath host with
    | none => exact .inl ⟨_, rfl, rfl⟩
    | some q =>
      refine .inr ?_
      cases W.connect with
      | none => exact ⟨q, _, rfl, .inl rfl, .inl ⟨trivial, sunPath_iff.1 hs⟩⟩
      | some c => exact ⟨q, _, rfl, .inr ⟨c, rfl⟩, .inl ⟨trivial, sunPath_iff.1 hs⟩⟩
  · simp only [hp, if_false]
    refine .inr ?_
    cases W.connect with
    | none => exact ⟨host, _, rfl, .inl rfl, .inr ⟨hp, rfl⟩⟩
    | some c => exact ⟨host, _, rfl, .inr ⟨c, rfl⟩, .inr ⟨hp, rfl⟩⟩

/-- What comes of a channel of the server's, and that it is invited. -/
theorem cOpenBy_ok {C : CCfg} {W : CWorld} {ops : List Permit.COp} {p ctype rest : Bytes} {rchan : Nat} {win max : Nat}
    (ho : Opening ctype rchan rest p) :
    (∀ a ∈ (cOpenBy C W (Permit.crun [] ops) ctype rchan win max rest).1, a.quiet ∧ Invited C W.now ops p a) ∧
    (cOpenBy C W (Permit.crun [] ops) ctype rchan win max rest).2 ≠ .proxied ∧
    ((cOpenBy C W (Permit.crun [] ops) ctype rchan win max rest).2 = .fatal ↔ ¬ CFit C W.now rest ctype) := by
  unfold cOpenBy
  split
  · rename_i ht; subst ht
    unfold fwdTcp
    split
    · rename_i hf
      refine ⟨by simp, by simp, ⟨fun _ h => ?_, fun _ => rfl⟩⟩
      cases h with
      | tcp host port oport h =>
        obtain ⟨o, h⟩ := tcpFields_iff.2 h
        rw [hf] at h; cases h
      | other _ h => exact h rfl
    rename_i host port orig oport hf
    have hT : TcpTarget host port oport rest := tcpFields_iff.1 ⟨orig, hf⟩
    have hfit : CFit C W.now rest tFwdTcp := .tcp host port oport hT
    have fin : ∀ x : List CAct × COpened, (∀ a ∈ x.1, a.quiet ∧ Invited C W.now ops p a) → x.2 ≠ .proxied → x.2 ≠ .fatal →
        (∀ a ∈ x.1, a.quiet ∧ Invited C W.now ops p a) ∧ x.2 ≠ .proxied ∧ (x.2 = .fatal ↔ ¬ CFit C W.now rest tFwdTcp) :=
      fun x h1 h2 h3 => ⟨h1, h2, fun h => absurd h h3, fun h => absurd hfit h⟩
    split
    · exact fin _ (by simp) (by simp) (by simp)
    rename_i hport
    split
    · exact fin _ (by simp) (by simp) (by simp)
    rename_i hoport
    by_cases hr : Permit.byListenAddress (Permit.crun [] ops) host port = .refuse
    · rw [hr]
      exact fin _ (by simp) (by simp) (by simp)
    obtain ⟨f, h1, h2, h3, h4⟩ := Permit.C22_client_tcp hr
    have inv : ∀ a, Leads f a → Invited C W.now ops p a := fun a ha =>
      .tcp host rest port oport rchan f a ho hT (by omega) (by omega) h1 h3 h4 ha
    rw [h2]
    unfold Permit.Fwd.target
    cases hc : f.connect with
    | inl path =>
      dsimp only
      rcases connectTo_cases W path (-2) with ⟨a, h, rfl⟩ | ⟨q, o, h, h5, h6⟩
      · rw [h]; exact fin _ (by simp) (by simp) (by simp)
      · rw [h]
        refine fin _ ?_ ?_ ?_
        · intro a ha
          simp only [List.mem_singleton] at ha
          subst ha
          refine ⟨trivial, inv _ (.path path q hc ?_)⟩
          rcases h6 with h6 | h6
          · exact h6.2
          · exact absurd rfl h6.1
        all_goals
          rcases h5 with h5 | ⟨c, h5⟩ <;> simp [h5]
    | inr hp =>
      obtain ⟨h, n⟩ := hp
      dsimp only
      by_cases hn : n = 0
      · subst hn
        rw [if_pos rfl]
        refine fin _ ?_ (by simp) (by simp)
        intro a ha
        simp only [List.mem_singleton] at ha
        subst ha
        exact ⟨trivial, inv _ (.socks h hc)⟩
      · rw [if_neg hn]
        dsimp only
        rcases connectTo_cases W h n with ⟨a, h', rfl⟩ | ⟨q, o, h', h5, h6⟩
        · rw [h']; exact fin _ (by simp) (by simp) (by simp)
        · rw [h']
          refine fin _ ?_ ?_ ?_
          · intro a ha
            simp only [List.mem_singleton] at ha
            subst ha
            rcases h6 with h6 | h6
            · exact absurd h6.1 (by omega)
            · rw [h6.2]
              exact ⟨trivial, inv _ (.tcp h n hc hn)⟩
          all_goals
            rcases h5 with h5 | ⟨c, h5⟩ <;> simp [h5]
  rename_i ht1
  split
  · rename_i ht; subst ht
    unfold fwdPath
    split
    · rename_i hf
      refine ⟨by simp, by simp, ⟨fun _ h => ?_, fun _ => rfl⟩⟩
      cases h with
      | path path h => rw [fwdPathFields_iff.2 h] at hf; cases hf
      | other _ _ h => exact h rfl
    rename_i path hf
    have hT : FwdPath path rest := fwdPathFields_iff.1 hf
    have hfit : CFit C W.now rest tFwdPath := .path path hT
    have fin : ∀ x : List CAct × COpened, (∀ a ∈ x.1, a.quiet ∧ Invited C W.now ops p a) → x.2 ≠ .proxied → x.2 ≠ .fatal →
        (∀ a ∈ x.1, a.quiet ∧ Invited C W.now ops p a) ∧ x.2 ≠ .proxied ∧ (x.2 = .fatal ↔ ¬ CFit C W.now rest tFwdPath) :=
      fun x h1 h2 h3 => ⟨h1, h2, fun h => absurd h h3, fun h => absurd hfit h⟩
    by_cases hr : Permit.byListenPath (Permit.crun [] ops) path = .refuse
    · rw [hr]
      exact fin _ (by simp) (by simp) (by simp)
    obtain ⟨f, h1, h2, h3⟩ := Permit.C22_client_path hr
    have inv : ∀ a, (Leads f a ∨ (∃ h, f.connect = .inr (h, 0) ∧ a = .connect h 0)) → Invited C W.now ops p a := fun a ha =>
      .path path rest rchan f a ho hT h1 h2 ha
    rw [h3]
    cases hc : f.connect with
    | inl path' =>
      dsimp only
      rcases connectTo_cases W path' (-2) with ⟨a, h, rfl⟩ | ⟨q, o, h, h5, h6⟩
      · rw [h]; exact fin _ (by simp) (by simp) (by simp)
      · rw [h]
        refine fin _ ?_ ?_ ?_
        · intro a ha
          simp only [List.mem_singleton] at ha
          subst ha
          refine ⟨trivial, inv _ (.inl (.path path' q hc ?_))⟩
          rcases h6 with h6 | h6
          · exact h6.2
          · exact absurd rfl h6.1
        all_goals
          rcases h5 with h5 | ⟨c, h5⟩ <;> simp [h5]
    | inr hp =>
      obtain ⟨h, n⟩ := hp
      dsimp only
      rcases connectTo_cases W h n with ⟨a, h', rfl⟩ | ⟨q, o, h', h5, h6⟩
      · rw [h']; exact fin _ (by simp) (by simp) (by simp)
      · rw [h']
        refine fin _ ?_ ?_ ?_
        · intro a ha
          simp only [List.mem_singleton] at ha
          subst ha
          rcases h6 with h6 | h6
          · exact absurd h6.1 (by omega)
          · rw [h6.2]
            refine ⟨trivial, inv _ ?_⟩
            by_cases hn : n = 0
            · subst hn
              exact .inr ⟨h, hc, rfl⟩
            · exact .inl (.tcp h n hc hn)
        all_goals
          rcases h5 with h5 | ⟨c, h5⟩ <;> simp [h5]
  rename_i ht2
  split
  · rename_i ht; subst ht
    unfold x11
    have notOther : ∀ {P : Prop}, CFit C W.now rest tX11 → ((C.x11 = true → C.x11Refuse = 0 ∨ W.now < C.x11Refuse → X11From rest) → P) → P := by
      intro P h hP
      cases h with
      | x11 h => exact hP h
      | other _ _ _ h => exact absurd rfl h
    split
    · rename_i hx
      refine ⟨by simp, by simp, ⟨fun h => (by cases h), fun h => absurd (CFit.x11 (fun h => ?_)) h⟩⟩
      rw [hx] at h; cases h
    split
    · rename_i hx hl
      refine ⟨by simp, by simp, ⟨fun h => (by cases h), fun h => absurd (CFit.x11 (fun _ h => ?_)) h⟩⟩
      obtain ⟨h1, h2⟩ := hl
      omega
    rename_i hx hl
    have hx : C.x11 = true := by simpa using hx
    have hl : C.x11Refuse = 0 ∨ W.now < C.x11Refuse := by
      by_cases h0 : C.x11Refuse = 0
      · exact .inl h0
      · refine .inr (Classical.byContradiction fun h => hl ⟨h0, by omega⟩)
    split
    · rename_i hf
      refine ⟨by simp, by simp, ⟨fun _ h => ?_, fun _ => rfl⟩⟩
      refine notOther h fun h => ?_
      obtain ⟨x, h⟩ := x11Fields_iff.2 (h hx hl)
      rw [hf] at h; cases h
    · rename_i x hf
      have hX := x11Fields_iff.1 ⟨x, hf⟩
      have hfit : CFit C W.now rest tX11 := .x11 fun _ _ => hX
      split
      all_goals
        refine ⟨?_, by simp, ⟨fun h => (by cases h), fun h => absurd hfit h⟩⟩
        intro a ha
        simp only [List.mem_singleton] at ha
        subst ha
        exact ⟨trivial, .x11 rest rchan ho hX hx hl⟩
  rename_i ht3
  have hfit : CFit C W.now rest ctype := .other ctype ht1 ht2 ht3
  split
  · rename_i ht; subst ht
    unfold agent
    split
    · exact ⟨by simp, by simp, ⟨fun h => (by cases h), fun h => absurd hfit h⟩⟩
    · rename_i ha
      split
      all_goals
        refine ⟨?_, by simp, ⟨fun h => (by cases h), fun h => absurd hfit h⟩⟩
        intro a ha
        simp only [List.mem_singleton] at ha
        subst ha
        exact ⟨trivial, .agent rest rchan ho (by simpa using ‹¬ C.agent = false›)⟩
  · exact ⟨by simp, by simp, ⟨fun h => (by cases h), fun h => absurd hfit h⟩⟩

theorem clientOpen_acts {C : CCfg} {W : CWorld} {ops : List Permit.COp} {p ctype rest : Bytes} {rchan : Nat} (ho : Opening ctype rchan rest p) :
    (clientOpen C W (Permit.crun [] ops) p = none ∧ ¬ CFit C W.now rest ctype) ∨
    ∃ l m, clientOpen C W (Permit.crun [] ops) p = some (l ++ [m]) ∧ CFit C W.now rest ctype ∧
      (∀ a ∈ l, a.quiet ∧ Invited C W.now ops p a) ∧
      (m = .send (failure rchan 1 openFailed) ∨ (∃ c w x, m = .send (confirmation rchan c w x)) ∨ ∃ c, m = .pending c rchan) := by
  obtain ⟨win, max, h⟩ := openHead_iff.2 ho
  have hk := cOpenBy_ok (C := C) (W := W) (ops := ops) (win := win) (max := max) ho
  unfold clientOpen
  rw [h]
  dsimp only
  rcases hb : cOpenBy C W (Permit.crun [] ops) ctype rchan win max rest with ⟨l, o⟩
  rw [hb] at hk
  obtain ⟨h1, h2, h3⟩ := hk
  cases o with
  | fatal => exact .inl ⟨rfl, h3.1 rfl⟩
  | proxied => exact absurd rfl h2
  | failed => exact .inr ⟨l, _, rfl, Classical.byContradiction fun h => (by cases h3.2 h), h1, .inl rfl⟩
  | opened c w m => exact .inr ⟨l, _, rfl, Classical.byContradiction fun h => (by cases h3.2 h), h1, .inr (.inl ⟨c, w, m, rfl⟩)⟩
  | connecting c => exact .inr ⟨l, _, rfl, Classical.byContradiction fun h => (by cases h3.2 h), h1, .inr (.inr ⟨c, rfl⟩)⟩

/-- Whatever the client connects to for a channel the server opens, it has been invited to: by ForwardX11 and before its timeout,
by ForwardAgent, or by a remote forwarding the client asked for. -/
theorem C113_invited {C : CCfg} {W : CWorld} {ops : List Permit.COp} {p : Bytes} {l : List CAct} {a : CAct}
    (h : clientOpen C W (Permit.crun [] ops) p = some l) (ha : a ∈ l) (hq : a.quiet) : Invited C W.now ops p a := by
  cases hh : openHead p with
  | none => unfold clientOpen at h; rw [hh] at h; cases h
  | some x =>
    obtain ⟨ctype, rchan, win, max, rest⟩ := x
    have ho := openHead_iff.1 ⟨win, max, hh⟩
    rcases clientOpen_acts (C := C) (W := W) (ops := ops) ho with ⟨h1, -⟩ | ⟨l', m, h1, -, h2, h3⟩
    · rw [h1] at h; cases h
    · rw [h1] at h; cases h
      rcases List.mem_append.1 ha with ha | ha
      · exact (h2 a ha).2
      · simp only [List.mem_singleton] at ha
        subst ha
        rcases h3 with rfl | ⟨_, _, _, rfl⟩ | ⟨_, rfl⟩ <;> exact absurd hq id

/-- Full claim: a Unix socket the client connects to is one that a remote forwarding it asked for leads to.  Missing: paths of 108
bytes, see `C112_path_original_false`. -/
theorem C113_path_partial {C : CCfg} {now : Nat} {ops : List Permit.COp} {p q : Bytes} (h : Invited C now ops p (.connect q (-2))) :
    ∃ f path, Permit.COp.request f ∈ ops ∧ f.connect = .inl path ∧ (path.length ≠ 108 → q = path) := by
  have lead : ∀ f, Leads f (.connect q (-2)) → ∃ path, f.connect = .inl path ∧ (path.length ≠ 108 → q = path) := by
    intro f h
    generalize hx : CAct.connect q (-2) = x at h
    cases h with
    | path path q' hc ha =>
      cases hx
      refine ⟨path, hc, fun hl => ?_⟩
      rw [ha.2, List.take_of_length_le (by have := ha.1; omega)]
    | tcp host port hc =>
      simp only [CAct.connect.injEq] at hx
      omega
    | socks => cases hx
  generalize hx : CAct.connect q (-2) = x at h
  cases h with
  | x11 => cases hx
  | agent => cases hx
  | tcp _ _ _ _ _ f _ _ _ _ _ hm _ _ hl =>
    subst hx
    obtain ⟨path, h1, h2⟩ := lead f hl
    exact ⟨f, path, hm, h1, h2⟩
  | path _ _ _ f _ _ _ hm _ hl =>
    subst hx
    rcases hl with hl | ⟨h, _, hl⟩
    · obtain ⟨path, h1, h2⟩ := lead f hl
      exact ⟨f, path, hm, h1, h2⟩
    · simp only [CAct.connect.injEq] at hl
      omega

/-- An invited X11 or agent connection is made. -/
theorem C113_served {C : CCfg} {W : CWorld} {ops : List Permit.COp} {p : Bytes} {a : CAct} (h : Invited C W.now ops p a)
    (ha : a = .x11 ∨ a = .agent) : ∃ l, clientOpen C W (Permit.crun [] ops) p = some l ∧ a ∈ l := by
  have nolead : ∀ f, Leads f a → False := by
    intro f h
    cases h <;> rcases ha with ha | ha <;> cases ha
  cases h with
  | x11 rest rchan ho hx h1 h2 =>
    obtain ⟨win, max, hh⟩ := openHead_iff.2 ho
    obtain ⟨x, hx⟩ := x11Fields_iff.2 hx
    have hn : ¬ (C.x11Refuse ≠ 0 ∧ W.now ≥ C.x11Refuse) := by omega
    unfold clientOpen
    rw [hh]
    dsimp only
    unfold cOpenBy x11
    rw [if_neg (by decide), if_neg (by decide), if_pos (c := (b!"x11" : Bytes) = tX11) rfl, if_neg (by simp [h1]), if_neg hn, hx]
    cases W.x11 with
    | none => exact ⟨_, rfl, by simp⟩
    | some c => exact ⟨_, rfl, by simp⟩
  | agent rest rchan ho h1 =>
    obtain ⟨win, max, hh⟩ := openHead_iff.2 ho
    unfold clientOpen
    rw [hh]
    dsimp only
    unfold cOpenBy agent
    rw [if_neg (by decide), if_neg (by decide), if_neg (by decide), if_pos (c := (b!"auth-agent@openssh.com" : Bytes) = tAgent) rfl,
      if_neg (by simp [h1])]
    cases W.agent with
    | none => exact ⟨_, rfl, by simp⟩
    | some c => exact ⟨_, rfl, by simp⟩
  | tcp _ _ _ _ _ f _ _ _ _ _ _ _ _ hl => exact absurd hl (nolead f)
  | path _ _ _ f _ _ _ _ _ hl =>
    rcases hl with hl | ⟨h, _, hl⟩
    · exact absurd hl (nolead f)
    · rcases ha with ha | ha <;> rw [ha] at hl <;> cases hl

/-- A connection for a remote forwarding is made where the first one that listens at the address leads. -/
theorem C113_forwarded {C : CCfg} {W : CWorld} {ops : List Permit.COp} {p rest host h : Bytes} {port oport rchan n : Nat}
    (ho : Opening b!"forwarded-tcpip" rchan rest p) (ht : TcpTarget host port oport rest) (hp : port ≤ 65535) (hq : oport ≤ 65535)
    (hl : Permit.byListenAddress (Permit.crun [] ops) host port = .connect h n) :
    ∃ l, clientOpen C W (Permit.crun [] ops) p = some l ∧ .connect h n ∈ l := by
  obtain ⟨win, max, hh⟩ := openHead_iff.2 ho
  obtain ⟨orig, hf⟩ := tcpFields_iff.2 ht
  have h2 : ¬ (n : Int) = -2 := by omega
  unfold clientOpen
  rw [hh]
  dsimp only
  unfold cOpenBy fwdTcp
  rw [if_pos (c := (b!"forwarded-tcpip" : Bytes) = tFwdTcp) rfl, hf]
  dsimp only
  rw [if_neg (by omega), if_neg (by omega), hl]
  dsimp only
  unfold connectTo
  rw [if_neg h2]
  cases W.connect with
  | none => exact ⟨_, rfl, by simp⟩
  | some c => exact ⟨_, rfl, by simp⟩

/-- Each channel the server opens is answered once, with the server's own number, unless the connection is over. -/
theorem C113_answered {C : CCfg} {W : CWorld} {ops : List Permit.COp} {p ctype rest : Bytes} {rchan : Nat} {l : List CAct}
    (ho : Opening ctype rchan rest p) (h : clientOpen C W (Permit.crun [] ops) p = some l) : CAnswered rchan l := by
  rcases clientOpen_acts (C := C) (W := W) (ops := ops) ho with ⟨h1, -⟩ | ⟨l', m, h1, -, h2, h3⟩
  · rw [h1] at h; cases h
  · rw [h1] at h; cases h
    rcases h3 with rfl | ⟨c, w, x, rfl⟩ | ⟨c, rfl⟩
    · exact .failed l' _ _ fun a ha => (h2 a ha).1
    · exact .opened l' _ _ _ fun a ha => (h2 a ha).1
    · exact .pending l' _ fun a ha => (h2 a ha).1

/-- What is done and answered, by how the request ended. -/
private def ctold (rchan : Nat) : List CAct × COpened → Option (List CAct)
  | (_, .fatal) => none
  | (l, .failed) => some (l ++ [.send (failure rchan 1 openFailed)])
  | (l, .opened c w m) => some (l ++ [.send (confirmation rchan c w m)])
  | (l, .connecting c) => some (l ++ [.pending c rchan])
  | (_, .proxied) => none

private theorem cOpenBy_told (C : CCfg) (W : CWorld) (perms : List Permit.Perm) (ctype rest : Bytes) (rchan win max : Nat) :
    ∀ x, ctold rchan (cOpenBy C W perms ctype rchan win max rest) = some x → COutcome W rchan x := by
  have fat : ∀ l x, ctold rchan (l, .fatal) = some x → COutcome W rchan x := by intro l x h; cases h
  have ref : ∀ x, ctold rchan ([], .failed) = some x → COutcome W rchan x := by intro x h; cases h; exact .refused
  have conn : ∀ a n x, ctold rchan (connectTo W a n) = some x → COutcome W rchan x := by
    intro a n
    unfold connectTo
    split
    · exact ref
    split
    · rename_i c hw
      intro x h; cases h; exact .connect _ _ c hw
    · rename_i hw
      intro x h; cases h; exact .connectNot _ _ hw
  unfold cOpenBy
  split
  · unfold fwdTcp
    split
    · exact fat _
    split
    · exact ref
    split
    · exact ref
    split
    · exact ref
    · intro x h; cases h; exact .socks
    · exact conn _ _
    · intro x h; cases h
  split
  · unfold fwdPath
    split
    · exact fat _
    split
    · exact conn _ _
    · exact ref
  split
  · unfold x11
    split
    · exact ref
    split
    · exact ref
    split
    · exact fat _
    split
    · rename_i hw
      intro x h; cases h; exact .x11Not hw
    · rename_i c hw
      intro x h; cases h; exact .x11 c hw
  split
  · unfold agent
    split
    · exact ref
    split
    · rename_i hw
      intro x h; cases h; exact .agentNot hw
    · rename_i c hw
      intro x h; cases h; exact .agent c hw
  · exact ref

/-- The answer says what has come of it: what was done, and whether it succeeded. -/
theorem C113_outcome {C : CCfg} {W : CWorld} {ops : List Permit.COp} {p ctype rest : Bytes} {rchan : Nat} {l : List CAct}
    (ho : Opening ctype rchan rest p) (h : clientOpen C W (Permit.crun [] ops) p = some l) : COutcome W rchan l := by
  obtain ⟨win, max, hh⟩ := openHead_iff.2 ho
  have hk := (cOpenBy_ok (C := C) (W := W) (ops := ops) (win := win) (max := max) ho).2.1
  have hf := cOpenBy_told C W (Permit.crun [] ops) ctype rest rchan win max
  unfold clientOpen at h
  rw [hh] at h
  dsimp only at h
  rcases hb : cOpenBy C W (Permit.crun [] ops) ctype rchan win max rest with ⟨l', o⟩
  rw [hb] at h hk hf
  cases o with
  | fatal => cases h
  | proxied => exact absurd rfl hk
  | failed => cases h; exact hf _ rfl
  | opened c w m => cases h; exact hf _ rfl
  | connecting c => cases h; exact hf _ rfl

/-- The connection ends at such a message if and only if it is malformed. -/
theorem C113_goes_on (C : CCfg) (W : CWorld) (ops : List Permit.COp) (p : Bytes) :
    (∃ l, clientOpen C W (Permit.crun [] ops) p = some l) ↔ ∃ ctype rchan rest, Opening ctype rchan rest p ∧ CFit C W.now rest ctype := by
  constructor
  · rintro ⟨l, h⟩
    cases hh : openHead p with
    | none => unfold clientOpen at h; rw [hh] at h; cases h
    | some x =>
      obtain ⟨ctype, rchan, win, max, rest⟩ := x
      have ho := openHead_iff.1 ⟨win, max, hh⟩
      rcases clientOpen_acts (C := C) (W := W) (ops := ops) ho with ⟨h1, -⟩ | ⟨l', m, h1, h2, -⟩
      · rw [h1] at h; cases h
      · exact ⟨ctype, rchan, rest, ho, h2⟩
  · rintro ⟨ctype, rchan, rest, ho, hf⟩
    rcases clientOpen_acts (C := C) (W := W) (ops := ops) ho with ⟨-, h1⟩ | ⟨l', m, h1, -⟩
    · exact absurd hf h1
    · exact ⟨_, h1⟩

/-- Of the server's global requests only the announcement of host keys is acted on; each is answered if and only if an answer is
wanted. -/
theorem C113_global (W : CWorld) (p : Bytes) (l : List CAct) :
    clientGlobal W p = some l ↔ ∃ rtype want rest, Global rtype want rest p ∧ Told W rtype rest want l := by
  constructor
  · intro h
    unfold clientGlobal at h
    split at h
    · cases h
    rename_i rtype want rest hh
    refine ⟨rtype, want, rest, globalHead_iff.1 hh, ?_⟩
    split at h
    · rename_i ht
      cases want with
      | false => cases h; exact .keys ht
      | true =>
        cases hw : W.hostkeys <;> rw [hw] at h <;> cases h
        · exact .keysNot ht hw
        · exact .keysDone ht hw
    · rename_i ht
      cases want with
      | false => cases h; exact .other ht
      | true => cases h; exact .refused ht
  · rintro ⟨rtype, want, rest, hg, ht⟩
    unfold clientGlobal
    rw [globalHead_iff.2 hg]
    dsimp only
    cases ht with
    | keys h => rw [if_pos (c := rtype = gHostkeys) h]; rfl
    | keysDone h hw => rw [if_pos (c := rtype = gHostkeys) h, hw]; rfl
    | keysNot h hw => rw [if_pos (c := rtype = gHostkeys) h, hw]; rfl
    | other h => rw [if_neg (c := rtype = gHostkeys) h]; rfl
    | refused h => rw [if_neg (c := rtype = gHostkeys) h]; rfl

/-! ### Answers and keep-alives -/

/-- The requests a queue stands for. -/
def expand : List Waiting → List Nat
  | [] => []
  | w :: q => List.replicate w.count w.who ++ expand q

theorem expand_append (a b : List Waiting) : expand (a ++ b) = expand a ++ expand b := by
  induction a with
  | nil => rfl
  | cons w a ih => simp [expand, ih]

theorem register_ok (q : List Waiting) (w : Nat) (hq : ∀ x ∈ q, 1 ≤ x.count) :
    expand (register q w) = expand q ++ [w] ∧ ∀ x ∈ register q w, 1 ≤ x.count := by
  unfold register
  cases hl : q.getLast? with
  | none =>
    rw [List.getLast?_eq_none_iff] at hl
    subst hl
    exact ⟨rfl, by simp⟩
  | some x =>
    have hx : q.dropLast ++ [x] = q := by
      obtain ⟨ys, hy⟩ := List.getLast?_eq_some_iff.1 hl
      rw [hy, List.dropLast_concat]
    dsimp only
    split
    · rename_i hw
      refine ⟨?_, ?_⟩
      · rw [← hx] at *
        simp only [List.dropLast_concat] at *
        rw [expand_append, expand_append]
        simp only [expand, List.append_nil, hw, List.replicate_succ', List.append_assoc]
      · intro y hy
        rcases List.mem_append.1 hy with hy | hy
        · exact hq y (List.dropLast_subset q hy)
        · simp only [List.mem_singleton] at hy
          subst hy
          simp
    · refine ⟨by rw [expand_append]; rfl, ?_⟩
      intro y hy
      rcases List.mem_append.1 hy with hy | hy
      · exact hq y hy
      · simp only [List.mem_singleton] at hy
        subst hy
        simp

theorem reply_ok (q : List Waiting) (hq : ∀ x ∈ q, 1 ≤ x.count) :
    (reply q).1 = (expand q).head? ∧ expand (reply q).2 = (expand q).tail ∧ ∀ x ∈ (reply q).2, 1 ≤ x.count := by
  cases q with
  | nil => exact ⟨rfl, rfl, by simp [reply]⟩
  | cons w q =>
    have h1 := hq w (by simp)
    obtain ⟨n, hn⟩ : ∃ n, w.count = n + 1 := ⟨w.count - 1, by omega⟩
    simp only [reply, expand, hn, List.replicate_succ, List.cons_append, List.head?_cons, List.tail_cons, Nat.add_sub_cancel]
    refine ⟨trivial, ?_, ?_⟩
    · split
      · have : n = 0 := by omega
        subst this
        simp
      · rfl
    · split
      · intro x hx; exact hq x (by simp [hx])
      · intro x hx
        rcases List.mem_cons.1 hx with rfl | hx
        · show 1 ≤ n; omega
        · exact hq x (by simp [hx])

/-- Each answer of the server to a global request is given to the one who made the request it answers: the client counts
neighbouring requests of one party together, and that makes no difference. -/
theorem C115_fifo (ops : List QOp) : queue [] ops = fifo [] ops := by
  suffices h : ∀ q, (∀ x ∈ q, 1 ≤ x.count) → queue q ops = fifo (expand q) ops from h [] (by simp)
  induction ops with
  | nil => intro q _; rfl
  | cons o ops ih =>
    intro q hq
    cases o with
    | request w =>
      obtain ⟨h1, h2⟩ := register_ok q w hq
      simp only [queue, fifo]
      rw [ih _ h2, h1]
    | answer =>
      obtain ⟨h1, h2, h3⟩ := reply_ok q hq
      simp only [queue, fifo]
      rw [ih _ h3, h1, h2]

theorem silent_heard {n : Nat} (hn : 0 < n) {m : Nat} {l : List Tick} (hm : m < n) :
    Silent n (List.replicate m .timeout ++ .heard :: l) ↔ Silent n l := by
  constructor
  · rintro ⟨a, b, h⟩
    -- the run cannot begin before the message
    by_cases ha : m < a.length
    · refine ⟨a.drop (m + 1), b, ?_⟩
      have := congrArg (List.drop (m + 1)) h
      rw [List.drop_append, List.drop_of_length_le (by simp), List.append_assoc, List.drop_append, List.length_replicate,
        Nat.add_sub_cancel_left] at this
      have hz : m + 1 - a.length = 0 := by omega
      rw [hz] at this
      simpa using this
    · exfalso
      have h1 : (List.replicate m Tick.timeout ++ .heard :: l)[m]? = some .heard := by
        rw [List.getElem?_append_right (by simp)]; simp
      rw [h, List.append_assoc, List.getElem?_append_right (by omega), List.getElem?_append_left (by simp; omega)] at h1
      rw [List.getElem?_replicate] at h1
      split at h1 <;> simp at h1
  · rintro ⟨a, b, rfl⟩
    exact ⟨List.replicate m .timeout ++ .heard :: a, b, by simp⟩

theorem silent_short {n m : Nat} (h : m < n) : ¬ Silent n (List.replicate m .timeout) := by
  rintro ⟨a, b, h'⟩
  have := congrArg List.length h'
  simp at this
  omega

theorem clientAlive_ok (max : Nat) (l : List Tick) : ∀ n, n ≤ max →
    ((clientAlive max n l).2 = true ↔ Silent (max + 1) (List.replicate n .timeout ++ l)) ∧
    ((clientAlive max n l).2 = false → (clientAlive max n l).1 = l.count .timeout) := by
  induction l with
  | nil =>
    intro n hn
    rw [List.append_nil]
    exact ⟨⟨fun h => (by cases h), fun h => absurd h (silent_short (by omega))⟩, fun _ => rfl⟩
  | cons t l ih =>
    intro n hn
    cases t with
    | heard =>
      obtain ⟨h1, h2⟩ := ih 0 (by omega)
      rw [silent_heard (by omega) (by omega)]
      simp only [clientAlive]
      exact ⟨h1, fun h => by rw [h2 h]; simp⟩
    | timeout =>
      have hr : List.replicate n Tick.timeout ++ .timeout :: l = List.replicate (n + 1) .timeout ++ l := by
        rw [List.replicate_succ']; simp
      rw [hr]
      simp only [clientAlive]
      split
      · have : n = max := by omega
        subst this
        exact ⟨⟨fun _ => ⟨[], l, by simp⟩, fun _ => rfl⟩, fun h => (by cases h)⟩
      · obtain ⟨h1, h2⟩ := ih (n + 1) (by omega)
        exact ⟨h1, fun h => by simp only [h2 h]; simp⟩

/-- The client gives up exactly when more than ServerAliveCountMax intervals in a row have passed without a word from the server;
until then it sends one keep-alive for each. -/
theorem C115_client_alive (max : Nat) (l : List Tick) :
    ((clientAlive max 0 l).2 = true ↔ Silent (max + 1) l) ∧ ((clientAlive max 0 l).2 = false → (clientAlive max 0 l).1 = l.count .timeout) := by
  simpa using clientAlive_ok max l 0 (by omega)

theorem serverAlive_pos (max : Nat) (hm : max > 0) (l : List Tick) : ∀ n, serverAlive max n l = clientAlive max n l := by
  induction l with
  | nil => intro n; rfl
  | cons t l ih =>
    intro n
    cases t with
    | heard => simp only [serverAlive, clientAlive, ih]
    | timeout => simp only [serverAlive, clientAlive, ih, hm, true_and, if_true]

/-- The same for the server and ClientAliveCountMax, except that 0 means it never gives up. -/
theorem C115_server_alive (max : Nat) (l : List Tick) :
    ((serverAlive max 0 l).2 = true ↔ max > 0 ∧ Silent (max + 1) l) ∧
      ((serverAlive max 0 l).2 = false → (serverAlive max 0 l).1 = l.count .timeout) := by
  by_cases hm : max > 0
  · rw [serverAlive_pos max hm l 0]
    obtain ⟨h1, h2⟩ := C115_client_alive max l
    exact ⟨by rw [h1]; simp [hm], h2⟩
  · have : max = 0 := by omega
    subst this
    have key : ∀ n, serverAlive 0 n l = (l.count .timeout, false) := by
      induction l with
      | nil => intro n; rfl
      | cons t l ih =>
        intro n
        cases t with
        | heard => simp only [serverAlive, ih]; simp
        | timeout => simp only [serverAlive, ih]; simp
    rw [key]
    simp

/-! ### Starting a session -/

theorem splitVar_none {e : Bytes} : splitVar e = none ↔ 61 ∉ e := by
  induction e with
  | nil => simp [splitVar]
  | cons c e ih =>
    simp only [splitVar]
    split
    · rename_i h; simp [h]
    · rename_i hc
      have hc : ¬ (61 : UInt8) = c := fun h => hc h.symm
      cases hs : splitVar e with
      | none => simp [hc, ih.1 hs]
      | some x =>
        simp only [List.mem_cons, hc, false_or, reduceCtorEq, false_iff]
        intro h
        rw [ih.2 h] at hs; cases hs

theorem splitVar_some {e n v : Bytes} : splitVar e = some (n, v) ↔ Var n v e := by
  unfold Var
  induction e generalizing n with
  | nil => simp [splitVar]
  | cons c e ih =>
    simp only [splitVar]
    split
    · rename_i h
      subst h
      constructor
      · intro h; cases h; simp
      · rintro ⟨h1, h2⟩
        cases n with
        | nil => cases h2; rfl
        | cons x n =>
          simp only [List.cons_append, List.cons.injEq] at h2
          rw [← h2.1] at h1
          simp at h1
    · rename_i hc
      have hc' : ¬ (61 : UInt8) = c := fun h => hc h.symm
      constructor
      · intro h
        cases hs : splitVar e with
        | none => rw [hs] at h; cases h
        | some x =>
          obtain ⟨n', v'⟩ := x
          rw [hs] at h; cases h
          obtain ⟨h1, h2⟩ := ih.1 hs
          exact ⟨by simp [hc', h1], by rw [h2]; rfl⟩
      · rintro ⟨h1, h2⟩
        cases n with
        | nil => cases h2; exact absurd rfl hc
        | cons x n =>
          simp only [List.cons_append, List.cons.injEq] at h2
          obtain ⟨rfl, h2⟩ := h2
          simp only [List.mem_cons, not_or] at h1
          rw [ih.2 ⟨h1.2, h2⟩]

theorem any_glob {pats : List Bytes} {n : Bytes} : pats.any (Match.matchPattern n) = true ↔ ∃ p ∈ pats, Match.Glob p n := by
  simp only [List.any_eq_true, Match.C05_match_pattern]

theorem sendEnv_sent (pats env : List Bytes) : Sent pats env (sendEnv pats env) := by
  induction env with
  | nil => exact .nil
  | cons e env ih =>
    simp only [sendEnv]
    split
    · rename_i h; exact .none _ _ _ (splitVar_none.1 h) ih
    · rename_i n v h
      split
      · rename_i hm; exact .sent n v _ _ _ (splitVar_some.1 h) (any_glob.1 hm) ih
      · rename_i hm; exact .other n v _ _ _ (splitVar_some.1 h) (fun h => hm (any_glob.2 h)) ih

theorem Sent.det {pats env : List Bytes} {l l' : List Rq} (h : Sent pats env l) (h' : Sent pats env l') : l = l' := by
  have nov : ∀ {n v e : Bytes}, Var n v e → 61 ∉ e → False := fun {n v e} h h' => by
    have := splitVar_none.2 h'
    rw [splitVar_some.2 h] at this; cases this
  have same : ∀ {n v n' v' e : Bytes}, Var n v e → Var n' v' e → n = n' ∧ v = v' := fun {n v n' v' e} h h' => by
    have := splitVar_some.2 h
    rw [splitVar_some.2 h'] at this
    cases this; exact ⟨rfl, rfl⟩
  induction h generalizing l' with
  | nil => cases h'; rfl
  | sent n v e es l hv hm _ ih =>
    cases h' with
    | sent n' v' _ _ l'' hv' _ h'' => obtain ⟨rfl, rfl⟩ := same hv hv'; rw [ih h'']
    | other n' v' _ _ _ hv' hm' h'' => obtain ⟨rfl, rfl⟩ := same hv hv'; exact absurd hm hm'
    | none _ _ _ h => exact (nov hv h).elim
  | other n v e es l hv hm _ ih =>
    cases h' with
    | sent n' v' _ _ l'' hv' hm' h'' => obtain ⟨rfl, rfl⟩ := same hv hv'; exact absurd hm' hm
    | other n' v' _ _ _ hv' hm' h'' => exact ih h''
    | none _ _ _ h => exact (nov hv h).elim
  | none e es l he _ ih =>
    cases h' with
    | sent n' v' _ _ l'' hv' hm' h'' => exact (nov hv' he).elim
    | other n' v' _ _ _ hv' hm' h'' => exact (nov hv' he).elim
    | none _ _ _ h h'' => exact ih h''

theorem setEnv_sent (l : List Bytes) : Sent [[42]] l (setEnv l) := by
  induction l with
  | nil => exact .nil
  | cons e l ih =>
    simp only [setEnv]
    split
    · rename_i h; exact .none _ _ _ (splitVar_none.1 h) ih
    · rename_i n v h
      refine .sent n v _ _ _ (splitVar_some.1 h) ⟨[42], by simp, ?_⟩ ih
      have := Match.Glob.star n .nil
      rwa [List.append_nil] at this

/-- The client begins a session with the terminal, if there is one, then the variables of its environment that SendEnv names, then
all of SetEnv, and at the end the one thing that is to be run. -/
theorem C116_setup (S : Start) :
    ∃ env set, Sent S.sendEnv S.env env ∧ Sent [[42]] S.setEnv set ∧
      setup S = (S.tty.map (Rq.mk b!"pty-req" true)).toList ++ env ++ set ++ [theRequest S] := by
  refine ⟨sendEnv S.sendEnv S.env, setEnv S.setEnv, sendEnv_sent _ _, setEnv_sent _, ?_⟩
  have h2 : (if S.sendEnv.length ≠ 0 then sendEnv S.sendEnv S.env else []) = sendEnv S.sendEnv S.env := by
    split
    · rfl
    · rename_i h
      have h0 : S.sendEnv = [] := List.length_eq_zero_iff.1 (by simpa using h)
      rw [h0]
      induction S.env with
      | nil => rfl
      | cons e l ih =>
        simp only [sendEnv]
        split
        · exact ih
        · simp only [List.any_nil, Bool.false_eq_true, if_false]
          exact ih
  unfold setup
  rw [h2]
  cases S.tty <;> rfl

/-- A variable leaves the client only if SendEnv or SetEnv says so, and with the value it has there. -/
theorem C116_only {S : Start} {r : Rq} (h : r ∈ setup S) (hn : r.name = b!"env") :
    ∃ n v e, Var n v e ∧ r = ⟨b!"env", false, str n ++ str v⟩ ∧
      ((e ∈ S.env ∧ ∃ p ∈ S.sendEnv, Match.Glob p n) ∨ e ∈ S.setEnv) := by
  obtain ⟨env, set, h1, h2, h3⟩ := C116_setup S
  have mem : ∀ {pats es l}, Sent pats es l → r ∈ l →
      ∃ n v e, Var n v e ∧ r = ⟨b!"env", false, str n ++ str v⟩ ∧ e ∈ es ∧ ∃ p ∈ pats, Match.Glob p n := by
    intro pats es l hs hr
    induction hs with
    | nil => cases hr
    | sent n v e es l hv hm _ ih =>
      rcases List.mem_cons.1 hr with rfl | hr
      · exact ⟨n, v, e, hv, rfl, by simp, hm⟩
      · obtain ⟨n, v, e, a, b, c, d⟩ := ih hr
        exact ⟨n, v, e, a, b, by simp [c], d⟩
    | other _ _ _ _ _ _ _ _ ih =>
      obtain ⟨n, v, e, a, b, c, d⟩ := ih hr
      exact ⟨n, v, e, a, b, by simp [c], d⟩
    | none _ _ _ _ _ ih =>
      obtain ⟨n, v, e, a, b, c, d⟩ := ih hr
      exact ⟨n, v, e, a, b, by simp [c], d⟩
  rw [h3] at h
  simp only [List.mem_append, List.mem_singleton] at h
  rcases h with ((h | h) | h) | h
  · cases ht : S.tty with
    | none => rw [ht] at h; simp at h
    | some t =>
      rw [ht] at h
      simp only [Option.map_some, Option.toList_some, List.mem_singleton] at h
      rw [h] at hn; cases hn
  · obtain ⟨n, v, e, a, b, c, d⟩ := mem h1 h
    exact ⟨n, v, e, a, b, .inl ⟨c, d⟩⟩
  · obtain ⟨n, v, e, a, b, c, d⟩ := mem h2 h
    exact ⟨n, v, e, a, b, .inr c⟩
  · rw [h] at hn
    unfold theRequest at hn
    split at hn
    · split at hn <;> cases hn
    · cases hn

/-- What is run: the command as it was given, through a shell or as a subsystem; without one, a shell.  It is asked for once, last,
and the server must answer. -/
theorem C116_run (S : Start) : ∃ l r, setup S = l ++ [r] ∧ r.want = true ∧
    (∀ x ∈ l, x.name ≠ b!"exec" ∧ x.name ≠ b!"subsystem" ∧ x.name ≠ b!"shell") ∧
    ((S.command = [] ∧ r.name = b!"shell" ∧ r.rest = []) ∨
      (S.command ≠ [] ∧ S.subsystem = true ∧ r.name = b!"subsystem" ∧ r.rest = str S.command) ∨
      (S.command ≠ [] ∧ S.subsystem = false ∧ r.name = b!"exec" ∧ r.rest = str S.command)) := by
  obtain ⟨env, set, h1, h2, h3⟩ := C116_setup S
  have names : ∀ {pats es l}, Sent pats es l → ∀ x ∈ l, x.name = b!"env" := by
    intro pats es l hs
    induction hs with
    | nil => simp
    | sent _ _ _ _ _ _ _ _ ih => intro x hx; rcases List.mem_cons.1 hx with rfl | hx; rfl; exact ih x hx
    | other _ _ _ _ _ _ _ _ ih => exact ih
    | none _ _ _ _ _ ih => exact ih
  refine ⟨_, _, h3, ?_, ?_, ?_⟩
  · unfold theRequest
    split
    · split <;> rfl
    · rfl
  · intro x hx
    simp only [List.mem_append] at hx
    rcases hx with (hx | hx) | hx
    · cases ht : S.tty with
      | none => rw [ht] at hx; simp at hx
      | some t =>
        rw [ht] at hx
        simp only [Option.map_some, Option.toList_some, List.mem_singleton] at hx
        subst hx
        show (b!"pty-req" : Bytes) ≠ _ ∧ (b!"pty-req" : Bytes) ≠ _ ∧ (b!"pty-req" : Bytes) ≠ _
        decide
    · rw [names h1 x hx]; decide
    · rw [names h2 x hx]; decide
  · unfold theRequest
    cases hc : S.command with
    | nil => exact .inl ⟨rfl, rfl, rfl⟩
    | cons a b =>
      rw [if_pos (by simp)]
      cases S.subsystem with
      | true => exact .inr (.inl ⟨by simp, rfl, rfl, rfl⟩)
      | false => exact .inr (.inr ⟨by simp, rfl, rfl, rfl⟩)

end Verif.Loop
