/-
C112: what a client gets from the server outside of sessions.
-/
import Verif.Loop.ServerSpec
import Verif.Permit.Props

namespace Verif.Loop
open Verif Verif.Wire

/-! ### Reading -/

theorem cstr_iff {l s r : Bytes} : getCstr l = some (s, r) ↔ ∃ v, Written v s ∧ l = str v ++ r := by
  constructor
  · intro h
    obtain ⟨v, h1, h2, h3⟩ := getCstr_named h
    exact ⟨v, ⟨h1, h3⟩, h2⟩
  · rintro ⟨v, ⟨h1, h3⟩, rfl⟩
    exact getCstr_of_named h1 r h3

theorem u32_iff {l r : Bytes} {n : Nat} : getInt 4 l = some (n, r) ↔ U32 n ∧ l = be 4 n ++ r := by
  constructor
  · intro h
    obtain ⟨h1, h2⟩ := getInt_some h
    exact ⟨h2, h1⟩
  · rintro ⟨h, rfl⟩
    exact getInt_append 4 n r h

theorem openHead_iff {p ctype rest : Bytes} {rchan : Nat} :
    (∃ win max, openHead p = some (ctype, rchan, win, max, rest)) ↔ Opening ctype rchan rest p := by
  simp only [openHead, bind, Option.bind_eq_some_iff, Prod.exists, pure, Option.some.injEq, Prod.mk.injEq]
  constructor
  · rintro ⟨win, max, c, p1, h1, r, p2, h2, w, p3, h3, m, p4, h4, rfl, rfl, rfl, rfl, rfl⟩
    obtain ⟨v, hv, rfl⟩ := cstr_iff.1 h1
    obtain ⟨e2, rfl⟩ := u32_iff.1 h2
    obtain ⟨e3, rfl⟩ := u32_iff.1 h3
    obtain ⟨e4, rfl⟩ := u32_iff.1 h4
    have := Opening.mk (rest := p4) v w m hv e2 e3 e4
    simpa only [List.append_assoc] using this
  · rintro ⟨v, win, max, hv, e2, e3, e4⟩
    refine ⟨win, max, ctype, _, cstr_iff.2 ⟨v, hv, by simp only [List.append_assoc]⟩, rchan, _, u32_iff.2 ⟨e2, rfl⟩, win, _,
      u32_iff.2 ⟨e3, rfl⟩, max, _, u32_iff.2 ⟨e4, rfl⟩, rfl, rfl, rfl, rfl, rfl⟩

theorem tcpFields_iff {p host : Bytes} {port oport : Nat} :
    (∃ orig, tcpFields p = some (host, port, orig, oport)) ↔ TcpTarget host port oport p := by
  simp only [tcpFields, bind, Option.bind_eq_some_iff, Prod.exists, pure]
  constructor
  · rintro ⟨orig, h, p1, h1, n, p2, h2, o, p3, h3, m, p4, h4, h5⟩
    split at h5
    · simp only [Option.some.injEq, Prod.mk.injEq] at h5
      obtain ⟨rfl, rfl, rfl, rfl⟩ := h5
      obtain ⟨v, hv, rfl⟩ := cstr_iff.1 h1
      obtain ⟨e2, rfl⟩ := u32_iff.1 h2
      obtain ⟨o', ho, rfl⟩ := cstr_iff.1 h3
      obtain ⟨e4, rfl⟩ := u32_iff.1 h4
      rename_i hp
      subst hp
      have := TcpTarget.mk v o' o hv e2 ho e4
      simpa only [List.append_assoc, List.append_nil] using this
    · cases h5
  · rintro ⟨v, o, orig, hv, e2, ho, e4⟩
    refine ⟨orig, host, _, cstr_iff.2 ⟨v, hv, by simp only [List.append_assoc]; rfl⟩, port, _, u32_iff.2 ⟨e2, rfl⟩, orig, _,
      cstr_iff.2 ⟨o, ho, rfl⟩, oport, [], u32_iff.2 ⟨e4, by simp⟩, by simp⟩

theorem pathFields_iff {p path : Bytes} {oport : Nat} :
    (∃ orig, pathFields p = some (path, orig, oport)) ↔ PathTarget path oport p := by
  simp only [pathFields, bind, Option.bind_eq_some_iff, Prod.exists, pure]
  constructor
  · rintro ⟨orig, h, p1, h1, o, p3, h3, m, p4, h4, h5⟩
    split at h5
    · simp only [Option.some.injEq, Prod.mk.injEq] at h5
      obtain ⟨rfl, rfl, rfl⟩ := h5
      obtain ⟨v, hv, rfl⟩ := cstr_iff.1 h1
      obtain ⟨o', ho, rfl⟩ := cstr_iff.1 h3
      obtain ⟨e4, rfl⟩ := u32_iff.1 h4
      rename_i hp
      subst hp
      have := PathTarget.mk v o' o hv ho e4
      simpa only [List.append_assoc, List.append_nil] using this
    · cases h5
  · rintro ⟨v, o, orig, hv, ho, e4⟩
    refine ⟨orig, path, _, cstr_iff.2 ⟨v, hv, by simp only [List.append_assoc]; rfl⟩, orig, _,
      cstr_iff.2 ⟨o, ho, rfl⟩, oport, [], u32_iff.2 ⟨e4, by simp⟩, by simp⟩

theorem tunDevice_iff {C : SCfg} {dev d : Nat} : tunDevice C dev = some d ↔ DeviceFor C.forceTun dev d := by
  unfold tunDevice DeviceFor
  split
  · constructor
    · intro h; cases h
    · rintro ⟨h, -⟩; omega
  · split
    · rename_i hf
      rw [hf]
      simp
      constructor
      · rintro rfl; exact ⟨by omega, rfl⟩
      · rintro ⟨-, h⟩; exact h.symm
    · rename_i f hf
      rw [hf]
      simp
      constructor
      · rintro ⟨h, rfl⟩; exact ⟨by omega, rfl, by omega⟩
      · rintro ⟨-, rfl, h⟩; exact ⟨by omega, rfl⟩

theorem sunPath_iff {path q : Bytes} : sunPath path = some q ↔ Address path q := by
  unfold sunPath Address
  split
  · constructor
    · intro h; cases h
    · rintro ⟨h, -⟩; omega
  · constructor
    · intro h; cases h; exact ⟨by omega, rfl⟩
    · rintro ⟨-, h⟩; rw [h]

/-! ### Channels -/

/-- What a request to open a channel may lead to, after its head has been read. -/
structure Kinds (C : SCfg) (W : SWorld) (s : SSt) (p : Bytes) (ctype rest : Bytes) (l : List Act) : Prop where
  few : (∀ a ∈ l, ∀ q, a ≠ .send q) ∧ (∀ a ∈ l, ∀ x y, a ≠ .pending x y)
  fine : ∀ rchan, Opening ctype rchan rest p → ∀ a ∈ l, Entitled C s p a

theorem openBy_sort (C : SCfg) (W : SWorld) (s : SSt) (p ctype rest : Bytes) :
    Kinds C W s p ctype rest (openBy C W s ctype rest).1 := by
  have nil : Kinds C W s p ctype rest [] := ⟨⟨by simp, by simp⟩, by simp⟩
  have one : ∀ a : Act, (∀ q, a ≠ .send q) → (∀ x y, a ≠ .pending x y) → (∀ rchan, Opening ctype rchan rest p → Entitled C s p a) →
      Kinds C W s p ctype rest [a] := by
    intro a h1 h2 h3
    exact ⟨⟨by simpa using h1, by simpa using h2⟩, fun r hr => by simpa using h3 r hr⟩
  unfold openBy
  split
  · rename_i ht
    unfold session
    split
    · exact nil
    rename_i hp
    split
    · exact nil
    rename_i hn
    split
    · exact nil
    · refine one _ (by simp) (by simp) fun r hr => ?_
      have hp : rest = [] := Decidable.byContradiction hp
      rw [ht, hp] at hr
      exact .session _ r hr (by simpa using hn)
  split
  · rename_i ht
    unfold directTcp
    split
    · exact nil
    rename_i host port orig oport hf
    split
    · rename_i hperm
      split
      all_goals
        refine one _ (by simp) (by simp) fun r hr => ?_
        rw [ht] at hr
        exact .tcp host rest port oport r hr (tcpFields_iff.1 ⟨_, hf⟩) hperm
    · exact nil
  split
  · rename_i ht
    unfold directPath
    split
    · exact nil
    rename_i path orig oport hf
    split
    · rename_i hperm
      split
      · exact nil
      rename_i q hq
      split
      all_goals
        refine one _ (by simp) (by simp) fun r hr => ?_
        rw [ht] at hr
        exact .path path q rest oport r hr (pathFields_iff.1 ⟨_, hf⟩) hperm (sunPath_iff.1 hq)
    · exact nil
  split
  · rename_i ht
    unfold tun
    split
    · exact nil
    rename_i mode p1 h1
    split
    · exact nil
    rename_i hm
    split
    · exact nil
    rename_i hb
    split
    · exact nil
    rename_i dev more h2
    split
    · exact nil
    rename_i d hd
    obtain ⟨e1, rfl⟩ := u32_iff.1 h1
    obtain ⟨e2, rfl⟩ := u32_iff.1 h2
    split
    all_goals
      refine one _ (by simp) (by simp) fun r hr => ?_
      rw [ht] at hr
      refine .tun _ mode dev d r hr ?_ (by omega) hb (tunDevice_iff.1 hd)
      have := TunTarget.mk (mode := mode) (dev := dev) more e1 e2
      simpa only [List.append_assoc] using this
  · exact nil

theorem serverOpen_acts (C : SCfg) (W : SWorld) (s : SSt) (p : Bytes) :
    (serverOpen C W s p = ([], { s with ended := true }) ∧ ∀ ctype rchan rest, ¬ Opening ctype rchan rest p) ∨
    ∃ ctype rchan rest, Opening ctype rchan rest p ∧
      ((∃ l, openBy C W s ctype rest = (l, .fatal) ∧ serverOpen C W s p = (l, { s with ended := true })) ∨
        (∃ l reason msg, openBy C W s ctype rest = (l, .failed reason msg) ∧
          serverOpen C W s p = (l ++ [.send (failure rchan reason msg)], s)) ∨
        (∃ l c w m, openBy C W s ctype rest = (l, .opened c w m) ∧
          serverOpen C W s p = (l ++ [.send (confirmation rchan c w m)], s)) ∨
        (∃ l c, openBy C W s ctype rest = (l, .connecting c) ∧ serverOpen C W s p = (l ++ [.pending c rchan], s))) := by
  cases hh : openHead p with
  | none =>
    left
    refine ⟨by unfold serverOpen; rw [hh], fun ctype rchan rest h => ?_⟩
    obtain ⟨w, m, h⟩ := openHead_iff.2 h
    rw [hh] at h
    cases h
  | some v =>
    obtain ⟨ctype, rchan, win, max, rest⟩ := v
    right
    refine ⟨ctype, rchan, rest, openHead_iff.1 ⟨_, _, hh⟩, ?_⟩
    unfold serverOpen
    rw [hh]
    dsimp only
    generalize openBy C W s ctype rest = o
    obtain ⟨l, r⟩ := o
    cases r with
    | fatal => exact .inl ⟨l, rfl, rfl⟩
    | failed reason msg => exact .inr (.inl ⟨l, reason, msg, rfl, rfl⟩)
    | opened c w m => exact .inr (.inr (.inl ⟨l, c, w, m, rfl, rfl⟩))
    | connecting c => exact .inr (.inr (.inr ⟨l, c, rfl, rfl⟩))

/-- Whatever is done for a request to open a channel, the client is entitled to it. -/
theorem C112_entitled {C : SCfg} {W : SWorld} {s : SSt} {p : Bytes} {a : Act} (h : a ∈ (serverOpen C W s p).1)
    (hs : ∀ q, a ≠ .send q) (hp : ∀ x y, a ≠ .pending x y) : Entitled C s p a := by
  rcases serverOpen_acts C W s p with ⟨h1, -⟩ | ⟨ctype, rchan, rest, ho, h1 | h1 | h1 | h1⟩
  · rw [h1] at h; simp at h
  · obtain ⟨l, h2, h3⟩ := h1
    rw [h3] at h
    exact (openBy_sort C W s p ctype rest).fine rchan ho a (by rw [h2]; exact h)
  · obtain ⟨l, r, m, h2, h3⟩ := h1
    rw [h3] at h
    rcases List.mem_append.1 h with h | h
    · exact (openBy_sort C W s p ctype rest).fine rchan ho a (by rw [h2]; exact h)
    · exact absurd (List.mem_singleton.1 h) (hs _)
  · obtain ⟨l, c, w, m, h2, h3⟩ := h1
    rw [h3] at h
    rcases List.mem_append.1 h with h | h
    · exact (openBy_sort C W s p ctype rest).fine rchan ho a (by rw [h2]; exact h)
    · exact absurd (List.mem_singleton.1 h) (hs _)
  · obtain ⟨l, c, h2, h3⟩ := h1
    rw [h3] at h
    rcases List.mem_append.1 h with h | h
    · exact (openBy_sort C W s p ctype rest).fine rchan ho a (by rw [h2]; exact h)
    · exact absurd (List.mem_singleton.1 h) (hp _ _)

theorem Opening.det {c c' : Bytes} {r r' : Nat} {x x' p : Bytes} (h : Opening c r x p) (h' : Opening c' r' x' p) :
    c = c' ∧ r = r' ∧ x = x' := by
  obtain ⟨w, m, h⟩ := openHead_iff.2 h
  obtain ⟨w', m', h'⟩ := openHead_iff.2 h'
  rw [h] at h'
  simp only [Option.some.injEq, Prod.mk.injEq] at h'
  exact ⟨h'.1, h'.2.1, h'.2.2.2.2⟩

/-- What the client is entitled to is done (a session if there is room for one). -/
theorem C112_served {C : SCfg} {W : SWorld} {s : SSt} {p : Bytes} {a : Act} (h : Entitled C s p a)
    (hw : ∀ c, a = .session c → W.session = some c) : a ∈ (serverOpen C W s p).1 := by
  have key : ∀ ctype rchan rest, Opening ctype rchan rest p → a ∈ (openBy C W s ctype rest).1 → a ∈ (serverOpen C W s p).1 := by
    intro ctype rchan rest ho ha
    rcases serverOpen_acts C W s p with ⟨-, h1⟩ | ⟨ctype', rchan', rest', ho', h1⟩
    · exact absurd ho (h1 _ _ _)
    · obtain ⟨rfl, rfl, rfl⟩ := ho.det ho'
      rcases h1 with ⟨l, h2, h3⟩ | ⟨l, r, m, h2, h3⟩ | ⟨l, c, w, m, h2, h3⟩ | ⟨l, c, h2, h3⟩ <;> rw [h2] at ha <;> rw [h3]
      · exact ha
      all_goals exact List.mem_append_left _ ha
  cases h with
  | session self rchan ho hn =>
    refine key _ _ _ ho ?_
    have hw := hw self rfl
    unfold openBy session
    rw [if_pos (c := (b!"session" : Bytes) = tSession) rfl, if_neg (by simp), if_neg (by simp [hn]), hw]
    simp
  | tcp host rest port oport rchan ho ht hperm =>
    refine key _ _ _ ho ?_
    obtain ⟨orig, hf⟩ := tcpFields_iff.2 ht
    unfold openBy directTcp
    rw [if_neg (by decide), if_pos (c := (b!"direct-tcpip" : Bytes) = tDirectTcp) rfl, hf]
    dsimp only
    rw [if_pos hperm]
    split <;> simp
  | path path q rest oport rchan ho ht hperm hq =>
    refine key _ _ _ ho ?_
    obtain ⟨orig, hf⟩ := pathFields_iff.2 ht
    unfold openBy directPath
    rw [if_neg (by decide), if_neg (by decide), if_pos (c := (b!"direct-streamlocal@openssh.com" : Bytes) = tDirectPath) rfl, hf]
    dsimp only
    rw [if_pos hperm, sunPath_iff.2 hq]
    dsimp only
    split <;> simp
  | tun rest mode asked dev rchan ho ht hm hb hd =>
    refine key _ _ _ ho ?_
    obtain ⟨more, e1, e2⟩ := ht
    unfold openBy tun
    rw [if_neg (by decide), if_neg (by decide), if_neg (by decide), if_pos (c := (b!"tun@openssh.com" : Bytes) = tTun) rfl, List.append_assoc, u32_iff.2 ⟨e1, rfl⟩]
    dsimp only
    rw [if_neg (by omega), if_neg hb, u32_iff.2 ⟨e2, rfl⟩]
    dsimp only
    rw [tunDevice_iff.2 hd]
    dsimp only
    split <;> simp

/-- Each request to open a channel is answered once, with the client's own number, unless the connection is over. -/
theorem C112_answered {C : SCfg} {W : SWorld} {s : SSt} {p ctype rest : Bytes} {rchan : Nat} (ho : Opening ctype rchan rest p)
    (he : (serverOpen C W s p).2.ended = false) : Answered rchan (serverOpen C W s p).1 := by
  rcases serverOpen_acts C W s p with ⟨-, h1⟩ | ⟨ctype', rchan', rest', ho', h1⟩
  · exact absurd ho (h1 _ _ _)
  obtain ⟨rfl, rfl, rfl⟩ := ho.det ho'
  have hf := (openBy_sort C W s p ctype rest).few
  rcases h1 with ⟨l, h2, h3⟩ | ⟨l, r, m, h2, h3⟩ | ⟨l, c, w, m, h2, h3⟩ | ⟨l, c, h2, h3⟩ <;> rw [h2] at hf <;> rw [h3] at he ⊢
  · cases he
  · exact .failed l r m hf.1 hf.2
  · exact .opened l c w m hf.1 hf.2
  · exact .pending l c hf.1 hf.2

/-- What is done and answered, by how the request ended. -/
private def told (rchan : Nat) : List Act × Opened → Option (List Act)
  | (_, .fatal) => none
  | (l, .failed reason msg) => some (l ++ [.send (failure rchan reason msg)])
  | (l, .opened c w m) => some (l ++ [.send (confirmation rchan c w m)])
  | (l, .connecting c) => some (l ++ [.pending c rchan])

private theorem openBy_told (C : SCfg) (W : SWorld) (s : SSt) (ctype rest : Bytes) (rchan : Nat) :
    ∀ x, told rchan (openBy C W s ctype rest) = some x → Outcome W rchan x := by
  have fat : ∀ l x, told rchan (l, .fatal) = some x → Outcome W rchan x := by intro l x h; cases h
  have ref : ∀ r, r = 1 ∨ r = 2 → ∀ x, told rchan ([], .failed r openFailed) = some x → Outcome W rchan x := by
    intro r hr x h; cases h; exact .refused r hr
  unfold openBy
  split
  · unfold session
    split
    · exact fat _
    split
    · exact fat _
    split
    · exact ref 2 (.inr rfl)
    · rename_i c hw
      intro x h; cases h; exact .session c hw
  split
  · unfold directTcp
    split
    · exact fat _
    split
    · split
      · rename_i c hw
        intro x h; cases h; exact .tcp _ _ c hw
      · rename_i hw
        intro x h; cases h; exact .tcpNot _ _ _ hw
    · exact ref 1 (.inl rfl)
  split
  · unfold directPath
    split
    · exact fat _
    split
    · split
      · exact ref 2 (.inr rfl)
      split
      · rename_i c hw
        intro x h; cases h; exact .path _ c hw
      · rename_i hw
        intro x h; cases h; exact .pathNot _ hw
    · exact ref 2 (.inr rfl)
  split
  · unfold tun
    split
    · exact fat _
    split
    · exact ref 2 (.inr rfl)
    split
    · exact ref 2 (.inr rfl)
    split
    · exact fat _
    split
    · exact ref 2 (.inr rfl)
    split
    · rename_i hw
      intro x h; cases h; exact .tunNot _ _ hw
    · rename_i c hw
      intro x h; cases h; exact .tun _ _ c hw
  · exact ref 2 (.inr rfl)

/-- The answer to a request to open a channel says what has come of it: what was done, and whether it succeeded. -/
theorem C112_outcome {C : SCfg} {W : SWorld} {s : SSt} {p ctype rest : Bytes} {rchan : Nat} (ho : Opening ctype rchan rest p)
    (he : (serverOpen C W s p).2.ended = false) : Outcome W rchan (serverOpen C W s p).1 := by
  rcases serverOpen_acts C W s p with ⟨-, h1⟩ | ⟨ctype', rchan', rest', ho', h1⟩
  · exact absurd ho (h1 _ _ _)
  obtain ⟨rfl, rfl, rfl⟩ := ho.det ho'
  have hf := openBy_told C W s ctype rest rchan
  rcases h1 with ⟨l, h2, h3⟩ | ⟨l, r, m, h2, h3⟩ | ⟨l, c, w, m, h2, h3⟩ | ⟨l, c, h2, h3⟩ <;> rw [h2] at hf <;> rw [h3] at he ⊢
  · cases he
  · exact hf _ rfl
  · exact hf _ rfl
  · exact hf _ rfl

/-- A request that is as it should be. -/
inductive Fit (C : SCfg) (s : SSt) (rest : Bytes) : Bytes → Prop
  | session : rest = [] → s.noMore = false → Fit C s rest b!"session"
  | tcp (host : Bytes) (port oport : Nat) : TcpTarget host port oport rest → Fit C s rest b!"direct-tcpip"
  | path (path : Bytes) (oport : Nat) : PathTarget path oport rest → Fit C s rest b!"direct-streamlocal@openssh.com"
  | tun (mode : Nat) (more : Bytes) : U32 mode → rest = be 4 mode ++ more →
    ((mode = 1 ∨ mode = 2) → C.tun &&& mode ≠ 0 → 4 ≤ more.length) → Fit C s rest b!"tun@openssh.com"
  | other (ctype : Bytes) : ctype ≠ b!"session" → ctype ≠ b!"direct-tcpip" → ctype ≠ b!"direct-streamlocal@openssh.com" →
    ctype ≠ b!"tun@openssh.com" → Fit C s rest ctype

theorem getInt_none {l : Bytes} : getInt 4 l = none ↔ l.length < 4 := by
  unfold getInt
  split <;> simp_all

theorem openBy_fatal (C : SCfg) (W : SWorld) (s : SSt) (ctype rest : Bytes) :
    (∃ l, openBy C W s ctype rest = (l, .fatal)) ↔ ¬ Fit C s rest ctype := by
  by_cases h1 : ctype = tSession
  · subst h1
    have : openBy C W s tSession rest = session W s rest := by unfold openBy; rw [if_pos rfl]
    rw [this]
    unfold session
    split
    · rename_i hp
      refine ⟨fun _ h => ?_, fun _ => ⟨_, rfl⟩⟩
      cases h with
      | session h => exact hp h
      | other _ h => exact h rfl
    split
    · rename_i hn
      refine ⟨fun _ h => ?_, fun _ => ⟨_, rfl⟩⟩
      cases h with
      | session _ h => rw [h] at hn; cases hn
      | other _ h => exact h rfl
    rename_i hp hn
    refine ⟨fun ⟨l, h⟩ => ?_, fun h => absurd (.session (Decidable.byContradiction hp) (by simpa using hn)) h⟩
    split at h <;> cases h
  by_cases h2 : ctype = tDirectTcp
  · subst h2
    have : openBy C W s tDirectTcp rest = directTcp C W rest := by unfold openBy; rw [if_neg h1, if_pos rfl]
    rw [this]
    unfold directTcp
    split
    · rename_i hf
      refine ⟨fun _ h => ?_, fun _ => ⟨_, rfl⟩⟩
      cases h with
      | tcp host port oport h =>
        obtain ⟨o, h⟩ := tcpFields_iff.2 h
        rw [hf] at h
        cases h
      | other _ _ h => exact h rfl
    · rename_i host port orig oport hf
      refine ⟨fun ⟨l, h⟩ => ?_, fun h => absurd (.tcp host port oport (tcpFields_iff.1 ⟨_, hf⟩)) h⟩
      split at h
      · split at h <;> cases h
      · cases h
  by_cases h3 : ctype = tDirectPath
  · subst h3
    have : openBy C W s tDirectPath rest = directPath C W rest := by unfold openBy; rw [if_neg h1, if_neg h2, if_pos rfl]
    rw [this]
    unfold directPath
    split
    · rename_i hf
      refine ⟨fun _ h => ?_, fun _ => ⟨_, rfl⟩⟩
      cases h with
      | path path oport h =>
        obtain ⟨o, h⟩ := pathFields_iff.2 h
        rw [hf] at h
        cases h
      | other _ _ _ h => exact h rfl
    · rename_i path orig oport hf
      refine ⟨fun ⟨l, h⟩ => ?_, fun h => absurd (.path path oport (pathFields_iff.1 ⟨_, hf⟩)) h⟩
      split at h
      · split at h
        · cases h
        · split at h <;> cases h
      · cases h
  by_cases h4 : ctype = tTun
  · subst h4
    have : openBy C W s tTun rest = tun C W rest := by unfold openBy; rw [if_neg h1, if_neg h2, if_neg h3, if_pos rfl]
    rw [this]
    unfold tun
    split
    · rename_i hf
      refine ⟨fun _ h => ?_, fun _ => ⟨_, rfl⟩⟩
      cases h with
      | tun mode more e h =>
        have := u32_iff.2 ⟨e, h⟩
        rw [hf] at this
        cases this
      | other _ _ _ _ h => exact h rfl
    rename_i mode more hf
    obtain ⟨e, hr⟩ := u32_iff.1 hf
    split
    · rename_i hm
      refine ⟨fun ⟨l, h⟩ => (by cases h), fun h => absurd (.tun mode more e hr ?_) h⟩
      intro h; omega
    rename_i hm
    split
    · rename_i hb
      refine ⟨fun ⟨l, h⟩ => (by cases h), fun h => absurd (.tun mode more e hr ?_) h⟩
      intro _ h; exact absurd hb h
    rename_i hb
    split
    · rename_i hd
      refine ⟨fun _ h => ?_, fun _ => ⟨_, rfl⟩⟩
      cases h with
      | tun mode' more' e' h' hx =>
        have := u32_iff.2 ⟨e', h'⟩
        rw [hf] at this
        cases this
        have := hx (by omega) hb
        have := getInt_none.1 hd
        omega
      | other _ _ _ _ h => exact h rfl
    · rename_i dev x hd
      refine ⟨fun ⟨l, h⟩ => ?_, fun h => absurd (.tun mode more e hr ?_) h⟩
      · split at h
        · cases h
        · split at h <;> cases h
      · intro _ _
        obtain ⟨_, rfl⟩ := u32_iff.1 hd
        have : (be 4 dev).length = 4 := rfl
        simp [this]
  · have : openBy C W s ctype rest = ([], .failed 2 openFailed) := by
      unfold openBy; rw [if_neg h1, if_neg h2, if_neg h3, if_neg h4]
    rw [this]
    exact ⟨fun ⟨l, h⟩ => (by cases h), fun h => absurd (.other ctype h1 h2 h3 h4) h⟩

/-- The connection goes on just if the request is as it should be. -/
theorem C112_goes_on (C : SCfg) (W : SWorld) (s : SSt) (hs : s.ended = false) (p : Bytes) :
    (serverOpen C W s p).2.ended = false ↔ ∃ ctype rchan rest, Opening ctype rchan rest p ∧ Fit C s rest ctype := by
  rcases serverOpen_acts C W s p with ⟨h0, h1⟩ | ⟨ctype, rchan, rest, ho, h1⟩
  · rw [h0]
    refine ⟨fun h => (by cases h), fun ⟨c, r, x, h, _⟩ => absurd h (h1 c r x)⟩
  have hfat := openBy_fatal C W s ctype rest
  have back : (∃ c r x, Opening c r x p ∧ Fit C s x c) → Fit C s rest ctype := by
    rintro ⟨c, r, x, h, hf⟩
    obtain ⟨rfl, rfl, rfl⟩ := ho.det h
    exact hf
  rcases h1 with ⟨l, h2, h3⟩ | ⟨l, r, m, h2, h3⟩ | ⟨l, c, w, m, h2, h3⟩ | ⟨l, c, h2, h3⟩ <;> rw [h3]
  · exact ⟨fun h => (by cases h), fun h => absurd (back h) (hfat.1 ⟨l, h2⟩)⟩
  all_goals
    refine ⟨fun _ => ⟨ctype, rchan, rest, ho, Classical.byContradiction fun h => ?_⟩, fun _ => hs⟩
    obtain ⟨l', h⟩ := hfat.2 h
    rw [h2] at h
    cases h

/-! ### Global requests -/

theorem globalHead_iff {p rtype rest : Bytes} {want : Bool} :
    globalHead p = some (rtype, want, rest) ↔ Global rtype want rest p := by
  simp only [globalHead, bind, Option.bind_eq_some_iff, Prod.exists, pure, Option.some.injEq, Prod.mk.injEq]
  constructor
  · rintro ⟨c, p1, h1, w, p2, h2, rfl, rfl, rfl⟩
    obtain ⟨v, hv, rfl⟩ := cstr_iff.1 h1
    obtain ⟨x, rfl, rfl⟩ := getInt_one h2
    refine ⟨v, x, hv, ?_⟩
    simp only [ne_eq, decide_not, Bool.not_eq_true', decide_eq_false_iff_not]
    refine not_congr ⟨fun h => ?_, fun h => by rw [h]; rfl⟩
    exact UInt8.toNat_inj.1 h
  · rintro ⟨v, x, hv, hx⟩
    refine ⟨rtype, _, cstr_iff.2 ⟨v, hv, rfl⟩, x.toNat, rest, getInt_cons x rest, rfl, ?_, rfl⟩
    have : x ≠ 0 ↔ x.toNat ≠ 0 := not_congr ⟨fun h => by rw [h]; rfl, fun h => UInt8.toNat_inj.1 h⟩
    rw [this] at hx
    cases want <;> simp_all

theorem hostPort_iff {p host : Bytes} {port : Nat} : hostPort p = some (host, port) ↔ ListenAt host port p := by
  simp only [hostPort, bind, Option.bind_eq_some_iff, Prod.exists, pure, Option.some.injEq, Prod.mk.injEq]
  constructor
  · rintro ⟨c, p1, h1, w, p2, h2, rfl, rfl⟩
    obtain ⟨v, hv, rfl⟩ := cstr_iff.1 h1
    obtain ⟨e, rfl⟩ := u32_iff.1 h2
    have := ListenAt.mk v p2 hv e
    simpa only [List.append_assoc] using this
  · rintro ⟨v, more, hv, e⟩
    exact ⟨host, _, cstr_iff.2 ⟨v, hv, by rw [List.append_assoc]⟩, port, more, u32_iff.2 ⟨e, rfl⟩, rfl, rfl⟩

theorem Global.det {c c' : Bytes} {w w' : Bool} {x x' p : Bytes} (h : Global c w x p) (h' : Global c' w' x' p) :
    c = c' ∧ w = w' ∧ x = x' := by
  have h := globalHead_iff.2 h
  rw [globalHead_iff.2 h'] at h
  simp only [Option.some.injEq, Prod.mk.injEq] at h
  exact ⟨h.1.symm, h.2.1.symm, h.2.2.symm⟩

theorem globalBy_acts {C : SCfg} {W : SWorld} {rtype rest p : Bytes} {want : Bool} (hg : Global rtype want rest p) {a : Act}
    (h : a ∈ (globalBy C W rtype want rest).1) : Granted C p a := by
  unfold globalBy at h
  split at h
  · rename_i ht; subst ht
    unfold listenTcp at h
    split at h
    · simp at h
    rename_i host port hp
    split at h
    · rename_i hperm
      split at h <;> (simp only [List.mem_singleton] at h; subst h; exact .listen host rest port want hg (hostPort_iff.1 hp) hperm)
    · simp at h
  split at h
  · rename_i ht; subst ht
    unfold cancelTcp at h
    split at h
    · simp at h
    rename_i host port hp
    split at h
    · simp only [List.mem_singleton] at h; subst h
      exact .cancel host rest port want hg (hostPort_iff.1 hp) (by omega)
    · simp at h
  split at h
  · rename_i ht; subst ht
    unfold listenUnix at h
    split at h
    · simp at h
    rename_i path more hp
    obtain ⟨v, hv, rfl⟩ := cstr_iff.1 hp
    split at h
    · rename_i hperm
      simp only [List.mem_singleton] at h; subst h
      exact .listenPath path v more want hg hv hperm
    · simp at h
  split at h
  · rename_i ht; subst ht
    unfold cancelUnix at h
    split at h
    · simp at h
    rename_i path more hp
    obtain ⟨v, hv, rfl⟩ := cstr_iff.1 hp
    simp only [List.mem_singleton] at h; subst h
    exact .cancelPath path v more want hg hv
  split at h
  · simp at h
  split at h
  · rename_i ht; subst ht
    simp only [List.mem_singleton] at h; subst h
    exact .prove rest want hg
  · simp at h

/-- Whatever is done for a global request, the client is entitled to it. -/
theorem C112_granted {C : SCfg} {W : SWorld} {s : SSt} {p : Bytes} {a : Act} (h : a ∈ (serverGlobal C W s p).1)
    (hs : ∀ q, a ≠ .send q) : Granted C p a := by
  unfold serverGlobal at h
  split at h
  · simp at h
  rename_i rtype want rest hh
  have hg := globalHead_iff.1 hh
  have ha : ∀ want q, a ∉ answer want q := by
    intro w q h
    unfold answer at h
    split at h
    · exact hs _ (List.mem_singleton.1 h)
    · simp at h
  split at h
  · rename_i l hl
    exact globalBy_acts hg (W := W) (by rw [hl]; exact h)
  · rename_i l r hl
    rcases List.mem_append.1 h with h | h
    · exact globalBy_acts hg (W := W) (by rw [hl]; exact h)
    · exact absurd h (ha _ _)
  · rename_i l hl
    rcases List.mem_append.1 h with h | h
    · exact globalBy_acts hg (W := W) (by rw [hl]; exact h)
    · exact absurd h (ha _ _)

/-- What the client is entitled to is done. -/
theorem C112_grants {C : SCfg} {W : SWorld} {s : SSt} {p : Bytes} {a : Act} (h : Granted C p a) : a ∈ (serverGlobal C W s p).1 := by
  have key : ∀ rtype want rest, Global rtype want rest p → a ∈ (globalBy C W rtype want rest).1 → a ∈ (serverGlobal C W s p).1 := by
    intro rtype want rest hg ha
    unfold serverGlobal
    rw [globalHead_iff.2 hg]
    dsimp only
    generalize globalBy C W rtype want rest = o at ha ⊢
    obtain ⟨l, r⟩ := o
    cases r
    · exact List.mem_append_left _ ha
    · exact List.mem_append_left _ ha
    · exact ha
  cases h with
  | listen host rest port want hg hl hperm =>
    refine key _ _ _ hg ?_
    unfold globalBy listenTcp
    rw [if_pos (c := (b!"tcpip-forward" : Bytes) = gListen) rfl, hostPort_iff.2 hl]
    dsimp only
    rw [if_pos hperm]
    split <;> simp
  | cancel host rest port want hg hl hp =>
    refine key _ _ _ hg ?_
    unfold globalBy cancelTcp
    rw [if_neg (by decide), if_pos (c := (b!"cancel-tcpip-forward" : Bytes) = gCancel) rfl, hostPort_iff.2 hl]
    dsimp only
    rw [if_pos (by omega)]
    simp
  | listenPath path v more want hg hv hperm =>
    refine key _ _ _ hg ?_
    unfold globalBy listenUnix
    rw [if_neg (by decide), if_neg (by decide), if_pos (c := (b!"streamlocal-forward@openssh.com" : Bytes) = gListenPath) rfl, cstr_iff.2 ⟨v, hv, rfl⟩]
    dsimp only
    rw [if_pos hperm]
    simp
  | cancelPath path v more want hg hv =>
    refine key _ _ _ hg ?_
    unfold globalBy cancelUnix
    rw [if_neg (by decide), if_neg (by decide), if_neg (by decide), if_pos (c := (b!"cancel-streamlocal-forward@openssh.com" : Bytes) = gCancelPath) rfl, cstr_iff.2 ⟨v, hv, rfl⟩]
    simp
  | prove rest want hg =>
    refine key _ _ _ hg ?_
    unfold globalBy
    rw [if_neg (by decide), if_neg (by decide), if_neg (by decide), if_neg (by decide), if_neg (by decide), if_pos (c := (b!"hostkeys-prove-00@openssh.com" : Bytes) = gProve) rfl]
    simp

/-- A global request is answered once if the client wants an answer, and not at all if it does not. -/
theorem C112_global_answer {C : SCfg} {W : SWorld} {s : SSt} {p rtype rest : Bytes} {want : Bool} (hg : Global rtype want rest p)
    (he : (serverGlobal C W s p).2.ended = false) :
    ∃ l, (∀ a ∈ l, ∀ q, a ≠ .send q) ∧
      if want then ∃ q, (q.head? = some 81 ∨ q = [82]) ∧ (serverGlobal C W s p).1 = l ++ [.send q] else (serverGlobal C W s p).1 = l := by
  have hl : ∀ a ∈ (globalBy C W rtype want rest).1, ∀ q, a ≠ .send q := by
    intro a ha
    have := globalBy_acts hg ha
    intro q h; subst h; cases this
  unfold serverGlobal at he ⊢
  rw [globalHead_iff.2 hg] at he ⊢
  dsimp only at he ⊢
  generalize globalBy C W rtype want rest = o at he hl ⊢
  obtain ⟨l, r⟩ := o
  refine ⟨l, hl, ?_⟩
  cases r with
  | fatal => cases he
  | ok resp =>
    cases want
    · simp [answer]
    · simp only [answer, if_true]
      exact ⟨_, .inl rfl, rfl⟩
  | no =>
    cases want
    · simp [answer]
    · simp only [answer, if_true]
      exact ⟨_, .inr rfl, rfl⟩

/-- Success of tcpip-forward is reported just if the server listens; with port 0 the port is told. -/
theorem C112_listen_answer {C : SCfg} {W : SWorld} {s : SSt} {p rest host : Bytes} {port : Nat}
    (hg : Global b!"tcpip-forward" true rest p) (hl : ListenAt host port rest) (r : Bytes) :
    .send (81 :: r) ∈ (serverGlobal C W s p).1 ↔
      Permit.tcpipForward C.fwd C.rem host port true = true ∧ ∃ n, W.listen = some n ∧ r = if port = 0 then be 4 n else [] := by
  unfold serverGlobal
  rw [globalHead_iff.2 hg]
  dsimp only
  unfold globalBy listenTcp
  rw [if_pos (c := (b!"tcpip-forward" : Bytes) = gListen) rfl, hostPort_iff.2 hl]
  dsimp only
  by_cases hp : Permit.tcpipForward C.fwd C.rem host port true = true
  · rw [if_pos hp]
    cases hw : W.listen with
    | none => simp [answer]
    | some n => simp [answer, hp]
  · rw [if_neg hp]
    simp [answer, hp]

/-! ### No more sessions -/

/-- After the request for no more sessions the server has taken note. -/
theorem C112_no_more_noted {C : SCfg} {W : SWorld} {s : SSt} {p rest : Bytes} {want : Bool}
    (hg : Global b!"no-more-sessions@openssh.com" want rest p) : (serverGlobal C W s p).2.noMore = true := by
  unfold serverGlobal
  rw [globalHead_iff.2 hg]
  dsimp only
  unfold globalBy
  rw [if_neg (by decide), if_neg (by decide), if_neg (by decide), if_neg (by decide), if_pos (c := (b!"no-more-sessions@openssh.com" : Bytes) = gNoMore) rfl]
  simp [gNoMore]

theorem serverOpen_noMore (C : SCfg) (W : SWorld) (s : SSt) (p : Bytes) : (serverOpen C W s p).2.noMore = s.noMore := by
  rcases serverOpen_acts C W s p with ⟨h, -⟩ | ⟨_, _, _, _, ⟨_, _, h⟩ | ⟨_, _, _, _, h⟩ | ⟨_, _, _, _, _, h⟩ | ⟨_, _, _, h⟩⟩ <;> rw [h]

theorem serverGlobal_noMore {C : SCfg} {W : SWorld} {s : SSt} {p : Bytes} (h : s.noMore = true) :
    (serverGlobal C W s p).2.noMore = true := by
  unfold serverGlobal
  split
  · exact h
  split
  · exact h
  · simp [h]
  · exact h

theorem serverReq_noMore (W : SWorld) (s : SSt) (p : Bytes) : (serverReq W s p).2.noMore = s.noMore := by
  unfold serverReq
  repeat' split
  all_goals rfl

theorem serverMsg_noMore {C : SCfg} {W : SWorld} {s : SSt} {m : Bytes} (h : s.noMore = true) : (serverMsg C W s m).2.noMore = true := by
  unfold serverMsg
  split
  · exact h
  split
  · rw [serverOpen_noMore]; exact h
  split
  · exact serverGlobal_noMore h
  split
  · rw [serverReq_noMore]; exact h
  · exact h

theorem serverReq_acts {W : SWorld} {s : SSt} {p : Bytes} {a : Act} (h : a ∈ (serverReq W s p).1) :
    (∃ q, a = .send q) ∨ (∃ id, a = .eow id) ∨ ∃ id t r, a = .request id t r := by
  have hc : ∀ {c w k}, a ∈ chanAnswer c w k → ∃ q, a = .send q := by
    intro c w k h
    unfold chanAnswer at h
    split at h
    · exact ⟨_, List.mem_singleton.1 h⟩
    · simp at h
  unfold serverReq at h
  split at h
  · simp at h
  split at h
  · simp at h
  split at h
  · split at h
    · simp at h
    · rcases List.mem_append.1 h with h | h
      · exact .inr (.inl ⟨_, List.mem_singleton.1 h⟩)
      · exact .inl (hc h)
  split at h
  · rcases List.mem_append.1 h with h | h
    · exact .inr (.inr ⟨_, _, _, List.mem_singleton.1 h⟩)
    · exact .inl (hc h)
  · exact .inl (hc h)

/-- Each thing done is done for one message. -/
theorem serverMsg_acts {C : SCfg} {W : SWorld} {s : SSt} {m : Bytes} {a : Act} (h : a ∈ (serverMsg C W s m).1)
    (hs : ∀ q, a ≠ .send q) (hp : ∀ x y, a ≠ .pending x y) :
    (∃ p, m = 90 :: p ∧ Entitled C s p a) ∨ (∃ p, m = 80 :: p ∧ Granted C p a) ∨ (∃ id, a = .eow id) ∨ ∃ id t r, a = .request id t r := by
  unfold serverMsg at h
  split at h
  · simp at h
  rename_i t p
  split at h
  · rename_i ht; subst ht
    exact .inl ⟨p, rfl, C112_entitled h hs hp⟩
  split at h
  · rename_i ht; subst ht
    exact .inr (.inl ⟨p, rfl, C112_granted h hs⟩)
  split at h
  · rcases serverReq_acts h with ⟨q, h⟩ | h | h
    · exact absurd h (hs q)
    · exact .inr (.inr (.inl h))
    · exact .inr (.inr (.inr h))
  · simp at h

/-- Once noted, no session is opened any more, whatever arrives. -/
theorem C112_no_more {C : SCfg} : ∀ (l : List (SWorld × Bytes)) {s : SSt}, s.noMore = true → ∀ c, .session c ∉ serverRun C s l := by
  intro l
  induction l with
  | nil => intro s _ c h; simp [serverRun] at h
  | cons x l ih =>
    obtain ⟨W, m⟩ := x
    intro s hs c h
    rw [serverRun] at h
    split at h
    · simp at h
    rcases List.mem_append.1 h with h | h
    · rcases serverMsg_acts h (by simp) (by simp) with ⟨p, -, h⟩ | ⟨p, -, h⟩ | ⟨id, h⟩ | ⟨_, _, _, h⟩
      · cases h with
        | session _ _ _ hn => rw [hs] at hn; cases hn
      · cases h
      · cases h
      · cases h
    · exact ih (serverMsg_noMore hs) c h

theorem serverRun_acts {C : SCfg} {a : Act} (hs : ∀ q, a ≠ .send q) (hp : ∀ x y, a ≠ .pending x y) :
    ∀ (l : List (SWorld × Bytes)) {s : SSt}, a ∈ serverRun C s l → ∃ W m s', (W, m) ∈ l ∧ a ∈ (serverMsg C W s' m).1 := by
  intro l
  induction l with
  | nil => intro s h; simp [serverRun] at h
  | cons x l ih =>
    obtain ⟨W, m⟩ := x
    intro s h
    rw [serverRun] at h
    split at h
    · simp at h
    rcases List.mem_append.1 h with h | h
    · exact ⟨W, m, s, by simp, h⟩
    · obtain ⟨W', m', s', h1, h2⟩ := ih h
      exact ⟨W', m', s', List.mem_cons_of_mem _ h1, h2⟩

/-- Over a whole connection: a connection is made only where the configuration, the administrator's list and the key's list
permit it. -/
theorem C112_connections {serv : Bytes → Option Nat} {C : SCfg} (hC : Permit.setupAll serv C.fwd = some (C.loc, C.rem))
    {l : List (SWorld × Bytes)} {s : SSt} {host : Bytes} {port : Nat} (h : .connectTcp host port ∈ serverRun C s l) :
    port ≤ 65535 ∧ C.fwd.tcpLocal = true ∧ C.fwd.keyForward = true ∧ C.fwd.disable = false ∧
      Permit.KeyAllows C.fwd.keyOpen (Permit.PermitsOpen serv true · host port) ∧
      Permit.AdminAllows C.fwd.permitOpen (Permit.PermitsOpen serv false · host port) := by
  obtain ⟨W, m, s', -, h⟩ := serverRun_acts (by simp) (by simp) l h
  rcases serverMsg_acts h (by simp) (by simp) with ⟨p, -, h⟩ | ⟨p, -, h⟩ | ⟨id, h⟩ | ⟨_, _, _, h⟩
  · cases h with
    | tcp _ rest _ oport rchan ho ht hperm =>
      have := (Permit.C22_direct_tcpip hC host port oport).1 hperm
      exact ⟨this.1, this.2.2⟩
  · cases h
  · cases h
  · cases h

/-- Over a whole connection: the server listens only where it is permitted to. -/
theorem C112_listeners {serv : Bytes → Option Nat} {C : SCfg} (hC : Permit.setupAll serv C.fwd = some (C.loc, C.rem))
    {l : List (SWorld × Bytes)} {s : SSt} {host : Bytes} {port : Nat} (h : .listenTcp host port ∈ serverRun C s l) :
    C.fwd.tcpRemote = true ∧ C.fwd.keyForward = true ∧ C.fwd.disable = false ∧
      Permit.KeyAllows C.fwd.keyListen (Permit.PermitsListen serv · host port) ∧
      Permit.AdminAllows C.fwd.permitListen (Permit.PermitsListen serv · host port) := by
  obtain ⟨W, m, s', -, h⟩ := serverRun_acts (by simp) (by simp) l h
  rcases serverMsg_acts h (by simp) (by simp) with ⟨p, -, h⟩ | ⟨p, -, h⟩ | ⟨id, h⟩ | ⟨_, _, _, h⟩
  · cases h
  · cases h with
    | listen _ rest _ want hg hl hperm =>
      exact ((Permit.C22_tcpip_forward hC host port want).1 hperm).2.2
  · cases h
  · cases h

theorem globalBy_ok {C : SCfg} {W : SWorld} {rtype rest : Bytes} {want : Bool} {r : Bytes} :
    (∃ l, globalBy C W rtype want rest = (l, .ok r)) ↔ Succeeded C W rtype want rest r := by
  constructor
  · rintro ⟨l, h⟩
    unfold globalBy at h
    split at h
    · rename_i ht; subst ht
      unfold listenTcp at h
      split at h
      · cases h
      rename_i host port hh
      split at h
      · rename_i hp
        split at h
        · cases h
        rename_i n hw
        cases h
        by_cases h0 : port = 0
        · subst h0
          exact .chosen host rest n want (hostPort_iff.1 hh) hp hw
        · rw [if_neg h0]
          exact .listen host rest port n want (hostPort_iff.1 hh) hp hw h0
      · cases h
    split at h
    · rename_i ht; subst ht
      unfold cancelTcp at h
      split at h
      · cases h
      rename_i host port hh
      split at h
      · rename_i hp
        cases hc : W.cancel <;> rw [hc] at h <;> cases h
        exact .cancel host rest port want (hostPort_iff.1 hh) (by omega) hc
      · cases h
    split at h
    · rename_i ht; subst ht
      unfold listenUnix at h
      split at h
      · cases h
      rename_i path more hh
      obtain ⟨v, hv, rfl⟩ := cstr_iff.1 hh
      split at h
      · rename_i hp
        cases hc : W.listenPath <;> rw [hc] at h <;> cases h
        exact .listenPath path v more want hv hp hc
      · cases h
    split at h
    · rename_i ht; subst ht
      unfold cancelUnix at h
      split at h
      · cases h
      rename_i path more hh
      obtain ⟨v, hv, rfl⟩ := cstr_iff.1 hh
      cases hc : W.cancel <;> rw [hc] at h <;> cases h
      exact .cancelPath path v more want hv hc
    split at h
    · rename_i ht; subst ht
      cases h
      exact .noMore rest want
    split at h
    · rename_i ht; subst ht
      cases hp : W.prove <;> rw [hp] at h <;> cases h
      exact .prove rest _ want hp
    · cases h
  · intro h
    unfold globalBy
    cases h with
    | listen host rest port n want hl hp hw h0 =>
      rw [if_pos (c := (b!"tcpip-forward" : Bytes) = gListen) rfl]
      unfold listenTcp
      rw [hostPort_iff.2 hl]
      dsimp only
      rw [if_pos hp, hw]
      dsimp only
      rw [if_neg h0]
      exact ⟨_, rfl⟩
    | chosen host rest n want hl hp hw =>
      rw [if_pos (c := (b!"tcpip-forward" : Bytes) = gListen) rfl]
      unfold listenTcp
      rw [hostPort_iff.2 hl]
      dsimp only
      rw [if_pos hp, hw]
      exact ⟨_, rfl⟩
    | cancel host rest port want hl hp hw =>
      rw [if_neg (by decide), if_pos (c := (b!"cancel-tcpip-forward" : Bytes) = gCancel) rfl]
      unfold cancelTcp
      rw [hostPort_iff.2 hl]
      dsimp only
      rw [if_pos (by omega), hw]
      exact ⟨_, rfl⟩
    | listenPath path v more want hv hp hw =>
      rw [if_neg (by decide), if_neg (by decide), if_pos (c := (b!"streamlocal-forward@openssh.com" : Bytes) = gListenPath) rfl]
      unfold listenUnix
      rw [cstr_iff.2 ⟨v, hv, rfl⟩]
      dsimp only
      rw [if_pos hp, hw]
      exact ⟨_, rfl⟩
    | cancelPath path v more want hv hw =>
      rw [if_neg (by decide), if_neg (by decide), if_neg (by decide),
        if_pos (c := (b!"cancel-streamlocal-forward@openssh.com" : Bytes) = gCancelPath) rfl]
      unfold cancelUnix
      rw [cstr_iff.2 ⟨v, hv, rfl⟩]
      dsimp only
      rw [hw]
      exact ⟨_, rfl⟩
    | noMore =>
      rw [if_neg (by decide), if_neg (by decide), if_neg (by decide), if_neg (by decide),
        if_pos (c := (b!"no-more-sessions@openssh.com" : Bytes) = gNoMore) rfl]
      exact ⟨_, rfl⟩
    | prove _ _ _ hp =>
      rw [if_neg (by decide), if_neg (by decide), if_neg (by decide), if_neg (by decide), if_neg (by decide),
        if_pos (c := (b!"hostkeys-prove-00@openssh.com" : Bytes) = gProve) rfl, hp]
      exact ⟨_, rfl⟩

/-- A global request is answered with success, and with what belongs to it, exactly when it has succeeded. -/
theorem C112_success {C : SCfg} {W : SWorld} {s : SSt} {p rtype rest : Bytes} (hg : Global rtype true rest p) (r : Bytes) :
    .send (81 :: r) ∈ (serverGlobal C W s p).1 ↔ Succeeded C W rtype true rest r := by
  rw [← globalBy_ok]
  unfold serverGlobal
  rw [globalHead_iff.2 hg]
  dsimp only
  have hq : ∀ q, .send q ∉ (globalBy C W rtype true rest).1 := fun q h => by
    cases globalBy_acts hg h
  rcases hb : globalBy C W rtype true rest with ⟨l, o⟩
  rw [hb] at hq
  cases o with
  | fatal => simp [hq]
  | no => simp [hq, answer]
  | ok r' => simp [hq, answer]; exact eq_comm

/-- Full claim: a connection to a Unix socket is made only where it was asked for and is permitted.  Missing: paths of 108 bytes,
see `C112_path_original_false`. -/
theorem C112_path_partial {C : SCfg} {s : SSt} {p q : Bytes} (h : Entitled C s p (.connectPath q)) :
    ∃ path rest oport rchan, Opening b!"direct-streamlocal@openssh.com" rchan rest p ∧ PathTarget path oport rest ∧
      Permit.directStreamlocal C.fwd C.loc path oport = true ∧ (path.length ≠ 108 → q = path) := by
  cases h with
  | path path q rest oport rchan ho ht hp ha =>
    refine ⟨path, rest, oport, rchan, ho, ht, hp, fun hl => ?_⟩
    rw [ha.2, List.take_of_length_le (by have := ha.1; omega)]

/-- Full claim: with DisableForwarding there is no forwarding of any kind.  Proved: none of TCP and of Unix sockets.  Missing:
tunnels, see `C112_disable_original_false`. -/
theorem C112_disable_partial {C : SCfg} (hd : C.fwd.disable = true) {l : List (SWorld × Bytes)} {s : SSt} {a : Act}
    (h : a ∈ serverRun C s l) :
    (∀ x y, a ≠ .connectTcp x y) ∧ (∀ x, a ≠ .connectPath x) ∧ (∀ x y, a ≠ .listenTcp x y) ∧ (∀ x, a ≠ .listenPath x) := by
  have key : ∀ b : Act, (∀ q, b ≠ .send q) → (∀ x y, b ≠ .pending x y) → b ∈ serverRun C s l →
      (∃ p s', Entitled C s' p b) ∨ (∃ p, Granted C p b) ∨ (∃ id, b = .eow id) ∨ ∃ id t r, b = .request id t r := by
    intro b h1 h2 h
    obtain ⟨W, m, s', -, h⟩ := serverRun_acts h1 h2 l h
    rcases serverMsg_acts h h1 h2 with ⟨p, -, h⟩ | ⟨p, -, h⟩ | h | h
    · exact .inl ⟨p, s', h⟩
    · exact .inr (.inl ⟨p, h⟩)
    · exact .inr (.inr (.inl h))
    · exact .inr (.inr (.inr h))
  refine ⟨fun x y e => ?_, fun x e => ?_, fun x y e => ?_, fun x e => ?_⟩ <;> subst e <;>
    rcases key _ (by simp) (by simp) h with ⟨p, s', h⟩ | ⟨p, h⟩ | ⟨_, h⟩ | ⟨_, _, _, h⟩ <;> cases h
  · rename_i hp
    simp [Permit.directTcpip, hd] at hp
  · rename_i hp _
    simp [Permit.directStreamlocal, hd] at hp
  · rename_i hp
    simp [Permit.tcpipForward, hd] at hp
  · rename_i hp
    simp [Permit.streamlocalForward, hd] at hp

/-! ### Requests on channels -/

theorem reqHead_iff {p rtype rest : Bytes} {id : Nat} {want : Bool} :
    reqHead p = some (id, rtype, want, rest) ↔ OnChannel id rtype want rest p := by
  simp only [reqHead, bind, Option.bind_eq_some_iff, Prod.exists, pure, Option.some.injEq, Prod.mk.injEq]
  constructor
  · rintro ⟨i, p0, h0, c, p1, h1, w, p2, h2, rfl, rfl, rfl, rfl⟩
    obtain ⟨e, rfl⟩ := u32_iff.1 h0
    obtain ⟨v, hv, rfl⟩ := cstr_iff.1 h1
    obtain ⟨x, rfl, rfl⟩ := getInt_one h2
    rw [← List.append_assoc]
    refine ⟨v, x, e, hv, ?_⟩
    simp only [ne_eq, decide_not, Bool.not_eq_true', decide_eq_false_iff_not]
    exact not_congr ⟨fun h => UInt8.toNat_inj.1 h, fun h => by rw [h]; rfl⟩
  · rintro ⟨v, x, e, hv, hx⟩
    refine ⟨id, _, u32_iff.2 ⟨e, by rw [List.append_assoc]⟩, rtype, _, cstr_iff.2 ⟨v, hv, rfl⟩, x.toNat, rest, getInt_cons x rest,
      rfl, rfl, ?_, rfl⟩
    have : x ≠ 0 ↔ x.toNat ≠ 0 := not_congr ⟨fun h => by rw [h]; rfl, fun h => UInt8.toNat_inj.1 h⟩
    rw [this] at hx
    cases want <;> simp_all

/-- A request reaches the session code just if it is on a channel of a session; it is answered once, with the client's number, if
the client wants an answer and the channel is not closed; a request on a channel that there is not ends the connection. -/
theorem C112_request {W : SWorld} {s : SSt} {p rtype rest : Bytes} {id : Nat} {want : Bool} (h : OnChannel id rtype want rest p)
    (hs : s.ended = false) :
    ((serverReq W s p).2.ended = true ↔ id ≥ 0x7fffffff ∨ W.chan id = none ∨ (rtype = b!"eow@openssh.com" ∧ rest ≠ [])) ∧
    (∀ i t r, .request i t r ∈ (serverReq W s p).1 ↔
      i = id ∧ t = rtype ∧ r = rest ∧ rtype ≠ b!"eow@openssh.com" ∧ id < 0x7fffffff ∧ ∃ c, W.chan id = some c ∧ c.session = true) ∧
    (∀ q, .send q ∈ (serverReq W s p).1 ↔
      want = true ∧ (serverReq W s p).2.ended = false ∧ ∃ c, W.chan id = some c ∧ c.closeSent = false ∧
        q = (if rtype ≠ b!"eow@openssh.com" ∧ c.session = true ∧ W.sessionReq = true then 99 else 100) :: be 4 c.remote) := by
  unfold serverReq
  rw [reqHead_iff.2 h]
  dsimp only
  by_cases hi : id ≥ 0x7fffffff
  · rw [if_pos hi]
    dsimp only
    refine ⟨by simp [hi], fun i t r => ?_, by simp⟩
    simp only [List.not_mem_nil, false_iff]
    rintro ⟨-, -, -, -, h, -⟩
    omega
  rw [if_neg hi]
  cases hc : W.chan id with
  | none => exact ⟨by simp, by simp, by simp⟩
  | some c =>
    dsimp only
    have hlt : id < 2147483647 := by omega
    by_cases he : rtype = rEow
    · have he' : rtype = b!"eow@openssh.com" := he
      rw [if_pos he]
      by_cases hr : rest = []
      · rw [if_neg (by simpa using hr)]
        refine ⟨by simp [hs, hr, hlt], by simp [chanAnswer, he'], fun q => ?_⟩
        unfold chanAnswer
        cases want <;> cases hcs : c.closeSent <;> simp [hs, hcs, he']
      · rw [if_pos hr]
        exact ⟨by simp [he', hr], by simp [he'], by simp⟩
    · have he' : rtype ≠ b!"eow@openssh.com" := he
      rw [if_neg he]
      by_cases hse : c.session = true
      · rw [if_pos hse]
        refine ⟨by simp [hs, he', hlt], fun i t r => ?_, fun q => ?_⟩
        · unfold chanAnswer
          split <;> simp [he', hse, hlt, and_assoc]
        · unfold chanAnswer
          cases want <;> cases hcs : c.closeSent <;> simp [hs, hcs, he', hse]
      · rw [if_neg hse]
        refine ⟨by simp [hs, he', hlt], fun i t r => ?_, fun q => ?_⟩
        · unfold chanAnswer
          split <;> simp [hse]
        · unfold chanAnswer
          cases want <;> cases hcs : c.closeSent <;> simp [hs, hcs, he', hse]

end Verif.Loop
