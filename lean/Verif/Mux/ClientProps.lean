/-
C126: the client of a shared connection.
-/
import Verif.Mux.Frame
import Verif.Mux.Table

namespace Verif.Mux
open Verif Wire

/-- A place that can be written: a path, or a port with or without a name -/
def Place (port : Nat) (host path : Option Bytes) : Prop :=
  (port = 4294967294 ∧ host = none ∧ ∃ p, path = some p ∧ p ≠ [] ∧ (0 : UInt8) ∉ p ∧ p.length ≤ maxString) ∨
  (port ≤ 65535 ∧ path = none ∧ ∀ h, host = some h → (0 : UInt8) ∉ h ∧ h.length ≤ maxString)

/-- The forwarding that arrives: all addresses are written as a star, and nowhere as nothing. -/
def arrives (f : Fwd) : Fwd :=
  { f with listenHost := if f.listenHost = some [] then some b!"*" else f.listenHost,
           connectHost := if f.connectHost = some [] then none else f.connectHost, allocated := 0 }

theorem listen_end {f : Fwd} (h : Place f.listenPort f.listenHost f.listenPath) :
    (0 : UInt8) ∉ listenWord f ∧ (listenWord f).length ≤ maxString ∧
      End (listenWord f) f.listenPort (arrives f).listenHost (arrives f).listenPath := by
  unfold listenWord arrives
  rcases h with ⟨h1, h2, p, h3, h4, h5, h6⟩ | ⟨h1, h2, h3⟩
  · rw [h3, h2]
    exact ⟨h5, h6, .inl ⟨h1, rfl, .inr ⟨h4, by simp [h3]⟩⟩⟩
  · rw [h2]
    cases hh : f.listenHost with
    | none => exact ⟨by simp, by simp, .inr ⟨h1, rfl, .inl ⟨rfl, by simp⟩⟩⟩
    | some x =>
      obtain ⟨h4, h5⟩ := h3 x hh
      by_cases hx : x = []
      · subst hx
        exact ⟨by decide, by decide, .inr ⟨h1, rfl, .inr ⟨by decide, by simp⟩⟩⟩
      · simp only [if_neg hx]
        exact ⟨h4, h5, .inr ⟨h1, rfl, .inr ⟨hx, by simp [hx]⟩⟩⟩

theorem connect_end {f : Fwd} (h : Place f.connectPort f.connectHost f.connectPath) :
    (0 : UInt8) ∉ connectWord f ∧ (connectWord f).length ≤ maxString ∧
      End (connectWord f) f.connectPort (arrives f).connectHost (arrives f).connectPath := by
  unfold connectWord arrives
  rcases h with ⟨h1, h2, p, h3, h4, h5, h6⟩ | ⟨h1, h2, h3⟩
  · rw [h3, h2]
    exact ⟨h5, h6, .inl ⟨h1, rfl, .inr ⟨h4, by simp [h3]⟩⟩⟩
  · rw [h2]
    cases hh : f.connectHost with
    | none => exact ⟨by simp, by simp, .inr ⟨h1, rfl, .inl ⟨rfl, by simp⟩⟩⟩
    | some x =>
      obtain ⟨h4, h5⟩ := h3 x hh
      by_cases hx : x = []
      · subst hx
        exact ⟨by simp, by simp, .inr ⟨h1, rfl, .inl ⟨rfl, by simp⟩⟩⟩
      · exact ⟨h4, h5, .inr ⟨h1, rfl, .inr ⟨hx, by simp [hx]⟩⟩⟩

/-- C126: a forwarding that the client asks for, or no longer wants, is what the master takes the request to be. -/
theorem C126_forward_sent {cancel : Bool} {rid kind : Nat} {f : Fwd} (hr : rid < 2 ^ 32) (hk : kind < 2 ^ 32)
    (hl : Place f.listenPort f.listenHost f.listenPath) (hc : Place f.connectPort f.connectHost f.connectPath) :
    ∃ b, request? (fwdRequest cancel rid kind f) = some (if cancel = true then 0x10000007 else 0x10000006, rid, b) ∧ Wants b kind (arrives f) := by
  obtain ⟨l1, l2, l3⟩ := listen_end hl
  obtain ⟨c1, c2, c3⟩ := connect_end hc
  refine ⟨be 4 kind ++ str (listenWord f) ++ be 4 f.listenPort ++ str (connectWord f) ++ be 4 f.connectPort, ?_, ?_⟩
  · refine request_iff.2 ⟨?_, by cases cancel <;> decide, by cases cancel <;> decide, hr⟩
    unfold fwdRequest
    cases cancel <;> simp [tClose, tOpen, List.append_assoc]
  · exact ⟨_, _, _, _, [], ⟨.inl rfl, l1⟩, ⟨.inl rfl, c1⟩, l2, c2, hk, rfl, by simp [arrives], l3, c3⟩

/-! ### Sessions -/

theorem envLoop_all {C : Conf} : ∀ (es : List Bytes) (f : Nat) (acc : List Bytes), (∀ e ∈ es, (0 : UInt8) ∉ e ∧ e.length ≤ maxString) →
    es.length < f → acc.length + (es.filter (envPermitted C)).length ≤ 4096 →
    envLoop C f ((es.map str).flatten) acc = some (acc ++ es.filter (envPermitted C)) := by
  intro es
  induction es with
  | nil =>
    intro f acc _ hf _
    cases f with
    | zero => simp at hf
    | succ f => rw [envLoop, if_pos (by simp)]; simp
  | cons e es ih =>
    intro f acc he hf hm
    cases f with
    | zero => simp at hf
    | succ f =>
      obtain ⟨h1, h2⟩ := he e (List.mem_cons_self ..)
      have he' : ∀ e ∈ es, (0 : UInt8) ∉ e ∧ e.length ≤ maxString := fun x hx => he x (List.mem_cons_of_mem _ hx)
      have hf' : es.length < f := by simpa using hf
      rw [envLoop, List.map_cons, List.flatten_cons, if_neg, getCstr_of_named ⟨.inl rfl, h1⟩ _ h2]
      · simp only []
        have hmax : maxEnv = 4096 := rfl
        by_cases hp : envPermitted C e = true
        · rw [List.filter_cons_of_pos hp] at hm ⊢
          simp only [List.length_cons] at hm
          rw [if_pos hp, if_neg (by omega), ih f _ he' hf' (by simp; omega)]
          simp
        · rw [List.filter_cons_of_neg hp] at hm ⊢
          rw [if_neg hp, ih f _ he' hf' hm]
      · intro h0
        have := congrArg List.length h0
        simp [str, be4_length] at this

theorem flatten_length (es : List Bytes) : es.length ≤ ((es.map str).flatten).length := by
  induction es with
  | nil => simp
  | cons e es ih => simp [str, be4_length]; simp at ih; omega

/-- What a client wants can be written. -/
structure Writable (O : Opts) : Prop where
  tty : O.tty < 2 ^ 32
  x11 : O.x11 < 2 ^ 32
  agent : O.agent < 2 ^ 32
  esc : O.esc < 2 ^ 32
  term : (0 : UInt8) ∉ O.term ∧ O.term.length ≤ maxString
  cmd : (0 : UInt8) ∉ O.cmd ∧ O.cmd.length ≤ maxString
  environ : ∀ e ∈ O.environ, (0 : UInt8) ∉ e ∧ e.length ≤ maxString
  setEnv : ∀ e ∈ O.setEnv, (0 : UInt8) ∉ e ∧ e.length ≤ maxString

open Classical in
/-- C126: a session that a client asks for is what the master takes the request to be: of the variables, those that are let through
by SendEnv at the client, or set by SetEnv, and let through by SendEnv at the master. -/
theorem C126_session_sent {C : Conf} {O : Opts} {rid : Nat} (hr : rid < 2 ^ 32) (hO : Writable O)
    (hm : (O.environ ++ O.setEnv).length ≤ 4096) :
    ∃ b q, request? (sesRequest O rid) = some (0x10000002, rid, b) ∧ getSes C b = some q ∧
      q.tty = O.tty ∧ q.x11 = O.x11 ∧ q.agent = O.agent ∧ (q.subsys = if O.subsys = true then 1 else 0) ∧ q.esc = O.esc ∧
      q.term = O.term ∧ q.cmd = O.cmd ∧
      q.env = ((O.environ.filter fun e => decide (EnvOk ⟨.no, [], O.sendEnv, false, false, false, 0⟩ e)) ++ O.setEnv).filter
        fun e => decide (EnvOk C e) := by
  have hdec : ∀ (C : Conf), (fun e => decide (EnvOk C e)) = envPermitted C := fun C => funext fun e => by
    by_cases h : EnvOk C e
    · rw [(envPermitted_iff C e).2 h]; simpa using h
    · have : envPermitted C e = false := by
        cases hp : envPermitted C e with
        | false => rfl
        | true => exact absurd ((envPermitted_iff C e).1 hp) h
      rw [this]; simpa using h
  have hpass : passedEnv O = (O.environ.filter fun e => decide (EnvOk ⟨.no, [], O.sendEnv, false, false, false, 0⟩ e)) ++ O.setEnv := by
    unfold passedEnv
    rw [hdec]
    split
    · rename_i h
      have : O.environ.filter (envPermitted ⟨.no, [], O.sendEnv, false, false, false, 0⟩) = [] := by
        rw [List.filter_eq_nil_iff]
        intro e _ hp
        obtain ⟨_, _, _, _, _, _, p, hp, _⟩ := (envPermitted_iff _ _).1 hp
        simp [h] at hp
      rw [this]
    · rfl
  have hall : ∀ e ∈ passedEnv O, (0 : UInt8) ∉ e ∧ e.length ≤ maxString := by
    rw [hpass]
    intro e he
    rcases List.mem_append.1 he with h | h
    · exact hO.environ e (List.mem_filter.1 h).1
    · exact hO.setEnv e h
  have hlen : (passedEnv O).length ≤ 4096 := by
    rw [hpass]
    simp only [List.length_append] at hm ⊢
    have := List.length_filter_le (fun e => decide (EnvOk ⟨.no, [], O.sendEnv, false, false, false, 0⟩ e)) O.environ
    omega
  refine ⟨str [] ++ be 4 O.tty ++ be 4 O.x11 ++ be 4 O.agent ++ be 4 (if O.subsys then 1 else 0) ++ be 4 O.esc ++
    str O.term ++ str O.cmd ++ ((passedEnv O).map str).flatten,
    ⟨O.tty, O.x11, O.agent, if O.subsys then 1 else 0, O.esc, O.term, O.cmd, (passedEnv O).filter (envPermitted C)⟩,
    ?_, ?_, rfl, rfl, rfl, rfl, rfl, rfl, rfl, ?_⟩
  · exact request_iff.2 ⟨by simp [sesRequest, tSession, List.append_assoc], by decide, by decide, hr⟩
  · have h1 := hO.tty
    have h2 := hO.x11
    have h3 := hO.agent
    have h4 := hO.esc
    have h5 : (if O.subsys = true then 1 else 0) < 256 ^ 4 := by split <;> omega
    simp only [getSes, List.append_assoc]
    rw [getStr_append [] _ (by simp)]
    simp only [bind, Option.bind_some]
    rw [getInt_append 4 O.tty _ (by omega), Option.bind_some, getInt_append 4 O.x11 _ (by omega), Option.bind_some,
      getInt_append 4 O.agent _ (by omega), Option.bind_some, getInt_append 4 _ _ h5, Option.bind_some,
      getInt_append 4 O.esc _ (by omega), Option.bind_some, getCstr_of_named ⟨.inl rfl, hO.term.1⟩ _ hO.term.2, Option.bind_some,
      getCstr_of_named ⟨.inl rfl, hO.cmd.1⟩ _ hO.cmd.2, Option.bind_some]
    rw [envLoop_all _ _ _ hall (Nat.lt_succ_of_le (flatten_length _))
      (by have := List.length_filter_le (envPermitted C) (passedEnv O); simp only [List.length_nil]; omega)]
    rfl
  · rw [hdec C, ← hpass]

/-! ### Answers -/

theorem ownReply_iff {rid : Nat} {p : Bytes} {t : Nat} {b : Bytes} (hr : rid < 2 ^ 32) :
    ownReply rid p = some (t, b) ↔ p = be 4 t ++ be 4 rid ++ b ∧ t < 2 ^ 32 := by
  unfold ownReply
  constructor
  · intro h
    split at h
    · cases h
    · rename_i t' b1 h1
      split at h
      · cases h
      · rename_i r b2 h2
        split at h
        · cases h
        · rename_i hrr
          simp only [Option.some.injEq, Prod.mk.injEq] at h
          obtain ⟨rfl, rfl⟩ := h
          obtain ⟨rfl, h3⟩ := getInt_some h1
          obtain ⟨rfl, _⟩ := getInt_some h2
          have : r = rid := Classical.byContradiction hrr
          subst this
          exact ⟨by rw [List.append_assoc], by omega⟩
  · rintro ⟨rfl, ht⟩
    rw [List.append_assoc, getInt_append 4 t _ (by omega)]
    simp only []
    rw [getInt_append 4 rid _ (by omega)]
    simp

/-- C126: a client takes a forwarding to be done only if it is told so, with the number of its own request: by one packet after one
request. After a refusal it goes on. -/
theorem C126_own {cancel : Bool} {kind : Nat} {f : Fwd} {c c' : Cl} {ok : Bool} (hr : c.rid < 2 ^ 32) (h : forward cancel kind f c = some (ok, c')) :
    c'.sent = c.sent ++ [fwdRequest cancel c.rid kind f] ∧ c'.inc = c.inc.tail ∧
    (ok = true → c'.rid = (c.rid + 1) % 2 ^ 32 ∧ ∃ b l, (c.inc = .packet (be 4 0x80000001 ++ be 4 c.rid ++ b) :: l ∨
      cancel = false ∧ ∃ port, c.inc = .packet (be 4 0x80000007 ++ be 4 c.rid ++ be 4 port ++ b) :: l)) ∧
    (ok = false → c'.rid = c.rid ∧ ((∀ p l, c.inc ≠ .packet p :: l) ∨ ∃ t b l, (t = 0x80000002 ∨ t = 0x80000003) ∧
      c.inc = .packet (be 4 t ++ be 4 c.rid ++ b) :: l)) := by
  unfold forward at h
  cases hi : c.inc with
  | nil =>
    rw [show c.next = .eof by unfold Cl.next; rw [hi]; rfl] at h
    simp only [Option.some.injEq, Prod.mk.injEq] at h
    obtain ⟨rfl, rfl⟩ := h
    exact ⟨rfl, by simp [Cl.read, Cl.send, hi], (fun h => by cases h), fun _ => ⟨rfl, .inl (fun _ _ h => by cases h)⟩⟩
  | cons g l =>
    rw [show c.next = g by unfold Cl.next; rw [hi]; rfl] at h
    cases g with
    | eof =>
      simp only [Option.some.injEq, Prod.mk.injEq] at h
      obtain ⟨rfl, rfl⟩ := h
      exact ⟨rfl, by simp [Cl.read, Cl.send, hi], (fun h => by cases h), fun _ => ⟨rfl, .inl (fun _ _ h => by cases h)⟩⟩
    | err =>
      simp only [Option.some.injEq, Prod.mk.injEq] at h
      obtain ⟨rfl, rfl⟩ := h
      exact ⟨rfl, by simp [Cl.read, Cl.send, hi], (fun h => by cases h), fun _ => ⟨rfl, .inl (fun _ _ h => by cases h)⟩⟩
    | packet p =>
      simp only [] at h
      cases hf : fwdReply cancel c.rid p with
      | none => simp [hf] at h
      | some r =>
        unfold fwdReply at hf
        cases ho : ownReply c.rid p with
        | none => simp [ho] at hf
        | some x =>
          obtain ⟨t, b⟩ := x
          obtain ⟨rfl, _⟩ := (ownReply_iff hr).1 ho
          cases r with
          | true =>
            rw [show fwdReply cancel c.rid _ = some true from by unfold fwdReply; exact hf] at h
            simp only [Option.some.injEq, Prod.mk.injEq] at h
            obtain ⟨rfl, rfl⟩ := h
            refine ⟨rfl, by simp [Cl.read, Cl.send, Cl.bump, hi], fun _ => ⟨rfl, ?_⟩, (fun h => by cases h)⟩
            simp only [ho] at hf
            split at hf
            · rename_i ht
              subst ht
              exact ⟨b, l, .inl rfl⟩
            · split at hf
              · rename_i ht
                subst ht
                split at hf
                · cases hf
                · rename_i hcan
                  cases hg : getInt 4 b with
                  | none => simp [hg] at hf
                  | some y =>
                    obtain ⟨port, b2⟩ := y
                    obtain ⟨rfl, _⟩ := getInt_some hg
                    exact ⟨b2, l, .inr ⟨by simpa using hcan, port, by rw [List.append_assoc _ (be 4 port)]; rfl⟩⟩
              · split at hf
                · cases hg : getCstr b with
                  | none => simp [hg] at hf
                  | some y => simp [hg] at hf
                · cases hf
          | false =>
            rw [show fwdReply cancel c.rid _ = some false from by unfold fwdReply; exact hf] at h
            simp only [Option.some.injEq, Prod.mk.injEq] at h
            obtain ⟨rfl, rfl⟩ := h
            refine ⟨rfl, by simp [Cl.read, Cl.send, hi], (fun h => by cases h), fun _ => ⟨rfl, .inr ?_⟩⟩
            simp only [ho] at hf
            split at hf
            · cases hf
            · split at hf
              · split at hf
                · cases hf
                · cases hg : getInt 4 b with
                  | none => simp [hg] at hf
                  | some y => simp [hg] at hf
              · split at hf
                · rename_i ht
                  exact ⟨t, b, l, ht, rfl⟩
                · cases hf

theorem be4_ne {t u : Nat} {x y : Bytes} (ht : t < 2 ^ 32) (hu : u < 2 ^ 32) (h : t ≠ u) : be 4 t ++ x ≠ be 4 u ++ y := by
  intro he
  obtain ⟨e, _⟩ := List.append_inj he (by simp [be4_length])
  exact h (be_inj (by omega) (by omega) e)

/-- C126: the two ends together. When the client takes a forwarding to be done, by an answer to its request that the master has given at
once, then the master has an entry of it, or has made something listen. -/
theorem C126_forward_done {C : Conf} {s : St} (hs : Ready s) (W : World) {rid kind : Nat} {f : Fwd} (hr : rid < 2 ^ 32) (hk : kind < 2 ^ 32)
    (hl : Place f.listenPort f.listenHost f.listenPath) (hc : Place f.connectPort f.connectHost f.connectPath) {k : List Act}
    (ho : (step C W s (.packet (fwdRequest false rid kind f))).out = s.out ++ k) {p : Bytes} (hm : Act.reply p ∈ k)
    (hd : fwdReply false rid p = some true) :
    (Act.listen (arrives f) ∈ k ∧ W.listens (arrives f) = true) ∨ (∃ g, (g ∈ s.locals ∨ g ∈ s.remotes) ∧ Same (arrives f) g) := by
  obtain ⟨b, h1, h2⟩ := C126_forward_sent (cancel := false) hr hk hl hc
  obtain ⟨k', h3, h4⟩ := C127_opened_partial (C := C) hs W (by simpa using h1) h2
  rw [ho] at h3
  obtain rfl := List.append_cancel_left h3
  cases h4 with
  | had g e1 e2 e3 =>
    right
    by_cases hk : kind = 2
    · exact ⟨g, .inr (e2 hk).1, e1⟩
    · exact ⟨g, .inl (e3 hk), e1⟩
  | hadPort g _ _ e3 e4 => exact .inr ⟨g, .inr e3, e4⟩
  | listens q _ _ _ e4 _ e6 => exact .inl ⟨by rw [e6]; simp, e4⟩
  | remote q _ _ _ _ e5 e6 =>
    rw [e6] at hm
    rcases List.mem_append.1 hm with hm | hm
    · obtain ⟨_, hq⟩ := e5 _ hm
      cases hq
    · simp at hm
  | refused q t msg e1 e2 e3 =>
    exfalso
    rw [e3] at hm
    rcases List.mem_append.1 hm with hm | hm
    · obtain ⟨_, hq⟩ := e2 _ hm
      cases hq
    · simp only [List.mem_cons, Act.reply.injEq, List.not_mem_nil, or_false] at hm
      subst hm
      unfold fwdReply at hd
      have ht : t < 2 ^ 32 := by omega
      rw [(ownReply_iff hr).2 ⟨rfl, ht⟩] at hd
      simp only [] at hd
      rw [if_neg (by unfold sOk; omega), if_neg (by unfold sPort; omega), if_pos (show t = sDenied ∨ t = sFailure from e1)] at hd
      cases hg : getCstr (str msg) with
      | none => simp [hg] at hd
      | some y => simp [hg] at hd
  | gone _ e1 => rw [e1] at hm; simp at hm

/-! ### The exit status -/

/-- The messages of a session before the master hangs up: that there is no terminal, as often as may be -/
inductive Quiet (sid : Nat) : List Bytes → Prop
  | nil : Quiet sid []
  | more {l : List Bytes} (x : Bytes) : Quiet sid l → Quiet sid ((be 4 0x80000008 ++ be 4 sid ++ x) :: l)

/-- No packet comes first. -/
def Over (l : List Got) : Prop := ∀ p l', l ≠ .packet p :: l'

theorem exitLoop_over {sid : Nat} {seen : Option Nat} {l : List Got} (h : Over l) : exitLoop sid seen l = some seen := by
  cases l with
  | nil => rfl
  | cons g l =>
    cases g with
    | packet p => exact absurd rfl (h p l)
    | eof => rfl
    | err => rfl

theorem exitLoop_tty {sid : Nat} (hs : sid < 2 ^ 32) (seen : Option Nat) (x : Bytes) (l : List Got) :
    exitLoop sid seen (.packet (be 4 0x80000008 ++ be 4 sid ++ x) :: l) = exitLoop sid seen l := by
  rw [exitLoop, List.append_assoc, getInt_append 4 _ _ (by omega)]
  simp only []
  rw [getInt_append 4 sid _ (by omega)]
  simp only []
  rw [if_pos (show 0x80000008 = sTtyFail from rfl), if_neg (by simp)]

theorem exitLoop_exit {sid v : Nat} (hs : sid < 2 ^ 32) (hv : v < 2 ^ 32) (x : Bytes) (l : List Got) :
    exitLoop sid none (.packet (be 4 0x80000004 ++ be 4 sid ++ be 4 v ++ x) :: l) = exitLoop sid (some v) l := by
  rw [exitLoop, List.append_assoc, List.append_assoc, getInt_append 4 _ _ (by omega)]
  simp only []
  rw [getInt_append 4 sid _ (by omega)]
  simp only []
  rw [if_neg (by decide), if_pos (show 0x80000004 = sExit from rfl), if_neg (by simp), if_neg (by simp), getInt_append 4 v _ (by omega)]

theorem exitLoop_quiet {sid : Nat} (hs : sid < 2 ^ 32) (seen : Option Nat) {ps : List Bytes} (h : Quiet sid ps) (l : List Got) :
    exitLoop sid seen (ps.map Got.packet ++ l) = exitLoop sid seen l := by
  induction h with
  | nil => rfl
  | more x _ ih => rw [List.map_cons, List.cons_append, exitLoop_tty hs, ih]

/-- The loop, read backwards -/
theorem exitLoop_some {sid : Nat} : ∀ (l : List Got) (seen r : Option Nat), exitLoop sid seen l = some r →
    (∃ ps l', l = ps.map Got.packet ++ l' ∧ Quiet sid ps ∧ Over l' ∧ r = seen) ∨
    (∃ ps qs v x l', v < 2 ^ 32 ∧ l = ps.map Got.packet ++ .packet (be 4 0x80000004 ++ be 4 sid ++ be 4 v ++ x) :: (qs.map Got.packet ++ l') ∧
      Quiet sid ps ∧ Quiet sid qs ∧ Over l' ∧ seen = none ∧ r = some v) := by
  intro l
  induction l with
  | nil =>
    intro seen r h
    rw [exitLoop_over (fun _ _ h => by cases h), Option.some.injEq] at h
    exact .inl ⟨[], [], rfl, .nil, (fun _ _ h => by cases h), h.symm⟩
  | cons g l ih =>
    intro seen r h
    cases g with
    | eof =>
      rw [exitLoop_over (fun _ _ h => by cases h), Option.some.injEq] at h
      exact .inl ⟨[], _, rfl, .nil, (fun _ _ h => by cases h), h.symm⟩
    | err =>
      rw [exitLoop_over (fun _ _ h => by cases h), Option.some.injEq] at h
      exact .inl ⟨[], _, rfl, .nil, (fun _ _ h => by cases h), h.symm⟩
    | packet p =>
      rw [exitLoop] at h
      cases h1 : getInt 4 p with
      | none => simp [h1] at h
      | some x =>
        obtain ⟨t, b⟩ := x
        simp only [h1] at h
        cases h2 : getInt 4 b with
        | none => simp [h2] at h
        | some y =>
          obtain ⟨e, b2⟩ := y
          simp only [h2] at h
          obtain ⟨rfl, _⟩ := getInt_some h1
          obtain ⟨rfl, _⟩ := getInt_some h2
          split at h
          · rename_i ht
            split at h
            · cases h
            · rename_i he
              have he : e = sid := Classical.byContradiction he
              subst he ht
              have hh : be 4 sTtyFail ++ (be 4 e ++ b2) = be 4 0x80000008 ++ be 4 e ++ b2 := by rw [List.append_assoc]; rfl
              rw [hh]
              rcases ih seen r h with ⟨ps, l', rfl, hq, ho, hr⟩ | ⟨ps, qs, v, x, l', hv, rfl, hq, hq', ho, hsn, hr⟩
              · exact .inl ⟨_ :: ps, l', rfl, .more b2 hq, ho, hr⟩
              · exact .inr ⟨_ :: ps, qs, v, x, l', hv, rfl, .more b2 hq, hq', ho, hsn, hr⟩
          · split at h
            · rename_i ht
              split at h
              · cases h
              · rename_i he
                have he : e = sid := Classical.byContradiction he
                subst he ht
                split at h
                · cases h
                · rename_i hsn
                  have hsn : seen = none := by simpa using hsn
                  cases h3 : getInt 4 b2 with
                  | none => simp [h3] at h
                  | some z =>
                    obtain ⟨v, x⟩ := z
                    simp only [h3] at h
                    obtain ⟨rfl, hv⟩ := getInt_some h3
                    have hh : be 4 sExit ++ (be 4 e ++ (be 4 v ++ x)) = be 4 0x80000004 ++ be 4 e ++ be 4 v ++ x := by
                      simp only [List.append_assoc]; rfl
                    rw [hh]
                    rcases ih (some v) r h with ⟨ps, l', rfl, hq, ho, hr⟩ | ⟨_, _, _, _, _, _, _, _, _, _, hno, _⟩
                    · exact .inr ⟨[], ps, v, x, l', by omega, rfl, .nil, hq, ho, hsn, hr⟩
                    · cases hno
            · cases h

/-- C126: the exit status of the client is that of its session, which comes in one message for it and once only; without one it is 255.
Whatever else comes makes the client end with a message. -/
theorem C126_exit {sid : Nat} (hs : sid < 2 ^ 32) (l : List Got) :
    (∀ v, v < 2 ^ 32 → (exitLoop sid none l = some (some v) ↔ ∃ ps qs x l', l = ps.map Got.packet ++
      .packet (be 4 0x80000004 ++ be 4 sid ++ be 4 v ++ x) :: (qs.map Got.packet ++ l') ∧ Quiet sid ps ∧ Quiet sid qs ∧ Over l')) ∧
    (exitLoop sid none l = some none ↔ ∃ ps l', l = ps.map Got.packet ++ l' ∧ Quiet sid ps ∧ Over l') := by
  refine ⟨fun v hv => ⟨fun h => ?_, ?_⟩, fun h => ?_, ?_⟩
  · rcases exitLoop_some l none _ h with ⟨_, _, _, _, _, hr⟩ | ⟨ps, qs, w, x, l', _, h1, h2, h3, h4, _, hr⟩
    · cases hr
    · simp only [Option.some.injEq] at hr
      subst hr
      exact ⟨ps, qs, x, l', h1, h2, h3, h4⟩
  · rintro ⟨ps, qs, x, l', rfl, h1, h2, h3⟩
    rw [exitLoop_quiet hs _ h1, exitLoop_exit hs hv, exitLoop_quiet hs _ h2, exitLoop_over h3]
  · rcases exitLoop_some l none _ h with ⟨ps, l', h1, h2, h3, _⟩ | ⟨_, _, _, _, _, _, _, _, _, _, _, hr⟩
    · exact ⟨ps, l', h1, h2, h3⟩
    · cases hr
  · rintro ⟨ps, l', rfl, h1, h2⟩
    rw [exitLoop_quiet hs _ h1, exitLoop_over h2]

/-- C126: a session that was opened ends the client with the exit status, of which a shell sees the last eight bits. -/
theorem C126_session_exit {O : Opts} {signalled : Bool} {c c1 c' : Cl} {n pid : Nat} (hp : askAlive c = some (pid, c1)) (hr : c1.rid < 2 ^ 32)
    (h : session O signalled c = (.exit n, c')) :
    pid ≠ 0 ∧ c'.sent = c1.sent ++ [sesRequest O c1.rid] ∧
    ∃ sid b l seen, sid < 2 ^ 32 ∧ c1.inc = .packet (be 4 0x80000006 ++ be 4 c1.rid ++ be 4 sid ++ b) :: l ∧
      exitLoop sid none l = some seen ∧
      n = (match signalled, seen with | true, _ => 255 | false, none => 255 | false, some v => v % 256) := by
  unfold session at h
  simp only [hp] at h
  split at h
  · simp at h
  · rename_i hpid
    refine ⟨hpid, ?_⟩
    cases hi : c1.inc with
    | nil =>
      rw [show c1.next = .eof by unfold Cl.next; rw [hi]; rfl] at h
      simp at h
    | cons g l =>
      rw [show c1.next = g by unfold Cl.next; rw [hi]; rfl] at h
      cases g with
      | eof => simp at h
      | err => simp at h
      | packet p =>
        simp only [] at h
        cases hf : sesReply c1.rid p with
        | none => simp [hf] at h
        | some r =>
          cases r with
          | none => simp [hf] at h
          | some sid =>
            simp only [hf, hi, List.tail_cons] at h
            cases hx : exitLoop sid none l with
            | none => simp [hx] at h
            | some seen =>
              simp only [hx, Prod.mk.injEq, End'.exit.injEq] at h
              obtain ⟨rfl, rfl⟩ := h
              refine ⟨rfl, ?_⟩
              unfold sesReply at hf
              cases ho : ownReply c1.rid p with
              | none => simp [ho] at hf
              | some x =>
                obtain ⟨t, b⟩ := x
                obtain ⟨rfl, _⟩ := (ownReply_iff hr).1 ho
                simp only [ho] at hf
                split at hf
                · rename_i ht
                  subst ht
                  cases hg : getInt 4 b with
                  | none => simp [hg] at hf
                  | some y =>
                    obtain ⟨v, b2⟩ := y
                    simp only [hg, Option.map_some, Option.some.injEq] at hf
                    subst hf
                    obtain ⟨rfl, hv⟩ := getInt_some hg
                    refine ⟨v, b2, l, seen, by omega, ?_, hx, ?_⟩
                    · rw [List.append_assoc _ (be 4 v)]; rfl
                    · cases signalled <;> cases seen <;> simp
                · split at hf
                  · cases hg : getCstr b with
                    | none => simp [hg] at hf
                    | some y => simp [hg] at hf
                  · simp at hf

/-! ### Commands -/

/-- C126: with a command, the client ends without an error only if the master has done what it was told: check, exit, stop and forward.
The master may have gone before it answers to exit. What is missing are cancel and the forwarding of input and output, for which
see `C126_commands_original_false`. -/
theorem C126_commands_partial {O : Opts} {signalled : Bool} {c c' : Cl} (hr : c.rid < 2 ^ 32) (h : command O signalled c = (.exit 0, c')) :
    (commandOf O = 2 → ∃ pid b l, pid ≠ 0 ∧ c.inc = .packet (be 4 0x80000005 ++ be 4 c.rid ++ be 4 pid ++ b) :: l) ∧
    (commandOf O = 3 → c'.sent = c.sent ++ [be 4 0x10000005 ++ be 4 c.rid] ∧
      (c.inc = [] ∨ ∃ l, c.inc = .eof :: l ∨ ∃ b, c.inc = .packet (be 4 0x80000001 ++ be 4 c.rid ++ b) :: l)) ∧
    (commandOf O = 6 → c'.sent = c.sent ++ [be 4 0x10000009 ++ be 4 c.rid] ∧ ∃ b l, c.inc = .packet (be 4 0x80000001 ++ be 4 c.rid ++ b) :: l) ∧
    (commandOf O = 5 → forwardAll false (wanted O) true c = some (true, c')) := by
  have hown : ∀ {p : Bytes} {t : Nat} {b : Bytes}, ownReply c.rid p = some (t, b) → t = sOk → p = be 4 0x80000001 ++ be 4 c.rid ++ b :=
    fun ho ht => by
      obtain ⟨rfl, _⟩ := (ownReply_iff hr).1 ho
      rw [ht]; rfl
  refine ⟨fun hc => ?_, fun hc => ?_, fun hc => ?_, fun hc => ?_⟩
  · unfold command at h
    rw [if_pos (show commandOf O = cCheck from hc)] at h
    unfold askAlive at h
    cases hi : c.inc with
    | nil => rw [show c.next = .eof by unfold Cl.next; rw [hi]; rfl] at h; simp at h
    | cons g l =>
      rw [show c.next = g by unfold Cl.next; rw [hi]; rfl] at h
      cases g with
      | eof => simp at h
      | err => simp at h
      | packet p =>
        simp only [] at h
        cases ha : aliveReply c.rid p with
        | none => simp [ha] at h
        | some pid =>
          simp only [ha, Option.map_some, Prod.mk.injEq] at h
          have hpid : pid ≠ 0 := fun h0 => by rw [if_pos h0] at h; cases h.1
          unfold aliveReply at ha
          cases h1 : getInt 4 p with
          | none => simp [h1] at ha
          | some x =>
            obtain ⟨t, b⟩ := x
            simp only [h1] at ha
            split at ha
            · cases ha
            · rename_i ht
              have ht : t = sAlive := Classical.byContradiction ht
              cases h2 : getInt 4 b with
              | none => simp [h2] at ha
              | some y =>
                obtain ⟨r, b2⟩ := y
                simp only [h2] at ha
                split at ha
                · cases ha
                · rename_i hrr
                  have hrr : r = c.rid := Classical.byContradiction hrr
                  cases h3 : getInt 4 b2 with
                  | none => simp [h3] at ha
                  | some z =>
                    obtain ⟨w, b3⟩ := z
                    simp only [h3, Option.map_some, Option.some.injEq] at ha
                    obtain ⟨rfl, _⟩ := getInt_some h1
                    obtain ⟨rfl, _⟩ := getInt_some h2
                    obtain ⟨rfl, _⟩ := getInt_some h3
                    subst ha ht hrr
                    exact ⟨w, b3, l, hpid, by simp only [List.append_assoc]; rfl⟩
  · unfold command at h
    rw [if_neg (by rw [hc]; decide), if_pos (show commandOf O = cExit from hc)] at h
    unfold askTerm at h
    cases hi : c.inc with
    | nil =>
      rw [show c.next = .eof by unfold Cl.next; rw [hi]; rfl] at h
      simp only [Prod.mk.injEq, true_and] at h
      exact ⟨by rw [← h]; rfl, .inl rfl⟩
    | cons g l =>
      rw [show c.next = g by unfold Cl.next; rw [hi]; rfl] at h
      cases g with
      | eof =>
        simp only [Prod.mk.injEq, true_and] at h
        exact ⟨by rw [← h]; rfl, .inr ⟨l, .inl rfl⟩⟩
      | err => simp at h
      | packet p =>
        simp only [] at h
        cases ho : ownReply c.rid p with
        | none => simp [ho] at h
        | some x =>
          obtain ⟨t, b⟩ := x
          simp only [ho] at h
          by_cases ht : t = sOk
          · rw [if_pos ht] at h
            simp only [Prod.mk.injEq, true_and] at h
            exact ⟨by rw [← h]; rfl, .inr ⟨l, .inr ⟨b, by rw [hown ho ht]⟩⟩⟩
          · rw [if_neg ht] at h
            simp at h
  · unfold command at h
    rw [if_neg (by rw [hc]; decide), if_neg (by rw [hc]; decide), if_neg (by rw [hc]; decide), if_neg (by rw [hc]; decide),
      if_neg (by rw [hc]; decide), if_pos (show commandOf O = cStop from hc)] at h
    unfold askStopping at h
    cases hi : c.inc with
    | nil => rw [show c.next = .eof by unfold Cl.next; rw [hi]; rfl] at h; simp at h
    | cons g l =>
      rw [show c.next = g by unfold Cl.next; rw [hi]; rfl] at h
      cases g with
      | eof => simp at h
      | err => simp at h
      | packet p =>
        simp only [] at h
        cases ho : ownReply c.rid p with
        | none => simp [ho] at h
        | some x =>
          obtain ⟨t, b⟩ := x
          simp only [ho] at h
          by_cases ht : t = sOk
          · rw [if_pos ht] at h
            simp only [Prod.mk.injEq, true_and] at h
            exact ⟨by rw [← h]; rfl, b, l, by rw [hown ho ht]⟩
          · rw [if_neg ht] at h
            simp at h
  · unfold command at h
    rw [if_neg (by rw [hc]; decide), if_neg (by rw [hc]; decide), if_pos (show commandOf O = cForward from hc)] at h
    cases hf : forwardAll false (wanted O) true c with
    | none => simp [hf] at h
    | some x =>
      obtain ⟨ok, c2⟩ := x
      simp only [hf, Prod.mk.injEq] at h
      cases ok with
      | false => simp at h
      | true => rw [h.2]

/-- C126: all forwardings of a client are done only if each of them is. -/
theorem C126_all {cancel : Bool} : ∀ (l : List (Nat × Fwd)) (ok : Bool) (c c' : Cl), forwardAll cancel l ok c = some (true, c') →
    ok = true ∧ ∀ i k f, l[i]? = some (k, f) → ∃ c1 c2, forward cancel k f c1 = some (true, c2) ∧
      c1.inc = c.inc.drop i ∧ c1.sent.length = c.sent.length + i := by
  intro l
  induction l with
  | nil =>
    intro ok c c' h
    simp only [forwardAll, Option.some.injEq, Prod.mk.injEq] at h
    exact ⟨h.1, by simp⟩
  | cons x l ih =>
    intro ok c c' h
    obtain ⟨kind, f⟩ := x
    rw [forwardAll] at h
    cases hf : forward cancel kind f c with
    | none => simp [hf] at h
    | some y =>
      obtain ⟨r, c2⟩ := y
      simp only [hf] at h
      obtain ⟨h1, h2⟩ := ih _ _ _ h
      rw [Bool.and_eq_true] at h1
      obtain ⟨rfl, rfl⟩ := h1
      have hc2 : c2.inc = c.inc.tail ∧ c2.sent.length = c.sent.length + 1 := by
        unfold forward at hf
        split at hf
        · split at hf
          · cases hf
          · simp only [Option.some.injEq, Prod.mk.injEq, true_and] at hf
            rw [← hf]
            exact ⟨rfl, by simp [Cl.bump, Cl.read, Cl.send]⟩
          · simp at hf
        · simp at hf
      refine ⟨rfl, fun i k g hi => ?_⟩
      cases i with
      | zero =>
        simp only [List.getElem?_cons_zero, Option.some.injEq, Prod.mk.injEq] at hi
        obtain ⟨rfl, rfl⟩ := hi
        exact ⟨c, c2, hf, rfl, rfl⟩
      | succ i =>
        rw [List.getElem?_cons_succ] at hi
        obtain ⟨c3, c4, h3, h4, h5⟩ := h2 i k g hi
        refine ⟨c3, c4, h3, ?_, by rw [h5, hc2.2]; omega⟩
        rw [h4, hc2.1, List.drop_tail]

end Verif.Mux
