/-
C123, C126: requests to stop and to be a proxy at the master; what a client asks for, and when it goes on.
-/
import Verif.Mux.Stdio
import Verif.Mux.ClientProps

namespace Verif.Mux
open Verif Wire

/-- C123: a request to be a proxy is answered so, and from then on the client is one. -/
theorem C123_proxy {C : Conf} {s : St} (hr : Ready s) (W : World) {p b : Bytes} {rid : Nat} (hp : request? p = some (0x1000000f, rid, b)) :
    (step C W s (.packet p)).out = s.out ++ [.proxy, .reply (be 4 0x8000000f ++ be 4 rid)] ∧ (step C W s (.packet p)).proxied = true := by
  rw [step_request hr W hp]
  have hh : handle C W s 0x1000000f rid b = proxy s rid := rfl
  rw [hh]
  exact ⟨by simp [proxy, St.act, sProxy], rfl⟩

/-- C123: a client that is told that the master has stopped to listen is told so after it has, if it did listen. -/
theorem C123_stopped {C : Conf} {s : St} (hr : Ready s) (W : World) {p b : Bytes} {rid : Nat} (hp : request? p = some (0x10000009, rid, b))
    {k : List Act} (hk : (step C W s (.packet p)).out = s.out ++ k) (ho : Act.reply (be 4 0x80000001 ++ be 4 rid) ∈ k) (hl : W.listening = true) :
    ∃ q, k = q ++ [.stopListening, .reply (be 4 0x80000001 ++ be 4 rid)] := by
  rw [step_request hr W hp] at hk
  have hh : handle C W s 0x10000009 rid b = stopListening C W s rid := rfl
  rw [hh] at hk
  unfold stopListening at hk
  by_cases h3 : (permit C W s (askStop C)).1 = true
  · rw [if_pos h3, if_pos hl] at hk
    rcases permit_cases C W s (askStop C) with ⟨_, e⟩ | ⟨_, e⟩ <;> rw [e] at hk
    · have := List.append_cancel_left (as := s.out) (by simpa [St.ok, St.act, okReply, sOk, List.append_assoc] using hk.symm)
      exact ⟨[], this⟩
    · have := List.append_cancel_left (as := s.out) (by simpa [St.ok, St.act, okReply, sOk, List.append_assoc] using hk.symm)
      exact ⟨[_], this⟩
  · rw [if_neg h3] at hk
    have hne : Act.reply (be 4 0x80000001 ++ be 4 rid) ≠ .reply (errReply sDenied rid denied) := by
      intro h
      have := congrArg List.length (Act.reply.inj h)
      simp [errReply, be_length, str, denied] at this
    rcases permit_cases C W s (askStop C) with ⟨_, e⟩ | ⟨_, e⟩ <;> rw [e] at hk
    · have := List.append_cancel_left (as := s.out) (by simpa [St.err, St.act, List.append_assoc] using hk.symm)
      rw [this] at ho
      exact absurd (by simpa using ho) hne
    · have := List.append_cancel_left (as := s.out) (by simpa [St.err, St.act, List.append_assoc] using hk.symm)
      rw [this] at ho
      simp only [List.mem_cons, List.not_mem_nil, or_false, reduceCtorEq, false_or] at ho
      exact absurd ho hne

/-- C126: what is asked for are the forwardings that are configured, one after the other: those to listen here for, as local ones or, without
a port to connect to, as dynamic ones, and then the remote ones. -/
theorem C126_wanted (O : Opts) : (wanted O).map Prod.snd = O.locals ++ O.remotes ∧
    ∀ i k f, (wanted O)[i]? = some (k, f) →
      (i < O.locals.length → f.connectPort ≠ 0 → k = 1) ∧ (i < O.locals.length → f.connectPort = 0 → k = 3) ∧ (O.locals.length ≤ i → k = 2) := by
  refine ⟨by simp [wanted, Function.comp_def], fun i k f h => ?_⟩
  unfold wanted at h
  by_cases hi : i < O.locals.length
  · rw [List.getElem?_append_left (by simpa using hi), List.getElem?_map] at h
    obtain ⟨g, -, hg⟩ := Option.map_eq_some_iff.1 h
    simp only [Prod.mk.injEq] at hg
    obtain ⟨hk, rfl⟩ := hg
    refine ⟨fun _ hp => ?_, fun _ hp => ?_, fun h => absurd hi (by omega)⟩
    · rw [if_neg hp] at hk; exact hk.symm
    · rw [if_pos hp] at hk; exact hk.symm
  · rw [List.getElem?_append_right (by simpa using hi), List.getElem?_map] at h
    obtain ⟨g, -, hg⟩ := Option.map_eq_some_iff.1 h
    simp only [Prod.mk.injEq] at hg
    exact ⟨fun h => absurd h hi, fun h => absurd h hi, fun _ => hg.1.symm⟩

/-- C126: without a command for the master, and without -W, a client has a session only after all its forwardings are done; otherwise it makes
its own connection. -/
theorem C126_session {O : Opts} (h0 : O.command = 0) (hs : O.stdio = none) {signalled : Bool} {c c' : Cl} {e : End'}
    (h : command O signalled c = (e, c')) (hb : e ≠ .back) (hf : e ≠ .fatal) :
    ∃ c1, forwardAll false (wanted O) true c = some (true, c1) ∧ session O signalled c1 = (e, c') := by
  have hc : commandOf O = cOpen := by simp [commandOf, h0, hs]
  unfold command at h
  rw [hc, if_neg (by decide), if_neg (by decide), if_neg (by decide), if_pos rfl] at h
  cases hw : forwardAll false (wanted O) true c with
  | none => simp only [hw, Prod.mk.injEq] at h; exact absurd h.1.symm hf
  | some x =>
    obtain ⟨ok, c1⟩ := x
    simp only [hw] at h
    cases ok with
    | false => simp only [Bool.false_eq_true, if_false, Prod.mk.injEq] at h; exact absurd h.1.symm hb
    | true => exact ⟨c1, rfl, h⟩

/-- C126: with -W, a client asks for the forwarding of its input and output, to where it was told, and for nothing else. -/
theorem C126_stdio_asked {O : Opts} (h0 : O.command = 0) {host : Bytes} {port : Nat} (hs : O.stdio = some (host, port)) {signalled : Bool}
    {c c' : Cl} {e : End'} (h : command O signalled c = (e, c')) :
    ((∃ r, stdio host port c = some (r, c')) ∧ e = .exit 0) ∨ (stdio host port c = none ∧ e = .fatal) := by
  have hc : commandOf O = cStdio := by simp [commandOf, h0, hs]
  unfold command at h
  rw [hc, if_neg (by decide), if_neg (by decide), if_neg (by decide), if_neg (by decide), if_pos rfl, hs] at h
  cases hw : stdio host port c with
  | none => simp only [Option.getD_some, hw, Prod.mk.injEq] at h; exact .inr ⟨rfl, h.1.symm⟩
  | some x =>
    obtain ⟨r, c1⟩ := x
    simp only [Option.getD_some, hw, Prod.mk.injEq] at h
    exact .inl ⟨⟨r, by rw [h.2]⟩, h.1.symm⟩

/-- C126: a client asks a master for something only after a greeting of the right version, and greets itself before. -/
theorem C126_greeted {O : Opts} {connected signalled : Bool} {inc : List Got} {e : End'} {c : Cl}
    (h : muxclient O connected signalled inc = (e, c)) (hb : e ≠ .back) (hf : e ≠ .fatal) :
    connected = true ∧ O.master ≠ .yes ∧ O.master ≠ .ask ∧
      ∃ p l, inc = .packet p :: l ∧ Greeting p ∧ command O signalled ⟨0, l, [be 4 1 ++ be 4 4]⟩ = (e, c) := by
  unfold muxclient at h
  split at h
  · simp only [Prod.mk.injEq] at h; exact absurd h.1.symm hb
  · rename_i hm
    split at h
    · simp only [Prod.mk.injEq] at h
      split at h
      · exact absurd h.1.symm hb
      · exact absurd h.1.symm hf
    · rename_i hcn
      refine ⟨by simpa using hcn, fun x => hm (.inl x), fun x => hm (.inr x), ?_⟩
      cases hg : greet ⟨0, inc, []⟩ with
      | none => simp only [hg, Prod.mk.injEq] at h; exact absurd h.1.symm hf
      | some x =>
        obtain ⟨ok, c1⟩ := x
        cases ok with
        | false => simp only [hg, Prod.mk.injEq] at h; exact absurd h.1.symm hb
        | true =>
          simp only [hg] at h
          unfold greet at hg
          cases inc with
          | nil => simp [Cl.next] at hg
          | cons g l =>
            cases g with
            | eof => simp [Cl.next] at hg
            | err => simp [Cl.next] at hg
            | packet p =>
              simp only [Cl.next, List.headD_cons] at hg
              obtain ⟨r, hr, hx⟩ := Option.map_eq_some_iff.1 hg
              simp only [Prod.mk.injEq] at hx
              obtain ⟨rfl, rfl⟩ := hx
              refine ⟨p, l, rfl, ?_, h⟩
              unfold readHello at hr
              cases h1 : getInt 4 p with
              | none => simp [h1] at hr
              | some y =>
                obtain ⟨t, b⟩ := y
                simp only [h1] at hr
                split at hr
                · cases hr
                · rename_i ht
                  have ht : t = 1 := by simpa [tHello] using ht
                  obtain ⟨rfl, -⟩ := getInt_some h1
                  cases h2 : getInt 4 b with
                  | none => simp [h2] at hr
                  | some z =>
                    obtain ⟨v, b2⟩ := z
                    simp only [h2] at hr
                    split at hr
                    · cases hr
                    · rename_i hv
                      have hv : v = 4 := by simpa [version] using hv
                      obtain ⟨rfl, -⟩ := getInt_some h2
                      refine ⟨b2, (extensions_iff _ _ (by omega)).1 (Option.some.inj hr), ?_⟩
                      rw [ht, hv, List.append_assoc]

end Verif.Mux
