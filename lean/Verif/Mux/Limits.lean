/-
Where the claims are not true: cases that show it. C123, C124, C126 and C127.
-/
import Verif.Mux.ClientProps

namespace Verif.Mux
open Verif Wire

/-- A master that asks, and one that does not -/
def askingConf : Conf := ⟨.ask, b!"host", [b!"LANG", b!"LC_*"], false, false, true, 4711⟩
def openConf : Conf := ⟨.auto, b!"host", [b!"LANG", b!"LC_*"], false, false, true, 4711⟩

/-- Where everything goes well, but nobody is there to answer questions; and where someone says yes -/
def alone : World := ⟨fun _ => none, [5, 6, 7], 9, fun _ => true, fun _ => true, fun _ => true, fun _ => true, true, true⟩
def agreeing : World := ⟨fun _ => some b!"yes", [5, 6, 7], 9, fun _ => true, fun _ => true, fun _ => true, fun _ => true, true, true⟩

/-- Nothing is found that listens -/
def deaf : World := ⟨fun _ => none, [5, 6, 7], 9, fun _ => true, fun _ => true, fun _ => true, fun _ => false, true, true⟩

/-- After the greetings -/
def greeted (C : Conf) : St := run C (init [] []) [(alone, .packet (be 4 1 ++ be 4 4))]

theorem reach_run {C : Conf} : ∀ (l : List (World × Event)) (s : St), Reach C s → Reach C (run C s l) := by
  intro l
  induction l with
  | nil => intro s h; exact h
  | cons x l ih => intro s h; exact ih _ (.step x.1 x.2 h)

theorem greeted_reach (C : Conf) : Reach C (greeted C) := reach_run _ _ (.init [] [])

theorem greeted_ready (C : Conf) : Ready (greeted C) := by
  refine ⟨?_, ?_, ?_, ?_⟩ <;> rfl

/-- A local forwarding -/
def webFwd : Fwd := ⟨none, 8080, none, some b!"web", 80, none, 0⟩

/-- C123, not true: the program outlives whatever a client sends. With a forwarding of a kind that there is not, it ends with an
error; with one that leads nowhere, a null pointer is printed. -/
theorem C123_survives_original_false : ¬ ∀ (C : Conf) (W : World) (s : St) (p : Bytes), Reach C s → Ready s →
    (step C W s (.packet p)).status ≠ .fatal ∧ (step C W s (.packet p)).status ≠ .undefined := by
  intro h
  exact (h openConf alone (greeted openConf) (fwdRequest false 7 4 webFwd) (greeted_reach _) (greeted_ready _)).1 (by decide +kernel)

/-- The other of the two -/
theorem C123_undefined : ∃ (C : Conf) (W : World) (s : St) (p : Bytes), Reach C s ∧ Ready s ∧
    (step C W s (.packet p)).status = .undefined :=
  ⟨openConf, alone, greeted openConf, fwdRequest true 7 1 { webFwd with connectHost := none }, greeted_reach _, greeted_ready _,
    by decide +kernel⟩

/-- C124, not true: with ControlMaster=ask nothing is done with the connection that the user has not agreed to. To become a proxy, which
can open all kinds of channels, and to close forwardings no question is asked. -/
theorem C124_asked_original_false : ¬ ∀ (C : Conf) (W : World) (s : St) (e : Event), Asking C → Reach C s →
    ∃ l, (step C W s e).out = s.out ++ l ∧ ∀ a ∈ l, Uses a → ∃ text, l.head? = some (.asked text) ∧ Agrees (W.answer text) := by
  intro h
  obtain ⟨l, h1, h2⟩ := h askingConf alone (greeted askingConf) (.packet (be 4 0x1000000f ++ be 4 7)) (.inl rfl) (greeted_reach _)
  have h3 : (step askingConf alone (greeted askingConf) (.packet (be 4 0x1000000f ++ be 4 7))).out =
      (greeted askingConf).out ++ [.proxy, .reply (be 4 0x8000000f ++ be 4 7)] := by decide +kernel
  have := List.append_cancel_left (h1.symm.trans h3)
  subst this
  obtain ⟨t, ht, _⟩ := h2 .proxy (by simp) trivial
  simp at ht

/-- C124: the same for a forwarding that is closed -/
theorem C124_unasked_close : ∃ (C : Conf) (W : World) (s : St) (p : Bytes) (f : Fwd), Asking C ∧ Reach C s ∧ (∀ t, W.answer t = none) ∧
    (step C W s (.packet p)).out = s.out ++ [.unlisten f, .reply (be 4 0x80000001 ++ be 4 8)] :=
  ⟨askingConf, alone, run askingConf (greeted askingConf) [(agreeing, .packet (fwdRequest false 7 1 webFwd))], fwdRequest true 8 1 webFwd,
    webFwd, .inl rfl, reach_run _ _ (greeted_reach _), fun _ => rfl, by decide +kernel⟩

/-- A forwarding to the socket of some service, said to be dynamic -/
def sneaky : Fwd := ⟨none, 1080, none, none, 4294967294, some b!"/run/docker.sock", 0⟩

/-- C124: the question for a dynamic forwarding does not name where it leads, though it leads to one place only. -/
theorem C124_dynamic_fixed : ∃ (C : Conf) (W : World) (s : St) (p : Bytes) (f : Fwd), Asking C ∧ Reach C s ∧
    f.connectPath = some b!"/run/docker.sock" ∧
    (step C W s (.packet p)).out = s.out ++
      [.asked b!"Open dynamic forward LOCALHOST:1080 -> * on host?", .listen f, .reply (be 4 0x80000001 ++ be 4 7)] :=
  ⟨askingConf, agreeing, greeted askingConf, fwdRequest false 7 3 sneaky, sneaky, .inl rfl, greeted_reach _, rfl, by decide +kernel⟩

/-- A dynamic forwarding at no port in particular and leading nowhere -/
def nowhere : Fwd := ⟨none, 0, none, none, 0, none, 0⟩

/-- C127, not true: when a client is told that a forwarding is open, then something listens for it now, or was made to listen for it
and has not been closed. The entry of a forwarding that was closed is taken for that of another. -/
theorem C127_opened_original_false : ¬ ∀ (C : Conf) (W : World) (s : St) (p b : Bytes) (rid kind : Nat) (f : Fwd), Reach C s → Ready s →
    request? p = some (0x10000006, rid, b) → Wants b kind f → kind ≠ 2 →
    Act.reply (be 4 0x80000001 ++ be 4 rid) ∈ ((step C W s (.packet p)).out.drop s.out.length) →
    Act.listen f ∈ (step C W s (.packet p)).out := by
  intro h
  have hw : Place nowhere.listenPort nowhere.listenHost nowhere.listenPath := .inr ⟨by decide, rfl, fun _ h => by cases h⟩
  have hw' : Place nowhere.connectPort nowhere.connectHost nowhere.connectPath := .inr ⟨by decide, rfl, fun _ h => by cases h⟩
  obtain ⟨b, h1, h2⟩ := C126_forward_sent (cancel := false) (rid := 9) (kind := 3) (f := nowhere) (by decide) (by decide) hw hw'
  have := h openConf alone
    (run openConf (greeted openConf) [(alone, .packet (fwdRequest false 7 1 webFwd)), (alone, .packet (fwdRequest true 8 1 webFwd))])
    (fwdRequest false 9 3 nowhere) b 9 3 nowhere (reach_run _ _ (greeted_reach _)) (by decide +kernel) h1 h2 (by decide) (by decide +kernel)
  revert this
  decide +kernel

/-- C127, not true: when a client is told that a local forwarding is closed then something that listened for it is closed. -/
theorem C127_closed_original_false : ¬ ∀ (C : Conf) (W : World) (s : St) (p b : Bytes) (rid kind : Nat) (f : Fwd), Reach C s → Ready s →
    request? p = some (0x10000007, rid, b) → Wants b kind f → kind ≠ 2 →
    Act.reply (be 4 0x80000001 ++ be 4 rid) ∈ ((step C W s (.packet p)).out.drop s.out.length) →
    Act.unlisten f ∈ (step C W s (.packet p)).out := by
  intro h
  have hw : Place webFwd.listenPort webFwd.listenHost webFwd.listenPath := .inr ⟨by decide, rfl, fun _ h => by cases h⟩
  have hw' : Place webFwd.connectPort webFwd.connectHost webFwd.connectPath :=
    .inr ⟨by decide, rfl, fun x h => by cases h; exact ⟨by decide, by decide⟩⟩
  obtain ⟨b, h1, h2⟩ := C126_forward_sent (cancel := true) (rid := 8) (kind := 1) (f := webFwd) (by decide) (by decide) hw hw'
  have := h openConf deaf
    (run openConf (greeted openConf) [(alone, .packet (fwdRequest false 7 1 webFwd))])
    (fwdRequest true 8 1 webFwd) b 8 1 webFwd (reach_run _ _ (greeted_reach _)) (by decide +kernel) h1 h2 (by decide) (by decide +kernel)
  revert this
  decide +kernel

/-- What the client is told to do: to cancel, or to pass on input and output -/
def cancelOpts : Opts := ⟨7, .no, [], [], [], [webFwd], [], none, 0, 0, 0, false, 0xffffffff, [], []⟩
def stdioOpts : Opts := ⟨0, .no, [], [], [], [], [], some (b!"web", 80), 0, 0, 0, false, 0xffffffff, [], []⟩
def checkOpts : Opts := ⟨2, .yes, [], [], [], [], [], none, 0, 0, 0, false, 0xffffffff, [], []⟩

/-- C126, not true: a client that ends with 0 has been told by the master that all is done. After a refused cancellation it does so, too. -/
theorem C126_commands_original_false : ¬ ∀ (O : Opts) (c c' : Cl), commandOf O = 7 → command O false c = (.exit 0, c') →
    forwardAll true (wanted O) true c = some (true, c') := by
  intro h
  have := h cancelOpts ⟨0, [.packet (be 4 0x80000003 ++ be 4 0 ++ str b!"port not forwarded")], []⟩
    ⟨0, [], [fwdRequest true 0 1 webFwd]⟩ rfl (by decide +kernel)
  have h2 : forwardAll true (wanted cancelOpts) true ⟨0, [.packet (be 4 0x80000003 ++ be 4 0 ++ str b!"port not forwarded")], []⟩ =
      some (false, ⟨0, [], [fwdRequest true 0 1 webFwd]⟩) := by decide +kernel
  rw [h2] at this
  simp at this

/-- C126: and so it does when the forwarding of its input and output never came about, since the master went away. -/
theorem C126_stdio_lost : ∃ (O : Opts) (inc : List Got), commandOf O = 4 ∧ O.stdio = some (b!"web", 80) ∧
    inc = [.packet (be 4 1 ++ be 4 4)] ∧ (muxclient O true false inc).1 = .exit 0 ∧
    ∀ p ∈ (muxclient O true false inc).2.sent, p.take 4 ≠ be 4 0x10000008 :=
  ⟨stdioOpts, _, rfl, rfl, rfl, by decide +kernel, by decide +kernel⟩

/-- C126: with ControlMaster=yes a command for a master is not passed on at all; ssh goes on to connect by itself. -/
theorem C126_command_ignored (O : Opts) (connected signalled : Bool) (inc : List Got) (h : O.master = .yes ∨ O.master = .ask) :
    muxclient O connected signalled inc = (.back, ⟨0, inc, []⟩) := by
  unfold muxclient
  rw [if_pos h]

end Verif.Mux
