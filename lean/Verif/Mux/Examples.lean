/-
Cases that meet the conditions of the theorems.
-/
import Verif.Mux.Commands
import Verif.Mux.Limits

namespace Verif.Mux
open Verif Wire

/-! ### C123 -/

-- Two requests and their answers, in order
example : answered (run openConf (greeted openConf) [(alone, .packet (be 4 0x10000004 ++ be 4 1)), (alone, .packet (be 4 0x10000009 ++ be 4 2))]).out
    = [1, 2] := by decide +kernel
example : (run openConf (greeted openConf) [(alone, .packet (be 4 0x10000004 ++ be 4 1))]).out =
    [.reply (be 4 1 ++ be 4 4), .reply (be 4 0x80000005 ++ be 4 1 ++ be 4 4711)] := by decide +kernel
example : Greeting (be 4 1 ++ be 4 4) := ⟨[], .nil, by simp⟩
-- Another version is no greeting
example : (step openConf alone (init [] []) (.packet (be 4 1 ++ be 4 3))).status = .dead := by decide +kernel
-- Requests before a greeting
example : (step openConf alone (init [] []) (.packet (be 4 0x10000004 ++ be 4 1))).status = .dead := by decide +kernel
example : request? (be 4 0x10000004 ++ be 4 1) = some (0x10000004, 1, []) := by decide +kernel
example : request? (be 4 0x10000004) = none := by decide +kernel

/-! ### C124 -/

-- Refused
example : (step askingConf alone (greeted askingConf) (.packet (be 4 0x10000005 ++ be 4 3))).out = (greeted askingConf).out ++
    [.asked b!"Terminate shared connection to host? ", .reply (be 4 0x80000002 ++ be 4 3 ++ str b!"Permission denied")] := by decide +kernel
-- Agreed
example : (step askingConf agreeing (greeted askingConf) (.packet (be 4 0x10000005 ++ be 4 3))).out = (greeted askingConf).out ++
    [.asked b!"Terminate shared connection to host? ", .terminate, .reply (be 4 0x80000001 ++ be 4 3)] := by decide +kernel
-- Nothing to ask
example : (step openConf alone (greeted openConf) (.packet (be 4 0x10000005 ++ be 4 3))).out = (greeted openConf).out ++
    [.terminate, .reply (be 4 0x80000001 ++ be 4 3)] := by decide +kernel

/-! ### C125 -/

def shellOpts : Opts := ⟨0, .no, [b!"LANG", b!"EDITOR"], [b!"LC_ALL=C", b!"SECRET=1"], [b!"LANG=de", b!"EDITOR=ed", b!"HOME=/"], [], [], none,
  1, 1, 1, false, 126, b!"xterm", []⟩

def opening : St := step openConf alone (greeted openConf) (.packet (sesRequest shellOpts 5))

-- A session with a terminal: of the variables of the client two get through, see C126_session_sent
example : opening.wait = some (.session 5 ⟨1, 1, 1, 0, 126, b!"xterm", [], [b!"LANG=de", b!"LC_ALL=C"]⟩) := by decide +kernel
example : opening.out = (greeted openConf).out ++ [.openSession [5, 6, 7] 1048576 16384 (some 126)] := by decide +kernel
example : opening.child = some 9 := by decide +kernel
-- It is opened; the agent is wanted and the master has it, X11 is not
example : (step openConf alone opening (.opened true)).out = opening.out ++
    [.agent 9, .setup 9 ⟨1, 1, 1, 0, 126, b!"xterm", [], [b!"LANG=de", b!"LC_ALL=C"]⟩, .reply (be 4 0x80000006 ++ be 4 5 ++ be 4 9)] := by
  decide +kernel
-- No second one
example : (step openConf alone (step openConf alone opening (.opened true)) (.packet (sesRequest shellOpts 6))).out =
    (step openConf alone opening (.opened true)).out ++ [.reply (be 4 0x80000003 ++ be 4 6 ++ str b!"Multiple sessions not supported")] := by
  decide +kernel
example : EnvOk openConf b!"LC_ALL=C" := (envPermitted_iff _ _).1 (by decide +kernel)
example : ¬ EnvOk openConf b!"SECRET=1" := fun h => by
  have := (envPermitted_iff openConf b!"SECRET=1").2 h
  revert this
  decide +kernel

/-! ### C126 -/

-- Asked to stop, and to be a proxy
example : Ready (greeted openConf) := by decide +kernel
example : (step openConf { alone with listening := true } (greeted openConf) (.packet (be 4 0x10000009 ++ be 4 2))).out =
    (greeted openConf).out ++ [.stopListening, .reply (be 4 0x80000001 ++ be 4 2)] := by decide +kernel
example : (step openConf alone (greeted openConf) (.packet (be 4 0x1000000f ++ be 4 2))).proxied = true := by decide +kernel
-- A forwarding without a port to connect to is a dynamic one
example : (wanted { shellOpts with locals := [⟨none, 1080, none, none, 0, none, 0⟩] }).map Prod.fst = [3] := by decide +kernel
-- Forwardings refused: no session
example : (command { shellOpts with remotes := [⟨none, 1080, none, some b!"h", 80, none, 0⟩] } false
    ⟨0, [.packet (be 4 0x80000003 ++ be 4 0 ++ str b!"no")], []⟩).1 = .back := by decide +kernel

example : Writable shellOpts :=
  ⟨by decide, by decide, by decide, by decide, ⟨by decide, by decide⟩, ⟨by decide, by decide⟩, by decide +kernel, by decide +kernel⟩
-- The whole of a client with a session
example : muxclient shellOpts true false [.packet (be 4 1 ++ be 4 4), .packet (be 4 0x80000005 ++ be 4 0 ++ be 4 4711),
      .packet (be 4 0x80000006 ++ be 4 1 ++ be 4 9), .packet (be 4 0x80000004 ++ be 4 9 ++ be 4 3), .eof] =
    (.exit 3, ⟨1, [.packet (be 4 0x80000004 ++ be 4 9 ++ be 4 3), .eof],
      [be 4 1 ++ be 4 4, be 4 0x10000004 ++ be 4 0, sesRequest shellOpts 1]⟩) := by decide +kernel
-- The exit status of another session
example : exitLoop 9 none [.packet (be 4 0x80000004 ++ be 4 8 ++ be 4 3), .eof] = none := by decide +kernel
example : exitLoop 9 none [.packet (be 4 0x80000008 ++ be 4 9), .packet (be 4 0x80000004 ++ be 4 9 ++ be 4 3), .eof] = some (some 3) := by decide +kernel
example : exitLoop 9 none [.eof] = some none := by decide +kernel
-- The answer to another request
example : fwdReply false 3 (be 4 0x80000001 ++ be 4 2) = none := by decide +kernel
example : fwdReply false 3 (be 4 0x80000001 ++ be 4 3) = some true := by decide +kernel
example : Place webFwd.listenPort webFwd.listenHost webFwd.listenPath := .inr ⟨by decide, rfl, fun _ h => by cases h⟩
example : arrives { webFwd with listenHost := some [] } = { webFwd with listenHost := some b!"*" } := by decide +kernel
-- Commands
example : command { cancelOpts with command := 5 } false ⟨0, [.packet (be 4 0x80000001 ++ be 4 0)], []⟩ =
    (.exit 0, ⟨1, [], [fwdRequest false 0 1 webFwd]⟩) := by decide +kernel
example : (command { cancelOpts with command := 5 } false ⟨0, [.packet (be 4 0x80000003 ++ be 4 0 ++ str b!"no")], []⟩).1 = .fatal := by
  decide +kernel
example : (command { cancelOpts with command := 2 } false ⟨0, [.packet (be 4 0x80000005 ++ be 4 0 ++ be 4 4711)], []⟩).1 = .exit 0 := by
  decide +kernel

/-! ### C127 -/

def forwarding : St := step openConf alone (greeted openConf) (.packet (fwdRequest false 7 1 webFwd))

example : forwarding.out = (greeted openConf).out ++ [.listen webFwd, .reply (be 4 0x80000001 ++ be 4 7)] := by decide +kernel
example : forwarding.locals = [webFwd] := by decide +kernel
-- Once more: it is there
example : (step openConf alone forwarding (.packet (fwdRequest false 8 1 webFwd))).out = forwarding.out ++ [.reply (be 4 0x80000001 ++ be 4 8)] := by
  decide +kernel
-- It is closed, and the entry is empty
example : (step openConf alone forwarding (.packet (fwdRequest true 8 1 webFwd))).locals = [nowhere] := by decide +kernel
example : Possible 1 webFwd := .inl ⟨rfl, by decide, .inl (by decide)⟩
example : Distinct [webFwd, nowhere, nowhere] := by
  unfold Distinct
  refine List.pairwise_cons.2 ⟨?_, List.pairwise_cons.2 ⟨?_, List.pairwise_cons.2 ⟨by simp, .nil⟩⟩⟩
  · intro g hg h
    simp only [List.mem_cons, List.not_mem_nil, or_false, or_self] at hg
    subst hg
    exact absurd h.2.2.1 (by decide)
  · intro g _ _
    exact ⟨rfl, rfl, rfl, rfl, rfl, rfl⟩

/-- A remote forwarding at a port that the server chooses -/
def remoteFwd : Fwd := ⟨none, 0, none, some b!"web", 80, none, 0⟩
def asking : St := step openConf alone (greeted openConf) (.packet (fwdRequest false 7 2 remoteFwd))

example : asking.wait = some (.forward 7 0) := by decide +kernel
example : (step openConf alone asking (.forwarded true (be 4 2222))).out = asking.out ++
    [.reply (be 4 0x80000007 ++ be 4 7 ++ be 4 2222), .allocate remoteFwd (some 2222)] := by decide +kernel
example : (step openConf alone asking (.forwarded true (be 4 2222))).remotes = [{ remoteFwd with allocated := 2222 }] := by decide +kernel
-- Refused: the entry is empty
example : (step openConf alone asking (.forwarded false [])).remotes = [nowhere] := by decide +kernel
-- No port where there has to be one
example : (step openConf alone asking (.forwarded true [])).status = .fatal := by decide +kernel

/-! ### C128 -/

example : (looks ⟨[], frames [b!"ab", b!"c"] ++ [0, 0]⟩ [(1, 9), (3, 1), (9, 9), (9, 9), (9, 9)]) = ([b!"ab", b!"c"], false, ⟨[0, 0], []⟩) := by decide +kernel
example : (looks ⟨[], [1, 0, 0, 0, 7]⟩ [(9, 9)]) = ([], true, ⟨[1, 0, 0, 0], [7]⟩) := by decide +kernel

end Verif.Mux
