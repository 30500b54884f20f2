/-
Cases for the properties of Loop, and where they fail.
-/
import Verif.Loop.ServerProps
import Verif.Loop.ClientProps
import Verif.Loop.EscapeProps

namespace Verif.Loop
open Verif Verif.Wire

/-! ### The server -/

def exW : SWorld :=
  { connect := some 3, errmsg := none, session := some 0, tunOpen := some 5, listen := some 8080, listenPath := true, cancel := true,
    prove := none, chan := fun i => if i = 0 then some ⟨true, false, 7⟩ else none, sessionReq := true }

/-- All that is allowed by default. -/
def exFwd : Permit.Cfg :=
  { tcpLocal := true, tcpRemote := true, streamLocal := true, streamRemote := true, disable := false, keyForward := true,
    permitOpen := [], permitListen := [], keyOpen := [], keyListen := [] }

def exS : SCfg := { fwd := exFwd, loc := { all := true }, rem := { all := true }, tun := 0, forceTun := none }

def openMsg (ctype rest : Bytes) : Bytes := str ctype ++ be 4 9 ++ be 4 2097152 ++ be 4 32768 ++ rest

def exTcp : Bytes := str b!"web" ++ be 4 80 ++ str b!"::1" ++ be 4 4000

theorem exTcp_opening : Opening b!"direct-tcpip" 9 exTcp (openMsg b!"direct-tcpip" exTcp) := openHead_iff.1 ⟨2097152, 32768, by decide⟩

/-- A connection, and where it is refused. -/
example : serverOpen exS exW serverStart (openMsg b!"direct-tcpip" exTcp) = ([.connectTcp b!"web" 80, .pending 3 9], serverStart) := by
  decide
example : Entitled exS serverStart (openMsg b!"direct-tcpip" exTcp) (.connectTcp b!"web" 80) :=
  C112_entitled (W := exW) (by decide) (by simp) (by simp)
example : (serverOpen { exS with fwd := { exFwd with keyForward := false } } exW serverStart (openMsg b!"direct-tcpip" exTcp)).1.length = 1 := by
  decide
example : Answered 9 (serverOpen exS exW serverStart (openMsg b!"direct-tcpip" exTcp)).1 := C112_answered exTcp_opening (by decide)
example : (serverOpen exS exW serverStart (openMsg b!"direct-tcpip" (exTcp ++ [0]))).2.ended = true := by decide

/-- A session, and none after no-more-sessions. -/
def exNoMore : Bytes := 80 :: (str b!"no-more-sessions@openssh.com" ++ [0])
example : serverRun exS serverStart [(exW, 90 :: openMsg b!"session" []), (exW, exNoMore)] =
    [.session 0, .send (confirmation 9 0 0 32768)] := by decide
example : serverRun exS serverStart [(exW, exNoMore), (exW, 90 :: openMsg b!"session" [])] = [] := by decide

/-- A listener whose port the server chooses. -/
def exListen : Bytes := str b!"tcpip-forward" ++ 1 :: (str b!"localhost" ++ be 4 0)
example : serverGlobal exS exW serverStart exListen = ([.listenTcp b!"localhost" 0, .send (81 :: be 4 8080)], serverStart) := by decide +kernel

/-- A request on a session, and one of a channel that there is not. -/
example : serverReq exW serverStart (be 4 0 ++ str b!"shell" ++ [1]) = ([.request 0 b!"shell" [], .send (99 :: be 4 7)], serverStart) := by decide
example : (serverReq exW serverStart (be 4 1 ++ str b!"shell" ++ [1])).2.ended = true := by decide

/-- sshd_config(5): DisableForwarding "Disables all forwarding features".  But `server_request_tun` looks only at PermitTunnel and at
the device of the key. -/
theorem C112_disable_original_false :
    ∃ (C : SCfg) (W : SWorld) (m : Bytes), C.fwd.disable = true ∧ C.fwd.keyForward = false ∧ .openTun 0 1 ∈ serverRun C serverStart [(W, m)] :=
  ⟨{ exS with fwd := { exFwd with disable := true, keyForward := false }, loc := {}, rem := {}, tun := 1 }, exW,
    90 :: openMsg b!"tun@openssh.com" (be 4 1 ++ be 4 0), by decide⟩

/-- A path of 108 bytes that ends in "9". -/
def longPath : Bytes := List.replicate 106 47 ++ b!"x9"

/-- A path of 108 bytes passes the check of `connect_to_helper`, and `strlcpy` leaves out its last byte: the connection is made to
another socket, for which nobody was asked. -/
theorem C112_path_original_false :
    ∃ (C : SCfg) (W : SWorld) (m : Bytes), Permit.directStreamlocal C.fwd C.loc longPath 0 = true ∧
      Permit.directStreamlocal C.fwd C.loc (longPath.take 107) 0 = false ∧ PathTarget longPath 0 m ∧
      .connectPath (longPath.take 107) ∈ (serverOpen C W serverStart (openMsg b!"direct-streamlocal@openssh.com" m)).1 :=
  ⟨{ exS with loc := { user := [{ host := some longPath, port := -2 }] } }, exW, str longPath ++ str [] ++ be 4 0, by decide +kernel,
    by decide +kernel, pathFields_iff.1 ⟨[], by decide +kernel⟩, by decide +kernel⟩

/-! ### The client -/

def exC : CCfg := { x11 := true, x11Refuse := 1200, agent := false }
def exCW : CWorld := { now := 1000, connect := some 4, socks := 5, x11 := some 6, agent := some 7, hostkeys := true }
def exX11 : Bytes := str b!"::1" ++ be 4 6010

example : clientOpen exC exCW (Permit.crun [] Permit.exOps) (openMsg b!"x11" exX11) =
    some [.x11, .send (confirmation 9 6 2097152 16384)] := by decide
example : clientOpen exC { exCW with now := 1200 } (Permit.crun [] Permit.exOps) (openMsg b!"x11" exX11) =
    some [.send (failure 9 1 openFailed)] := by decide
example : clientOpen exC exCW (Permit.crun [] Permit.exOps) (openMsg b!"auth-agent@openssh.com" []) =
    some [.send (failure 9 1 openFailed)] := by decide
example : clientOpen exC exCW (Permit.crun [] Permit.exOps)
    (openMsg b!"forwarded-tcpip" (str b!"localhost" ++ be 4 40001 ++ str b!"::1" ++ be 4 1)) =
    some [.connect b!"web" 80, .pending 4 9] := by decide
example : clientOpen exC exCW (Permit.crun [] Permit.exOps)
    (openMsg b!"forwarded-tcpip" (str b!"localhost" ++ be 4 22 ++ str b!"::1" ++ be 4 1)) =
    some [.send (failure 9 1 openFailed)] := by decide
example : Invited exC 1000 Permit.exOps (openMsg b!"x11" exX11) .x11 :=
  C113_invited (W := exCW) (l := [.x11, .send (confirmation 9 6 2097152 16384)]) (by decide) (by decide) trivial
example : clientGlobal exCW (str b!"hostkeys-00@openssh.com" ++ [0, 1, 2]) = some [.hostkeys [1, 2]] := by decide
example : clientGlobal exCW (str b!"keepalive@openssh.com" ++ [1]) = some [.send [82]] := by decide

/-- Two parties; the counts differ from the order of the answers only inside. -/
example : queue [] [.request 1, .request 1, .request 2, .answer, .request 1, .answer, .answer, .answer, .answer] =
    [some 1, some 1, some 2, some 1, none] := by decide

example : clientAlive 3 0 [.timeout, .timeout, .heard, .timeout, .timeout, .timeout] = (5, false) := by decide
example : clientAlive 3 0 [.timeout, .timeout, .timeout, .timeout] = (3, true) := by decide
example : Silent 4 [Tick.heard, .timeout, .timeout, .timeout, .timeout] := ⟨[.heard], [], rfl⟩
example : serverAlive 0 0 (List.replicate 9 .timeout) = (9, false) := by decide

def exStart : Start :=
  { tty := none, env := [b!"LANG=C", b!"LC_ALL=a=b", b!"SECRET=x", b!"none"], sendEnv := [b!"LANG", b!"LC_*"], setEnv := [b!"A=1"],
    command := b!"ls", subsystem := false }
example : setup exStart =
    [⟨b!"env", false, str b!"LANG" ++ str b!"C"⟩, ⟨b!"env", false, str b!"LC_ALL" ++ str b!"a=b"⟩, ⟨b!"env", false, str b!"A" ++ str b!"1"⟩,
      ⟨b!"exec", true, str b!"ls"⟩] := by decide

/-! ### Escapes -/

/-- "~", in the client's own session. -/
def exE : Esc := { char := 126, shared := false, cmdline := false, stderr := true, noRekey := false, fork := true }

example : (escapes exE true false b!"ls ~.\n~?~x~~y\n~.more").1 =
    b!"ls ~.\n".map .put ++ [.cmd .help] ++ b!"~x~~y\n".map .put ++ [.cmd .quit] := by decide
example : ¬ Key exE.char := by intro h; cases h
example : Inert 126 b!"a~." := by
  intro a b h
  match a, h with
  | [x], h => cases h; rintro (h | ⟨c, h1, h2 | h2⟩) <;> simp_all
  | [], h => cases h
  | [_, _], h => cases h
  | [_, _, _], h => cases h
  | _ :: _ :: _ :: _ :: _, h => simp at h
example : Typed 126 true b!"~\n~" b!"~~\n~~" :=
  .twice _ _ false (by simp [Newline]) (.once 10 _ _ _ true (by simp) (by simp [Newline]) (.twice _ _ false (by simp [Newline]) (.nil _)))
example : (escapes { exE with shared := true } true false b!"~&~C~.").1 = [.refused 38, .refused 67, .cmd .close] := by decide

/-- "send the escape character by typing it twice": not if it is one of the commands, such as with `EscapeChar .`. -/
theorem C114_twice_original_false :
    ∃ (E : Esc) (l t : Bytes), Typed E.char true l t ∧ (escapes E true false t).1 ≠ l.map .put :=
  ⟨{ exE with char := 46 }, [46], [46, 46], .twice _ _ false (by simp [Newline]) (.nil _), by decide⟩

/-- Two sessions over one connection: the user of the second has typed "x~.", in which the escape character is not at the beginning
of a line, and the second session ends all the same because the user of the first has typed a newline in between. -/
theorem C114_separate_original_false :
    ∃ (E : Esc) (l : List (Bool × Bytes)), (true, .cmd .close) ∈ two E ⟨true, false, false⟩ l ∧
      ((l.filter (·.1)).map (·.2)).flatten = b!"x~." ∧ (escapes E true false b!"x~.").1 = b!"x~.".map .put :=
  ⟨{ exE with shared := true }, [(true, b!"x"), (false, b!"\n"), (true, b!"~.")], by decide, by decide, by decide⟩

end Verif.Loop
