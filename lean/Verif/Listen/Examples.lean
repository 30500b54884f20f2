/-
Cases that meet the hypotheses of C134, C135 and C136, and witnesses.
-/
import Verif.Listen.Cancel
import Verif.Listen.Display

namespace Verif.Listen.Examples
open Verif Verif.Listen

def v4 (ip : Bytes) (port : Nat) : Ai := ⟨.inet, ip, port % 65536⟩
def v6 (ip : Bytes) (port : Nat) : Ai := ⟨.inet6, ip, port % 65536⟩

/-- A machine with two kinds of addresses; ports that are too large are cut. -/
def world : Env where
  gai h passive port :=
    match h with
    | none => if passive then some [v4 b!"0.0.0.0" port, v6 b!"::" port] else some [v4 b!"127.0.0.1" port, v6 b!"::1" port]
    | some h => if h = b!"::1" then some [v6 h port] else if h = b!"127.0.0.1" ∨ h = b!"192.0.2.1" then some [v4 h port] else none
  name _ := true
  socket _ := true
  bind _ p := if p = 0 then some 40000 else if p ≤ 65535 then some p else none
  listen _ := true

theorem world_posix : Posix world where
  loop port l h a ha := by
    simp only [world, Bool.false_eq_true, if_false, Option.some.injEq] at h
    subst h
    simp only [List.mem_cons, List.not_mem_nil, or_false] at ha
    rcases ha with rfl | rfl <;> simp [v4, v6, Loopback]
  any port l h a ha := by
    simp only [world, if_true, Option.some.injEq] at h
    subst h
    simp only [List.mem_cons, List.not_mem_nil, or_false] at ha
    rcases ha with rfl | rfl <;> simp [v4, v6, AnyAddr]
  numeric x port l hl h a ha := by
    simp only [world] at h
    split at h
    · simp only [Option.some.injEq] at h
      subst h
      rw [List.mem_singleton.1 ha]; rfl
    · split at h
      · simp only [Option.some.injEq] at h
        subst h
        rw [List.mem_singleton.1 ha]; rfl
      · cases h
  port x p port l hp h a ha := by
    have hm : port % 65536 = port := Nat.mod_eq_of_lt (by omega)
    simp only [world] at h
    split at h
    · split at h <;>
      · simp only [Option.some.injEq] at h
        subst h
        simp only [List.mem_cons, List.not_mem_nil, or_false] at ha
        rcases ha with rfl | rfl <;> exact hm
    · split at h
      · simp only [Option.some.injEq] at h
        subst h
        rw [List.mem_singleton.1 ha]; exact hm
      · split at h
        · simp only [Option.some.injEq] at h
          subst h
          rw [List.mem_singleton.1 ha]; exact hm
        · cases h
  bound i p q h := by
    simp only [world] at h
    split at h
    · simp only [Option.some.injEq] at h; omega
    · split at h
      · simp only [Option.some.injEq] at h; omega
      · cases h

def opts (g : Nat) : Opts := ⟨g, 0o177, false, false, false⟩
def cfg : Permit.Cfg := ⟨true, true, true, true, false, [], [], true, [], []⟩
def every : Permit.PermSet := { all := true }
def fwd (h : Option Bytes) : Fwd := ⟨h, 8080, none, some b!"example.org", 80, none⟩

/-- What listens -/
def socks (l : List Chan) : List Sock := l.map Chan.sock
def Res.socks : Res → List Sock
  | .ok new _ => Examples.socks new
  | _ => []

-- C134_client
example : Res.socks (setup world (opts 0) true (fwd none)) = [.tcp b!"127.0.0.1" 8080, .tcp b!"::1" 8080] := by decide +kernel
example : Res.socks (setup world (opts 1) true (fwd none)) = [.tcp b!"0.0.0.0" 8080, .tcp b!"::" 8080] := by decide +kernel
example : Res.socks (setup world (opts 0) true (fwd (some b!"*"))) = [.tcp b!"0.0.0.0" 8080, .tcp b!"::" 8080] := by decide +kernel
example : Res.socks (setup world (opts 1) true (fwd (some b!"localhost"))) = [.tcp b!"127.0.0.1" 8080, .tcp b!"::1" 8080] := by decide +kernel
example : Res.socks (setup world (opts 0) true (fwd (some b!"192.0.2.1"))) = [.tcp b!"192.0.2.1" 8080] := by decide +kernel

def three : List Req := [.listen b!"" 8080 true world, .listen b!"192.0.2.1" 0 true world, .listen b!"::1" 22 false world]

theorem three_posix : AllPosix three := by
  intro r hr E he
  simp only [three, List.mem_cons, List.not_mem_nil, or_false] at hr
  rcases hr with rfl | rfl | rfl <;> (simp only [Req.env, Option.some.injEq] at he; subst he; exact world_posix)

-- C134_no, C134_yes, C134_specified
example : socks (run cfg every (opts 0) init three).chans = [.tcp b!"127.0.0.1" 8080, .tcp b!"::1" 8080, .tcp b!"127.0.0.1" 40000,
    .tcp b!"::1" 40000, .tcp b!"::1" 22] := by decide +kernel
example : socks (run cfg every (opts 1) init three).chans = [.tcp b!"0.0.0.0" 8080, .tcp b!"::" 8080, .tcp b!"0.0.0.0" 40000,
    .tcp b!"::" 40000, .tcp b!"0.0.0.0" 22, .tcp b!"::" 22] := by decide +kernel
example : socks (run cfg every (opts 2) init three).chans = [.tcp b!"0.0.0.0" 8080, .tcp b!"::" 8080, .tcp b!"192.0.2.1" 40000,
    .tcp b!"::1" 22] := by decide +kernel

-- C135_answer, C135_permitted
example : (run cfg every (opts 2) init three).answers = [(true, 0), (true, 40000), (true, 0)] := by decide +kernel
example : (run cfg every (opts 2) init three).alive = true := by decide +kernel

-- C135_cancel, C135_undone_partial
example : (step cfg every (opts 0) init (.listen b!"" 0 true world)).answers = init.answers ++ [(true, 40000)] := by decide +kernel
example : (run cfg every (opts 0) init [.listen b!"" 0 true world, .cancel b!"" 40000]).chans = [] := by decide +kernel
example : socks (run cfg every (opts 2) init (three ++ [.cancel b!"" 8080])).chans = [.tcp b!"192.0.2.1" 40000, .tcp b!"::1" 22] := by
  decide +kernel

/-- C135: a port above 65535 cannot be taken back, where the resolver takes it. -/
theorem C135_undone_original_false :
    (run cfg every (opts 0) init [.listen b!"" 70000 true world, .cancel b!"" 70000]).answers = [(true, 0), (false, 0)] ∧
    socks (run cfg every (opts 0) init [.listen b!"" 70000 true world, .cancel b!"" 70000]).chans =
      [.tcp b!"127.0.0.1" 4464, .tcp b!"::1" 4464] := by decide +kernel

/-- C135: that an address is permitted is found out before GatewayPorts replaces it: with `PermitListen localhost:8080` and
`GatewayPorts yes` all addresses are listened on. -/
theorem C135_address_original_false :
    ∃ P, Permit.setup (fun _ => none) { cfg with permitListen := [b!"localhost:8080"] } .rem true [b!"localhost:8080"] [] = some P ∧
    Permit.tcpipForward cfg P b!"" 8080 true = false ∧
    socks (run cfg P (opts 1) init [.listen b!"localhost" 8080 true world]).chans = [.tcp b!"0.0.0.0" 8080, .tcp b!"::" 8080] :=
  ⟨{ admin := [{ lhost := some b!"localhost", lport := 8080 }], all := true }, by decide +kernel, by decide +kernel, by decide +kernel⟩

/-- All addresses, and the machine itself, on a system where both can be had at once -/
def Res.chans : Res → List Chan
  | .ok new _ => new
  | _ => []

/-- C135: a client that takes back a forwarding for all addresses also closes one for the machine itself. -/
theorem C135_local_original_false :
    socks (Res.chans (setup world (opts 0) true (fwd (some b!"localhost")))) = [.tcp b!"127.0.0.1" 8080, .tcp b!"::1" 8080] ∧
    (cancel (isLocal (opts 0) (some b!"*") 8080 (some 80)) (Res.chans (setup world (opts 0) true (fwd (some b!"localhost"))))).1 = [] := by
  decide +kernel

-- C135_local_partial
example : (Res.chans (setup world (opts 0) true (fwd none))).length = 2 := by decide +kernel

/-! ### Displays -/

/-- Displays 10 and 11 are in use, the second only for one kind of address. -/
def busy : XEnv where
  gai passive port := if passive then some [⟨.inet, b!"0.0.0.0", port⟩, ⟨.inet6, b!"::", port⟩]
    else some [⟨.inet6, b!"::1", port⟩, ⟨.inet, b!"127.0.0.1", port⟩]
  socket _ _ := some true
  bind d i := !(d == 10 || (d == 11 && i == 1))
  listen _ := true

theorem busy_posix : XPosix busy where
  loop port l h a ha := by
    simp only [busy, Bool.false_eq_true, if_false, Option.some.injEq] at h
    subst h
    simp only [List.mem_cons, List.not_mem_nil, or_false] at ha
    rcases ha with rfl | rfl <;> simp [Loopback]
  any port l h a ha := by
    simp only [busy, if_true, Option.some.injEq] at h
    subst h
    simp only [List.mem_cons, List.not_mem_nil, or_false] at ha
    rcases ha with rfl | rfl <;> simp [AnyAddr]

-- C136_first, C136_where
example : createDisplay busy 10 true = .ok 12 [⟨.inet6, b!"::1", 6012⟩, ⟨.inet, b!"127.0.0.1", 6012⟩] := by decide +kernel
example : createDisplay busy 10 false = .ok 12 [⟨.inet, b!"0.0.0.0", 6012⟩, ⟨.inet6, b!"::", 6012⟩] := by decide +kernel
-- C136_failed_partial
example : createDisplay { busy with bind := fun _ _ => false } 990 true = .failed [] [] := by decide +kernel
-- C136_offset
example : createDisplay busy 1000 true = .failed [] [] := by decide +kernel

/-- C136: if one address of a display cannot be listened on, there is no display, but the others are still listened on, and nobody takes
the connections; and if there is no socket for one, the others stay bound. -/
theorem C136_failed_original_false :
    createDisplay { busy with listen := fun i => i == 0 } 12 true =
      .failed [⟨.inet6, b!"::1", 6012⟩] [⟨.inet6, b!"::1", 6012⟩] ∧
    createDisplay { busy with socket := fun _ i => if i = 0 then some true else none } 12 true = .failed [⟨.inet6, b!"::1", 6012⟩] [] := by
  decide +kernel

end Verif.Listen.Examples
