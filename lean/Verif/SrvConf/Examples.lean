/- The server's configuration: where it is not as documented, and cases that meet the hypotheses. -/
import Verif.SrvConf.Subsystems
import Verif.SrvConf.Criteria

namespace Verif.SrvConf
open Verif Match

/-- Parameters for the cases below -/
def someEnv (junk : Int) : Env where
  serv _ := none
  pton _ := none
  ciphersValid _ := true
  macValid _ := true
  kexValid _ := true
  keysValid _ _ := true
  scaled _ := none
  level _ := none
  facility _ := none
  digest _ := none
  ipqos _ := none
  interval _ := true
  mask _ := none
  methods _ := true
  path := id
  tilde := id
  listen _ := none
  triple a := if a = b!"24" then [24] else []
  junk := junk

def someWorld : World := ⟨b!"10.0", fun _ => some [b!"staff"], fun _ => none⟩

def someDefaults : Opts := { int := fun _ => 7 }

def eve : Conn := { user := some b!"eve", host := some b!"h", address := some b!"1.2.3.4", lport := 22 }

def Res.opts : Res → Option Opts
  | .ok o => some o
  | _ => none

def Res.faulty : Res → Bool
  | .fault => true
  | _ => false

theorem someEnv_sane (j : Int) : Sane (someEnv j) where
  level := nofun
  facility := nofun
  scaled := nofun
  ipqos := nofun
  digest := nofun
  mask := nofun

/-- C77: in a matching block "none" is the name of a file. -/
theorem C77_none_false : ((serve (someEnv 0) someWorld someDefaults [] b!"RevokedKeys /etc/krl\nMatch user eve\nRevokedKeys none\n" eve).opts.map
    fun o => o.str .revokedKeys) = some (some b!"none") := by rfl

/-- C77: ... and so is the list of timeouts, which is not a list that the server can use. -/
theorem C77_timeout_none_false : ((serve (someEnv 0) someWorld someDefaults [] b!"Match user eve\nChannelTimeout none\n" eve).opts.map
    fun o => o.list .channelTimeouts) = some [b!"none"] := by rfl

/-- C77: with one number, PerSourceNetBlockSize sets the mask for IPv6 to whatever was in a variable, and not to the default. -/
theorem C77_netblock_false : ((serve (someEnv 3) someWorld someDefaults [] b!"PerSourceNetBlockSize 24\n" eve).opts.map
      fun o => (o.int .sourceMask4, o.int .sourceMask6)) = some (24, 3) ∧
    ((serve (someEnv 999) someWorld someDefaults [] b!"PerSourceNetBlockSize 24\n" eve).opts.map
      fun o => (o.int .sourceMask4, o.int .sourceMask6)) = some (24, 999) := ⟨by rfl, by rfl⟩

/-- C77: penalties that have been turned off are turned on again by any later line. -/
theorem C77_penalties_false : ((serve (someEnv 0) someWorld someDefaults [] b!"PerSourcePenalties no\nPerSourcePenalties crash:5\n" eve).opts.map
    fun o => o.int .penaltyOn) = some 1 := by rfl

/-- C77: "none" for UnusedConnectionTimeout counts though another value has been given before. -/
theorem C77_unused_false : ((serve (someEnv 0) someWorld someDefaults [] b!"UnusedConnectionTimeout 5m\nUnusedConnectionTimeout none\n" eve).opts.map
    fun o => o.int .unusedTimeout) = some 0 := by rfl

/-- C80: a block that defines a subsystem takes away the others. -/
theorem C80_lost_false : ((serve (someEnv 0) someWorld someDefaults [] b!"Subsystem sftp internal-sftp\nMatch user eve\nSubsystem log /bin/log\n" eve).opts.map
    fun o => o.subs.map Sub.name) = some [b!"log"] := by rfl

/-- C80: a block that defines more subsystems than there are outside makes the server use memory beyond an array. -/
theorem C80_fault_false : (serve (someEnv 0) someWorld someDefaults [] b!"Match user eve\nSubsystem log /bin/log\n" eve).faulty = true := by rfl

/-! ### Cases -/

theorem Res.of_opts {r : Res} {o : Opts} (h : r.opts = some o) : r = .ok o := by
  cases r <;> simp_all [Res.opts]

theorem Res.ok_of {r : Res} (h : r.opts.isSome) : ∃ o, r = .ok o := by
  cases r <;> simp_all [Res.opts]

def aFile : Bytes := b!"MaxAuthTries 3\nBanner /etc/b\nAllowUsers a b\nAllowUsers c\nMaxAuthTries 4\nSubsystem sftp x\n" ++
  b!"Match user eve,bob address=1.2.3.4\nX11Forwarding no\nMatch group staff\nMaxAuthTries 1\nX11Forwarding yes\nBanner none\nSubsystem sftp y -r\n"

/-- The connection of someone else -/
def joe : Conn := { eve with user := some b!"joe" }

example : ∃ o a g m, serve (someEnv 0) someWorld someDefaults [b!"Port=2222"] aFile joe = .ok o ∧
    Says3 (someEnv 0) someWorld [b!"Port=2222"] aFile joe a g m ∧ o.int .maxAuthTries = 1 ∧ o.list .ports = [b!"2222"] ∧
    o.list .allowUsers = [b!"a", b!"b", b!"c"] ∧ o.int .x11Forwarding = 1 ∧ o.int .maxSessions = 7 ∧ o.subs.map Sub.command = [b!"y"] := by
  have h : (serve (someEnv 0) someWorld someDefaults [b!"Port=2222"] aFile joe).opts.map (fun o => (o.int .maxAuthTries, o.list .ports,
      o.list .allowUsers, o.int .x11Forwarding, o.int .maxSessions, o.subs.map Sub.command)) =
      some (1, [b!"2222"], [b!"a", b!"b", b!"c"], 1, 7, [b!"y"]) := by rfl
  rw [Option.map_eq_some_iff] at h
  obtain ⟨o, h1, h2⟩ := h
  have h1 := Res.of_opts h1
  obtain ⟨a, g, m, hs⟩ := C77_read h1
  simp only [Prod.mk.injEq] at h2
  obtain ⟨e1, e2, e3, e4, e5, e6⟩ := h2
  exact ⟨o, a, g, m, h1, hs, e1, e2, e3, e4, e5, e6⟩

example : matchLine (someEnv 0) someWorld (some eve) [b!"User", b!"e*", b!"localport=22", b!"invalid-user"] = some (false, []) := by rfl
example : matchLine (someEnv 0) someWorld (some eve) [b!"User", b!"e*", b!"localport=22", b!"group", b!"!wheel,st*"] = some (true, []) := by rfl
example : matchLine (someEnv 0) someWorld none [b!"user", b!"e*"] = some (false, []) := by rfl
example : matchLine (someEnv 0) someWorld none [b!"version", b!"10.*"] = some (true, []) := by rfl

/-- What may not stand in a block -/
example : Line b!"UsePAM yes" b!"usepam" b!"yes" [b!"yes"] ∧ ¬ MayMatch b!"usepam" := by
  refine ⟨⟨by rfl, by rfl⟩, ?_⟩
  rintro ⟨k, h⟩
  have : (kindOf b!"usepam").map Prod.snd = some false := by rfl
  rw [h] at this
  simp at this

example : (serve (someEnv 0) someWorld someDefaults [] b!"Match user eve\nUsePAM yes\n" eve).opts.isNone = true := by rfl

/-- Files that are included -/
def withFiles : World := { someWorld with glob := fun a => if a = b!"f" then some [b!"Match user bob\nMaxAuthTries 2\nMatch all\nMaxSessions 5\n"] else none }

example : ((serve (someEnv 0) withFiles someDefaults [] b!"Match user eve\nInclude f\nMaxAuthTries 9\n" eve).opts.map
    fun o => (o.int .maxAuthTries, o.int .maxSessions)) = some (9, 5) := by rfl
example : ((serve (someEnv 0) withFiles someDefaults [] b!"Match user bob\nInclude f\nMaxAuthTries 9\n" eve).opts.map
    fun o => (o.int .maxAuthTries, o.int .maxSessions)) = some (7, 7) := by rfl

end Verif.SrvConf
