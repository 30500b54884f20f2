/- What PermitOpen, PermitListen, permitopen= and permitlisten= mean (sshd_config(5), sshd(8)). -/
import Verif.Permit.Model
import Verif.Match.Spec

namespace Verif.Permit
open Verif Match

/-- The port field of an entry: "*" for any (0), or a number or service name. -/
def PortField (serv : Bytes → Option Nat) (q : Bytes) (p : Int) : Prop :=
  (q = b!"*" ∧ p = 0) ∨
  (q ≠ b!"*" ∧ 0 < p ∧ (Num.strtonum q 0 65535 = some p ∨ (Num.strtonum q 0 65535 = none ∧ ∃ n, serv q = some n ∧ p = n)))

/-- "host:port" or "[host]:port" (`slash`: "/" may be used for ":"). -/
def Entry (serv : Bytes → Option Nat) (slash : Bool) (e h : Bytes) (p : Int) : Prop :=
  ∃ d q, (d = 58 ∨ (slash = true ∧ d = 47)) ∧
    ((e = h ++ d :: q ∧ (58 : UInt8) ∉ h ∧ (47 : UInt8) ∉ h ∧ h.head? ≠ some 91) ∨
     (e = 91 :: (h ++ 93 :: d :: q) ∧ (93 : UInt8) ∉ h)) ∧
    PortField serv q p

/-- The entry permits connecting there: the host is "*" or the same text, the port is any or the same. -/
def PermitsOpen (serv : Bytes → Option Nat) (slash : Bool) (e host : Bytes) (port : Int) : Prop :=
  ∃ h p, Entry serv slash e h p ∧ (p = 0 ∨ p = port) ∧ (h = b!"*" ∨ h = host)

/-- The entry permits listening there: the lower-cased host matches the pattern, the port is any or the same. -/
def PermitsListen (serv : Bytes → Option Nat) (e host : Bytes) (port : Int) : Prop :=
  ∃ h p, Entry serv false e h p ∧ (p = 0 ∨ p = port) ∧ Glob h (host.map toLower)

/-- The administrator's list: nothing or "any" permits everything, "none" nothing. -/
def AdminAllows (l : List Bytes) (P : Bytes → Prop) : Prop :=
  l = [] ∨ l = [b!"any"] ∨ (l ≠ [b!"none"] ∧ ∃ e ∈ l, P e)

/-- The key's list: nothing permits everything. -/
def KeyAllows (l : List Bytes) (P : Bytes → Prop) : Prop := l = [] ∨ ∃ e ∈ l, P e

end Verif.Permit
