/-
What C134, C135 and C136 say, in words of addresses.
-/
import Verif.Listen.Model

namespace Verif.Listen
open Verif

/-- Reached only from the machine itself -/
def Loopback (ip : Bytes) : Prop := ip = b!"127.0.0.1" ∨ ip = b!"::1"

/-- Reached by all addresses of the machine -/
def AnyAddr (ip : Bytes) : Prop := ip = b!"0.0.0.0" ∨ ip = b!"::"

instance (ip : Bytes) : Decidable (Loopback ip) := by unfold Loopback; infer_instance
instance (ip : Bytes) : Decidable (AnyAddr ip) := by unfold AnyAddr; infer_instance

/-- What POSIX says of getaddrinfo() for no host, and of numeric addresses; of ports; and of bind(). -/
structure Posix (E : Env) : Prop where
  loop : ∀ port l, E.gai none false port = some l → ∀ a ∈ l, Loopback a.ip
  any : ∀ port l, E.gai none true port = some l → ∀ a ∈ l, AnyAddr a.ip
  numeric : ∀ h port l, Loopback h → E.gai (some h) false port = some l → ∀ a ∈ l, a.ip = h
  port : ∀ h p port l, port ≤ 65535 → E.gai h p port = some l → ∀ a ∈ l, a.port = port
  bound : ∀ i p q, E.bind i p = some q → 0 < q ∧ q ≤ 65535 ∧ (p ≠ 0 → q = p)

/-- The environment of a request -/
def Req.env : Req → Option Env
  | .listen _ _ _ E => some E
  | .listenPath _ E => some E
  | _ => none

/-- All that happens is as POSIX says. -/
def AllPosix (rs : List Req) : Prop := ∀ r ∈ rs, ∀ E, r.env = some E → Posix E

/-- `ip` is among what the name `h` stands for. -/
def NamedBy (E : Env) (h : Bytes) (port : Nat) (ip : Bytes) : Prop := ∃ l, E.gai (some h) false port = some l ∧ ∃ a ∈ l, a.ip = ip

/-- A listener at port `port` for requests with this address -/
def At (host : Bytes) (port : Nat) (c : Chan) : Prop := c.kind = .rport ∧ c.path = host ∧ c.port = (port : Int)

/-- For displays -/
structure XPosix (E : XEnv) : Prop where
  loop : ∀ port l, E.gai false port = some l → ∀ a ∈ l, Loopback a.ip ∧ a.port = port
  any : ∀ port l, E.gai true port = some l → ∀ a ∈ l, AnyAddr a.ip ∧ a.port = port

end Verif.Listen
