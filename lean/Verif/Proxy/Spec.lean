/-
What is claimed about clients that share a connection as proxies, without the functions of the model.
-/
import Verif.Proxy.Model

namespace Verif.Proxy
open Verif Wire

/-- RFC 4254, 5.1: a message that tells the other side the number of a channel. -/
inductive Announces (n : Nat) : Nat → Bytes → Prop
  | opens (v rest : Bytes) : v.length ≤ 134217724 → Announces n 90 (str v ++ be 4 n ++ rest)
  | confirms (r : Nat) (rest : Bytes) : r < 2 ^ 32 → Announces n 91 (be 4 r ++ be 4 n ++ rest)

/-- Such a message with another number; the name of a type may end in a NUL, which is left out. -/
inductive Renumbered (id n : Nat) : Nat → Bytes → Bytes → Prop
  | opens (v ctype rest : Bytes) : Named v ctype → Renumbered id n 90 (str v ++ be 4 id ++ rest) (str ctype ++ be 4 n ++ rest)
  | confirms (r : Nat) (rest : Bytes) : r < 2 ^ 32 → Renumbered id n 91 (be 4 r ++ be 4 id ++ rest) (be 4 r ++ be 4 n ++ rest)

/-- The last message to the server which gave it the number `n`. -/
def Last (log : List Up) (n : Nat) (u : Up) : Prop :=
  ∃ pre post, log = pre ++ u :: post ∧ Announces n u.type u.body ∧ ∀ v ∈ post, ¬ Announces n v.type v.body

/-- For the server, the number `n` is the channel that the client `d` knows as `id`. -/
def Means (log : List Up) (n d id : Nat) : Prop := ∃ u, Last log n u ∧ u.src = some d ∧ Renumbered id n u.type u.orig u.body

/-- There is a channel `n` of the client `d`, which calls it `id`. -/
def Has (s : St) (n d id : Nat) : Prop := ∃ c, s.slots[n]? = some (some c) ∧ c.kind = .proxy d id

/-- Fewer channels than there are numbers. (The program ends before there are 10011, channels.c:511-513.) -/
def Few (s : St) : Prop := s.slots.length ≤ 2147483648

/-- Messages for one channel: all from 91 to 100. -/
def ForChannel (t : Nat) : Prop := 91 ≤ t ∧ t ≤ 100

/-- A request to listen at a port. -/
inductive Listens (host : Bytes) (port : Nat) : Bytes → Prop
  | mk (v w more : Bytes) (x : UInt8) : Named v b!"tcpip-forward" → Named w host → w.length ≤ 134217724 → port ≤ 65535 →
    Listens host port (str v ++ x :: (str w ++ be 4 port ++ more))

/-- A host under which all addresses are meant is the empty one. -/
def Same (asked host : Bytes) : Prop := (asked = host ∧ asked ≠ b!"*") ∨ (asked = b!"*" ∧ host = [])

/-- A packet that a proxy takes: any message but requests to open and confirmations without a number, and requests of other kinds than to
listen at a port. -/
inductive Taken : Nat → Bytes → Prop
  | opens (id : Nat) (v ctype rest : Bytes) : id < 2 ^ 32 → Named v ctype → v.length ≤ 134217724 → Taken 90 (str v ++ be 4 id ++ rest)
  | confirms (r id : Nat) (rest : Bytes) : r < 2 ^ 32 → id < 2 ^ 32 → Taken 91 (be 4 r ++ be 4 id ++ rest)
  | listens (host b : Bytes) (port : Nat) : Listens host port b → Taken 80 b
  | other (t : Nat) (b : Bytes) : t ≠ 80 → t ≠ 90 → t ≠ 91 → Taken t b

/-- The packet says that the channel with the number `r` of the server is closed. -/
def Closes (t : Nat) (b : Bytes) (r : Nat) : Prop := t = 97 ∧ ∃ rest, b = be 4 r ++ rest

/-- The server is told to listen no more. -/
def Cancels (u : Up) (asked : Bytes) (port : Nat) : Prop :=
  u.src = none ∧ u.type = 80 ∧ ∃ host, Same asked host ∧ u.body = str b!"cancel-tcpip-forward" ++ [0] ++ str host ++ be 4 port

/-- Nobody points to the client any more. -/
def Gone (s : St) (d : Nat) : Prop :=
  (∀ n id, ¬ Has s n d id) ∧ (∀ p ∈ s.perms, p.down ≠ some d) ∧ ∀ (n : Nat) (c : Ch), s.slots[n]? = some (some c) → c.uid ≠ d

end Verif.Proxy
