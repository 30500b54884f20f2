/-
Specification of negotiation and key derivation (RFC 4253 sections 7.1 and 7.2), independent of the code's
loops.
-/
import Verif.Kex.Model
import Verif.Match.Spec

namespace Verif.Kex
open Verif Wire Text
open scoped Verif.Match

/-- RFC 4253 section 7.1: the first name on the client's list that is also on the server's list; the code
looks at the first forty names of the server's list. -/
def Chosen (client server n : Bytes) : Prop :=
  n ∈ (Match.names server).take 40 ∧
  ∃ before after, Match.names client = before ++ n :: after ∧ ∀ m ∈ before, m ∉ (Match.names server).take 40

/-- The two lists have no name in common. -/
def Disjoint (client server : Bytes) : Prop := ∀ n ∈ Match.names client, n ∉ Match.names server

/-- A direction of traffic. -/
inductive Dir | ctos | stoc
  deriving DecidableEq, Repr

/-- Where the lists for a direction are found in a proposal. -/
def encIdx : Dir → Nat | .ctos => 2 | .stoc => 3
def macIdx : Dir → Nat | .ctos => 4 | .stoc => 5
def compIdx : Dir → Nat | .ctos => 6 | .stoc => 7

/-- The keys one end uses for a direction of traffic: a client sends client-to-server traffic. -/
def Conf.keysFor (server : Bool) (c : Conf) : Dir → NewKeys
  | .ctos => if server then c.keysIn else c.keysOut
  | .stoc => if server then c.keysOut else c.keysIn

/-- The first name of a list: everything before the first comma. -/
def IsFirst (n list : Bytes) : Prop := COMMA ∉ n ∧ (list = n ∨ ∃ rest, list = n ++ COMMA :: rest)

/-- RFC 4253 section 7.2: block `n` of a key is `HASH(K || H || X || session_id)` for `n = 0` and
`HASH(K || H || K1 || ... || Kn)` afterwards; `blocks n` is the concatenation of the first `n`. -/
def blocks (hash : Bytes → Bytes) (K H : Bytes) (X : UInt8) (sid : Bytes) : Nat → Bytes
  | 0 => []
  | 1 => hash (K ++ H ++ [X] ++ sid)
  | n + 2 => blocks hash K H X sid (n + 1) ++ hash (K ++ H ++ blocks hash K H X sid (n + 1))

/-- Names in order, each only once (first occurrences). -/
def firsts : List Bytes → List Bytes
  | [] => []
  | a :: l => a :: (firsts l).filter (· ≠ a)

/-- The names of `all` selected by a list of patterns, pattern by pattern. -/
def selected (pats all : List Bytes) : List Bytes :=
  firsts (pats.flatMap fun p => all.filter fun n => Match.matchPatternList n p false = 1)

end Verif.Kex
