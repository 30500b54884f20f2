/-
Specification for host keys in the DNS: RFC 4255 (SSHFP) and the format of messages of RFC 1035, section 4.
-/
import Verif.Dns.Model

namespace Verif.Dns
open Verif Verif.Wire

/-- RFC 4255 3.1.1, RFC 6594, RFC 7479: numbers of the algorithms that have one -/
def numbers : List (Kind × UInt8) := [(.rsa, 1), (.dsa, 2), (.ecdsa, 3), (.ed25519, 4), (.xmss, 5)]

/-- The digests with a number: SHA-1 and SHA-256 -/
def digests : List UInt8 := [1, 2]

/-- The record says that `k` is a key of the host. -/
def Confirms (k : Key) (r : Bytes) : Prop :=
  ∃ a t d, (k.kind, a) ∈ numbers ∧ t ∈ digests ∧ k.fp t.toNat = some d ∧ r = [a, t] ++ d

/-- The record is for a key of the same algorithm, its fingerprint has the right length, and it is another one. -/
def Contradicts (k : Key) (r : Bytes) : Prop :=
  ∃ a t d d', (k.kind, a) ∈ numbers ∧ t ∈ digests ∧ k.fp t.toNat = some d ∧ r = [a, t] ++ d' ∧ d'.length = d.length ∧ d' ≠ d

/-- Records of less than two bytes are passed over; all others must have a digest with a number. -/
def Understood (l : List Bytes) : Prop := ∀ a t d, [a, t] ++ d ∈ l → t ∈ digests

/-- Some record has the two bytes for algorithm and digest. -/
def Relevant (l : List Bytes) : Prop := ∃ a t d, [a, t] ++ d ∈ l

/-- The fingerprints of the key can be computed. -/
def Computable (k : Key) : Prop := ∀ t ∈ digests, ∃ d, k.fp t.toNat = some d

/-! ## Reading what is written into a zone -/

/-- Value of a hexadecimal digit -/
def hexValue (c : UInt8) : Option Nat :=
  if 48 ≤ c ∧ c ≤ 57 then some (c.toNat - 48) else if 97 ≤ c ∧ c ≤ 102 then some (c.toNat - 87) else none

/-- The bytes a string of hexadecimal digits stands for -/
inductive Hex : Bytes → Bytes → Prop where
  | nil : Hex [] []
  | cons {c d b : UInt8} {l v : Bytes} {x y : Nat} : hexValue c = some x → hexValue d = some y → b.toNat = 16 * x + y →
      Hex l v → Hex (c :: d :: l) (b :: v)

/-- Value of a digit string -/
def value (l : Bytes) : Nat := l.foldl (fun a c => a * 10 + (c.toNat - 48)) 0

/-- A decimal number -/
def Decimal (l : Bytes) (n : Nat) : Prop := l ≠ [] ∧ (∀ c ∈ l, 48 ≤ c ∧ c ≤ 57) ∧ value l = n

/-- A line of a zone (RFC 4255 3.2): name, class, type, algorithm, digest, fingerprint -/
def ZoneLine (host line : Bytes) (rdata : Bytes) : Prop :=
  ∃ a t d as ts hs, rdata = [a, t] ++ d ∧ line = host ++ b!" IN SSHFP " ++ as ++ [32] ++ ts ++ [32] ++ hs ++ [10] ∧
    Decimal as a.toNat ∧ Decimal ts t.toNat ∧ Hex hs d

/-- A line in the form for unknown types (RFC 3597 5): length of the data and the data -/
def GenericLine (host line : Bytes) (rdata : Bytes) : Prop :=
  ∃ a t d ns as ts hs, rdata = [a, t] ++ d ∧
    line = host ++ b!" IN TYPE44 \\# " ++ ns ++ [32] ++ as ++ [32] ++ ts ++ [32] ++ hs ++ [10] ∧
    Decimal ns rdata.length ∧ Hex as [a] ∧ Hex ts [t] ∧ Hex hs d

/-! ## Messages (RFC 1035, 4.1) -/

/-- At offset `cp` of `m` stands `b`. -/
def At (m : Bytes) (cp : Nat) (b : Bytes) : Prop := ∃ p s, m = p ++ b ++ s ∧ p.length = cp

/-- 4.1.2: a question from `cp` to `e` -/
def QuestionAt (x : Expand) (m : Bytes) (cp : Nat) (q : Query) (e : Nat) : Prop :=
  ∃ n, x cp = some n ∧ At m (cp + n) (be 2 q.1 ++ be 2 q.2) ∧ q.1 < 65536 ∧ q.2 < 65536 ∧ e = cp + n + 4

/-- 4.1.3: a record from `cp` to `e` -/
def RecordAt (x : Expand) (m : Bytes) (cp : Nat) (r : RR) (e : Nat) : Prop :=
  ∃ n ttl, x cp = some n ∧ r.type < 65536 ∧ r.class_ < 65536 ∧ ttl < 4294967296 ∧ r.rdata.length < 65536 ∧
    At m (cp + n) (be 2 r.type ++ be 2 r.class_ ++ be 4 ttl ++ be 2 r.rdata.length ++ r.rdata) ∧
    e = cp + n + 10 + r.rdata.length

/-- Items one after the other -/
inductive Seq {α : Type} (P : Nat → α → Nat → Prop) : Nat → List α → Nat → Prop where
  | nil (cp : Nat) : Seq P cp [] cp
  | cons {cp e e' : Nat} {a : α} {l : List α} : P cp a e → Seq P e l e' → Seq P cp (a :: l) e'

/-- 4.1.1: the header with the four counts, then the four sections -/
def Message (x : Expand) (m : Bytes) (r : Response) : Prop :=
  ∃ i j f g, At m 0 ([i, j, f, g] ++ be 2 r.queries.length ++ be 2 r.answers.length ++ be 2 r.authority.length ++
      be 2 r.additional.length) ∧
    r.queries.length < 65536 ∧ r.answers.length < 65536 ∧ r.authority.length < 65536 ∧ r.additional.length < 65536 ∧
    (r.ad = true ↔ g &&& 32 ≠ 0) ∧
    ∃ a b c d, Seq (QuestionAt x m) 12 r.queries a ∧ Seq (RecordAt x m) a r.answers b ∧ Seq (RecordAt x m) b r.authority c ∧
      Seq (RecordAt x m) c r.additional d

end Verif.Dns
