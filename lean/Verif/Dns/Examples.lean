/-
C117, C118, C119, concretely; and what does not hold.
-/
import Verif.Dns.Props
import Verif.Dns.Answer

namespace Verif.Dns
open Verif Verif.Wire

/-- a key with short fingerprints -/
def key1 : Key := ⟨.ed25519, fun t => if t = 1 then some [0xab, 1] else some [7, 8, 9]⟩
def key2 : Key := ⟨.ed25519, fun t => if t = 1 then some [0xab, 2] else some [7, 8, 0]⟩
def skKey : Key := ⟨.other, fun _ => some [1]⟩

theorem key1_ok : (key1.kind, 4) ∈ numbers ∧ Computable key1 :=
  ⟨by decide, fun t ht => by rcases (digests_iff t).1 ht with rfl | rfl <;> exact ⟨_, rfl⟩⟩

-- A fingerprint that cannot be computed
example : exportRR b!"h" ⟨.ed25519, fun t => if t = 1 then some [1] else none⟩ false none = none :=
  C118_complete (n := 4) (t := 2) (by decide) _ _ (by decide) (by simp) rfl

def good : List Bytes := [[4, 1, 0xab, 1], [1, 1, 5, 5], [4, 2, 7, 8, 9], [4]]

example : dnsSays .yes (verifyDns false (some (true, good)) key1) = .accept := by decide
example : dnsSays .yes (verifyDns false (some (false, good)) key1) = .noted := by decide
example : dnsSays .ask (verifyDns false (some (true, good)) key1) = .noted := by decide
example : dnsSays .yes (verifyDns true (some (true, good)) key1) = .nothing := by decide
example : dnsSays .no (verifyDns false (some (true, good)) key1) = .nothing := by decide
example : dnsSays .yes (verifyDns false (some (true, good)) key2) = .warned := by decide
/-- one digest fits, the other does not -/
example : dnsSays .yes (verifyDns false (some (true, [[4, 1, 0xab, 1], [4, 2, 7, 8, 0]])) key1) = .warned := by decide
/-- a fingerprint of the wrong length is passed over -/
example : dnsSays .yes (verifyDns false (some (true, [[4, 1, 0xab, 1], [4, 2, 7, 8]])) key1) = .accept := by decide

/-- C117: a record with an unknown digest, for whatever algorithm, makes the whole answer worthless: the key is not accepted
although it is confirmed, -/
theorem C117_worthless : dnsSays .yes (verifyDns false (some (true, good ++ [[9, 3, 0]])) key1) = .nothing := by decide

/-- and no warning is given although the answer contradicts the key. -/
theorem C117_silenced : dnsSays .yes (verifyDns false (some (true, [[4, 2, 7, 8, 0]])) key1) = .warned ∧
    dnsSays .yes (verifyDns false (some (true, [[4, 2, 7, 8, 0], [9, 3, 0]])) key1) = .nothing := by decide

/-- C117: keys without a number never get a warning once a record can be read. -/
theorem C117_sk : dnsSays .yes (verifyDns false (some (true, good)) skKey) = .nothing := by decide

example : exportRR b!"h" key1 false none = some [b!"h IN SSHFP 4 1 ab01\n", b!"h IN SSHFP 4 2 070809\n"] := by decide
example : exportRR b!"h" key1 true (some 2) = some [b!"h IN TYPE44 \\# 5 04 02 070809\n"] := by decide
example : exportRR b!"h" skKey true none = some [] := by decide

/-! ### Messages -/

/-- names are one byte long here -/
def root : Expand := fun _ => some 1

def header (g : UInt8) (q a : Nat) : Bytes := [0, 1, 0x81, g] ++ be 2 q ++ be 2 a ++ be 2 0 ++ be 2 0
def question (t : Nat) : Bytes := [0] ++ be 2 t ++ be 2 1
def rr (t : Nat) (d : Bytes) : Bytes := [0] ++ be 2 t ++ be 2 1 ++ be 4 60 ++ be 2 d.length ++ d

/-- Whether the outcome is a value. -/
def get : Out (Bool × List Bytes) → Option (Bool × List Bytes)
  | .ok a => some a
  | _ => none

def isUb : Out (Bool × List Bytes) → Bool
  | .ub => true
  | _ => false

example : get (answer root (header 32 1 3 ++ question 44 ++ rr 44 [4, 1, 5] ++ rr 5 [0] ++ rr 44 [4, 2, 6])) =
    some (true, [[4, 1, 5], [4, 2, 6]]) := by decide
example : get (answer root (header 0 1 1 ++ question 44 ++ rr 44 [4, 1, 5])) = some (false, [[4, 1, 5]]) := by decide
/-- cut short -/
example : get (answer root ((header 0 1 1 ++ question 44 ++ rr 44 [4, 1, 5]).dropLast)) = none := by decide
/-- two questions -/
example : get (answer root (header 0 2 1 ++ question 44 ++ question 44 ++ rr 44 [4, 1, 5])) = none := by decide

/-- C119: a message without answers makes the code follow a null pointer; `res_query` of the C library does not hand on
such messages. -/
theorem C119_null_case : isUb (answer root (header 0 1 0 ++ question 44)) = true := by decide

/-- C119: the type is that of the question in the response, not of the question asked: with a resolver that does not compare
them, text records are taken for fingerprints. -/
theorem C119_other_type : get (answer root (header 32 1 1 ++ question 16 ++ rr 16 [4, 1, 5])) = some (true, [[4, 1, 5]]) := by
  decide

end Verif.Dns
