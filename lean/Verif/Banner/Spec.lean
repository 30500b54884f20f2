/-
What an identification string is (RFC 4253, section 4.2), in terms of the bytes on the connection.
-/
import Verif.Banner.Model

namespace Verif.Banner
open Verif

/-- A line of text without NUL, CR and LF, of at most 8192 bytes. -/
structure Clean (l : Bytes) : Prop where
  text : ∀ c ∈ l, c ≠ 0 ∧ c ≠ 10 ∧ c ≠ 13
  short : l.length ≤ 8192

/-- A line claiming to be an identification string. -/
def Ident (l : Bytes) : Prop := ∃ t, t ≠ [] ∧ l = b!"SSH-" ++ t

/-- A line as it stands on the connection: its text, carriage returns, and a newline. -/
def lineText (l : Bytes × Nat) : Bytes := l.1 ++ List.replicate l.2 13 ++ [10]

/-- A non-empty string of digits. -/
def Digits (ds : Bytes) : Prop := ds ≠ [] ∧ ∀ c ∈ ds, Num.isDigit c = true

/-- The number they denote. -/
def value (ds : Bytes) : Nat := ds.foldl (fun a c => a * 10 + (c.toNat - 48)) 0

/-- An identification string in the form the RFC gives it. -/
def identText (major minor software : Bytes) : Bytes := b!"SSH-" ++ major ++ 46 :: (minor ++ 45 :: software)

/-- The names of key exchange methods left out for a peer. -/
def refused (bugs : List Bug) (n : Bytes) : Prop :=
  (.curve25519Pad ∈ bugs ∧ n = b!"curve25519-sha256@libssh.org") ∨
  (.oldDhGex ∈ bugs ∧ (n = b!"diffie-hellman-group-exchange-sha256" ∨ n = b!"diffie-hellman-group-exchange-sha1"))

end Verif.Banner
