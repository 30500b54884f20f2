/-
What is to hold of text shown on a terminal or put into a log.
-/
import Verif.Show.Model

namespace Verif.Show
open Verif

/-- A byte as a backslash and three octal digits. -/
def octEsc (c : UInt8) : Bytes :=
  [92, UInt8.ofNat (48 + c.toNat / 64), UInt8.ofNat (48 + c.toNat / 8 % 8), UInt8.ofNat (48 + c.toNat % 8)]

/-- A character may go to the terminal as it is: it has a width, or it is a newline, carriage return or tab and no limit of the
width was given. -/
def Fine (L : Locale) (limited : Bool) (wc : Nat) (w : Nat) : Prop :=
  if limited = false ∧ (wc = 10 ∨ wc = 13 ∨ wc = 9) then w = 0 else L.width wc = some w

def Bad (L : Locale) (limited : Bool) (wc : Nat) : Prop := ∀ w, ¬ Fine L limited wc w

/-- A text read character by character: what is to appear for each character, or for each byte that is not to appear as it is,
and how many columns it takes. -/
inductive Reading (L : Locale) (limited : Bool) : Bytes → List (Bytes × Nat) → Prop
  | nil : Reading L limited [] []
  | char (src : Bytes) (n wc w : Nat) (ps : List (Bytes × Nat)) : src ≠ [] → L.decode src = some (n, wc) → Fine L limited wc w →
      Reading L limited (src.drop n) ps → Reading L limited src ((src.take n, w) :: ps)
  | bad (src : Bytes) (n wc : Nat) (ps : List (Bytes × Nat)) : src ≠ [] → L.decode src = some (n, wc) → Bad L limited wc →
      Reading L limited (src.drop n) ps → Reading L limited src ((src.take n).map (fun c => (octEsc c, 4)) ++ ps)
  | junk (c : UInt8) (src : Bytes) (ps : List (Bytes × Nat)) : L.decode (c :: src) = none → Reading L limited src ps →
      Reading L limited (c :: src) ((octEsc c, 4) :: ps)

/-- A text all of whose characters may go to the terminal as they are. -/
inductive Clean (L : Locale) (limited : Bool) : Bytes → Prop
  | nil : Clean L limited []
  | char (src : Bytes) (n wc w : Nat) : src ≠ [] → L.decode src = some (n, wc) → Fine L limited wc w →
      Clean L limited (src.drop n) → Clean L limited src

def texts (ps : List (Bytes × Nat)) : Bytes := (ps.map (·.1)).flatten
def columns (ps : List (Bytes × Nat)) : Nat := (ps.map (·.2)).sum

/-- What is assumed of the C library: a character has at least one byte, no more than are there, and no more than 16; it is
decoded alike whatever follows; ASCII is decoded as such; the visible characters of ASCII take one column, and the control
characters have no width. -/
structure Sane (L : Locale) : Prop where
  len : ∀ src n wc, src ≠ [] → L.decode src = some (n, wc) → 1 ≤ n ∧ n ≤ src.length ∧ n ≤ 16
  front : ∀ src n wc rest, L.decode src = some (n, wc) → L.decode (src.take n ++ rest) = some (n, wc)
  ascii : ∀ (c : UInt8) src, c < 128 → L.decode (c :: src) = some (1, c.toNat)
  high : ∀ src n wc, L.decode src = some (n, wc) → n ≠ 1 → ∀ c ∈ src.take n, 128 ≤ c
  seen : ∀ c, 32 ≤ c → c < 127 → L.width c = some 1
  ctrl : ∀ c, c < 32 ∨ c = 127 → L.width c = none

/-! ### Logs -/

/-- How a byte appears in the system's log. -/
def logPiece (c : UInt8) : Bytes :=
  if c = 92 then [92, 92]
  else if 32 ≤ c ∧ c ≤ 126 then [c]
  else match ([(10, 110), (13, 114), (8, 98), (7, 97), (11, 118), (9, 116), (12, 102)] : List (UInt8 × UInt8)).lookup c with
    | some l => [92, l]
    | none => octEsc c

/-- How a byte appears on the standard error output. -/
def stderrPiece (c : UInt8) : Bytes :=
  if c = 92 then [92, 92]
  else if (32 ≤ c ∧ c ≤ 126) ∨ c ∈ ([7, 8, 9, 10, 13] : List UInt8) then [c]
  else octEsc c

/-- `out` is made of as many of the pieces, in order, as fit into `siz` bytes with the NUL. -/
def Fitted (pieces : List Bytes) (siz : Nat) (out : Bytes) : Prop :=
  ∃ a b, pieces = a ++ b ∧ out = a.flatten ∧ (out.length < siz ∨ out = []) ∧
    (∀ p b', b = p :: b' → siz ≤ out.length + p.length)

/-- The pieces of a text rendered by `vis`. -/
def pieces (F : Flags) : Bytes → List Bytes
  | [] => []
  | c :: l => vis F c (l.headD 0) :: pieces F l

end Verif.Show
