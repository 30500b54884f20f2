/-
Model of dh.c: the groups offered for group exchange (moduli file), and the check of public values.

Abstracted: `BN_hex2bn` is described as libcrypto implements it; big numbers are integers.  Opening the file and
the two passes over it are given as the lines read (the file may change in between).  Error messages and
memory allocation are left out.
-/
import Verif.Exch.Model
import Verif.Misc.Delim
import Verif.Num

namespace Verif.Dh
open Verif Text
open _root_.Verif.Exch (numBits)

/-- `isxdigit` in the C locale, and the digit's value. -/
def hexDigit (c : UInt8) : Option Nat :=
  if 48 ≤ c ∧ c ≤ 57 then some (c.toNat - 48)
  else if 65 ≤ c ∧ c ≤ 70 then some (c.toNat - 55)
  else if 97 ≤ c ∧ c ≤ 102 then some (c.toNat - 87)
  else none

/-- The number given by the leading hexadecimal digits, and whether there were any. -/
def hexVal (acc : Nat) (any : Bool) : Bytes → Option Nat
  | [] => if any then some acc else none
  | c :: r =>
    match hexDigit c with
    | some d => hexVal (acc * 16 + d) true r
    | none => if any then some acc else none

/-- `BN_hex2bn`: an optional sign, then digits; what follows them is ignored. -/
def hex2bn (s : Bytes) : Option Int :=
  match s with
  | 45 :: r => (hexVal 0 false r).map fun n => -(n : Int)
  | _ => (hexVal 0 false s).map fun n => (n : Int)

/-- `struct dhgroup` (dh.h:31-35) -/
structure Group where
  size : Nat
  g : Int
  p : Int
  deriving DecidableEq, Repr

/-- `strsep(&cp, " ")` followed by the test that something was found and more follows (dh.c:81-83 and so on). -/
def field (s : Bytes) : Option (Bytes × Bytes) :=
  match strsep 32 s with
  | (a, some r) => if a = [] then none else some (a, r)
  | (_, none) => none

/-- dh.c:70-80: the first word of the line, leading white space ignored, and the rest; `none` for comments and
empty lines. -/
def firstWord (line : Bytes) : Option (Bytes × Option Bytes) :=
  match Misc.Delim.strdelim true line with
  | none => none
  | some (a, r) =>
    if a ≠ [] then some (a, r)
    else
      match r with
      | none => none
      | some r => Misc.Delim.strdelim true r

/-- dh.c:132-149: the numbers -/
def parseNumbers (size : Nat) (gen prime : Bytes) : Option Group :=
  match hex2bn gen, hex2bn prime with
  | some g, some p => if numBits p.natAbs = size ∧ 1 < g then some { size := size, g := g, p := p } else none
  | _, _ => none

/-- dh.c:108-125: size, generator and prime -/
def parseTail (s : Bytes) : Option Group :=
  match field s with
  | none => none
  | some (size, s) =>
    match Num.strtonum size 0 65536 with
    | none => none
    | some n =>
      if n = 0 then none
      else
        match field s with
        | none => none
        | some (gen, s) =>
          match strsep 32 s with
          | (prime, none) => if prime = [] then none else parseNumbers (n.toNat + 1) gen prime
          | (_, some _) => none

/-- dh.c:81-107: type, tests and tries -/
def parseHead (s : Bytes) : Option Bytes :=
  match field s with
  | none => none
  | some (type, s) =>
    if Num.strtonum type 0 5 ≠ some 2 then none
    else
      match field s with
      | none => none
      | some (tests, s) =>
        match Num.strtonum tests 0 31 with
        | none => none
        | some n =>
          if n % 2 = 1 ∨ n = 0 then none
          else
            match field s with
            | none => none
            | some (tries, s) =>
              match Num.strtonum tries 0 1073741824 with
              | none => none
              | some n => if n = 0 then none else some s

/-- dh.c:60-156 `parse_prime`; `line` ends at its first NUL byte -/
def parsePrime (line : Bytes) : Option Group :=
  match firstWord line with
  | none => none
  | some (arg, cp) =>
    if arg = [] ∨ arg.head? = some 35 then none
    else
      match cp with
      | none => none
      | some s =>
        match parseHead s with
        | none => none
        | some s => parseTail s

/-- dh.c:182-191: one usable line in the first pass; `b` is `best` and `bestcount` -/
def consider (min want max : Nat) (b : Nat × Nat) (size : Nat) : Nat × Nat :=
  if size > max ∨ size < min then b
  else if (size > want ∧ size < b.1) ∨ (size > b.1 ∧ b.1 < want) then (size, 1)
  else if size = b.1 then (b.1, b.2 + 1)
  else b

/-- dh.c:173-192: the first pass -/
def best (min want max : Nat) (gs : List Group) : Nat × Nat := gs.foldl (fun b g => consider min want max b g.size) (0, 0)

/-- dh.c:206-220: the second pass: the line with number `which` among those of the best size -/
def pick (min max best which : Nat) : List Group → Option Group
  | [] => none
  | g :: gs =>
    if (g.size > max ∨ g.size < min) ∨ g.size ≠ best then pick min max best which gs
    else if which = 0 then some g
    else pick min max best (which - 1) gs

/-- What `choose_dh` returns: a group of the file, one of the groups fixed in RFC 3526 (by number), or NULL. -/
inductive Choice
  | listed (g : Group)
  | fixed (n : Nat)
  | refused
  deriving DecidableEq, Repr

/-- dh.c:471-484 `dh_new_group_fallback` -/
def fallback (max : Nat) : Choice := if max < 3072 then .fixed 14 else if max < 6144 then .fixed 16 else .fixed 18

/-- dh.c:158-231 `choose_dh`: `first` is `none` if the file cannot be opened; `rnd n` is `arc4random_uniform(n)` -/
def chooseDh (min want max : Nat) (first : Option (List Bytes)) (second : List Bytes) (rnd : Nat → Nat) : Choice :=
  match first with
  | none => fallback max
  | some ls =>
    match best min want max (ls.filterMap parsePrime) with
    | (b, n) =>
      if n = 0 then .refused
      else
        match pick min max b (rnd n) (second.filterMap parsePrime) with
        | some g => .listed g
        | none => fallback max

/-- dh.c:267-269: number of bits set among the first `n + 1` -/
def bitsSet (y n : Nat) : Nat := ((List.range (n + 1)).filter fun i => y.testBit i).length

/-- dh.c:235-281 `dh_pub_is_valid`; neither number is negative -/
def pubValid (p y : Nat) : Bool :=
  if y ≤ 1 then false
  else if ¬ (y : Int) < (p : Int) - 1 then false
  else if bitsSet y (numBits y) < 4 then false
  else true

/-- dh.c:283-310 `dh_gen_key`: the length of the private value; `none` if the request is refused -/
def keyLength (p need : Nat) : Option Nat :=
  if numBits p = 0 ∨ need > 1073741823 ∨ 2 * need > numBits p then none
  else some (Nat.min ((if need < 256 then 256 else need) * 2) (numBits p - 1))

/-- dh.c:493-503 `dh_estimate` -/
def estimate (bits : Nat) : Nat := if bits ≤ 112 then 2048 else if bits ≤ 128 then 3072 else if bits ≤ 192 then 7680 else 8192

end Verif.Dh
