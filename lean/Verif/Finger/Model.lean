/-
Fingerprints of keys as they are shown: sshkey.c.

The digest of the key and the name of its algorithm are inputs; there is memory enough. What would be undefined behaviour (reading or writing
outside of an array) is `none`.
-/
import Verif.Match.Model
import Verif.Misc.Base64
import Verif.Scp.Model

namespace Verif.Finger
open Verif
open _root_.Verif.Match (strlcat)
open _root_.Verif.Scp (dec)

/-- `strlcpy` to a buffer of this size -/
def strlcpy (src : Bytes) (size : Nat) : Bytes := src.take (size - 1)

/-- one digit of %x -/
def digit (n : Nat) : UInt8 := if n < 10 then UInt8.ofNat (48 + n) else UInt8.ofNat (87 + n)

/-- %02x of a byte -/
def hex2 (b : UInt8) : Bytes := [digit (b.toNat / 16), digit (b.toNat % 16)]

/-- sshkey.c:1028-1048 `fingerprint_b64` -/
def b64 (alg d : Bytes) : Option Bytes :=
  if d.length > 65536 then none
  else if d.length = 0 then some (strlcat (strlcpy alg ((d.length + 2) / 3 * 4 + (alg.length + 1) + 1)) b!":" ((d.length + 2) / 3 * 4 + (alg.length + 1) + 1))
  else match Misc.Base64.ntop d ((d.length + 2) / 3 * 4 + (alg.length + 1) + 1 - (alg.length + 1)) with
    | none => none
    | some t =>
      some (((strlcat (strlcpy alg ((d.length + 2) / 3 * 4 + (alg.length + 1) + 1)) b!":" ((d.length + 2) / 3 * 4 + (alg.length + 1) + 1)) ++ t).takeWhile
        (· ≠ 61))

/-- sshkey.c:1059-1063 the loop of `fingerprint_hex`, from byte number `i` on -/
def hexGo (rlen : Nat) : Bytes → Nat → Bytes → Bytes
  | [], _, acc => acc
  | b :: l, i, acc => hexGo rlen l (i + 1) (strlcat acc ((if i > 0 then b!":" else []) ++ hex2 b) rlen)

/-- sshkey.c:1050-1066 `fingerprint_hex` -/
def hex (alg d : Bytes) : Option Bytes :=
  if d.length > 65536 then none
  else some (hexGo (d.length * 3 + alg.length + 2) d 0
    (strlcat (strlcpy alg (d.length * 3 + alg.length + 2)) b!":" (d.length * 3 + alg.length + 2)))

/-- sshkey.c:1071-1073 -/
def vowels : Bytes := b!"aeiouy"
def consonants : Bytes := b!"bcdfghklmnprstvzx"

/-- sshkey.c:1082-1092, 1101-1107: the three letters of a byte, or of the end -/
def three (seed : Nat) (byte : Option UInt8) : Option Bytes :=
  match byte with
  | some b => do
    let v ← vowels[(((b.toNat >>> 6) &&& 3) + seed) % 6]?
    let c ← consonants[(b.toNat >>> 2) &&& 15]?
    let w ← vowels[((b.toNat &&& 3) + seed / 6) % 6]?
    some [v, c, w]
  | none => do
    let v ← vowels[seed % 6]?
    let c ← consonants[16]?
    let w ← vowels[seed / 6]?
    some [v, c, w]

/-- sshkey.c:1080-1110 the loop of `fingerprint_bubblebabble` from round `i` on, `n` rounds -/
def bubbleGo (d : Bytes) (rounds : Nat) : Nat → Nat → Nat → Option Bytes
  | 0, _, _ => some []
  | n + 1, i, seed =>
    if i + 1 < rounds ∨ d.length % 2 ≠ 0 then do
      let b ← d[2 * i]?
      let t ← three seed (some b)
      if i + 1 < rounds then do
        let b' ← d[2 * i + 1]?
        let c ← consonants[(b'.toNat >>> 4) &&& 15]?
        let e ← consonants[b'.toNat &&& 15]?
        let r ← bubbleGo d rounds n (i + 1) ((seed * 5 + (b.toNat * 7 + b'.toNat)) % 36)
        some (t ++ [c, 45, e] ++ r)
      else do
        let r ← bubbleGo d rounds n (i + 1) seed
        some (t ++ r)
    else do
      let t ← three seed none
      let r ← bubbleGo d rounds n (i + 1) seed
      some (t ++ r)

/-- sshkey.c:1068-1114 `fingerprint_bubblebabble`: none also if it does not fit into `rounds` times 6 bytes -/
def bubble (d : Bytes) : Option Bytes :=
  match bubbleGo d (d.length / 2 + 1) (d.length / 2 + 1) 0 1 with
  | none => none
  | some t => if (120 :: t ++ [120]).length + 1 > (d.length / 2 + 1) * 6 then none else some (120 :: t ++ [120])

/-! ### Pictures -/

/-- sshkey.c:1147-1148 FLDSIZE_Y, FLDSIZE_X -/
def height : Nat := 9
def width : Nat := 17

/-- sshkey.c:1157 -/
def augment : Bytes := b!" .o+=*BOX@%&#/^SE"

/-- A field of numbers: field[x][y] -/
def Field := Nat → Nat → Nat

/-- The worm and its trace -/
structure Worm where
  x : Int
  y : Int
  field : Field

/-- sshkey.c:1183-1193 one step with two bits: none if it writes outside of the field -/
def crawl (w : Worm) (input : Nat) : Option Worm :=
  match min (max (w.x + if input &&& 1 ≠ 0 then 1 else -1) 0) ((width : Int) - 1), min (max (w.y + if input &&& 2 ≠ 0 then 1 else -1) 0) ((height : Int) - 1) with
  | x, y =>
    if 0 ≤ x ∧ x < width ∧ 0 ≤ y ∧ y < height then
      some ⟨x, y, fun a b => if a = x.toNat ∧ b = y.toNat ∧ w.field a b < augment.length - 1 - 2 then w.field a b + 1 else w.field a b⟩
    else none

/-- sshkey.c:1176-1196 four steps per byte -/
def crawlAll : Bytes → Worm → Option Worm
  | [], w => some w
  | b :: l, w => do
    let w ← crawl w b.toNat
    let w ← crawl w (b.toNat >>> 2)
    let w ← crawl w (b.toNat >>> 4)
    let w ← crawl w (b.toNat >>> 6)
    crawlAll l w

/-- sshkey.c:1171-1174 -/
def start : Worm := ⟨(width / 2 : Nat), (height / 2 : Nat), fun _ _ => 0⟩

/-- sshkey.c:1199-1200 the marks -/
def marked (w : Worm) : Field := fun a b =>
  if a = w.x.toNat ∧ b = w.y.toNat then augment.length - 1 else if a = width / 2 ∧ b = height / 2 then augment.length - 1 - 1 else w.field a b

/-- `snprintf` to a buffer of this size: what is in it then -/
def printed (t : Bytes) (size : Nat) : Bytes := t.take (size - 1)

/-- sshkey.c:1203-1208 the title -/
def title (type : Bytes) (size : Nat) : Bytes :=
  if (b!"[" ++ type ++ b!" " ++ dec size ++ b!"]").length > width then printed (b!"[" ++ type ++ b!"]") width
  else printed (b!"[" ++ type ++ b!" " ++ dec size ++ b!"]") width

/-- sshkey.c:1216-1222, 1236-1241 a border with a text in it: the loops for dashes run from 0 and from the end of the text -/
def border (t : Bytes) : Bytes :=
  b!"+" ++ List.replicate ((width - t.length) / 2) 45 ++ t ++ List.replicate (width - ((width - t.length) / 2 + t.length)) 45 ++ b!"+"

/-- sshkey.c:1227-1233 a line: none if a letter is read that is not there -/
def line (f : Field) (y : Nat) : Option Bytes :=
  ((List.range width).mapM fun x => augment[min (f x y) (augment.length - 1)]?).map fun l => b!"|" ++ l ++ b!"|\n"

/-- sshkey.c:1149-1244 `fingerprint_randomart`: none also if it does not fit -/
def randomart (alg d type : Bytes) (size : Nat) : Option Bytes :=
  match crawlAll d start with
  | none => none
  | some w =>
    match (List.range height).mapM (line (marked w)) with
    | none => none
    | some ls =>
      if (border (title type size) ++ b!"\n" ++ ls.flatten ++ border (printed (b!"[" ++ alg ++ b!"]") width)).length + 1 > (width + 3) * (height + 2) then none
      else some (border (title type size) ++ b!"\n" ++ ls.flatten ++ border (printed (b!"[" ++ alg ++ b!"]") width))

/-- sshkey.h `enum sshkey_fp_rep` -/
inductive Rep where
  | default | hex | base64 | bubblebabble | randomart
  deriving DecidableEq

/-- sshkey.c:1246-1287 `sshkey_fingerprint`, given the digest -/
def fingerprint (rep : Rep) (alg d type : Bytes) (size : Nat) : Option Bytes :=
  match rep with
  | .default => if alg = b!"MD5" then hex alg d else b64 alg d
  | .hex => hex alg d
  | .base64 => b64 alg d
  | .bubblebabble => bubble d
  | .randomart => randomart alg d type size

end Verif.Finger
