/-
Model of smult_curve25519_ref.c (scalar multiplication on Curve25519) and of its use in kexc25519.c.

`unsigned int` is 32 bits wide and wraps around.  Field elements are arrays of 32 such numbers, least significant first;
arrays of 64 holding a pair of field elements are modelled as pairs.  Arrays are lists; writing into an array is
returning a new list.  Where an array is both read and written (`freeze`, `squeeze`, `recip`) every entry is read before
it is written in the code as well.
-/
import Verif.Base

namespace Verif.Curve25519
open Verif

/-- `unsigned int[32]` -/
abbrev Limbs := List UInt32

/-- `for (j = 0; j < 31; ++j) { u += as[j]; out[j] = u & 255; u >>= 8; }`: the entries written and the final `u`;
`as` are the 31 numbers added. -/
def carry (u : UInt32) : List UInt32 → List UInt32 × UInt32
  | [] => ([], u)
  | a :: as => (((u + a) &&& 255) :: (carry ((u + a) >>> 8) as).1, (carry ((u + a) >>> 8) as).2)

/-- The entry with index 31. -/
def top (a : Limbs) : UInt32 := a.getD 31 0

/-- smult_curve25519_ref.c:11-18 `add` -/
def add (a b : Limbs) : Limbs :=
  (carry 0 (List.zipWith (· + ·) (a.take 31) (b.take 31))).1 ++
    [(carry 0 (List.zipWith (· + ·) (a.take 31) (b.take 31))).2 + (top a + top b)]

/-- smult_curve25519_ref.c:20-32 `sub` -/
def sub (a b : Limbs) : Limbs :=
  (carry 218 (List.zipWith (fun x y => x + 65280 - y) (a.take 31) (b.take 31))).1 ++
    [(carry 218 (List.zipWith (fun x y => x + 65280 - y) (a.take 31) (b.take 31))).2 + (top a - top b)]

/-- smult_curve25519_ref.c:40-43, 84-87: the second half of `squeeze` and `mult121665`; `l` are the lower 31 entries
and `u` is the number whose low 7 bits are entry 31 -/
def fold (l : List UInt32) (u : UInt32) : Limbs :=
  (carry ((19 : UInt32) * (u >>> 7)) l).1 ++ [(carry ((19 : UInt32) * (u >>> 7)) l).2 + (u &&& 127)]

/-- smult_curve25519_ref.c:34-44 `squeeze` -/
def squeeze (a : Limbs) : Limbs := fold (carry 0 (a.take 31)).1 ((carry 0 (a.take 31)).2 + top a)

/-- smult_curve25519_ref.c:46-48 `minusp` -/
def minusp : Limbs := 19 :: (List.replicate 30 0 ++ [128])

/-- smult_curve25519_ref.c:50-60 `freeze` -/
def freeze (a : Limbs) : Limbs :=
  List.zipWith (fun o x => x ^^^ (((0 : UInt32) - ((top (add a minusp) >>> 7) &&& 1)) &&& (o ^^^ x))) a (add a minusp)

/-- smult_curve25519_ref.c:69-71: entry `i` of the product -/
def mulRow (a b : Limbs) (i : Nat) : UInt32 :=
  (List.range' (i + 1) (31 - i)).foldl (fun u j => u + 38 * a.getD j 0 * b.getD (i + 32 - j) 0)
    ((List.range (i + 1)).foldl (fun u j => u + a.getD j 0 * b.getD (i - j) 0) 0)

/-- smult_curve25519_ref.c:62-75 `mult` -/
def mult (a b : Limbs) : Limbs := squeeze ((List.range 32).map (mulRow a b))

/-- smult_curve25519_ref.c:77-88 `mult121665` -/
def mult121665 (a : Limbs) : Limbs :=
  fold (carry 0 ((a.take 31).map (121665 * ·))).1 ((carry 0 ((a.take 31).map (121665 * ·))).2 + 121665 * top a)

/-- smult_curve25519_ref.c:98-99: the products of different entries.  The loops end before a difference of the
indices becomes negative. -/
def squareHalf (a : Limbs) (i : Nat) : UInt32 :=
  ((List.range' (i + 1) 32).takeWhile (fun j => decide (j < i + 32 - j))).foldl
    (fun u j => u + 38 * a.getD j 0 * a.getD (i + 32 - j) 0)
    (((List.range 32).takeWhile (fun j => decide (j < i - j))).foldl (fun u j => u + a.getD j 0 * a.getD (i - j) 0) 0)

/-- smult_curve25519_ref.c:97-105: entry `i` of the square -/
def squareRow (a : Limbs) (i : Nat) : UInt32 :=
  if i % 2 = 0 then
    squareHalf a i * 2 + a.getD (i / 2) 0 * a.getD (i / 2) 0 + 38 * a.getD (i / 2 + 16) 0 * a.getD (i / 2 + 16) 0
  else squareHalf a i * 2

/-- smult_curve25519_ref.c:90-108 `square` -/
def square (a : Limbs) : Limbs := squeeze ((List.range 32).map (squareRow a))

/-- smult_curve25519_ref.c:116-119: what is written to `p` -/
def selectP (r s : Limbs) (b : UInt32) : Limbs := List.zipWith (fun r s => s ^^^ ((b - 1) &&& (r ^^^ s))) r s

/-- smult_curve25519_ref.c:116-120: what is written to `q` -/
def selectQ (r s : Limbs) (b : UInt32) : Limbs := List.zipWith (fun r s => r ^^^ ((b - 1) &&& (r ^^^ s))) r s

/-- `xzm` and `xzm1`, each a pair of field elements -/
structure Work where
  xm : Limbs
  zm : Limbs
  xm1 : Limbs
  zm1 : Limbs
  deriving DecidableEq, Repr

/-- smult_curve25519_ref.c:110-122 `select`, on pairs of field elements -/
def select (w : Work) (b : UInt32) : Work :=
  { xm := selectP w.xm w.xm1 b, zm := selectP w.zm w.zm1 b, xm1 := selectQ w.xm w.xm1 b, zm1 := selectQ w.zm w.zm1 b }

/-- smult_curve25519_ref.c:155-173: the body of the loop between the two calls of `select`: `w` holds `xzmb` and `xzm1b`,
the result `xznb` and `xzn1b` -/
def rung (work : Limbs) (w : Work) : Work :=
  let a0 := add w.xm w.zm
  let a0' := sub w.xm w.zm
  let a1 := add w.xm1 w.zm1
  let a1' := sub w.xm1 w.zm1
  let b0 := square a0
  let b0' := square a0'
  let b1 := mult a1 a0'
  let b1' := mult a1' a0
  let c1 := add b1 b1'
  let c1' := sub b1 b1'
  let r := square c1'
  let s := sub b0 b0'
  let t := mult121665 s
  let u := add t b0
  { xm := mult b0 b0', zm := mult s u, xm1 := square c1, zm1 := mult r work }

/-- smult_curve25519_ref.c:152-153: bit `pos` of the scalar -/
def bitAt (e : Bytes) (pos : Nat) : UInt32 := (e.getD (pos / 8) 0).toUInt32 >>> (UInt32.ofNat (pos % 8)) &&& 1

/-- smult_curve25519_ref.c:151-175: the loop, from bit `n - 1` down to bit 0 -/
def loop (work : Limbs) (e : Bytes) : Nat → Work → Work
  | 0, w => w
  | n + 1, w => loop work e n (select (rung work (select w (bitAt e n))) (bitAt e n))

/-- smult_curve25519_ref.c:124-178 `mainloop` -/
def mainloop (work : Limbs) (e : Bytes) : Work :=
  loop work e 255
    { xm := 1 :: List.replicate 31 0, zm := List.replicate 32 0, xm1 := work.take 32, zm1 := 1 :: List.replicate 31 0 }

/-- `n` times `square` -/
def squares : Nat → Limbs → Limbs
  | 0, x => x
  | n + 1, x => squares n (square x)

/-- smult_curve25519_ref.c:180-245 `recip`; each loop squares twice in each round -/
def recip (z : Limbs) : Limbs :=
  let z2 := square z
  let z9 := mult (square (square z2)) z
  let z11 := mult z9 z2
  let z2_5_0 := mult (square z11) z9
  let z2_10_0 := mult (squares 5 z2_5_0) z2_5_0
  let z2_20_0 := mult (squares 10 z2_10_0) z2_10_0
  let z2_40_0 := mult (squares 20 z2_20_0) z2_20_0
  let z2_50_0 := mult (squares 10 z2_40_0) z2_10_0
  let z2_100_0 := mult (squares 50 z2_50_0) z2_50_0
  let z2_200_0 := mult (squares 100 z2_100_0) z2_100_0
  let z2_250_0 := mult (squares 50 z2_200_0) z2_50_0
  mult (squares 5 z2_250_0) z11

/-- smult_curve25519_ref.c:254-257: the scalar used -/
def clamp (n : Bytes) : Bytes :=
  ((n.take 32).set 0 (n.getD 0 0 &&& 248)).set 31 ((n.getD 31 0 &&& 127) ||| 64)

/-- smult_curve25519_ref.c:247-265 `crypto_scalarmult_curve25519`; `n` and `p` have 32 bytes -/
def scalarmult (n p : Bytes) : Bytes :=
  let w := mainloop ((p.take 32).map UInt8.toUInt32) (clamp n)
  (freeze (mult w.xm (recip w.zm))).map UInt32.toUInt8

/-- kexc25519.c:49-56 `kexc25519_keygen`: the public value for a private one -/
def keygen (key : Bytes) : Bytes := scalarmult key (9 :: List.replicate 31 0)

/-- kexc25519.c:58-82 `kexc25519_shared_key_ext`: the bytes of the shared secret; `none`: refused because it is zero -/
def sharedKey (key pub : Bytes) : Option Bytes :=
  if scalarmult key pub = List.replicate 32 0 then none else some (scalarmult key pub)

end Verif.Curve25519
