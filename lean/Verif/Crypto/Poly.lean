/-
Poly1305 (poly1305.c), word by word.  32- and 64-bit words are natural numbers; every operation that can
leave the range of its C type is followed by the reduction that C does.
-/
import Verif.Base

namespace Verif.Crypto.Poly
open Verif

/-- Conversion to `uint32_t`. -/
def u32 (x : Nat) : Nat := x % 4294967296
/-- Conversion to `uint64_t`. -/
def u64 (x : Nat) : Nat := x % 18446744073709551616

/-- The byte at a position (0 outside). -/
def at_ (s : Bytes) (i : Nat) : Nat := (s.getD i 0).toNat

/-- poly1305.c:18-22 `U8TO32_LE(p + i)` -/
def le32 (s : Bytes) (i : Nat) : Nat :=
  at_ s i ||| (at_ s (i + 1) <<< 8) ||| (at_ s (i + 2) <<< 16) ||| (at_ s (i + 3) <<< 24)

/-- Five limbs of 26 bits (more or less). -/
structure Limbs where
  l0 : Nat
  l1 : Nat
  l2 : Nat
  l3 : Nat
  l4 : Nat
  deriving Repr, DecidableEq

/-- poly1305.c:47-57: the clamped key. -/
def clampLimbs (t0 t1 t2 t3 : Nat) : Limbs where
  l0 := t0 &&& 0x3ffffff
  l1 := ((t0 >>> 26) ||| u32 (t1 <<< 6)) &&& 0x3ffff03
  l2 := ((t1 >>> 20) ||| u32 (t2 <<< 12)) &&& 0x3ffc0ff
  l3 := ((t2 >>> 14) ||| u32 (t3 <<< 18)) &&& 0x3f03fff
  l4 := (t3 >>> 8) &&& 0x00fffff

/-- poly1305.c:47-57 -/
def keyLimbs (key : Bytes) : Limbs := clampLimbs (le32 key 0) (le32 key 4) (le32 key 8) (le32 key 12)

/-- poly1305.c:77-86 and 114-123: adding a block; `hi` is `1 << 24` for a full block and 0 for the last one
(which carries its own 1). -/
def addLimbs (h : Limbs) (t0 t1 t2 t3 hi : Nat) : Limbs where
  l0 := u32 (h.l0 + (t0 &&& 0x3ffffff))
  l1 := u32 (h.l1 + ((((t1 <<< 32) ||| t0) >>> 26) &&& 0x3ffffff))
  l2 := u32 (h.l2 + ((((t2 <<< 32) ||| t1) >>> 20) &&& 0x3ffffff))
  l3 := u32 (h.l3 + ((((t3 <<< 32) ||| t2) >>> 14) &&& 0x3ffffff))
  l4 := u32 (h.l4 + ((t3 >>> 8) ||| hi))

/-- poly1305.c:59-62: `s1` to `s4`. -/
def five (r : Nat) : Nat := u32 (r * 5)

/-- poly1305.c:89-94: the products. -/
def products (h r : Limbs) : Limbs where
  l0 := u64 (h.l0 * r.l0 + h.l1 * five r.l4 + h.l2 * five r.l3 + h.l3 * five r.l2 + h.l4 * five r.l1)
  l1 := u64 (h.l0 * r.l1 + h.l1 * r.l0 + h.l2 * five r.l4 + h.l3 * five r.l3 + h.l4 * five r.l2)
  l2 := u64 (h.l0 * r.l2 + h.l1 * r.l1 + h.l2 * r.l0 + h.l3 * five r.l4 + h.l4 * five r.l3)
  l3 := u64 (h.l0 * r.l3 + h.l1 * r.l2 + h.l2 * r.l1 + h.l3 * r.l0 + h.l4 * five r.l4)
  l4 := u64 (h.l0 * r.l4 + h.l1 * r.l3 + h.l2 * r.l2 + h.l3 * r.l1 + h.l4 * r.l0)

/-- poly1305.c:97: `t[1] += c` with the 64-bit carry `c`. -/
def t1 (t : Limbs) : Nat := u64 (t.l1 + (t.l0 >>> 26))
/-- poly1305.c:98-100: the 32-bit carries `b`. -/
def t2 (t : Limbs) : Nat := u64 (t.l2 + u32 (t1 t >>> 26))
def t3 (t : Limbs) : Nat := u64 (t.l3 + u32 (t2 t >>> 26))
def t4 (t : Limbs) : Nat := u64 (t.l4 + u32 (t3 t >>> 26))

/-- poly1305.c:96-101 -/
def carry (t : Limbs) : Limbs where
  l0 := u32 ((u32 t.l0 &&& 0x3ffffff) + u32 (u32 (t4 t >>> 26) * 5))
  l1 := u32 (t1 t) &&& 0x3ffffff
  l2 := u32 (t2 t) &&& 0x3ffffff
  l3 := u32 (t3 t) &&& 0x3ffffff
  l4 := u32 (t4 t) &&& 0x3ffffff

/-- poly1305.c:89-101 -/
def mulLimbs (h r : Limbs) : Limbs := carry (products h r)

/-- Adding the block `s` (16 bytes) and multiplying. -/
def absorb (r h : Limbs) (s : Bytes) (hi : Nat) : Limbs :=
  mulLimbs (addLimbs h (le32 s 0) (le32 s 4) (le32 s 8) (le32 s 12) hi) r

/-- poly1305.c:108-111: the last block with a 1 after it. -/
def lastBlock (m : Bytes) : Bytes := m ++ 1 :: List.replicate (15 - m.length) 0

/-- poly1305.c:71-125: the whole message; the first argument bounds the number of rounds. -/
def blocks (r : Limbs) : Nat → Limbs → Bytes → Limbs
  | 0, h, _ => h
  | fuel + 1, h, m =>
    if m.length ≥ 16 then blocks r fuel (absorb r h (m.take 16) (1 <<< 24)) (m.drop 16)
    else if m.length = 0 then h
    else absorb r h (lastBlock m) 0

/-- poly1305.c:128-132: carries of the first pass. -/
def p1 (h : Limbs) : Nat := u32 (h.l1 + (h.l0 >>> 26))
def p2 (h : Limbs) : Nat := u32 (h.l2 + (p1 h >>> 26))
def p3 (h : Limbs) : Nat := u32 (h.l3 + (p2 h >>> 26))
def p4 (h : Limbs) : Nat := u32 (h.l4 + (p3 h >>> 26))
/-- poly1305.c:133 -/
def p0 (h : Limbs) : Nat := u32 ((h.l0 &&& 0x3ffffff) + u32 ((p4 h >>> 26) * 5))

/-- poly1305.c:128-134 -/
def settle (h : Limbs) : Limbs where
  l0 := p0 h &&& 0x3ffffff
  l1 := u32 ((p1 h &&& 0x3ffffff) + (p0 h >>> 26))
  l2 := p2 h &&& 0x3ffffff
  l3 := p3 h &&& 0x3ffffff
  l4 := p4 h &&& 0x3ffffff

/-- poly1305.c:136-140: adding 5 and taking off 2^130, before masking. -/
def g0 (h : Limbs) : Nat := u32 (h.l0 + 5)
def g1 (h : Limbs) : Nat := u32 (h.l1 + (g0 h >>> 26))
def g2 (h : Limbs) : Nat := u32 (h.l2 + (g1 h >>> 26))
def g3 (h : Limbs) : Nat := u32 (h.l3 + (g2 h >>> 26))
/-- `g4 = h4 + b - (1 << 26)` in 32 bits. -/
def g4 (h : Limbs) : Nat := u32 (h.l4 + (g3 h >>> 26) + (4294967296 - 67108864))

/-- poly1305.c:142: `(g4 >> 31) - 1` in 32 bits. -/
def keepMask (h : Limbs) : Nat := u32 ((g4 h >>> 31) + 4294967295)
/-- poly1305.c:143: `~b` -/
def dropMask (h : Limbs) : Nat := 4294967295 - keepMask h

/-- poly1305.c:144-148 -/
def select (h : Limbs) : Limbs where
  l0 := (h.l0 &&& dropMask h) ||| ((g0 h &&& 0x3ffffff) &&& keepMask h)
  l1 := (h.l1 &&& dropMask h) ||| ((g1 h &&& 0x3ffffff) &&& keepMask h)
  l2 := (h.l2 &&& dropMask h) ||| ((g2 h &&& 0x3ffffff) &&& keepMask h)
  l3 := (h.l3 &&& dropMask h) ||| ((g3 h &&& 0x3ffffff) &&& keepMask h)
  l4 := (h.l4 &&& dropMask h) ||| (g4 h &&& keepMask h)

/-- poly1305.c:150-153: the four sums with the second half of the key. -/
def f0 (h : Limbs) (k : Nat) : Nat := u64 ((h.l0 ||| u32 (h.l1 <<< 26)) + k)
def f1 (h : Limbs) (k : Nat) : Nat := u64 (((h.l1 >>> 6) ||| u32 (h.l2 <<< 20)) + k)
def f2 (h : Limbs) (k : Nat) : Nat := u64 (((h.l2 >>> 12) ||| u32 (h.l3 <<< 14)) + k)
def f3 (h : Limbs) (k : Nat) : Nat := u64 (((h.l3 >>> 18) ||| u32 (h.l4 <<< 8)) + k)

/-- poly1305.c:24-30 `U32TO8_LE` -/
def toBytes (v : Nat) : Bytes :=
  [UInt8.ofNat v, UInt8.ofNat (v >>> 8), UInt8.ofNat (v >>> 16), UInt8.ofNat (v >>> 24)]

/-- poly1305.c:155-158: writing the words with carries. -/
def writeOut (f0 f1 f2 f3 : Nat) : Bytes :=
  toBytes f0 ++ toBytes (u64 (f1 + (f0 >>> 32))) ++ toBytes (u64 (f2 + (u64 (f1 + (f0 >>> 32)) >>> 32))) ++
    toBytes (u64 (f3 + (u64 (f2 + (u64 (f1 + (f0 >>> 32)) >>> 32)) >>> 32)))

/-- poly1305.c:127-158 -/
def finish (h : Limbs) (key : Bytes) : Bytes :=
  writeOut (f0 (select (settle h)) (le32 key 16)) (f1 (select (settle h)) (le32 key 20))
    (f2 (select (settle h)) (le32 key 24)) (f3 (select (settle h)) (le32 key 28))

/-- poly1305.c:32-159 `poly1305_auth` -/
def auth (m key : Bytes) : Bytes :=
  finish (blocks (keyLimbs key) (m.length + 1) ⟨0, 0, 0, 0, 0⟩ m) key

end Verif.Crypto.Poly
