/-
ChaCha20 (chacha.c) and the chacha20-poly1305@openssh.com construction (cipher-chachapoly.c, the variant that
does not use libcrypto).
-/
import Verif.Crypto.Poly

namespace Verif.Crypto.ChaCha
open Verif Verif.Crypto.Poly

/-- The sixteen words of `struct chacha_ctx` (chacha.h), and of the working variables. -/
structure St where
  x0 : UInt32
  x1 : UInt32
  x2 : UInt32
  x3 : UInt32
  x4 : UInt32
  x5 : UInt32
  x6 : UInt32
  x7 : UInt32
  x8 : UInt32
  x9 : UInt32
  x10 : UInt32
  x11 : UInt32
  x12 : UInt32
  x13 : UInt32
  x14 : UInt32
  x15 : UInt32
  deriving Repr, DecidableEq

/-- chacha.c:26-30 `U8TO32_LITTLE(p + i)` -/
def word (p : Bytes) (i : Nat) : UInt32 := UInt32.ofNat (le32 p i)

/-- chacha.c:32-38 `U32TO8_LITTLE` -/
def bytes4 (v : UInt32) : Bytes := [v.toUInt8, (v >>> 8).toUInt8, (v >>> 16).toUInt8, (v >>> 24).toUInt8]

/-- chacha.c:23-24 `ROTL32` -/
def rotl (v n : UInt32) : UInt32 := (v <<< n) ||| (v >>> (32 - n))

/-- chacha.c:45-49 `QUARTERROUND`: the four variables after the first line ... -/
def qa (a b _c _d : UInt32) : UInt32 := a + b
def qd (a b c d : UInt32) : UInt32 := rotl (d ^^^ qa a b c d) 16
/-- ... the second ... -/
def qc (a b c d : UInt32) : UInt32 := c + qd a b c d
def qb (a b c d : UInt32) : UInt32 := rotl (b ^^^ qc a b c d) 12
/-- ... the third ... -/
def qa' (a b c d : UInt32) : UInt32 := qa a b c d + qb a b c d
def qd' (a b c d : UInt32) : UInt32 := rotl (qd a b c d ^^^ qa' a b c d) 8
/-- ... and the fourth. -/
def qc' (a b c d : UInt32) : UInt32 := qc a b c d + qd' a b c d
def qb' (a b c d : UInt32) : UInt32 := rotl (qb a b c d ^^^ qc' a b c d) 7

/-- chacha.c:140 -/
def c0 (s : St) : St := { s with
  x0 := qa' s.x0 s.x4 s.x8 s.x12, x4 := qb' s.x0 s.x4 s.x8 s.x12, x8 := qc' s.x0 s.x4 s.x8 s.x12, x12 := qd' s.x0 s.x4 s.x8 s.x12 }
/-- chacha.c:141 -/
def c1 (s : St) : St := { s with
  x1 := qa' s.x1 s.x5 s.x9 s.x13, x5 := qb' s.x1 s.x5 s.x9 s.x13, x9 := qc' s.x1 s.x5 s.x9 s.x13, x13 := qd' s.x1 s.x5 s.x9 s.x13 }
/-- chacha.c:142 -/
def c2 (s : St) : St := { s with
  x2 := qa' s.x2 s.x6 s.x10 s.x14, x6 := qb' s.x2 s.x6 s.x10 s.x14, x10 := qc' s.x2 s.x6 s.x10 s.x14, x14 := qd' s.x2 s.x6 s.x10 s.x14 }
/-- chacha.c:143 -/
def c3 (s : St) : St := { s with
  x3 := qa' s.x3 s.x7 s.x11 s.x15, x7 := qb' s.x3 s.x7 s.x11 s.x15, x11 := qc' s.x3 s.x7 s.x11 s.x15, x15 := qd' s.x3 s.x7 s.x11 s.x15 }
/-- chacha.c:144 -/
def d0 (s : St) : St := { s with
  x0 := qa' s.x0 s.x5 s.x10 s.x15, x5 := qb' s.x0 s.x5 s.x10 s.x15, x10 := qc' s.x0 s.x5 s.x10 s.x15, x15 := qd' s.x0 s.x5 s.x10 s.x15 }
/-- chacha.c:145 -/
def d1 (s : St) : St := { s with
  x1 := qa' s.x1 s.x6 s.x11 s.x12, x6 := qb' s.x1 s.x6 s.x11 s.x12, x11 := qc' s.x1 s.x6 s.x11 s.x12, x12 := qd' s.x1 s.x6 s.x11 s.x12 }
/-- chacha.c:146 -/
def d2 (s : St) : St := { s with
  x2 := qa' s.x2 s.x7 s.x8 s.x13, x7 := qb' s.x2 s.x7 s.x8 s.x13, x8 := qc' s.x2 s.x7 s.x8 s.x13, x13 := qd' s.x2 s.x7 s.x8 s.x13 }
/-- chacha.c:147 -/
def d3 (s : St) : St := { s with
  x3 := qa' s.x3 s.x4 s.x9 s.x14, x4 := qb' s.x3 s.x4 s.x9 s.x14, x9 := qc' s.x3 s.x4 s.x9 s.x14, x14 := qd' s.x3 s.x4 s.x9 s.x14 }

/-- chacha.c:140-147 -/
def twoRounds (s : St) : St := d3 (d2 (d1 (d0 (c3 (c2 (c1 (c0 s)))))))

/-- chacha.c:139-148: `for (i = 20; i > 0; i -= 2)`; the argument is the number of pairs of rounds left. -/
def rounds : Nat → St → St
  | 0, s => s
  | n + 1, s => rounds n (twoRounds s)

/-- chacha.c:149-164 -/
def plus (x j : St) : St where
  x0 := x.x0 + j.x0
  x1 := x.x1 + j.x1
  x2 := x.x2 + j.x2
  x3 := x.x3 + j.x3
  x4 := x.x4 + j.x4
  x5 := x.x5 + j.x5
  x6 := x.x6 + j.x6
  x7 := x.x7 + j.x7
  x8 := x.x8 + j.x8
  x9 := x.x9 + j.x9
  x10 := x.x10 + j.x10
  x11 := x.x11 + j.x11
  x12 := x.x12 + j.x12
  x13 := x.x13 + j.x13
  x14 := x.x14 + j.x14
  x15 := x.x15 + j.x15

/-- chacha.c:166-181 -/
def mix (x : St) (m : Bytes) : St where
  x0 := x.x0 ^^^ word m 0
  x1 := x.x1 ^^^ word m 4
  x2 := x.x2 ^^^ word m 8
  x3 := x.x3 ^^^ word m 12
  x4 := x.x4 ^^^ word m 16
  x5 := x.x5 ^^^ word m 20
  x6 := x.x6 ^^^ word m 24
  x7 := x.x7 ^^^ word m 28
  x8 := x.x8 ^^^ word m 32
  x9 := x.x9 ^^^ word m 36
  x10 := x.x10 ^^^ word m 40
  x11 := x.x11 ^^^ word m 44
  x12 := x.x12 ^^^ word m 48
  x13 := x.x13 ^^^ word m 52
  x14 := x.x14 ^^^ word m 56
  x15 := x.x15 ^^^ word m 60

/-- chacha.c:189-204 -/
def store (x : St) : Bytes :=
  bytes4 x.x0 ++ bytes4 x.x1 ++ bytes4 x.x2 ++ bytes4 x.x3 ++ bytes4 x.x4 ++ bytes4 x.x5 ++ bytes4 x.x6 ++ bytes4 x.x7 ++
  bytes4 x.x8 ++ bytes4 x.x9 ++ bytes4 x.x10 ++ bytes4 x.x11 ++ bytes4 x.x12 ++ bytes4 x.x13 ++ bytes4 x.x14 ++ bytes4 x.x15

/-- chacha.c:183-187: the next counter. -/
def bump (j : St) : St := { j with x12 := j.x12 + 1, x13 := if j.x12 + 1 = 0 then j.x13 + 1 else j.x13 }

/-- chacha.c:123-181 and 189-204: one block of output. -/
def blockOut (j : St) (m : Bytes) : Bytes := store (mix (plus (rounds 10 j) j) m)

/-- chacha.c:116-217: the loop; `junk` is what the uninitialised rest of `tmp` holds.  The first argument bounds the
number of rounds. -/
def loop (junk : Bytes) : Nat → St → Bytes → Bytes × St
  | 0, j, _ => ([], j)
  | fuel + 1, j, m =>
    if m.length ≤ 64 then
      if m.length < 64 then ((blockOut j (m ++ junk)).take m.length, bump j)
      else (blockOut j m, bump j)
    else (blockOut j (m.take 64) ++ (loop junk fuel (bump j) (m.drop 64)).1, (loop junk fuel (bump j) (m.drop 64)).2)

/-- chacha.c:88-218 `chacha_encrypt_bytes`: the output and the new context.  `m.length` is `bytes`. -/
def encrypt (junk : Bytes) (x : St) (m : Bytes) : Bytes × St :=
  if m.length = 0 then ([], x) else loop junk m.length x m

/-- chacha.c:54-77 `chacha_keysetup`: `kbits` is 256 (`big`) or 128. -/
def keysetup (x : St) (k : Bytes) (big : Bool) : St := { x with
  x4 := word k 0, x5 := word k 4, x6 := word k 8, x7 := word k 12,
  x8 := word k (if big then 16 else 0), x9 := word k (if big then 20 else 4),
  x10 := word k (if big then 24 else 8), x11 := word k (if big then 28 else 12),
  x0 := word (if big then b!"expand 32-byte k" else b!"expand 16-byte k") 0,
  x1 := word (if big then b!"expand 32-byte k" else b!"expand 16-byte k") 4,
  x2 := word (if big then b!"expand 32-byte k" else b!"expand 16-byte k") 8,
  x3 := word (if big then b!"expand 32-byte k" else b!"expand 16-byte k") 12 }

/-- chacha.c:79-86 `chacha_ivsetup` -/
def ivsetup (x : St) (iv : Bytes) (counter : Option Bytes) : St := { x with
  x12 := (counter.elim 0 (fun c => word c 0)), x13 := (counter.elim 0 (fun c => word c 4)),
  x14 := word iv 0, x15 := word iv 4 }

/-- `calloc`ed context. -/
def zero : St := ⟨0, 0, 0, 0, 0, 0, 0, 0, 0, 0, 0, 0, 0, 0, 0, 0⟩

/-! ## cipher-chachapoly.c -/

/-- cipher-chachapoly.c:35-37 `struct chachapoly_ctx` -/
structure Ctx where
  main : St
  header : St

/-- cipher-chachapoly.c:39-51 `chachapoly_new` -/
def new (key : Bytes) : Option Ctx :=
  if key.length ≠ 64 then none
  else some { main := keysetup zero key true, header := keysetup zero (key.drop 32) true }

/-- sshbuf.h `POKE_U64` of a 32-bit number: big endian. -/
def seqbuf (seqnr : UInt32) : Bytes :=
  [0, 0, 0, 0, (seqnr >>> 24).toUInt8, (seqnr >>> 16).toUInt8, (seqnr >>> 8).toUInt8, seqnr.toUInt8]

/-- cipher-chachapoly.c:81-85: the key of the tag. -/
def polyKey (junk : Bytes) (ctx : Ctx) (seqnr : UInt32) : Bytes :=
  (encrypt junk (ivsetup ctx.main (seqbuf seqnr) none) (List.replicate 32 0)).1

/-- cipher-chachapoly.c:98-102 -/
def header (junk : Bytes) (ctx : Ctx) (seqnr : UInt32) (src : Bytes) : Bytes :=
  if src.length = 0 then [] else (encrypt junk (ivsetup ctx.header (seqbuf seqnr) none) src).1

/-- cipher-chachapoly.c:104-107 -/
def body (junk : Bytes) (ctx : Ctx) (seqnr : UInt32) (src : Bytes) : Bytes :=
  (encrypt junk (ivsetup ctx.main (seqbuf seqnr) (some [1, 0, 0, 0, 0, 0, 0, 0])) src).1

/-- What `dest` receives apart from the tag. -/
def crypted (junk : Bytes) (ctx : Ctx) (seqnr : UInt32) (src : Bytes) (len aadlen : Nat) : Bytes :=
  header junk ctx seqnr (src.take aadlen) ++ body junk ctx seqnr ((src.drop aadlen).take len)

/-- cipher-chachapoly.c:68-120 `chachapoly_crypt`: the bytes written to `dest`, or none if it returns
`SSH_ERR_MAC_INVALID` (then nothing was written).  `src` must hold `aadlen + len` bytes, and a tag behind them
when decrypting.  The sum `aadlen + len` is taken in 32 bits.  The contexts' counters and nonces, which every call sets
anew, are not carried over. -/
def crypt (junk : Bytes) (ctx : Ctx) (seqnr : UInt32) (src : Bytes) (len aadlen : Nat) (doEncrypt : Bool) :
    Option Bytes :=
  if doEncrypt then
    some (crypted junk ctx seqnr src len aadlen ++
      auth ((crypted junk ctx seqnr src len aadlen).take ((aadlen + len) % 4294967296)) (polyKey junk ctx seqnr))
  else if auth (src.take ((aadlen + len) % 4294967296)) (polyKey junk ctx seqnr) ≠
      (src.drop (aadlen + len)).take 16 then none
  else some (crypted junk ctx seqnr src len aadlen)

/-- cipher-chachapoly.c:123-136 `chachapoly_get_length`: none if more bytes are needed. -/
def getLength (junk : Bytes) (ctx : Ctx) (seqnr : UInt32) (cp : Bytes) : Option Nat :=
  if cp.length < 4 then none
  else some (beNum (encrypt junk (ivsetup ctx.header (seqbuf seqnr) none) (cp.take 4)).1)
where
  /-- sshbuf.h `PEEK_U32` -/
  beNum (b : Bytes) : Nat := at_ b 0 * 16777216 + at_ b 1 * 65536 + at_ b 2 * 256 + at_ b 3

end Verif.Crypto.ChaCha
