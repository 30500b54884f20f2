/-
Model of bitmap.c: a growable array of 32-bit words (`BITMAP_WTYPE` is `u_int`) with the index of the
topmost used word.  `len` is the length of the array.  Memory allocation may fail (`mem = false`).
-/
import Verif.Base

namespace Verif.Bitmap
open Verif

/-- bitmap.c:27 `BITMAP_MAX` -/
scoped notation "BITMAP_MAX" => (16777216 : Nat)

/-- bitmap.c:31-35 `struct bitmap` -/
structure Bitmap where
  d : List UInt32
  top : Nat
  deriving DecidableEq, Repr

/-- bitmap.c:37-51 `bitmap_new` -/
def new : Bitmap := ⟨[0], 0⟩

/-- bitmap.c:64-69 `bitmap_zero` -/
def zero (b : Bitmap) : Bitmap := ⟨List.replicate b.d.length 0, 0⟩

/-- bitmap.c:71-79 `bitmap_test_bit` -/
def testBit (b : Bitmap) (n : Nat) : Bool :=
  if b.top ≥ b.d.length then false
  else if b.d.length = 0 ∨ n / 32 > b.top then false
  else ((b.d.getD (n / 32) 0) >>> UInt32.ofNat (n % 32)) &&& 1 = 1

/-- bitmap.c:81-98 `reserve` (`none`: -1); `recallocarray` zeroes the new words. -/
def reserve (b : Bitmap) (n : Nat) (mem : Bool) : Option Bitmap :=
  if b.top ≥ b.d.length ∨ n > BITMAP_MAX then none
  else if b.d.length < n / 32 + 1 then
    if mem then some ⟨b.d ++ List.replicate (n / 32 + 1 - b.d.length) 0, b.top⟩ else none
  else some b

/-- bitmap.c:100-113 `bitmap_set_bit` (`none`: -1, bitmap unchanged). -/
def setBit (b : Bitmap) (n : Nat) (mem : Bool) : Option Bitmap :=
  match reserve b n mem with
  | none => none
  | some b =>
    some ⟨b.d.set (n / 32) ((b.d.getD (n / 32) 0) ||| (1 <<< UInt32.ofNat (n % 32))),
      if n / 32 > b.top then n / 32 else b.top⟩

/-- The loop of bitmap.c:121-123. -/
def lowerTop (d : List UInt32) : Nat → Nat
  | 0 => 0
  | t + 1 => if d.getD (t + 1) 0 = 0 then lowerTop d t else t + 1

/-- bitmap.c:116-123 `retop` -/
def retop (b : Bitmap) : Bitmap :=
  if b.top ≥ b.d.length then b else ⟨b.d, lowerTop b.d b.top⟩

/-- bitmap.c:125-138 `bitmap_clear_bit` -/
def clearBit (b : Bitmap) (n : Nat) : Bitmap :=
  if b.top ≥ b.d.length ∨ n > BITMAP_MAX then b
  else if n / 32 > b.top then b
  else retop ⟨b.d.set (n / 32) ((b.d.getD (n / 32) 0) &&& ~~~(1 <<< UInt32.ofNat (n % 32))), b.top⟩

/-- The loop of bitmap.c:155-158; at most 31 rounds when `w ≠ 0`. -/
def msbLoop : Nat → UInt32 → Nat → Nat
  | 0, _, bits => bits
  | fuel + 1, w, bits => if w &&& 0x80000000 = 0 then msbLoop fuel (w <<< 1) (bits - 1) else bits

/-- bitmap.c:140-159 `bitmap_nbits` on the bitmap after `retop`. -/
def nbits (b : Bitmap) : Nat :=
  let b := retop b
  if b.top ≥ b.d.length then 0
  else if b.d.length = 0 ∨ (b.top = 0 ∧ b.d.getD 0 0 = 0) then 0
  else msbLoop 32 (b.d.getD b.top 0) ((b.top + 1) * 32)

/-- bitmap.c:161-165 `bitmap_nbytes` -/
def nbytes (b : Bitmap) : Nat := (nbits b + 7) / 8

/-- The four bytes of a word from the least significant one (bitmap.c:183). -/
def wordBytes (w : UInt32) : Bytes :=
  [(w >>> 0).toUInt8, (w >>> 8).toUInt8, (w >>> 16).toUInt8, (w >>> 24).toUInt8]

/-- bitmap.c:167-186 `bitmap_to_string` into a buffer of `l` bytes (`none`: -1); the result is the
`need` bytes written.  The nested loops write the words' bytes, least significant first, backwards from
the end; here the byte sequence is cut at `need` and reversed. -/
def toString (b : Bitmap) (l : Nat) : Option Bytes :=
  let need := nbytes b
  let b := retop b
  if l < need ∨ b.top ≥ b.d.length then none
  else some ((((b.d.take (b.top + 1)).flatMap wordBytes).take need).reverse)

/-- The loop of bitmap.c:204-211. -/
def fromLoop : Bytes → List UInt32 → Nat → Nat → List UInt32
  | [], d, _, _ => d
  | c :: s, d, offset, shift =>
    let d := d.set offset ((d.getD offset 0) ||| (c.toUInt32 <<< UInt32.ofNat shift))
    if shift = 0 then fromLoop s d (offset - 1) 24 else fromLoop s d offset (shift - 8)

/-- bitmap.c:188-214 `bitmap_from_string` (`none`: -1, bitmap unchanged). -/
def fromString (b : Bitmap) (s : Bytes) (mem : Bool) : Option Bitmap :=
  let l := s.length
  if l > BITMAP_MAX / 8 then none
  else match reserve b (l * 8) mem with
    | none => none
    | some b =>
      let b := zero b
      if l = 0 then some b
      else
        let top := (l + 3) / 4 - 1
        some (retop ⟨fromLoop s b.d top ((l + 3) % 4 * 8), top⟩)

/-- A call that changes a bitmap. -/
inductive Op
  | set (n : Nat) (mem : Bool) | clear (n : Nat) | zero | load (s : Bytes) (mem : Bool)

/-- The effect of a call; failures leave the bitmap unchanged. -/
def step (b : Bitmap) : Op → Bitmap
  | .set n mem => (setBit b n mem).getD b
  | .clear n => clearBit b n
  | .zero => zero b
  | .load s mem => (fromString b s mem).getD b

end Verif.Bitmap
