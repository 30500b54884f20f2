/-
Model of OpenSSH's byte buffer: /repo/sshbuf.c, /repo/sshbuf-getput-basic.c, parts of /repo/sshbuf-misc.c.

One `Buf` value models one `struct sshbuf` together with the storage it points to.
Every memory access through `d`/`cd` is checked against the storage; an access outside of it is the
distinct outcome `Res.ub` (undefined behaviour).  A failed `sshbuf_check_sanity` (which raises SIGSEGV)
is the distinct outcome `Res.abort`.  Allocation success is an oracle argument (`mem : Bool`).
The parent pointer / sharing of storage between buffers is modelled in `Verif.SshBuf.Heap`; here only the
reference count is visible.
-/
import Verif.Base

namespace Verif.SshBuf
open Verif

/-- sshbuf.h:32 -/
scoped notation "SIZE_MAX_BUF" => (134217728 : Nat)
/-- sshbuf.h:33 -/
scoped notation "REFS_MAX" => (1048576 : Nat)
/-- sshbuf.h:34 `SSHBUF_MAX_BIGNUM` -/
scoped notation "MAX_BIGNUM" => (2048 : Nat)
/-- sshbuf.h:372 -/
scoped notation "SIZE_INIT" => (256 : Nat)
/-- sshbuf.h:373 -/
scoped notation "SIZE_INC" => (256 : Nat)
/-- sshbuf.h:374 -/
scoped notation "PACK_MIN" => (8192 : Nat)
/-- `SIZE_MAX` of a 64-bit platform. -/
scoped notation "SIZE_MAX" => (18446744073709551615 : Nat)

/-- misc.h:252 `ROUNDUP` (no wrap-around can occur for the values passed by sshbuf.c). -/
def roundup (x y : Nat) : Nat := ((x + (y - 1)) / y) * y

/-- The error codes of ssherr.h:24-83 returned by the modelled functions. -/
inductive Err
  | internal | allocFail | incomplete | invalidFormat | bignumNegative | stringTooLarge
  | bignumTooLarge | noSpace | invalidArg | readOnly | systemError
  deriving DecidableEq, Repr

/-- Outcome of a call. -/
inductive Res (α : Type) where
  | ok (a : α)
  | err (e : Err)
  | abort            -- sanity check failed, SIGSEGV raised
  | ub               -- undefined behaviour: access outside the storage
  deriving DecidableEq, Repr

/-- sshbuf.c:41-51 `struct sshbuf`, with the storage inlined (`d`; for a read-only buffer `cd`). -/
structure Buf where
  d : Bytes
  off : Nat
  size : Nat
  maxSize : Nat
  alloc : Nat
  readonly : Bool
  refcount : Nat
  deriving DecidableEq, Repr

/-- A C function operating on a buffer. -/
def SB (α : Type) := Buf → Res α × Buf

/-- Sequencing: stop at the first error (the `if ((r = f(...)) != 0) return r;` idiom). -/
def SB.bind (x : SB α) (f : α → SB β) : SB β := fun b =>
  match x b with
  | (.ok a, b') => f a b'
  | (.err e, b') => (.err e, b')
  | (.abort, b') => (.abort, b')
  | (.ub, b') => (.ub, b')

instance : Monad SB where
  pure a := fun b => (.ok a, b)
  bind := SB.bind

/-- `return error` -/
def fail (e : Err) : SB α := fun b => (.err e, b)
/-- read the structure -/
def getB : SB Buf := fun b => (.ok b, b)
/-- overwrite the structure -/
def setB (b : Buf) : SB Unit := fun _ => (.ok (), b)

/-- Reading `n` bytes at storage index `i` (`memcpy` source, `PEEK_*`): undefined outside the storage. -/
def memRead (i n : Nat) : SB Bytes := fun b =>
  if i + n ≤ b.d.length then (.ok ((b.d.drop i).take n), b) else (.ub, b)

/-- Writing bytes at storage index `i` (`memcpy` target, `POKE_*`): undefined outside the storage. -/
def memWrite (i : Nat) (v : Bytes) : SB Unit := fun b =>
  if i + v.length ≤ b.d.length then
    (.ok (), { b with d := b.d.take i ++ v ++ b.d.drop (i + v.length) })
  else (.ub, b)

/-- sshbuf.c:54-74 `sshbuf_check_sanity` (the pointer comparisons are not representable here). -/
def insane (b : Buf) : Bool :=
  decide (b.refcount < 1) || decide (b.refcount > REFS_MAX) || decide (b.maxSize > SIZE_MAX_BUF) ||
  decide (b.alloc > b.maxSize) || decide (b.size > b.alloc) || decide (b.off > b.size)

def checkSanity : SB Unit := fun b => if insane b then (.abort, b) else (.ok (), b)

/-- sshbuf.c:92-109 `sshbuf_new` (allocation succeeded). -/
def new : Buf :=
  { d := List.replicate SIZE_INIT 0, off := 0, size := 0, maxSize := SIZE_MAX_BUF,
    alloc := SIZE_INIT, readonly := false, refcount := 1 }

/-- sshbuf.c:111-126 `sshbuf_from` (`none`: NULL is returned). -/
def from_ (blob : Bytes) : Option Buf :=
  if blob.length > SIZE_MAX_BUF then none
  else some { d := blob, off := 0, size := blob.length, maxSize := blob.length,
              alloc := blob.length, readonly := true, refcount := 1 }

/-- sshbuf.c:76-90 `sshbuf_maybe_pack` -/
def maybePack (force : Bool) : SB Unit := do
  let b ← getB
  if b.off = 0 ∨ b.readonly ∨ b.refcount > 1 then pure ()
  else if force ∨ (b.off ≥ PACK_MIN ∧ b.off ≥ b.size / 2) then do
    let v ← memRead b.off (b.size - b.off)
    memWrite 0 v
    let b' ← getB
    setB { b' with size := b.size - b.off, off := 0 }
  else pure ()

/-- openbsd-compat/recallocarray.c:40-88 contents after a successful resize: a prefix is kept,
new space is zero. -/
def recalloc (d : Bytes) (n : Nat) : Bytes := d.take n ++ List.replicate (n - d.length) 0

/-- sshbuf.c:195-216 `sshbuf_reset`; `mem`: does the shrinking allocation succeed. -/
def reset (mem : Bool) : SB Unit := do
  let b ← getB
  if b.readonly ∨ b.refcount > 1 then setB { b with off := b.size }
  else do
    checkSanity
    let b := { b with off := 0, size := 0 }
    let b := if b.alloc ≠ SIZE_INIT ∧ mem then
        { b with d := recalloc b.d SIZE_INIT, alloc := SIZE_INIT } else b
    setB { b with d := List.replicate b.alloc 0 ++ b.d.drop b.alloc }

/-- sshbuf.c:242-278 `sshbuf_set_max_size` -/
def setMaxSize (maxSize : Nat) (mem : Bool) : SB Unit := do
  checkSanity
  let b ← getB
  if maxSize = b.maxSize then pure ()
  else if b.readonly ∨ b.refcount > 1 then fail .readOnly
  else if maxSize > SIZE_MAX_BUF then fail .noSpace
  else do
    maybePack (maxSize < b.size)
    let b ← getB
    if maxSize < b.alloc ∧ maxSize > b.size then do
      let rlen := if b.size < SIZE_INIT then SIZE_INIT else roundup b.size SIZE_INC
      let rlen := if rlen > maxSize then maxSize else rlen
      if mem then setB { b with d := recalloc b.d rlen, alloc := rlen } else fail .allocFail
    else pure ()
    let b ← getB
    if maxSize < b.alloc then fail .noSpace
    else setB { b with maxSize := maxSize }

/-- sshbuf.c:280-286 `sshbuf_len` -/
def len : SB Nat := do
  checkSanity
  let b ← getB
  pure (b.size - b.off)

/-- sshbuf.c:288-294 `sshbuf_avail` -/
def avail : SB Nat := do
  checkSanity
  let b ← getB
  if b.readonly ∨ b.refcount > 1 then pure 0 else pure (b.maxSize - (b.size - b.off))

/-- sshbuf.c:296-302 `sshbuf_ptr`: index into the storage of the first readable byte. -/
def ptr : SB Nat := do
  checkSanity
  let b ← getB
  pure b.off

/-- sshbuf.c:304-310 `sshbuf_mutable_ptr` (`none`: NULL). -/
def mutablePtr : SB (Option Nat) := do
  checkSanity
  let b ← getB
  if b.readonly ∨ b.refcount > 1 then pure none else pure (some b.off)

/-- sshbuf.c:312-326 `sshbuf_check_reserve` -/
def checkReserve (len : Nat) : SB Unit := do
  checkSanity
  let b ← getB
  if b.readonly ∨ b.refcount > 1 then fail .readOnly
  else if len > b.maxSize ∨ b.maxSize - len < b.size - b.off then fail .noSpace
  else pure ()

/-- sshbuf.c:328-369 `sshbuf_allocate` -/
def allocate (len : Nat) (mem : Bool) : SB Unit := do
  checkReserve len
  let b ← getB
  maybePack (szAdd b.size len > b.maxSize)
  let b ← getB
  if szAdd len b.size ≤ b.alloc then pure ()
  else do
    let need := szAdd len b.size - b.alloc
    let rlen := roundup (szAdd b.alloc need) SIZE_INC
    let rlen := if rlen > b.maxSize then szAdd b.alloc need else rlen
    if mem then do
      setB { b with d := recalloc b.d rlen, alloc := rlen }
      checkReserve len
    else fail .allocFail

/-- sshbuf.c:371-389 `sshbuf_reserve`: returns the storage index of the reserved space. -/
def reserve (len : Nat) (mem : Bool) : SB Nat := do
  allocate len mem
  let b ← getB
  let dp := b.size
  setB { b with size := szAdd b.size len }
  pure dp

/-- sshbuf.c:391-409 `sshbuf_consume` -/
def consume (n : Nat) : SB Unit := do
  checkSanity
  if n = 0 then pure ()
  else do
    let l ← len
    if n > l then fail .incomplete
    else do
      let b ← getB
      let off := szAdd b.off n
      if off = b.size then setB { b with off := 0, size := 0 }
      else setB { b with off := off }

/-- sshbuf.c:411-427 `sshbuf_consume_end` -/
def consumeEnd (n : Nat) : SB Unit := do
  checkSanity
  if n = 0 then pure ()
  else do
    let l ← len
    if n > l then fail .incomplete
    else do
      let b ← getB
      setB { b with size := b.size - n }

/-! ### Integer encoding macros (sshbuf.h:303-347) -/

/-- sshbuf.h:303-311 `PEEK_U64` -/
def peekU64 : Bytes → UInt64
  | [p0, p1, p2, p3, p4, p5, p6, p7] =>
    (p0.toUInt64 <<< 56) ||| (p1.toUInt64 <<< 48) ||| (p2.toUInt64 <<< 40) ||| (p3.toUInt64 <<< 32) |||
    (p4.toUInt64 <<< 24) ||| (p5.toUInt64 <<< 16) ||| (p6.toUInt64 <<< 8) ||| p7.toUInt64
  | _ => 0
/-- sshbuf.h:312-316 `PEEK_U32` -/
def peekU32 : Bytes → UInt32
  | [p0, p1, p2, p3] =>
    (p0.toUInt32 <<< 24) ||| (p1.toUInt32 <<< 16) ||| (p2.toUInt32 <<< 8) ||| p3.toUInt32
  | _ => 0
/-- sshbuf.h:317-319 `PEEK_U16` -/
def peekU16 : Bytes → UInt16
  | [p0, p1] => (p0.toUInt16 <<< 8) ||| p1.toUInt16
  | _ => 0
/-- sshbuf.h:321-332 `POKE_U64` -/
def pokeU64 (v : UInt64) : Bytes :=
  [((v >>> 56) &&& 0xff).toUInt8, ((v >>> 48) &&& 0xff).toUInt8, ((v >>> 40) &&& 0xff).toUInt8,
   ((v >>> 32) &&& 0xff).toUInt8, ((v >>> 24) &&& 0xff).toUInt8, ((v >>> 16) &&& 0xff).toUInt8,
   ((v >>> 8) &&& 0xff).toUInt8, (v &&& 0xff).toUInt8]
/-- sshbuf.h:333-340 `POKE_U32` -/
def pokeU32 (v : UInt32) : Bytes :=
  [((v >>> 24) &&& 0xff).toUInt8, ((v >>> 16) &&& 0xff).toUInt8,
   ((v >>> 8) &&& 0xff).toUInt8, (v &&& 0xff).toUInt8]
/-- sshbuf.h:341-346 `POKE_U16` -/
def pokeU16 (v : UInt16) : Bytes :=
  [((v >>> 8) &&& 0xff).toUInt8, (v &&& 0xff).toUInt8]

/-! ### sshbuf-getput-basic.c -/

/-- sshbuf-getput-basic.c:34-45 `sshbuf_get` with a non-NULL destination. -/
def get (n : Nat) : SB Bytes := do
  let p ← ptr
  consume n
  if n ≠ 0 then memRead p n else pure []

/-- sshbuf-getput-basic.c:47-58 -/
def getU64 : SB UInt64 := do
  let p ← ptr
  consume 8
  let v ← memRead p 8
  pure (peekU64 v)
/-- sshbuf-getput-basic.c:60-71 -/
def getU32 : SB UInt32 := do
  let p ← ptr
  consume 4
  let v ← memRead p 4
  pure (peekU32 v)
/-- sshbuf-getput-basic.c:73-84 -/
def getU16 : SB UInt16 := do
  let p ← ptr
  consume 2
  let v ← memRead p 2
  pure (peekU16 v)
/-- sshbuf-getput-basic.c:86-97 -/
def getU8 : SB UInt8 := do
  let p ← ptr
  consume 1
  let v ← memRead p 1
  pure (v.headD 0)

/-- sshbuf-getput-basic.c:99-111 `check_offset` -/
def checkOffset (wr : Bool) (offset n : Nat) : SB Unit := do
  let _ ← ptr
  if offset ≥ SIZE_MAX - n then fail .invalidArg
  else do
    let l ← len
    if szAdd offset n > l then fail (if wr then .noSpace else .incomplete) else pure ()

/-- sshbuf-getput-basic.c:113-124 `check_roffset` -/
def checkROffset (offset n : Nat) : SB Nat := do
  checkOffset false offset n
  let p ← ptr
  pure (p + offset)

/-- sshbuf-getput-basic.c:126-139 -/
def peekU64At (offset : Nat) : SB UInt64 := do
  let p ← checkROffset offset 8
  let v ← memRead p 8
  pure (peekU64 v)
/-- sshbuf-getput-basic.c:141-154 -/
def peekU32At (offset : Nat) : SB UInt32 := do
  let p ← checkROffset offset 4
  let v ← memRead p 4
  pure (peekU32 v)
/-- sshbuf-getput-basic.c:156-169 -/
def peekU16At (offset : Nat) : SB UInt16 := do
  let p ← checkROffset offset 2
  let v ← memRead p 2
  pure (peekU16 v)
/-- sshbuf-getput-basic.c:171-184 -/
def peekU8At (offset : Nat) : SB UInt8 := do
  let p ← checkROffset offset 1
  let v ← memRead p 1
  pure (v.headD 0)

/-- sshbuf-getput-basic.c:239-268 `sshbuf_peek_string_direct`: storage index and length of the string. -/
def peekStringDirect : SB (Nat × Nat) := do
  let p ← ptr
  let l ← len
  if l < 4 then fail .incomplete
  else do
    let v ← memRead p 4
    let n := (peekU32 v).toNat
    if n > SIZE_MAX_BUF - 4 then fail .stringTooLarge
    else do
      let l ← len
      if l - 4 < n then fail .incomplete else pure (p + 4, n)

/-- sshbuf-getput-basic.c:213-237 `sshbuf_get_string_direct` -/
def getStringDirect : SB (Nat × Nat) := fun b =>
  match peekStringDirect b with
  | (.ok (p, n), b') =>
    match consume (szAdd n 4) b' with
    | (.ok _, b'') => (.ok (p, n), b'')
    | (.err _, b'') => (.err .internal, b'')
    | (.abort, b'') => (.abort, b'')
    | (.ub, b'') => (.ub, b'')
  | (.err e, b') => (.err e, b')
  | (.abort, b') => (.abort, b')
  | (.ub, b') => (.ub, b')

/-- sshbuf-getput-basic.c:186-211 `sshbuf_get_string` with non-NULL result pointers. -/
def getString (mem : Bool) : SB Bytes := do
  let (p, n) ← getStringDirect
  if mem then memRead p n else fail .allocFail

/-- Position of the first NUL byte (`memchr(p, '\0', len)`). -/
def firstNul : Bytes → Option Nat
  | [] => none
  | x :: xs => if x = 0 then some 0 else (firstNul xs).map (· + 1)

/-- `if (f(...) != 0) return SSH_ERR_INTERNAL_ERROR` (sshbuf-getput-basic.c:228-232, 290-291, 629-633). -/
def orInternal (x : SB α) : SB Unit := fun b =>
  match x b with
  | (.ok _, b') => (.ok (), b')
  | (.err _, b') => (.err .internal, b')
  | (.abort, b') => (.abort, b')
  | (.ub, b') => (.ub, b')

/-- sshbuf-getput-basic.c:284-285: is the first NUL before the last of the `n` bytes. -/
def nulEarly (v : Bytes) (n : Nat) : Bool :=
  match firstNul v with
  | some z => decide (z < n - 1)
  | none => false

/-- sshbuf-getput-basic.c:270-303 `sshbuf_get_cstring`: bytes copied (`len` of them). -/
def getCString (mem : Bool) : SB Bytes := do
  let (p, n) ← peekStringDirect
  let v ← memRead p n
  if n > 0 ∧ nulEarly v n = true then fail .invalidFormat
  else do
    orInternal getStringDirect
    if mem then memRead p n else fail .allocFail

/-- sshbuf-getput-basic.c:325-336 `sshbuf_put` -/
def put (v : Bytes) (mem : Bool) : SB Unit := do
  let p ← reserve v.length mem
  if v.length ≠ 0 then memWrite p v else pure ()

/-- sshbuf-getput-basic.c:358-389 `sshbuf_putfv`; `text` is what `vsnprintf` produces
(its successful return value is `text.length`). -/
def putfv (text : Bytes) (mem : Bool) : SB Unit :=
  if text.length = 0 then pure ()
  else do
    let p ← reserve (text.length + 1) mem
    memWrite p (text ++ [0])
    consumeEnd 1

/-- sshbuf-getput-basic.c:391-401 -/
def putU64 (v : UInt64) (mem : Bool) : SB Unit := do
  let p ← reserve 8 mem
  memWrite p (pokeU64 v)
/-- sshbuf-getput-basic.c:403-413 -/
def putU32 (v : UInt32) (mem : Bool) : SB Unit := do
  let p ← reserve 4 mem
  memWrite p (pokeU32 v)
/-- sshbuf-getput-basic.c:415-425 -/
def putU16 (v : UInt16) (mem : Bool) : SB Unit := do
  let p ← reserve 2 mem
  memWrite p (pokeU16 v)
/-- sshbuf-getput-basic.c:427-437 -/
def putU8 (v : UInt8) (mem : Bool) : SB Unit := do
  let p ← reserve 1 mem
  memWrite p [v]

/-- sshbuf-getput-basic.c:439-451 `check_woffset` -/
def checkWOffset (offset n : Nat) : SB Nat := do
  checkOffset true offset n
  match ← mutablePtr with
  | none => fail .readOnly
  | some p => pure (p + offset)

/-- sshbuf-getput-basic.c:453-511 `sshbuf_poke_u64` .. `sshbuf_poke`: all write `v` at `offset`. -/
def poke (offset : Nat) (v : Bytes) : SB Unit := do
  let p ← checkWOffset offset v.length
  memWrite p v

/-- sshbuf-getput-basic.c:513-529 `sshbuf_put_string` (also `sshbuf_put_cstring`, :531-535). -/
def putString (v : Bytes) (mem : Bool) : SB Unit :=
  if v.length > SIZE_MAX_BUF - 4 then fail .noSpace
  else do
    let p ← reserve (v.length + 4) mem
    memWrite p (pokeU32 (UInt32.ofNat v.length))
    if v.length ≠ 0 then memWrite (p + 4) v else pure ()

/-- The loop of sshbuf-getput-basic.c:581-583: skip leading zero bytes. -/
def skipZeros : Bytes → Bytes
  | [] => []
  | x :: xs => if x = 0 then skipZeros xs else x :: xs

/-- sshbuf-getput-basic.c:570-597 `sshbuf_put_bignum2_bytes` -/
def putBignum2Bytes (v : Bytes) (mem : Bool) : SB Unit :=
  if v.length > SIZE_MAX_BUF - 5 then fail .noSpace
  else do
    let s := skipZeros v
    let prepend := match s with | [] => 0 | x :: _ => if x &&& 0x80 ≠ 0 then 1 else 0
    let p ← reserve (s.length + 4 + prepend) mem
    memWrite p (pokeU32 (UInt32.ofNat (s.length + prepend)))
    if prepend = 1 then memWrite (p + 4) [0] else pure ()
    if s.length ≠ 0 then memWrite (p + 4 + prepend) s else pure ()

/-- sshbuf-getput-basic.c:599-633 `sshbuf_get_bignum2_bytes_direct` (bytes the result points to). -/
def getBignum2Bytes : SB Bytes := do
  let (p, n) ← peekStringDirect
  let v ← memRead p n
  let first := v.headD 0
  if n ≠ 0 ∧ first &&& 0x80 ≠ 0 then fail .bignumNegative
  else if n > MAX_BIGNUM + 1 ∨ (n = MAX_BIGNUM + 1 ∧ first ≠ 0) then fail .bignumTooLarge
  else do
    let r := skipZeros v
    orInternal (consume (szAdd n 4))
    pure r

/-- sshbuf-getput-basic.c:305-323 `sshbuf_get_stringb`, source side; the destination buffer's
`sshbuf_reserve` result is the argument `dst` applied to the length. -/
def getStringB (dst : Nat → Res Unit) : SB Bytes := do
  let _ ← peekStringDirect
  let n ← getU32
  match dst n.toNat with
  | .ok _ => get n.toNat
  | .err e => fail e
  | .abort => fun b => (.abort, b)
  | .ub => fun b => (.ub, b)

/-! ### sshbuf-misc.c -/

/-- sshbuf-misc.c:214-235 `sshbuf_dup_string` (`none`: NULL, e.g. an embedded NUL). -/
def dupString (mem : Bool) : SB (Option Bytes) := do
  let s ← ptr
  let l ← len
  let v ← memRead s l
  match firstNul v with
  | some z =>
    if z ≠ l - 1 then pure none
    else if mem then pure (some (v.take (l - 1)))
    else pure none
  | none => if mem then pure (some v) else pure none

/-- sshbuf-misc.c:237-250 `sshbuf_cmp` -/
def cmp (offset : Nat) (s : Bytes) : SB Unit := do
  let p ← ptr
  if offset > SIZE_MAX_BUF ∨ s.length > SIZE_MAX_BUF ∨ s.length = 0 then fail .invalidArg
  else do
    let l ← len
    if offset + s.length > l then fail .incomplete
    else do
      let v ← memRead (p + offset) s.length
      if v = s then pure () else fail .invalidFormat

/-- Position of the first occurrence of `s` in `v` (`memmem`). -/
def memmem (s : Bytes) : Bytes → Option Nat
  | [] => if s.isPrefixOf [] then some 0 else none
  | x :: xs => if s.isPrefixOf (x :: xs) then some 0 else (memmem s xs).map (· + 1)

/-- sshbuf-misc.c:252-272 `sshbuf_find` -/
def find (start : Nat) (s : Bytes) : SB Nat := do
  let p ← ptr
  if start > SIZE_MAX_BUF ∨ s.length > SIZE_MAX_BUF ∨ s.length = 0 then fail .invalidArg
  else do
    let l ← len
    if start > l ∨ start + s.length > l then fail .incomplete
    else do
      let v ← memRead (p + start) (l - start)
      match memmem s v with
      | none => fail .invalidFormat
      | some k => pure (start + k)

/-- Result of `read(2)`: an error, or the bytes delivered (end of file: none). -/
inductive ReadRes | error | data (v : Bytes)
  deriving DecidableEq, Repr

/-- Undefined behaviour. -/
def undefinedB : SB α := fun b => (.ub, b)

/-- sshbuf-misc.c:290-296: the surplus of a reservation is given back (unless empty). -/
def giveBack (k : Nat) : SB Unit := if k ≠ 0 then consumeEnd k else pure ()

/-- sshbuf-misc.c:274-308 `sshbuf_read`; `rd` is what the `read` system call does
(delivering more than `maxlen` bytes would be a kernel bug: outcome `ub`). -/
def readFd (rd : ReadRes) (maxlen : Nat) (mem : Bool) : SB Nat := do
  let d ← reserve maxlen mem
  match rd with
  | .error => do
    giveBack maxlen
    fail .systemError
  | .data v =>
    if v.length > maxlen then undefinedB else do
    memWrite d v
    giveBack (maxlen - v.length)
    if v.length = 0 then fail .systemError else pure v.length

end Verif.SshBuf
