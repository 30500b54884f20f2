/-
Specification of the buffer API: a bounded byte queue.  Independent of offsets, allocation and packing.
-/
import Verif.SshBuf.Model
import Verif.Wire

namespace Verif.SshBuf
open Verif Wire

/-- Abstract buffer: its bytes, its maximum size, whether it may be written. -/
structure Queue where
  data : Bytes
  max : Nat
  writable : Bool

/-- A call on a buffer. -/
inductive Op
  | put (v : Bytes) | putf (v : Bytes) | putU8 (v : UInt8) | putU16 (v : UInt16) | putU32 (v : UInt32)
  | putU64 (v : UInt64) | putString (v : Bytes) | putBignum (v : Bytes) | reserve (n : Nat)
  | consume (n : Nat) | consumeEnd (n : Nat) | reset | setMax (n : Nat)
  | get (n : Nat) | getU8 | getU16 | getU32 | getU64 | getString | getCString | getBignum
  | peekU8 (o : Nat) | peekU16 (o : Nat) | peekU32 (o : Nat) | peekU64 (o : Nat)
  | poke (o : Nat) (v : Bytes) | len | avail | dupString | cmp (o : Nat) (s : Bytes)
  | find (o : Nat) (s : Bytes) | readFd (r : ReadRes) (n : Nat)

/-- Result values. -/
inductive Val | unit | num (n : Nat) | bytes (v : Bytes) | null
  deriving DecidableEq

/-- Arguments of type `size_t` are below `2^64`, objects passed by pointer and length too; `read(2)`
never delivers more than requested. -/
def Op.valid : Op → Prop
  | .put v | .putString v | .putBignum v | .putf v => v.length < sizeMod
  | .reserve n | .consume n | .consumeEnd n | .setMax n | .get n => n < sizeMod
  | .peekU8 o | .peekU16 o | .peekU32 o | .peekU64 o => o < sizeMod
  | .poke o v | .cmp o v | .find o v => o < sizeMod ∧ v.length < sizeMod
  | .readFd r n => n < sizeMod ∧ (match r with | .error => True | .data v => v.length ≤ n)
  | _ => True

/-- The outcome of appending bytes when memory is available. -/
def Queue.append (q : Queue) (v : Bytes) : Res Val × Queue :=
  if q.writable = false then (.err .readOnly, q)
  else if q.data.length + v.length > q.max then (.err .noSpace, q)
  else (.ok .unit, { q with data := q.data ++ v })

/-- Reading a fixed number of bytes. -/
def Queue.take (q : Queue) (n : Nat) (f : Bytes → Val) : Res Val × Queue :=
  if n ≤ q.data.length then (.ok (f (q.data.take n)), { q with data := q.data.drop n })
  else (.err .incomplete, q)

/-- Looking at a fixed number of bytes. -/
def Queue.peek (q : Queue) (o n : Nat) (f : Bytes → Val) : Res Val :=
  if o + n ≥ SIZE_MAX then .err .invalidArg
  else if o + n ≤ q.data.length then .ok (f ((q.data.drop o).take n))
  else .err .incomplete

/-- The complete length-prefixed string at the front of the queue, if any. -/
def Queue.front (q : Queue) : Except Err Bytes :=
  if q.data.length < 4 then .error .incomplete
  else if ofBE (q.data.take 4) > maxString then .error .stringTooLarge
  else if q.data.length - 4 < ofBE (q.data.take 4) then .error .incomplete
  else .ok ((q.data.drop 4).take (ofBE (q.data.take 4)))

/-- Remove the string `v` (and its length) from the front. -/
def Queue.dropStr (q : Queue) (v : Bytes) : Queue := { q with data := q.data.drop (4 + v.length) }

/-- A NUL byte before the last position. -/
def nulInside (v : Bytes) : Prop := (0 : UInt8) ∈ v.dropLast

instance (v : Bytes) : Decidable (nulInside v) := by unfold nulInside; infer_instance

/-- Shortest big-endian encoding of the magnitude `v` with a clear sign bit (RFC 4251 `mpint`). -/
def mpint (v : Bytes) : Bytes :=
  let s := v.dropWhile (· = 0)
  if s.length > 0 ∧ (s.headD 0) ≥ 0x80 then 0 :: s else s

/-- The call failed because memory could not be obtained, leaving `q1`. -/
def NoMem (mem : Bool) (r : Res Val) (q' q1 : Queue) : Prop := mem = false ∧ (r, q') = (.err .allocFail, q1)

/-- `SpecStep mem q op r q'`: call `op` on `q` may return `r` and leave `q'`.  `mem = false` says that an
allocation made during the call (if any) fails. -/
def SpecStep (mem : Bool) (q : Queue) : Op → Res Val → Queue → Prop
  | .put v, r, q' => (r, q') = q.append v ∨ NoMem mem r q' q
  | .putf v, r, q' =>
      if v = [] then (r, q') = (.ok .unit, q)
      else -- one spare byte for the terminating NUL is needed temporarily
        (if q.writable = false then (r, q') = (.err .readOnly, q)
         else if q.data.length + v.length + 1 > q.max then (r, q') = (.err .noSpace, q)
         else (r, q') = (.ok .unit, { q with data := q.data ++ v }) ∨ NoMem mem r q' q)
  | .putU8 v, r, q' => (r, q') = q.append [v] ∨ NoMem mem r q' q
  | .putU16 v, r, q' => (r, q') = q.append (be 2 v.toNat) ∨ NoMem mem r q' q
  | .putU32 v, r, q' => (r, q') = q.append (be 4 v.toNat) ∨ NoMem mem r q' q
  | .putU64 v, r, q' => (r, q') = q.append (be 8 v.toNat) ∨ NoMem mem r q' q
  | .putString v, r, q' =>
      if v.length > maxString then (r, q') = (.err .noSpace, q)
      else (r, q') = q.append (str v) ∨ NoMem mem r q' q
  | .putBignum v, r, q' =>
      if v.length > maxString - 1 then (r, q') = (.err .noSpace, q)
      else (r, q') = q.append (str (mpint v)) ∨ NoMem mem r q' q
  | .reserve n, r, q' =>
      (∃ v : Bytes, v.length = n ∧ (r, q') = q.append v) ∨ NoMem mem r q' q
  | .consume n, r, q' => (r, q') = q.take n (fun _ => .unit)
  | .consumeEnd n, r, q' =>
      if n ≤ q.data.length then (r, q') = (.ok .unit, { q with data := q.data.take (q.data.length - n) })
      else (r, q') = (.err .incomplete, q)
  | .reset, r, q' => (r, q') = (.ok .unit, { q with data := [] })
  | .setMax n, r, q' =>
      ((r, q') = (.ok .unit, { q with max := n }) ∧ q.data.length ≤ n ∧ (n = q.max ∨ q.writable)) ∨
      ((r, q') = (.err .readOnly, q) ∧ q.writable = false ∧ n ≠ q.max) ∨
      ((r, q') = (.err .noSpace, q) ∧ (n > SIZE_MAX_BUF ∨ n < q.max)) ∨
      NoMem mem r q' q
  | .get n, r, q' => (r, q') = q.take n .bytes
  | .getU8, r, q' => (r, q') = q.take 1 (fun v => .num (ofBE v))
  | .getU16, r, q' => (r, q') = q.take 2 (fun v => .num (ofBE v))
  | .getU32, r, q' => (r, q') = q.take 4 (fun v => .num (ofBE v))
  | .getU64, r, q' => (r, q') = q.take 8 (fun v => .num (ofBE v))
  | .getString, r, q' =>
      match q.front with
      | .error e => (r, q') = (.err e, q)
      | .ok v => (r, q') = (.ok (.bytes v), q.dropStr v) ∨ NoMem mem r q' (q.dropStr v)
  | .getCString, r, q' =>
      match q.front with
      | .error e => (r, q') = (.err e, q)
      | .ok v => if nulInside v then (r, q') = (.err .invalidFormat, q)
        else (r, q') = (.ok (.bytes v), q.dropStr v) ∨ NoMem mem r q' (q.dropStr v)
  | .getBignum, r, q' =>
      match q.front with
      | .error e => (r, q') = (.err e, q)
      | .ok v =>
        if v.headD 0 ≥ 0x80 then (r, q') = (.err .bignumNegative, q)
        else if v.length > 2049 ∨ (v.length = 2049 ∧ v.headD 0 ≠ 0) then (r, q') = (.err .bignumTooLarge, q)
        else (r, q') = (.ok (.bytes (v.dropWhile (· = 0))), q.dropStr v)
  | .peekU8 o, r, q' => (r, q') = (q.peek o 1 (fun v => .num (ofBE v)), q)
  | .peekU16 o, r, q' => (r, q') = (q.peek o 2 (fun v => .num (ofBE v)), q)
  | .peekU32 o, r, q' => (r, q') = (q.peek o 4 (fun v => .num (ofBE v)), q)
  | .peekU64 o, r, q' => (r, q') = (q.peek o 8 (fun v => .num (ofBE v)), q)
  | .poke o v, r, q' =>
      if o + v.length ≥ SIZE_MAX then (r, q') = (.err .invalidArg, q)
      else if o + v.length > q.data.length then (r, q') = (.err .noSpace, q)
      else if q.writable = false then (r, q') = (.err .readOnly, q)
      else (r, q') = (.ok .unit, { q with data := q.data.take o ++ v ++ q.data.drop (o + v.length) })
  | .len, r, q' => (r, q') = (.ok (.num q.data.length), q)
  | .avail, r, q' => (r, q') = (.ok (.num (if q.writable then q.max - q.data.length else 0)), q)
  | .dupString, r, q' =>
      q' = q ∧
      ((nulInside q.data ∧ r = .ok .null) ∨
       (¬ nulInside q.data ∧
         ((mem = false ∧ r = .ok .null) ∨
          r = .ok (.bytes (if q.data.getLast? = some 0 then q.data.dropLast else q.data)))))
  | .cmp o s, r, q' =>
      q' = q ∧
      (if o > SIZE_MAX_BUF ∨ s.length > SIZE_MAX_BUF ∨ s = [] then r = .err .invalidArg
       else if o + s.length > q.data.length then r = .err .incomplete
       else if (q.data.drop o).take s.length = s then r = .ok .unit else r = .err .invalidFormat)
  | .find o s, r, q' =>
      q' = q ∧
      (if o > SIZE_MAX_BUF ∨ s.length > SIZE_MAX_BUF ∨ s = [] then r = .err .invalidArg
       else if o + s.length > q.data.length then r = .err .incomplete
       else -- the first position at or after `o` where `s` occurs
         (∃ k, r = .ok (.num k) ∧ o ≤ k ∧ s <+: q.data.drop k ∧ ∀ j, o ≤ j → j < k → ¬ s <+: q.data.drop j) ∨
         (r = .err .invalidFormat ∧ ∀ j, o ≤ j → ¬ s <+: q.data.drop j))
  | .readFd rd n, r, q' =>
      if q.writable = false then (r, q') = (.err .readOnly, q)
      else if q.data.length + n > q.max then (r, q') = (.err .noSpace, q)
      else NoMem mem r q' q ∨
        (match rd with
         | .error => (r, q') = (.err .systemError, q)
         | .data v => if v = [] then (r, q') = (.err .systemError, q)
           else (r, q') = (.ok (.num v.length), { q with data := q.data ++ v }))

/-- `SpecRun q calls results q'`: the specification allows this history (each call is paired with
whether memory is available during it). -/
inductive SpecRun : Queue → List (Op × Bool) → List (Res Val) → Queue → Prop
  | nil (q) : SpecRun q [] [] q
  | cons {q op mem r q' ops rs q''} : SpecStep mem q op r q' → SpecRun q' ops rs q'' →
      SpecRun q ((op, mem) :: ops) (r :: rs) q''

end Verif.SshBuf
