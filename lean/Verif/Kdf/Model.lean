/-
How a key is derived from a passphrase: openbsd-compat/bcrypt_pbkdf.c.

SHA-512 and the hash made of Blowfish are parameters. Simplified: memory for the salt is always there; where the buffer is filled with random bytes after
a refusal is left out.
-/
import Verif.Base

namespace Verif.Kdf
open Verif

/-- crypto_hash_sha512, and openbsd-compat/bcrypt_pbkdf.c:72-111 `bcrypt_hash` of password and salt -/
structure Hashes where
  sha512 : Bytes → Bytes
  bcrypt : Bytes → Bytes → Bytes

/-- openbsd-compat/bcrypt_pbkdf.c:145-148 the number of the block -/
def be32 (count : Nat) : Bytes := [UInt8.ofNat (count >>> 24), UInt8.ofNat (count >>> 16), UInt8.ofNat (count >>> 8), UInt8.ofNat count]

/-- openbsd-compat/bcrypt_pbkdf.c:156-162 the rounds after the first -/
def mix (H : Hashes) (pw : Bytes) : Nat → Bytes → Bytes → Bytes
  | 0, _, out => out
  | n + 1, tmp, out => mix H pw n (H.bcrypt pw (H.sha512 tmp)) (out.zipWith (· ^^^ ·) (H.bcrypt pw (H.sha512 tmp)))

/-- openbsd-compat/bcrypt_pbkdf.c:150-154 the first round -/
def first (H : Hashes) (pw salt : Bytes) (count : Nat) : Bytes := H.bcrypt pw (H.sha512 (salt ++ be32 count))

/-- openbsd-compat/bcrypt_pbkdf.c:145-162 a block -/
def block (H : Hashes) (pw salt : Bytes) (rounds count : Nat) : Bytes := mix H pw (rounds - 1) (first H pw salt count) (first H pw salt count)

/-- openbsd-compat/bcrypt_pbkdf.c:168-173 the loop that puts a block into the key; `k` is count - 1. The key and `i` -/
def column (stride n k : Nat) (out : Bytes) : Nat → Nat → Bytes → Bytes × Nat
  | 0, i, key => (key, i)
  | f + 1, i, key => if i * stride + k ≥ n then (key, i) else column stride n k out f (i + 1) (key.set (i * stride + k) (out.getD i 0))

/-- openbsd-compat/bcrypt_pbkdf.c:144-175 the loop; none if it does not end in so many steps -/
def columns (blk : Nat → Bytes) (stride n : Nat) : Nat → Nat → Nat → Nat → Bytes → Option Bytes
  | 0, _, _, _, _ => none
  | f + 1, count, keylen, amt, key =>
    if keylen = 0 then some key
    else columns blk stride n f (count + 1) (keylen - (column stride n (count - 1) (blk count) (min amt keylen) 0 key).2) (min amt keylen)
      (column stride n (count - 1) (blk count) (min amt keylen) 0 key).1

inductive Res where
  | bad
  | endless
  | key (k : Bytes)
  deriving DecidableEq

/-- openbsd-compat/bcrypt_pbkdf.c:135 `stride` -/
def strideOf (n : Nat) : Nat := (n + 32 - 1) / 32

/-- openbsd-compat/bcrypt_pbkdf.c:113-187 `bcrypt_pbkdf`; `key` is what is in the buffer before -/
def pbkdf (H : Hashes) (pass salt key : Bytes) (rounds : Nat) : Res :=
  if rounds < 1 then .bad
  else if pass.length = 0 ∨ salt.length = 0 ∨ key.length = 0 ∨ key.length > 32 * 32 ∨ salt.length > 1048576 then .bad
  else match columns (block H (H.sha512 pass) salt rounds) (strideOf key.length) key.length (key.length + 1) 1 key.length
      ((key.length + strideOf key.length - 1) / strideOf key.length) key with
    | some k => .key k
    | none => .endless

end Verif.Kdf
