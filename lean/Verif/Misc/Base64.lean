/-
Base64 (openbsd-compat/base64.c) and its users in sshbuf-misc.c.
-/
import Verif.Num

namespace Verif.Misc.Base64
open Verif Num

/-- openbsd-compat/base64.c:63-64 `Base64` -/
def alphabet : Bytes := b!"ABCDEFGHIJKLMNOPQRSTUVWXYZabcdefghijklmnopqrstuvwxyz0123456789+/"

/-- `Base64[i]` -/
def letter (i : Nat) : UInt8 := alphabet.getD i 0

/-- `strchr(Base64, ch) - Base64` for a character that is not NUL. -/
def value (c : UInt8) : Option Nat := alphabet.findIdx? (· == c)

/-- openbsd-compat/base64.c:146-149: the four 6-bit values of three bytes. -/
def out0 (a : UInt8) : Nat := a.toNat >>> 2
def out1 (a b : UInt8) : Nat := ((a.toNat &&& 0x03) <<< 4) + (b.toNat >>> 4)
def out2 (b c : UInt8) : Nat := ((b.toNat &&& 0x0f) <<< 2) + (c.toNat >>> 6)
def out3 (c : UInt8) : Nat := c.toNat &&& 0x3f

/-- openbsd-compat/base64.c:133-180 `b64_ntop`, what is written. -/
def encode : Bytes → Bytes
  | a :: b :: c :: r => letter (out0 a) :: letter (out1 a b) :: letter (out2 b c) :: letter (out3 c) :: encode r
  | [a, b] => [letter (out0 a), letter (out1 a b), letter (out2 b 0), 61]
  | [a] => [letter (out0 a), letter (out1 a 0), 61, 61]
  | [] => []

/-- openbsd-compat/base64.c:133-180 `b64_ntop` with the size of the target: -1 (`none`) unless the text and a
NUL fit. -/
def ntop (src : Bytes) (targsize : Nat) : Option Bytes :=
  if (encode src).length ≥ targsize then none else some (encode src)

/-- The state of `b64_pton`: bytes finished, the byte being put together (`target[tarindex]`) and `state`. -/
structure St where
  done : Bytes := []
  cur : Nat := 0
  state : Nat := 0
  deriving Repr, DecidableEq

/-- openbsd-compat/base64.c:216-256: one digit; `none` is the return of -1. -/
def digit (targsize : Nat) (st : St) (x : Nat) : Option St :=
  match st.state with
  | 0 => if st.done.length ≥ targsize then none else some { st with cur := x <<< 2, state := 1 }
  | 1 => if st.done.length + 1 ≥ targsize then none
         else some { done := st.done ++ [UInt8.ofNat (st.cur ||| (x >>> 4))], cur := (x &&& 0x0f) <<< 4, state := 2 }
  | 2 => if st.done.length + 1 ≥ targsize then none
         else some { done := st.done ++ [UInt8.ofNat (st.cur ||| (x >>> 2))], cur := (x &&& 0x03) <<< 6, state := 3 }
  | _ => if st.done.length ≥ targsize then none
         else some { done := st.done ++ [UInt8.ofNat (st.cur ||| x)], cur := 0, state := 0 }

/-- openbsd-compat/base64.c:285-300: after the last `=`. -/
def finish (st : St) (rest : Bytes) : Option Bytes :=
  if rest.any (fun c => !isSpace c) then none
  else if st.cur ≠ 0 then none
  else some st.done

/-- openbsd-compat/base64.c:264-301: after the first `=`. -/
def padded (st : St) (rest : Bytes) : Option Bytes :=
  match st.state with
  | 0 => none
  | 1 => none
  | 2 => match rest.dropWhile isSpace with
    | [] => none
    | c :: r => if c ≠ 61 then none else finish st r
  | _ => finish st rest

/-- openbsd-compat/base64.c:196-311 `b64_pton` with a target, on a text without NUL; `none` is -1. -/
def pton (targsize : Nat) : St → Bytes → Option Bytes
  | st, [] => if st.state ≠ 0 then none else some st.done
  | st, c :: r =>
    if isSpace c then pton targsize st r
    else if c = 61 then padded st r
    else match value c with
      | none => none
      | some x => match digit targsize st x with
        | none => none
        | some st' => pton targsize st' r

/-- `b64_pton(src, target, targsize)` -/
def decode (s : Bytes) (targsize : Nat) : Option Bytes := pton targsize {} s

/-- sshbuf-misc.c:148-169 `sshbuf_b64tod`: what is appended to the buffer; `none` is `SSH_ERR_INVALID_FORMAT`. -/
def b64tod (s : Bytes) : Option Bytes := if s.length = 0 then some [] else decode s s.length

/-- sshbuf-misc.c:111-119: putting newlines after every 70 characters and at the end; `i` counts. -/
def wrapLoop : Nat → Bytes → Bytes
  | i, [] => if i = 0 then [] else if (i - 1) % 70 ≠ 69 then [10] else []
  | i, c :: r => if i % 70 = 69 then c :: 10 :: wrapLoop (i + 1) r else c :: wrapLoop (i + 1) r

/-- sshbuf-misc.c:93-129 `sshbuf_dtob64`: what is appended. -/
def dtob64 (d : Bytes) (wrap : Bool) : Option Bytes :=
  if d.length = 0 then some []
  else match ntop d ((d.length + 2) / 3 * 4 + 1) with
    | none => none
    | some s => some (if wrap then wrapLoop 0 s else s)

end Verif.Misc.Base64
