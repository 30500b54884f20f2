/-
`atomicio` and `atomiciov`: transferring a whole buffer through a descriptor that may move any part of it
per call (atomicio.c).

The buffer is a list of locations (their contents for writing, their addresses for reading, it does not
matter which: the loop never looks at them).  The world is a script: one entry per call of `f`, saying what
the call returned and what the progress callback then answered.  The log collects the locations handed to
the descriptor, in order.
-/
import Verif.Base

namespace Verif.Misc.Io
open Verif

/-- What one call of `read`/`write` (`readv`/`writev`) returns.  `moved 0` is end of file. -/
inductive Res where
  | moved (k : Nat)
  /-- -1 with `EINTR` -/
  | intr
  /-- -1 with `EAGAIN` or `EWOULDBLOCK` -/
  | again
  /-- -1 with any other error -/
  | err
  deriving Repr, DecidableEq

/-- One entry of the script: the result of the call, and whether the callback (if there is one and it is
called) answers -1. -/
structure Ev where
  res : Res
  stop : Bool := false
  deriving Repr, DecidableEq

/-- How the function came to return: fell out of the loop, `EPIPE`, the callback's `EINTR`, another error,
`EFAULT`. -/
inductive Why where
  | finished | eof | stopped | failed | fault
  deriving Repr, DecidableEq

/-- The function has returned (its value and why), or is still in the loop when the script is used up. -/
inductive Out (α : Type) where
  | ret (n : Nat) (why : Why) (log : List α)
  | going (log : List α)
  deriving Repr, DecidableEq

variable {α : Type}

/-- The locations handed over so far. -/
def Out.log : Out α → List α
  | .ret _ _ l => l
  | .going l => l

/-- atomicio.c:50-93 `atomicio6` from position `pos` (`log` is what has been handed over before).  A call
that moves `k` locations moves the first `k` of the region it was given (the system call's contract).  The
wait in `poll` for `EAGAIN` is not an event of its own. -/
def atomicio6 (buf : List α) : Nat → List α → List Ev → Out α
  | pos, log, [] => if buf.length > pos then .going log else .ret pos .finished log
  | pos, log, e :: es =>
    if buf.length > pos then
      match e.res with
      | .intr => if e.stop then .ret pos .stopped log else atomicio6 buf pos log es
      | .again => atomicio6 buf pos log es
      | .err => .ret 0 .failed log
      | .moved k =>
        if k = 0 then .ret pos .eof log
        else if e.stop then .ret (pos + k) .stopped (log ++ (buf.drop pos).take k)
        else atomicio6 buf (pos + k) (log ++ (buf.drop pos).take k) es
    else .ret pos .finished log

/-- atomicio.c:95-99 `atomicio`: no callback. -/
def atomicio (buf : List α) (es : List Ev) : Out α :=
  atomicio6 buf 0 [] (es.map fun e => { e with stop := false })

/-- atomicio.c:149-154: skip the segments completed by `rem` more locations. -/
def skip : List (List α) → Nat → List (List α) × Nat
  | [], rem => ([], rem)
  | s :: ss, rem => if rem ≥ s.length then skip ss (rem - s.length) else (s :: ss, rem)

/-- atomicio.c:104-172 `atomiciov6` (after the check of `iovcnt`); `iov` is what remains of the vector. -/
def iovLoop : List (List α) → Nat → List α → List Ev → Out α
  | [], pos, log, _ => .ret pos .finished log
  | s :: ss, pos, log, [] => if s.length > 0 then .going log else .ret pos .finished log
  | s :: ss, pos, log, e :: es =>
    if s.length > 0 then
      match e.res with
      | .intr => if e.stop then .ret pos .stopped log else iovLoop (s :: ss) pos log es
      | .again => iovLoop (s :: ss) pos log es
      | .err => .ret 0 .failed log
      | .moved k =>
        if k = 0 then .ret pos .eof log
        else match skip (s :: ss) k with
          | ([], rem) =>
            if rem > 0 then .ret 0 .fault (log ++ (s :: ss).flatten.take k)
            else if e.stop then .ret (pos + k) .stopped (log ++ (s :: ss).flatten.take k)
            else iovLoop [] (pos + k) (log ++ (s :: ss).flatten.take k) es
          | (t :: ts, rem) =>
            if rem > 0 ∧ rem > t.length then .ret 0 .fault (log ++ (s :: ss).flatten.take k)
            else if e.stop then .ret (pos + k) .stopped (log ++ (s :: ss).flatten.take k)
            else iovLoop (t.drop rem :: ts) (pos + k) (log ++ (s :: ss).flatten.take k) es
    else .ret pos .finished log

/-- `IOV_MAX` -/
scoped notation "iovMax" => (1024 : Nat)

/-- atomicio.c:104-172 `atomiciov6`; a count out of range is `EINVAL` (reported here as `failed`). -/
def atomiciov6 (iov : List (List α)) (es : List Ev) : Out α :=
  if iov.length > iovMax then .ret 0 .failed [] else iovLoop iov 0 [] es

end Verif.Misc.Io
