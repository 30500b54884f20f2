/-
Model of escape characters in the client (clientloop.c, `process_escapes`).
-/
import Verif.Base

namespace Verif.Loop
open Verif

/-- What a command after the escape character does. -/
inductive Cmd where
  /-- end the connection; end this session, if it is one of several -/
  | quit
  | close
  | suspend
  | brk
  | rekey
  /-- less, or more, to be logged -/
  | quieter
  | louder
  | background
  | help
  | list
  | cmdline
deriving DecidableEq

inductive EAct where
  /-- to the server -/
  | put (b : UInt8)
  | cmd (c : Cmd)
  /-- a command that is not to be had in this session: a note for the user, and nothing else -/
  | refused (ch : UInt8)
deriving DecidableEq

/-- A session. -/
structure Esc where
  /-- `efc->escape_char` -/
  char : UInt8
  /-- `c->ctl_chan != -1`: the session belongs to another client, which shares this connection -/
  shared : Bool
  /-- EnableEscapeCommandline -/
  cmdline : Bool
  /-- `log_is_on_stderr()` -/
  stderr : Bool
  /-- `ssh->compat & SSH_BUG_NOREKEY` -/
  noRekey : Bool
  /-- `fork` succeeds, and this is the child -/
  fork : Bool

/-- What to do after a character: go on with the next one, or return from the function. -/
inductive Next where
  | more
  | done
deriving DecidableEq

/-- clientloop.c:1195-1341: the character after the escape character; `none` is the default case.  (Messages for the user are left
out.  After a failed `fork` the client goes on; the escape has already stopped its listeners.) -/
def command (E : Esc) (ch : UInt8) : Option (List EAct × Next) :=
  if ch = 46 then some ([.cmd (if E.shared then .close else .quit)], .done)
  else if ch = 26 then some ([if E.shared then .refused ch else .cmd .suspend], .more)
  else if ch = 66 then some ([.cmd .brk], .more)
  else if ch = 82 then some (if E.noRekey then [] else [.cmd .rekey], .more)
  else if ch = 86 ∨ ch = 118 then
    some (if E.shared then [.refused ch] else if E.stderr = false then [] else [.cmd (if ch = 86 then .quieter else .louder)], .more)
  else if ch = 38 then
    if E.shared then some ([.refused ch], .more)
    else if E.fork then some ([.cmd .background, .put 4], .done)
    else some ([.cmd .background], .more)
  else if ch = 63 then some ([.cmd .help], .more)
  else if ch = 35 then some ([.cmd .list], .more)
  else if ch = 67 then
    some (if E.shared then [.refused ch] else if E.cmdline = false then [.refused ch] else [.cmd .cmdline], .more)
  else none

/-- clientloop.c:1186-1376: one character, given `last_was_cr` and `escape_pending`. -/
def escStep (E : Esc) (cr pending : Bool) (ch : UInt8) : List EAct × Bool × Bool × Next :=
  if pending then
    match command E ch with
    | some (l, n) => (l, cr, false, n)
    | none => ((if ch ≠ E.char then [.put E.char] else []) ++ [.put ch], ch = 13 ∨ ch = 10, false, .more)
  else if cr ∧ ch = E.char then ([], cr, true, .more)
  else ([.put ch], ch = 13 ∨ ch = 10, false, .more)

/-- The loop. -/
def escapes (E : Esc) : Bool → Bool → Bytes → List EAct × Bool × Bool × Next
  | cr, pending, [] => ([], cr, pending, .more)
  | cr, pending, ch :: l =>
    match escStep E cr pending ch with
    | (a, cr, pending, .done) => (a, cr, pending, .done)
    | (a, cr, pending, .more) => (a ++ (escapes E cr pending l).1, (escapes E cr pending l).2)

/-- Two sessions over one connection: `escape_pending` is of the session, `last_was_cr` is not (clientloop.c:157). -/
structure Two where
  cr : Bool
  a : Bool
  b : Bool

/-- Input for the one or the other. -/
def two (E : Esc) (s : Two) : List (Bool × Bytes) → List (Bool × EAct)
  | [] => []
  | (false, l) :: m =>
    (escapes E s.cr s.a l).1.map (Prod.mk false) ++ two E { s with cr := (escapes E s.cr s.a l).2.1, a := (escapes E s.cr s.a l).2.2.1 } m
  | (true, l) :: m =>
    (escapes E s.cr s.b l).1.map (Prod.mk true) ++ two E { s with cr := (escapes E s.cr s.b l).2.1, b := (escapes E s.cr s.b l).2.2.1 } m

end Verif.Loop
