/-
What is claimed about the times at which output is sent.
-/
import Verif.Pace.Model

namespace Verif.Pace
open Verif Wire

/-- There is a terminal, keys are not being exchanged, and what is to be sent are a few keys at most. -/
def Typing (e : Env) : Prop := e.tty = true ∧ e.rekeying = false ∧ (e.out = 0 ∨ (e.interactive = true ∧ e.out < 256))

/-- There is no reason to end hiding. -/
def Goes (s : St) (e : Env) : Prop := Typing e ∧ ((e.enqueued = true ∧ e.out ≠ 0) ∨ e.now < s.until_)

/-- There is none in all calls. -/
def AllGo (I : Nat) (s : St) (l : List Env) : Prop := ∀ pre e post, l = pre ++ e :: post → Goes (run I s pre) e

def NoX11 (e : Env) : Prop := ∀ c ∈ e.chans, c.x11 = false

/-- An X11 connection has been used in this second or the one before. -/
def X11Used (e : Env) : Prop := ∃ c ∈ e.chans, c.x11 = true ∧ c.lastused ≠ 0 ∧ e.now / 1000000000 ≤ c.lastused + 1

/-- RFC 4254, 5.2: the data of one key -/
def keyPayload (chan : Nat) (key : UInt8) : Bytes := 94 :: (be 4 chan ++ str [key])

/-- Output goes out now: it is let through, and there is some. -/
def Sends (r : Res) (e : Env) : Prop := r.ready = true ∧ (e.out ≠ 0 ∨ r.sent = true)

end Verif.Pace
