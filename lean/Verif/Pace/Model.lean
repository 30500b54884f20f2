/-
Hiding when keys are pressed (ObscureKeystrokeTiming), clientloop.c.

Simplified: a time is a number of nanoseconds. The state of everything else - channels, the output buffer, the exchange of keys - comes with
each call, and so do random numbers: a number stands for what `arc4random` gives when it is accepted. `fatal` when a packet cannot be
made for lack of memory is left out.
-/
import Verif.Wire

namespace Verif.Pace
open Verif Wire

/-- clientloop.c:122 SSH_KEYSTROKE_TIMING_FUZZ, in percent -/
def fuzzPercent : Nat := 10

/-- readconf.h:232-233 SSH_KEYSTROKE_CHAFF_MIN_MS, SSH_KEYSTROKE_CHAFF_RNG_MS -/
def chaffMin : Nat := 1024
def chaffRange : Nat := 2048

/-- nanoseconds in a millisecond -/
def msec : Nat := 1000000

/-- A channel, for channels.c:5352-5358: whether it is an X11 connection, and when it was used last (in seconds; 0 for never) -/
structure Chan where
  x11 : Bool
  lastused : Nat
  deriving DecidableEq

/-- What a call finds. -/
structure Env where
  /-- `monotime_ts` -/
  now : Nat
  /-- `channel_tty_open` and not `quit_pending` -/
  tty : Bool
  /-- `ssh_packet_is_rekeying` -/
  rekeying : Bool
  /-- `interactive_mode`, packet.c:2205 -/
  interactive : Bool
  /-- length of the output buffer -/
  out : Nat
  /-- `channel_did_enqueue` -/
  enqueued : Bool
  /-- KEX_HAS_PING -/
  ping : Bool
  chans : List Chan
  /-- random numbers: for the interval, for the rate, for the time of chaff -/
  jitter : Nat
  rate : Nat
  chaff : Nat

/-- clientloop.c:579-583 and 540: the static variables -/
structure St where
  active : Bool
  next : Nat
  until_ : Nat
  rate : Nat
  deriving DecidableEq

/-- What a call does: whether output is to be polled for, whether chaff has been sent, and until when to wait -/
structure Res where
  st : St
  ready : Bool
  sent : Bool
  deadline : Option Nat
  deriving DecidableEq

/-- packet.c:2203-2207 `ssh_packet_interactive_data_to_write` -/
def few (e : Env) : Bool := e.interactive && e.out < 256

/-- packet.c:2180-2184 `ssh_packet_have_data_to_write` -/
def some? (e : Env) : Bool := e.out ≠ 0

/-- openbsd-compat/arc4random_uniform.c:39-63 -/
def uniform (bound r : Nat) : Nat := if bound < 2 then 0 else r % bound

/-- clientloop.c:543-547 -/
def fuzz (ms : Nat) : Nat := min (ms * msec * fuzzPercent / 100) 2147483647

/-- clientloop.c:534-569 `set_next_interval`, given the fuzz of the rate; a tenth is never more than the whole (548-552) -/
def setNext (now ms rate jitter : Nat) : Nat := now + (ms * msec - fuzz ms + uniform (fuzz ms) jitter + rate)

/-- channels.c:5352-5358 the last channel that has been used counts -/
def lastUsed : List Chan → Nat → Nat
  | [], t => t
  | c :: l, t => lastUsed l (if c.lastused = 0 || !c.x11 then t else c.lastused)

/-- channels.c:5346-5360 `x11_channel_used_recently` -/
def x11Recently (e : Env) : Bool := lastUsed e.chans 0 ≠ 0 && e.now / 1000000000 > lastUsed e.chans 0 + 1

/-- clientloop.c:514-532 `send_chaff`: the payload -/
def chaffPayload : Bytes := 192 :: str b!"PING!"

inductive What where
  | stop
  | keystroke
  | chaff
  | nothing
  deriving DecidableEq

/-- clientloop.c:594-621 -/
def what (s : St) (e : Env) : What :=
  if !e.tty then .stop
  else if e.rekeying then .stop
  else if !few e && some? e then .stop
  else if s.active && e.enqueued && some? e then .keystroke
  else if s.active then
    if e.now ≥ s.until_ then .stop
    else if e.now ≥ s.next && !some? e then .chaff
    else .nothing
  else .nothing

/-- clientloop.c:638-639 -/
def starts (s : St) (e : Env) : Bool := !s.active && few e && e.enqueued && some? e

/-- clientloop.c:652-660 -/
def chaffUntil (s : St) (e : Env) (key : Bool) : Nat := if key then e.now + (chaffMin + uniform chaffRange e.chaff) * msec else s.until_

/-- clientloop.c:672-675 how many intervals have passed, and one -/
def passed (I : Nat) (s : St) (e : Env) : Nat := (e.now - s.next) / (I * msec) + 1

/-- clientloop.c:631-681 of `obfuscate_keystroke_timing`, unless it is to stop; an unsigned int is passed (535) -/
def go (I : Nat) (s : St) (e : Env) (w : What) : Res :=
  if starts s e then
    ⟨⟨true, setNext e.now I (uniform (fuzz I) e.rate) e.jitter, chaffUntil s e true, uniform (fuzz I) e.rate⟩, true, false,
      some (setNext e.now I (uniform (fuzz I) e.rate) e.jitter)⟩
  else if !s.active then ⟨s, true, false, none⟩
  else if e.now < s.next then
    ⟨{ s with until_ := chaffUntil s e (w = .keystroke) }, x11Recently e, w = .chaff && e.ping, some s.next⟩
  else
    ⟨{ s with until_ := chaffUntil s e (w = .keystroke), next := setNext e.now (I * passed I s e % 2 ^ 32) s.rate e.jitter }, true,
      w = .chaff && e.ping, some s.next⟩

/-- clientloop.c:571-683 `obfuscate_keystroke_timing` -/
def call (I : Nat) (s : St) (e : Env) : Res :=
  if I = 0 then ⟨s, true, false, none⟩
  else if what s e = .stop then ⟨{ s with active := false }, true, false, none⟩
  else go I s e (what s e)

def init : St := ⟨false, 0, 0, 0⟩

def run (I : Nat) : St → List Env → St
  | s, [] => s
  | s, e :: l => run I (call I s e).st l

/-- when output is let through -/
def times (I : Nat) : St → List Env → List Nat
  | _, [] => []
  | s, e :: l => if (call I s e).ready then e.now :: times I (call I s e).st l else times I (call I s e).st l

end Verif.Pace
