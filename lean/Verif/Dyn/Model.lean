/-
Model of what the client does with a connection to a dynamically forwarded port before it knows the target (SOCKS), and
with a forwarded X11 connection before it has seen the cookie: channels.c.

Buffers are lists of bytes.  The functions that print addresses are parameters.  Output is not written to the X11 server
before `x11_open_helper` returned 1, since the channel is not open before.
-/
import Verif.Base
import Verif.Wire

namespace Verif.Dyn
open Verif Wire

/-- What the code calls. -/
structure World where
  /-- `inet_ntoa` and `inet_ntop` for AF_INET, given 4 bytes -/
  ntop4 : Bytes → Bytes
  /-- `inet_ntop` for AF_INET6, given 16 bytes -/
  ntop6 : Bytes → Bytes

/-- Where a channel of type `SSH_CHANNEL_DYNAMIC` can go. -/
inductive Phase where
  | waiting
  | dead
  /-- `path` and `host_port` -/
  | opening (host : Bytes) (port : Nat)
  deriving DecidableEq, Repr

/-- The parts of `Channel` involved; `authDone` is the flag `SSH_SOCKS5_AUTHDONE`. -/
structure St where
  input : Bytes
  output : Bytes
  authDone : Bool
  phase : Phase
  deriving DecidableEq, Repr

/-- channels.c:1473-1486: whether the strings are complete (`none`: too long).  `i` is the index of the first byte of the
rest. -/
def scan (need : Nat) : Nat → Nat → Bytes → Option Bool
  | _, _, [] => some false
  | i, found, c :: l =>
    if c = 0 ∧ found + 1 = need then some true
    else if i > 1024 then none
    else scan need (i + 1) (if c = 0 then found + 1 else found) l

/-- channels.c:1467: an address 0.0.0.x announces a name -/
def isA (b : Bytes) : Bool := b.getD 4 0 = 0 ∧ b.getD 5 0 = 0 ∧ b.getD 6 0 = 0 ∧ b.getD 7 0 ≠ 0

/-- The string before the first NUL. -/
def upTo (b : Bytes) : Bytes := b.takeWhile (· ≠ 0)

/-- NI_MAXHOST -/
def maxHost : Nat := 1025

/-- channels.c:1445-1553 `channel_decode_socks4` -/
def socks4 (W : World) (s : St) : St :=
  if s.input.length < 8 then s
  else
    match scan (if isA s.input then 2 else 1) 8 0 (s.input.drop 8) with
    | none => { s with phase := .dead }
    | some false => s
    | some true =>
      if 0 ∉ s.input.drop 8 then { s with phase := .dead }
      else if isA s.input = false then
        if s.input.getD 1 0 ≠ 1 then { s with phase := .dead }
        else
          { s with
            input := s.input.drop (8 + (upTo (s.input.drop 8)).length + 1)
            output := s.output ++ [0, 90, 0, 0, 0, 0, 0, 0]
            phase := .opening (W.ntop4 ((s.input.drop 4).take 4)) (ofBE ((s.input.drop 2).take 2)) }
      else if 0 ∉ s.input.drop (8 + (upTo (s.input.drop 8)).length + 1) then { s with phase := .dead }
      else if (upTo (s.input.drop (8 + (upTo (s.input.drop 8)).length + 1))).length + 1 > maxHost then { s with phase := .dead }
      else if s.input.getD 1 0 ≠ 1 then { s with phase := .dead }
      else
        { s with
          input := (s.input.drop (8 + (upTo (s.input.drop 8)).length + 1)).drop
            ((upTo (s.input.drop (8 + (upTo (s.input.drop 8)).length + 1))).length + 1)
          output := s.output ++ [0, 90, 0, 0, 0, 0, 0, 0]
          phase := .opening (upTo (s.input.drop (8 + (upTo (s.input.drop 8)).length + 1))) (ofBE ((s.input.drop 2).take 2)) }

/-- channels.c:1584-1612: the methods of authentication -/
def socks5Auth (s : St) : St :=
  if s.input.length < 2 then s
  else if s.input.length < (s.input.getD 1 0).toNat + 2 then s
  else if 0 ∉ (s.input.drop 2).take (s.input.getD 1 0).toNat then { s with phase := .dead }
  else
    { s with
      input := s.input.drop ((s.input.getD 1 0).toNat + 2)
      output := s.output ++ [5, 0]
      authDone := true }

/-- channels.c:1624-1640: the length of the address, for a name without the byte saying so -/
def addrLen (b : Bytes) : Option Nat :=
  if b.getD 3 0 = 1 then some 4
  else if b.getD 3 0 = 3 then some (b.getD 4 0).toNat
  else if b.getD 3 0 = 4 then some 16
  else none

/-- Where the address begins. -/
def addrAt (b : Bytes) : Nat := if b.getD 3 0 = 3 then 5 else 4

/-- channels.c:1661-1674: the host.  A name is a C string. -/
def host (W : World) (b : Bytes) (n : Nat) : Bytes :=
  if b.getD 3 0 = 3 then upTo ((b.drop (addrAt b)).take n)
  else if b.getD 3 0 = 1 then W.ntop4 ((b.drop (addrAt b)).take n)
  else W.ntop6 ((b.drop (addrAt b)).take n)

/-- channels.c:1614-1688: the request -/
def socks5Request (W : World) (s : St) : St :=
  if s.input.length < 5 then s
  else if s.input.getD 0 0 ≠ 5 ∨ s.input.getD 1 0 ≠ 1 ∨ s.input.getD 2 0 ≠ 0 then { s with phase := .dead }
  else
    match addrLen s.input with
    | none => { s with phase := .dead }
    | some n =>
      if s.input.length < addrAt s.input + n + 2 then s
      else if s.input.getD 3 0 = 3 ∧ n ≥ maxHost then { s with phase := .dead }
      else
        { s with
          input := s.input.drop (addrAt s.input + n + 2)
          output := s.output ++ [5, 0, 0, 1, 0, 0, 0, 0, 0, 0]
          phase := .opening (host W s.input n) (ofBE ((s.input.drop (addrAt s.input + n)).take 2)) }

/-- channels.c:1564-1689 `channel_decode_socks5` -/
def socks5 (W : World) (s : St) : St :=
  if s.input.getD 0 0 ≠ 5 then { s with phase := .dead }
  else if s.authDone then socks5Request W s
  else socks5Auth s

/-- channels.c:1717-1761 `channel_pre_dynamic`; it is called only in this phase -/
def pre (W : World) (s : St) : St :=
  match s.phase with
  | .waiting =>
    if s.input.length < 3 then s
    else if s.input.getD 0 0 = 4 then socks4 W s
    else if s.input.getD 0 0 = 5 then socks5 W s
    else { s with phase := .dead }
  | _ => s

/-- More is read from the connection; a dead channel reads nothing. -/
def arrive (s : St) (c : Bytes) : St :=
  match s.phase with
  | .dead => s
  | _ => { s with input := s.input ++ c }

/-- The pieces arrive one after the other; the channel is looked at before each and at the end (the main loop does so in
every round, and after a reply there is another round, since the reply is written). -/
def run (W : World) (s : St) : List Bytes → St
  | [] => pre W (pre W s)
  | c :: cs => run W (arrive (pre W s) c) cs

/-- A new connection. -/
def fresh : St := ⟨[], [], false, .waiting⟩

/-! ### X11 -/

/-- What was saved when forwarding was requested: `x11_saved_proto`, `x11_saved_data`, `x11_fake_data` -/
structure Saved where
  proto : Bytes
  real : Bytes
  fake : Bytes
  deriving DecidableEq, Repr

inductive XRes where
  | more
  | reject
  | pass
  deriving DecidableEq, Repr

/-- Rounded up to a multiple of 4. -/
def pad4 (n : Nat) : Nat := (n + 3) / 4 * 4

/-- channels.c:1329-1341: the lengths of the name of the protocol and of the data -/
def xLens (b : Bytes) : Option (Nat × Nat) :=
  if b.getD 0 0 = 0x42 then
    some (256 * (b.getD 6 0).toNat + (b.getD 7 0).toNat, 256 * (b.getD 8 0).toNat + (b.getD 9 0).toNat)
  else if b.getD 0 0 = 0x6c then
    some ((b.getD 6 0).toNat + 256 * (b.getD 7 0).toNat, (b.getD 8 0).toNat + 256 * (b.getD 9 0).toNat)
  else none

/-- channels.c:1308-1373 `x11_open_helper`; `late` is set after the deadline -/
def xOpen (v : Saved) (late : Bool) (b : Bytes) : XRes × Bytes :=
  if late then (.reject, b)
  else if b.length < 12 then (.more, b)
  else
    match xLens b with
    | none => (.reject, b)
    | some (p, d) =>
      if b.length < 12 + pad4 p + pad4 d then (.more, b)
      else if p ≠ v.proto.length ∨ (b.drop 12).take p ≠ v.proto then (.reject, b)
      else if d ≠ v.fake.length ∨ (b.drop (12 + pad4 p)).take v.fake.length ≠ v.fake then (.reject, b)
      else if v.fake.length ≠ v.real.length then (.reject, b)
      else (.pass, b.take (12 + pad4 p) ++ v.real ++ b.drop (12 + pad4 p + v.real.length))

/-- What has gone to the X11 server: nothing while the channel is not open. -/
inductive XSt where
  | waiting (b : Bytes)
  | rejected
  | passed (sent : Bytes)
  deriving DecidableEq, Repr

/-- channels.c:1407-1418: what follows from the answer -/
def xGo : XRes × Bytes → XSt
  | (.more, b) => .waiting b
  | (.reject, _) => .rejected
  | (.pass, b) => .passed b

/-- channels.c:1401-1419 `channel_pre_x11_open`; an open channel passes everything on. -/
def xPre (v : Saved) (late : Bool) : XSt → XSt
  | .waiting b => xGo (xOpen v late b)
  | s => s

/-- Data from the peer. -/
def xArrive (s : XSt) (c : Bytes) : XSt :=
  match s with
  | .waiting b => .waiting (b ++ c)
  | .rejected => .rejected
  | .passed b => .passed (b ++ c)

def xRun (v : Saved) (s : XSt) : List Bytes → XSt
  | [] => xPre v false s
  | c :: cs => xRun v (xArrive (xPre v false s) c) cs

end Verif.Dyn
