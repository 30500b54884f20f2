/- What users of a channel rely on, stated on the messages sent and the events that happened. -/
import Verif.Chan.Model

namespace Verif.Chan
open Verif Wire

/-- Data bytes carried by a message, both streams. -/
def Msg.payload : Msg → Bytes
  | .data v => v
  | .extData v => v
  | _ => []

def Msg.isData : Msg → Bool
  | .data _ => true
  | .extData _ => true
  | _ => false

/-- Total number of data bytes sent. -/
def sent (o : List Msg) : Nat := (o.map fun m => m.payload.length).sum

/-- The stream of ordinary data sent. -/
def stream (o : List Msg) : Bytes := (o.map fun m => match m with | .data v => v | _ => []).flatten

/-- Credit the peer gives by an event. -/
def Ev.grant : Ev → Nat
  | .rcvAdjust n => n.toNat
  | .rcvConfirm w _ => w.toNat
  | _ => 0

def granted (es : List Ev) : Nat := (es.map Ev.grant).sum

/-- Credit we give to the peer. -/
def Msg.give : Msg → Nat
  | .adjust n => n
  | _ => 0

def given (o : List Msg) : Nat := (o.map Msg.give).sum

/-- Data bytes the peer sends by an event. -/
def Ev.arrives : Ev → Nat
  | .rcvData v => v.length
  | .rcvExt _ v => v.length
  | _ => 0

def arrived (es : List Ev) : Nat := (es.map Ev.arrives).sum

/-- The largest data packet the peer allows: fixed when the channel is opened. -/
def MaxPacket (c : Chan) (es : List Ev) (n : Nat) : Prop :=
  (c.typ ≠ .opening ∧ c.remoteMax = n) ∨ (c.typ = .opening ∧ ∃ w m, Ev.rcvConfirm w m ∈ es ∧ m.toNat = n)

/-- A channel as `channel_new` creates it, before anything was exchanged. -/
structure Fresh (c : Chan) : Prop where
  istate : c.istate = .open_
  ostate : c.ostate = .open_
  eofSent : c.eofSent = false
  eofRcvd : c.eofRcvd = false
  closeSent : c.closeSent = false
  closeRcvd : c.closeRcvd = false
  input : c.input = []
  output : c.output = []
  extended : c.extended = []
  gIn : c.gIn = []
  gOut : c.gOut = []
  gAcc : c.gAcc = []
  notZombie : c.typ ≠ .zombie
  consumed : c.consumed = 0
  exceeded : c.exceeded = 0
  window : c.localWindow = c.windowMax

/-- The peer keeps to the credit it was given, `cr` bytes at the start. -/
def Honest : Chan → Nat → List Ev → Prop
  | _, _, [] => True
  | c, cr, e :: es => e.arrives ≤ cr ∧ ∀ c' o, step c e = .ok c' o → Honest c' (cr - e.arrives + given o) es

/-- The event neither discards buffered data nor is data the channel has no use for. -/
def Useful (c : Chan) : Ev → Prop
  | .rcvData v => (c.typ = .open_ ∨ c.typ = .x11Open) ∧ v.length ≤ c.localMax
  | .rcvExt s _ => c.typ = .open_ ∧ c.efd = true ∧ c.ext = .write ∧ s = true
  | .forceClose _ => False
  | .writeFailed => False
  | .write none => False
  | _ => True

/-- Every event of the history is `Useful` when it happens. -/
def AllUseful : Chan → List Ev → Prop
  | _, [] => True
  | c, e :: es => Useful c e ∧ ∀ c' o, step c e = .ok c' o → AllUseful c' es

/-- Bytes received and not yet handed to the application. -/
def buffered (c : Chan) : Nat := c.output.length + (if c.ext = .write then c.extended.length else 0)

/-- The data packets received, in order. -/
def packets (es : List Ev) : List Bytes := es.filterMap fun e => match e with | .rcvData v => some v | _ => none

end Verif.Chan
