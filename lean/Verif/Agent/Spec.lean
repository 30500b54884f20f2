/-
Specification for the agent: histories, what a host may be, permitted paths, what a signed authentication
request is.
-/
import Verif.Agent.Model
import Verif.WireMore

namespace Verif.Agent
open Verif Wire Match

/-! ### Histories -/

def Ev.time : Ev → Option Nat
  | .round now => some now
  | .msg now _ _ _ _ => some now
  | _ => none

/-- The histories of an agent; the clock is positive and does not run backwards. -/
inductive Hist (w : World) : List (Ev × Option Out) → State → Nat → Prop
  | init (t : Nat) : 0 < t → Hist w [] init t
  | step {h s t ev s' o} : Hist w h s t → t ≤ ev.time.getD t → step w s ev = some (s', o) →
      Hist w (h ++ [(ev, o)]) s' (ev.time.getD t)

/-- When the last round of the main loop began; 0 before the first. -/
def lastRoundStep (r : Nat) : Ev × Option Out → Nat
  | (.round now, _) => now
  | _ => r

def lastRound (h : List (Ev × Option Out)) : Nat := h.foldl lastRoundStep 0

/-- The password and salt of the lock in force, from the requests and their answers alone. -/
def lockStep (l : Option (Bytes × Bytes)) : Ev × Option Out → Option (Bytes × Bytes)
  | (.msg _ _ ty req a, some o) =>
    if o.reply = .status true then
      if ty = 22 then (readPw req).map fun p => (p, a.salt)
      else if ty = 23 then none
      else l
    else l
  | _ => l

def lockedBy (h : List (Ev × Option Out)) : Option (Bytes × Bytes) := h.foldl lockStep none

/-! ### Destinations -/

/-- A host key fits the end of a hop: it is one of the plain keys listed, or a certificate for the host's name
signed by one of the authorities listed. -/
def Fits (w : World) (k : Key) (h : Hop) : Prop :=
  (w.isCert k = false ∧ (k, false) ∈ h.keys) ∨
  (w.isCert k = true ∧ ∃ ca, (ca, true) ∈ h.keys ∧ w.sigKey k = some ca ∧ w.certHost k (h.host.getD b!"(ORIGIN)") = true)

/-- Where a hop starts: here (`none`), or at a host. -/
def Starts (w : World) (frm : Option Key) (h : Hop) : Prop :=
  match frm with
  | none => h.host = none ∧ h.keys = []
  | some k => Fits w k h

/-- The constraint lets the key travel from `frm` to the host `to`. -/
def Lets (w : World) (d : Dest) (frm : Option Key) (to : Key) : Prop := Starts w frm d.frm ∧ Fits w to d.to

/-- The constraint allows this user name. -/
def ForUser (d : Dest) (user : Bytes) : Prop := ∀ p, d.to.user = some p → matchPattern user p = true

/-- Every hop of a path of host keys is permitted by some constraint. -/
def Path (w : World) (ds : List Dest) : Option Key → List Key → Prop
  | _, [] => True
  | frm, k :: l => (∃ d ∈ ds, Lets w d frm k) ∧ Path w ds (some k) l

/-- The last host of a path that starts at `frm`. -/
def endOf (frm : Option Key) (l : List Key) : Option Key := if l = [] then frm else l.getLast?

/-- The method and what follows the key: nothing, or the server's host key. -/
def Method (w : World) (method tail : Bytes) : Option Key → Prop
  | none => Named method b!"publickey" ∧ tail = []
  | some k => Named method b!"publickey-hostbound-v00@openssh.com" ∧ ∃ hb, tail = str hb ∧ w.readPub hb = some k

/-- A signed message is a public key authentication request (RFC 4252 section 7, or its host bound variant)
with this key, for a session and a user. -/
def Request (w : World) (data : Bytes) (key : Key) (sid user : Bytes) (host : Option Key) : Prop :=
  ∃ u service method alg blob tail : Bytes,
    data = str sid ++ [50] ++ str u ++ str service ++ str method ++ [1] ++ str alg ++ str blob ++ tail ∧ sid ≠ [] ∧
    Named u user ∧ Named service b!"ssh-connection" ∧
    (∃ a, Named alg a ∧ w.algFits a key = true) ∧ w.readPub blob = some key ∧
    Method w method tail host

/-! ### Bindings -/

/-- The bindings of connection `c`, from the requests and answers alone: each request that is answered with
success, has a session identifier of at most 128 bytes and is not a repetition adds one. -/
def bindStep (w : World) (c : Nat) (l : List Bind) : Ev × Option Out → List Bind
  | (.conn c', _) => if c' = c then [] else l
  | (.msg _ c' ty req _, some o) =>
    if c' = c ∧ ty = 27 ∧ o.reply = .status true then
      match getCstr req with
      | none => l
      | some n =>
        match parseBind w n.2 with
        | none => l
        | some r => if r.sid.length ≤ 128 ∧ r.sid ∉ l.map (·.sid) then l ++ [⟨r.key, r.sid, r.fwd⟩] else l
    else l
  | _ => l

def bound (w : World) (c : Nat) (h : List (Ev × Option Out)) : List Bind := h.foldl (bindStep w c) []

/-! ### Requests as clients write them -/

/-- A hop on the wire (PROTOCOL.agent section 2). -/
def encHop (w : World) (h : Hop) : Bytes :=
  str (h.user.getD []) ++ str (h.host.getD []) ++ str [] ++
    (h.keys.map fun k => str (w.pubBlob k.1) ++ [if k.2 then 1 else 0]).flatten

def encDest (w : World) (d : Dest) : Bytes := str (str (encHop w d.frm) ++ str (encHop w d.to) ++ str [])

def encDests (w : World) (ds : List Dest) : Bytes := (ds.map (encDest w)).flatten

/-- The constraints of an add request. -/
def encLife (life : Option Nat) : Bytes :=
  match life with
  | none => []
  | some n => [1] ++ be 4 n

def encConfirm (confirm : Bool) : Bytes := if confirm then [2] else []

def encRestrict (w : World) (ds : List Dest) : Bytes :=
  if ds = [] then [] else [255] ++ str b!"restrict-destination-v00@openssh.com" ++ str (encDests w ds)

end Verif.Agent
