/-
Model of the listener's admission of new connections: MaxStartups (sshd.c), the per-source connection
limit and the per-source penalties (srclimit.c), and the bookkeeping of children in sshd.c's accept loop.

Simplifications: the two trees `penalties_by_addr`, `penalties_by_expiry` always hold the same nodes; they
are one list in the order of `penalties_by_expiry`, searched by address with `addr_cmp`.  Times and
penalty lengths are unbounded integers (`time_t`, `int`).  A socket is represented by its peer's address,
`none` when `getpeername` or `addr_sa_to_xaddr` fails; the answer is the same for every call on one
socket.  Logging, the notification written to a refused client, and debug mode are left out.
-/
import Verif.Addr.Model

namespace Verif.Startup
open Verif Text
open Verif.Addr (XAddr Family)

/-- srclimit.h:25-30 -/
inductive Kind | none | crash | authfail | noauth | refuse | grace
  deriving DecidableEq, Repr

/-- The options read from the configuration, plus the two library functions used on addresses. -/
structure Cfg where
  /-- `max_startups_begin`, `max_startups_rate`, `max_startups` -/
  start : Nat
  rate : Nat
  full : Nat
  /-- `per_source_max_startups`; `none` is INT_MAX, no limit -/
  perSource : Option Nat
  len4 : Nat
  len6 : Nat
  enabled : Bool
  secs : Kind → Int
  pmin : Int
  pmax : Int
  max4 : Nat
  max6 : Nat
  deny4 : Bool
  deny6 : Bool
  exempt : Option Bytes
  ntop : XAddr → Option Bytes
  pton : Bytes → Option XAddr

/-! ### MaxStartups -/

/-- sshd.c:560-580 `should_drop_connection`; `r` is the value of `arc4random_uniform(100)`.  `none` where
the `int` product would overflow. -/
def shouldDrop (c : Cfg) (startups r : Nat) : Option Bool :=
  if startups < c.start then some false
  else if startups ≥ c.full then some true
  else if c.rate = 100 then some true
  else if (100 - c.rate) * (startups - c.start) ≥ 2147483648 then none
  else some (r < (100 - c.rate) * (startups - c.start) / (c.full - c.start) + c.rate)

/-! ### The per-source limit -/

/-- `bits` in srclimit.c:142, 294, 395 -/
def bits (c : Cfg) (a : XAddr) : Nat := if a.af = .inet then c.len4 else c.len6

/-- srclimit.c:70-83 `srclimit_mask_addr` -/
def mask (a : XAddr) (n : Nat) : Option XAddr :=
  match Addr.netmask a.af n with
  | none => none
  | some m => Addr.and a m

/-- srclimit.c:44-47 `struct child_info`: `none` is an unused entry (`id == -1`). -/
abbrev Slots := List (Option (Nat × XAddr))

/-- srclimit.c:146-154: the number of used entries with this address. -/
def countSame (b : XAddr) : Slots → Nat
  | [] => 0
  | none :: l => countSame b l
  | some e :: l => (if Addr.cmp e.2 b = 0 then 1 else 0) + countSame b l

/-- Storing into the first unused entry; `none` when there is none (srclimit.c:146-176). -/
def store (v : Nat × XAddr) : Slots → Option Slots
  | [] => none
  | none :: l => some (some v :: l)
  | some e :: l => (store v l).map (some e :: ·)

/-- srclimit.c:129-178 `srclimit_check_allow` for a masked address -/
def checkMasked (limit : Nat) (b : XAddr) (id : Nat) (s : Slots) : Slots × Bool :=
  match store (id, b) s with
  | none => (s, false)
  | some s' => if countSame b s ≥ limit then (s, false) else (s', true)

/-- srclimit.c:129-178 `srclimit_check_allow` -/
def checkAllow (c : Cfg) (peer : Option XAddr) (id : Nat) (s : Slots) : Slots × Bool :=
  match c.perSource, peer with
  | none, _ => (s, true)
  | some _, none => (s, true)
  | some limit, some a =>
    match mask a (bits c a) with
    | none => (s, true)
    | some b => if (c.ntop a).isNone then (s, true) else checkMasked limit b id s

/-- The loop of srclimit.c:190-195. -/
def clear (id : Nat) : Slots → Slots
  | [] => []
  | none :: l => none :: clear id l
  | some e :: l => if e.1 = id then none :: l else some e :: clear id l

/-- srclimit.c:180-196 `srclimit_done` -/
def slotDone (c : Cfg) (id : Nat) (s : Slots) : Slots :=
  if c.perSource = none then s else clear id s

/-- srclimit.c:98-126 `srclimit_init`: the entries -/
def slotsInit (c : Cfg) : Slots :=
  if c.perSource = none then [] else List.replicate c.full none

/-! ### Penalties -/

/-- srclimit.c:54-61 `struct penalty` -/
structure Entry where
  addr : XAddr
  expiry : Int
  active : Bool
  reason : Kind
  deriving DecidableEq, Repr

/-- The penalties of one address family, with `npenalties4` or `npenalties6`. -/
structure Table where
  list : List Entry
  n : Nat
  deriving DecidableEq, Repr

structure Penal where
  t4 : Table
  t6 : Table
  deriving DecidableEq, Repr

/-- srclimit.c:113-116 -/
def penalInit : Penal := ⟨⟨[], 0⟩, ⟨[], 0⟩⟩

/-- srclimit.c:205-212 `penalty_expiry_cmp` -/
def cmpExpiry (a b : Entry) : Int :=
  if a.expiry ≠ b.expiry then (if a.expiry < b.expiry then -1 else 1) else Addr.cmp a.addr b.addr

/-- `RB_INSERT` into the tree by expiry; `none` when an equal node is there already. -/
def insertExpiry (e : Entry) : List Entry → Option (List Entry)
  | [] => some [e]
  | x :: l =>
    if cmpExpiry e x = 0 then none
    else if cmpExpiry e x < 0 then some (e :: x :: l)
    else (insertExpiry e l).map (x :: ·)

/-- `RB_FIND` in the tree by address. -/
def findAddr (a : XAddr) : List Entry → Option Entry
  | [] => none
  | x :: l => if Addr.cmp a x.addr = 0 then some x else findAddr a l

/-- `RB_REMOVE` of a node from the tree by expiry. -/
def removeExpiry (e : Entry) : List Entry → List Entry
  | [] => []
  | x :: l => if cmpExpiry e x = 0 then l else x :: removeExpiry e l

/-- srclimit.c:214-234 `expire_penalties_from_tree` (`none`: the fatal error) -/
def expireList (now : Int) : List Entry → Nat → Option Table
  | [], n => some ⟨[], n⟩
  | e :: l, n =>
    if e.expiry ≥ now then some ⟨e :: l, n⟩
    else if n = 0 then none
    else expireList now l (n - 1)

/-- srclimit.c:236-243 `expire_penalties` -/
def expireAll (now : Int) (p : Penal) : Option Penal := do
  let t4 ← expireList now p.t4.list p.t4.n
  let t6 ← expireList now p.t6.list p.t6.n
  pure ⟨t4, t6⟩

/-- Which of the two tables an address belongs to (srclimit.c:282, 402-410). -/
def tableOf (a : XAddr) (p : Penal) : Table := if a.af = .inet then p.t4 else p.t6

def setTable (a : XAddr) (t : Table) (p : Penal) : Penal :=
  if a.af = .inet then { p with t4 := t } else { p with t6 := t }

/-- `max_sources` (srclimit.c:284, 406) -/
def maxSources (c : Cfg) (a : XAddr) : Nat := if a.af = .inet then c.max4 else c.max6

/-- `overflow_mode` is deny-all (srclimit.c:286, 408) -/
def denyAll (c : Cfg) (a : XAddr) : Bool := if a.af = .inet then c.deny4 else c.deny6

/-- srclimit.c:273-279 and 360-367: exempt, or not printable -/
def isExempt (c : Cfg) (a : XAddr) : Bool :=
  match c.exempt with
  | none => false
  | some l =>
    match c.ntop a with
    | none => true
    | some s => Addr.matchList c.pton (some s) l = 1

/-- srclimit.c:298-307 after the purge, for a masked address -/
def verdict (now : Int) (b : XAddr) (l : List Entry) : Option Kind :=
  match findAddr b l with
  | none => none
  | some e => if e.expiry < now then none else if e.active = false then none else some e.reason

/-- What `srclimit_penalty_check_allow` says. -/
inductive Answer | allow | tooMany | penalised (k : Kind)
  deriving DecidableEq, Repr

def answerOf : Option Kind → Answer
  | none => .allow
  | some k => .penalised k

/-- srclimit.c:282-307 once the tables are purged -/
def checkPurged (c : Cfg) (now : Int) (a : XAddr) (p : Penal) : Answer :=
  if (tableOf a p).n ≥ maxSources c a ∧ denyAll c a = true then .tooMany
  else match mask a (bits c a) with
    | none => .allow
    | some b => answerOf (verdict now b (tableOf a p).list)

/-- srclimit.c:258-308 `srclimit_penalty_check_allow` -/
def penaltyCheck (c : Cfg) (now : Int) (peer : Option XAddr) (p : Penal) : Option (Penal × Answer) :=
  match peer with
  | none => some (p, .allow)
  | some a =>
    if c.enabled = false then some (p, .allow)
    else if isExempt c a then some (p, .allow)
    else (expireAll now p).map fun p => (p, checkPurged c now a p)

/-- srclimit.c:310-332 `srclimit_early_expire_penalties_from_tree`: what remains and what was removed -/
def earlyList (max : Nat) : List Entry → Nat → Option (Table × List Entry)
  | [], n => if n > max then none else some (⟨[], n⟩, [])
  | e :: l, n =>
    if n > max then (earlyList max l (n - 1)).map fun r => (r.1, e :: r.2)
    else some (⟨e :: l, n⟩, [])

/-- srclimit.c:334-343 `srclimit_early_expire_penalties` -/
def earlyAll (c : Cfg) (p : Penal) : Option (Penal × List Entry) := do
  let r4 ← earlyList c.max4 p.t4.list p.t4.n
  let r6 ← earlyList c.max6 p.t6.list p.t6.n
  pure (⟨r4.1, r6.1⟩, r4.2 ++ r6.2)

/-- What a call of `srclimit_penalise` does. -/
inductive Effect
  /-- nothing: penalties off, exempt address, no penalty due, or no usable mask -/
  | nothing
  /-- the table is full and the overflow mode is deny-all -/
  | full
  /-- a first penalty; these entries were dropped to keep the table in bounds -/
  | fresh (dropped : List XAddr)
  /-- added to an existing penalty -/
  | more
  deriving DecidableEq, Repr

/-- srclimit.c:443-454: accumulate -/
def accumulate (c : Cfg) (now secs : Int) (k : Kind) (e : Entry) : Entry :=
  { e with
    expiry := if e.expiry + secs - now > c.pmax then now + c.pmax else e.expiry + secs
    active := e.active ||
      decide ((if e.expiry + secs - now > c.pmax then now + c.pmax else e.expiry + secs) - now > c.pmin)
    reason := k }

/-- srclimit.c:419-436: a first penalty for the masked address `b` -/
def penaliseNew (c : Cfg) (now : Int) (a b : XAddr) (k : Kind) (p : Penal) : Option (Penal × Effect) :=
  match insertExpiry ⟨b, now + c.secs k, decide (c.secs k > c.pmin), k⟩ (tableOf a p).list with
  | none => none
  | some l =>
    if (tableOf a p).n + 1 > maxSources c a then
      (earlyAll c (setTable a ⟨l, (tableOf a p).n + 1⟩ p)).map fun r => (r.1, .fresh (r.2.map (·.addr)))
    else some (setTable a ⟨l, (tableOf a p).n + 1⟩ p, .fresh [])

/-- srclimit.c:437-459: a further penalty for an entry -/
def penaliseMore (c : Cfg) (now : Int) (a : XAddr) (k : Kind) (e : Entry) (p : Penal) : Option (Penal × Effect) :=
  match insertExpiry (accumulate c now (c.secs k) k e) (removeExpiry e (tableOf a p).list) with
  | none => none
  | some l => some (setTable a ⟨l, (tableOf a p).n⟩ p, .more)

/-- srclimit.c:402-459 once the tables are purged -/
def penalisePurged (c : Cfg) (now : Int) (a b : XAddr) (k : Kind) (p : Penal) : Option (Penal × Effect) :=
  if (tableOf a p).n ≥ maxSources c a ∧ denyAll c a = true then some (p, .full)
  else match findAddr b (tableOf a p).list with
    | none => penaliseNew c now a b k p
    | some e => penaliseMore c now a k e p

/-- srclimit.c:345-460 `srclimit_penalise` -/
def penalise (c : Cfg) (now : Int) (a : XAddr) (k : Kind) (p : Penal) : Option (Penal × Effect) :=
  if c.enabled = false then some (p, .nothing)
  else if isExempt c a then some (p, .nothing)
  else if k = .none then some (p, .nothing)
  else match mask a (bits c a) with
    | none => some (p, .nothing)
    | some b => (expireAll now p).bind (penalisePurged c now a b k)

/-! ### The children of the accept loop -/

/-- What `waitpid` reports about a child. -/
inductive Exit
  /-- killed by a signal; is it one of a crash (`signal_is_crash`) -/
  | signal (crash : Bool)
  /-- neither killed nor exited -/
  | abnormal
  | code (n : Nat)
  deriving DecidableEq, Repr

/-- sshd.c:178-188 `struct early_child`.  Of `config` and `keys` only whether they are NULL is kept. -/
structure Child where
  pipe : Option Nat
  config : Bool
  keys : Bool
  early : Bool
  pid : Option Nat
  status : Option Exit
  addr : Option XAddr
  deriving DecidableEq, Repr

/-- An unused entry (sshd.c:227-230, 297-299). -/
def noChild : Child := ⟨none, false, false, false, none, none, none⟩

structure State where
  children : List Child
  active : Nat
  listening : Int
  slots : Slots
  penal : Penal
  deriving DecidableEq, Repr

/-- sshd.c:221-231 `child_alloc`; counters at 0 -/
def init (c : Cfg) : State := ⟨List.replicate c.full noChild, 0, 0, slotsInit c, penalInit⟩

/-- sshd.c:244-248: the entry is in use. -/
def Child.used (k : Child) : Bool := k.pipe.isSome || k.config || k.keys || k.pid.isSome

/-- The loop of sshd.c:243-252: the first unused entry is overwritten. -/
def place (k : Child) : List Child → Option (List Child)
  | [] => none
  | x :: l => if x.used then (place k l).map (x :: ·) else some (k :: l)

/-- sshd.c:287-301 `child_finish` on entry `i` (`none`: the fatal error) -/
def finish (i : Nat) (s : State) : Option State :=
  if s.active = 0 then none
  else some { s with
    children := s.children.set i noChild
    active := s.active - 1 }

/-- sshd.c:308-319 `child_close` on entry `i`, which holds `k` -/
def close (i : Nat) (k : Child) (force : Bool) (s : State) : Option State :=
  if k.pid = none ∨ force = true then finish i s
  else some { s with children := s.children.set i { k with pipe := none } }

/-- sshd.c:361-416: the penalty for a way of ending; 3-6 are the codes of srclimit.h:33-36 -/
def kindOf : Exit → Kind
  | .signal true => .crash
  | .signal false => .none
  | .abnormal => .crash
  | .code 0 => .none
  | .code 3 => .grace
  | .code 4 => .crash
  | .code 5 => .authfail
  | .code 6 => .refuse
  | .code _ => .noauth

/-- sshd.c:322-336 `child_exit` -/
def childExit (pid : Nat) (e : Exit) : List Child → List Child
  | [] => []
  | k :: l => if k.pid = some pid then { k with status := some e } :: l else k :: childExit pid e l

/-- sshd.c:418-419: penalise the address if it is known. -/
def penaliseChild (c : Cfg) (now : Int) (k : Child) (e : Exit) (p : Penal) : Option Penal :=
  match k.addr with
  | none => some p
  | some a => (penalise c now a (kindOf e) p).map (·.1)

/-- sshd.c:344-425 `child_reap` on entry `i` -/
def reap (c : Cfg) (now : Int) (i : Nat) (k : Child) (e : Exit) (s : State) : Option State :=
  match penaliseChild c now k e s.penal with
  | none => none
  | some p =>
    if k.pipe = none then finish i { s with penal := p }
    else some { s with
      penal := p
      children := s.children.set i { k with pid := none, status := none } }

/-- The loop of sshd.c:451-455 over the entries `i`, `i+1`, ... (`n` of them). -/
def reapFrom (c : Cfg) (now : Int) : Nat → Nat → State → Option State
  | 0, _, s => some s
  | n + 1, i, s =>
    match s.children[i]? with
    | none => reapFrom c now n (i + 1) s
    | some k =>
      match k.status with
      | none => reapFrom c now n (i + 1) s
      | some e => (reap c now i k e s).bind (reapFrom c now n (i + 1))

/-- sshd.c:428-456 `child_reap_all_exited`; `l` is what the calls of `waitpid` return. -/
def reapAll (c : Cfg) (now : Int) (l : List (Nat × Exit)) (s : State) : Option State :=
  reapFrom c now s.children.length 0
    { s with children := l.foldl (fun ch x => childExit x.1 x.2 ch) s.children }

/-- The pipe of entry `i` failed or was closed: sshd.c:1040-1044, 1080-1086, 1088-1098. -/
def lost (c : Cfg) (i : Nat) (k : Child) (fd : Nat) (s : State) : Option State :=
  close i k false { s with
    listening := if k.early then s.listening - 1 else s.listening
    slots := slotDone c fd s.slots }

/-- What `write` returned (sshd.c:1036-1062). -/
inductive Wrote | again | failed | part | all
  deriving DecidableEq, Repr

/-- sshd.c:1021-1063: entry `i` is writable -/
def onWritable (c : Cfg) (i : Nat) (w : Wrote) (s : State) : Option State :=
  match s.children[i]? with
  | none => some s
  | some k =>
    match k.pipe with
    | none => some s
    | some fd =>
      if k.config = false ∧ k.keys = false then some s
      else match w with
        | .again => some s
        | .part => some s
        | .failed => lost c i k fd s
        | .all =>
          if k.config then some { s with children := s.children.set i { k with config := false, keys := true } }
          else some { s with children := s.children.set i { k with keys := false } }

/-- Why a connection was dropped. -/
inductive Drop | penalty (a : Answer) | maxStartups | perSource
  deriving DecidableEq, Repr

/-- What an event led to; the peer of a child that reports a login is kept. -/
inductive Out | quiet | refused (d : Drop) | started | loggedIn (peer : Option XAddr)
  deriving DecidableEq, Repr

def quiet (r : Option State) : Option (State × Out) := r.map fun s => (s, .quiet)

/-- What `read` of one byte returned (sshd.c:1070-1121). -/
inductive Got | again | ended | byte (b : UInt8)
  deriving DecidableEq, Repr

/-- sshd.c:1087-1120: a byte `b` came from entry `i`, which holds `k` with the pipe `fd` -/
def onByte (c : Cfg) (i : Nat) (k : Child) (fd : Nat) (b : UInt8) (s : State) : Option (State × Out) :=
  if k.config then quiet (lost c i k fd s)
  else if k.early = true ∧ b = 0 then
    some ({ s with
      listening := s.listening - 1
      children := s.children.set i { k with early := false } }, .quiet)
  else if k.early = false ∧ b = 1 then (close i k true s).map fun s => (s, .loggedIn k.addr)
  else some (s, .quiet)

/-- sshd.c:1064-1121: entry `i` is readable -/
def onReadable (c : Cfg) (i : Nat) (g : Got) (s : State) : Option (State × Out) :=
  match s.children[i]? with
  | none => some (s, .quiet)
  | some k =>
    match k.pipe with
    | none => some (s, .quiet)
    | some fd =>
      match g with
      | .again => some (s, .quiet)
      | .ended => quiet (lost c i k fd s)
      | .byte b => onByte c i k fd b s

/-- sshd.c:589-640 `drop_connection`: the state after it and the reason of a refusal -/
def dropConn (c : Cfg) (now : Int) (peer : Option XAddr) (fd r : Nat) (s : State) : Option (State × Option Drop) :=
  match penaltyCheck c now peer s.penal with
  | none => none
  | some (p, .allow) =>
    match shouldDrop c s.active r with
    | none => none
    | some true => some ({ s with penal := p }, some .maxStartups)
    | some false =>
      if (checkAllow c peer fd s.slots).2
      then some ({ s with penal := p, slots := (checkAllow c peer fd s.slots).1 }, none)
      else some ({ s with penal := p, slots := (checkAllow c peer fd s.slots).1 }, some .perSource)
  | some (p, a) => some ({ s with penal := p }, some (.penalty a))

/-- sshd.c:234-282 `child_register` and 1182-1184: the parent's part of starting a child; `pid` is what
`fork` returned, `none` for -1. -/
def register (peer : Option XAddr) (fd : Nat) (pid : Option Nat) (s : State) : Option State :=
  match place ⟨some fd, true, false, true, pid, none, peer⟩ s.children with
  | none => none
  | some l =>
    if s.active + 1 > l.length then none
    else some { s with
      children := l
      active := s.active + 1
      listening := s.listening + 1 }

/-- What happens to the listener. -/
inductive Ev
  /-- a connection from `peer`; `fd` is the new pipe, `r` the random number, `pid` the result of `fork` -/
  | accept (now : Int) (peer : Option XAddr) (fd r : Nat) (pid : Option Nat)
  | writable (i : Nat) (w : Wrote)
  | readable (i : Nat) (g : Got)
  /-- SIGCHLD -/
  | exits (now : Int) (l : List (Nat × Exit))
  deriving DecidableEq, Repr

/-- sshd.c:1122-1230: a new connection (in the parent) -/
def onAccept (c : Cfg) (now : Int) (peer : Option XAddr) (fd r : Nat) (pid : Option Nat) (s : State) :
    Option (State × Out) :=
  match dropConn c now peer fd r s with
  | none => none
  | some (s', some d) => some (s', .refused d)
  | some (s', none) => (register peer fd pid s').map fun s'' => (s'', .started)

/-- One event. -/
def step (c : Cfg) (s : State) : Ev → Option (State × Out)
  | .accept now peer fd r pid => onAccept c now peer fd r pid s
  | .writable i w => quiet (onWritable c i w s)
  | .readable i g => onReadable c i g s
  | .exits now l => quiet (reapAll c now l s)

end Verif.Startup
