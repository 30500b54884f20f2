/-
Transfers by the SFTP client: sftp-client.c.

The server and the local system are arbitrary: what the server sends, whether a local write fails and when the user
interrupts are given from outside.  Offsets are unbounded (the code's are 64 bits).  Progress meters and bandwidth
limits are left out.
-/
import Verif.Sftp.Model

namespace Verif.Sftp.Client
open Verif Wire Sftp

/-! ### Local files -/

/-- write(2) at an offset; a gap reads as zeros -/
def pwrite (f : Bytes) (off : Nat) (d : Bytes) : Bytes :=
  if d = [] then f else (f ++ List.replicate (off - f.length) 0).take off ++ d ++ f.drop (off + d.length)

/-- ftruncate(2) -/
def truncTo (f : Bytes) (n : Nat) : Bytes := (f ++ List.replicate (n - f.length) 0).take n

/-! ### Requests under way -/

/-- `struct request`, sftp-client.c:115-120 -/
structure Rq where
  id : Nat
  off : Nat
  len : Nat
  deriving DecidableEq, Repr

/-- `TAILQ_REMOVE` of the request that `request_find` found -/
def removeId (id : Nat) : List Rq → List Rq
  | [] => []
  | r :: l => if r.id = id then l else r :: removeId id l

/-- the request that `request_find` found is changed -/
def replaceId (id : Nat) (n : Rq) : List Rq → List Rq
  | [] => []
  | r :: l => if r.id = id then n :: l else r :: replaceId id n l

/-- sftp-client.c:140-150 `request_find` -/
def findId (id : Nat) (l : List Rq) : Option Rq := l.find? fun r => r.id == id

/-- sftp-client.c:1521-1538 `send_read_request`: the message -/
def encRead (handle : Bytes) (r : Rq) : Bytes := [5] ++ be 4 r.id ++ str handle ++ be 8 r.off ++ be 4 r.len

/-! ### Downloading -/

/-- How the download is done; `size` is what the server said the size is (0 if it did not), `numRequests` and `buflen`
are the connection's. -/
structure DlCfg where
  numRequests : Nat := 64
  buflen : Nat := 32768
  size : Nat := 0
  resume : Bool := false
  inplace : Bool := false
  deriving DecidableEq, Repr

/-- The variables of `sftp_download`, the local file, and the requests sent so far. -/
structure Dl where
  offset : Nat
  buflen : Nat
  maxReq : Nat := 1
  numReq : Nat := 0
  msgId : Nat
  reqs : List Rq := []
  sent : List Rq := []
  readErr : Bool := false
  writeErr : Bool := false
  reordered : Bool := false
  highwater : Nat
  maxack : Nat
  intr : Bool := false
  file : Bytes
  deriving DecidableEq, Repr

/-- What happens outside in one round: `interrupted` is set; how a write ends (`some n`: it fails after `n` bytes, 0 if
already lseek(2) fails). -/
structure Ev where
  intr : Bool := false
  fails : Option Nat := none
  deriving DecidableEq, Repr

def nextRq (s : Dl) : Rq := ⟨s.msgId % 2 ^ 32, s.offset, s.buflen⟩

/-- sftp-client.c:1711-1717: one more request -/
def sendOne (s : Dl) : Dl :=
  { s with reqs := s.reqs ++ [nextRq s], sent := s.sent ++ [nextRq s], offset := s.offset + s.buflen,
           numReq := s.numReq + 1, msgId := s.msgId + 1 }

def sendMany : Nat → Dl → Dl
  | 0, s => s
  | n + 1, s => sendMany n (sendOne s)

/-- sftp-client.c:1706-1718 -/
def sendMore (s : Dl) : Dl := sendMany (s.maxReq - s.numReq) s

/-- sftp-client.c:1733-1742: a status -/
def onStatus (r : Rq) (code : Nat) (s : Dl) : Dl :=
  { s with readErr := s.readErr || decide (code ≠ FX_EOF), maxReq := 0, reqs := removeId r.id s.reqs, numReq := s.numReq - 1 }

/-- sftp-client.c:1767-1772: how far the file is there -/
def ackPos (off len : Nat) (s : Dl) : Dl :=
  { s with
    maxack := if s.maxack < off + len then off + len else s.maxack
    highwater := if !s.reordered && decide (off ≤ s.highwater) then (if s.maxack < off + len then off + len else s.maxack)
      else s.highwater
    reordered := s.reordered || decide (off > s.highwater) }

/-- sftp-client.c:1753-1773: the data go to the file -/
def store (e : Ev) (off : Nat) (d : Bytes) (s : Dl) : Dl :=
  match e.fails with
  | some n =>
    if s.writeErr = false then { s with file := pwrite s.file off (d.take n), writeErr := true, maxReq := 0 }
    else ackPos off d.length { s with file := pwrite s.file off (d.take n) }
  | none => ackPos off d.length { s with file := pwrite s.file off d }

/-- sftp-client.c:1777-1795: the request is done, or the rest of it is asked for -/
def settle (r : Rq) (len : Nat) (s : Dl) : Dl :=
  if len = r.len then { s with reqs := removeId r.id s.reqs, numReq := s.numReq - 1 }
  else
    { s with
      reqs := replaceId r.id ⟨s.msgId % 2 ^ 32, r.off + len, r.len - len⟩ s.reqs
      sent := s.sent ++ [⟨s.msgId % 2 ^ 32, r.off + len, r.len - len⟩]
      msgId := s.msgId + 1
      buflen := if len < s.buflen then max 512 len else s.buflen }

/-- sftp-client.c:1796-1806: how many requests there may be -/
def widen (cfg : DlCfg) (s : Dl) : Dl :=
  if s.maxReq > 0 then
    if cfg.size > 0 ∧ s.offset > cfg.size then { s with maxReq := 1 }
    else if s.maxReq < cfg.numRequests then { s with maxReq := s.maxReq + 1 }
    else s
  else s

/-- sftp-client.c:1743-1807: data -/
def onData (cfg : DlCfg) (e : Ev) (r : Rq) (d : Bytes) (s : Dl) : Option Dl :=
  if d.length > r.len then none else some (widen cfg (settle r d.length (store e r.off d s)))

/-- sftp-client.c:1732-1812: what a message does once its request is found -/
def onType (cfg : DlCfg) (e : Ev) (type : Nat) (r : Rq) (rest : Bytes) (s : Dl) : Option Dl :=
  if type = 101 then (getInt 4 rest).map fun x => onStatus r x.1 s
  else if type = 103 then (getStr rest).bind fun x => onData cfg e r x.1 s
  else none

/-- sftp-client.c:1720-1812: a message from the server; `none` is `fatal` -/
def onMsg (cfg : DlCfg) (e : Ev) (m : Bytes) (s : Dl) : Option Dl :=
  match getInt 1 m with
  | none => none
  | some (type, m1) =>
    match getInt 4 m1 with
    | none => none
    | some (id, m2) =>
      match findId id s.reqs with
      | none => none
      | some r => onType cfg e type r m2 s

/-- How far the loop is. -/
inductive Out where
  | fatal
  | ended (s : Dl)
  | running (s : Dl)
  deriving DecidableEq, Repr

/-- sftp-client.c:1696-1704 -/
def interruptedDl (e : Ev) (s : Dl) : Dl :=
  if s.intr || e.intr then { s with intr := true, maxReq := 0 } else s

/-- sftp-client.c:1688-1813: the loop.  `srv k sent` is the message that comes in round `k`, when the requests `sent`
have been made. -/
def loop (cfg : DlCfg) (srv : Nat → List Rq → Bytes) (ev : Nat → Ev) : Nat → Nat → Dl → Out
  | 0, _, s => .running s
  | n + 1, k, s =>
    if s.numReq = 0 ∧ s.maxReq = 0 then .ended s
    else if (s.intr || (ev k).intr) ∧ s.numReq = 0 then .ended { s with intr := true }
    else
      match onMsg cfg (ev k) (srv k (sendMore (interruptedDl (ev k) s)).sent) (sendMore (interruptedDl (ev k) s)) with
      | none => .fatal
      | some s' => loop cfg srv ev n (k + 1) s'

/-- How a download ends. -/
inductive Res where
  | fatal
  | running
  /-- the value returned is 0 (`ok`) or -1; the local file -/
  | done (ok : Bool) (file : Bytes)
  deriving DecidableEq, Repr

/-- What happens outside at the end: ftruncate(2) works, closing the remote file works, and whether the user has
interrupted by then. -/
structure EndEv where
  truncated : Bool := true
  closed : Bool := true
  intr : Bool := false
  deriving DecidableEq, Repr

/-- sftp-client.c:1822-1825 -/
def reached (z : EndEv) (s : Dl) : Nat :=
  if !s.readErr && !s.writeErr && !(s.intr || z.intr) then s.maxack else s.highwater

/-- sftp-client.c:1831-1841 -/
def cut (cfg : DlCfg) (z : EndEv) (s : Dl) : Bytes :=
  if (cfg.inplace || s.readErr || s.writeErr || (s.intr || z.intr)) && z.truncated then truncTo s.file (reached z s) else s.file

/-- sftp-client.c:1818-1887: after the loop -/
def finishDl (cfg : DlCfg) (z : EndEv) : Out → Res
  | .fatal => .fatal
  | .running _ => .running
  | .ended s =>
    if s.reqs ≠ [] then .fatal
    else .done (!s.readErr && !s.writeErr && z.closed && !(s.intr || z.intr)) (cut cfg z s)

/-- The local file once it is open, sftp-client.c:1643-1644. -/
def opened (cfg : DlCfg) (old : Bytes) : Bytes := if cfg.resume || cfg.inplace then old else []

/-- sftp-client.c:1649-1686: the variables at the start; `old` is what the local file held -/
def startDl (cfg : DlCfg) (old : Bytes) (msgId : Nat) : Dl :=
  { offset := if cfg.resume then old.length else 0
    buflen := cfg.buflen
    msgId := msgId
    highwater := if cfg.resume then old.length else 0
    maxack := if cfg.resume then old.length else 0
    file := opened cfg old }

/-- sftp-client.c:1596-1888 `sftp_download`, of a remote file that is regular and can be opened, to a local file that can
be; `n` bounds the rounds of the loop -/
def download (cfg : DlCfg) (srv : Nat → List Rq → Bytes) (ev : Nat → Ev) (z : EndEv) (old : Bytes) (msgId n : Nat) : Res :=
  if cfg.resume && decide (old.length > cfg.size) then .done false (opened cfg old)
  else finishDl cfg z (loop cfg srv ev n 0 (startDl cfg old msgId))

/-! ### Uploading -/

/-- A `SSH2_FXP_WRITE` that was sent. -/
structure Wr where
  id : Nat
  off : Nat
  data : Bytes
  deriving DecidableEq, Repr

/-- The variables of `sftp_upload`; `left` is what read(2) has not given of the local file, `sent` and `got` are the
writes sent and the acknowledgements (number and status) so far.  (The variable `ack` is never
NULL where that is looked at.) -/
structure Up where
  id : Nat
  ackid : Nat
  acks : List Rq := []
  status : Nat := 0
  offset : Nat
  left : Bytes
  reordered : Bool := false
  highwater : Nat
  maxack : Nat := 0
  intr : Bool := false
  sent : List Wr := []
  got : List (Nat × Nat) := []
  deriving DecidableEq, Repr

structure UpCfg where
  numRequests : Nat := 64
  buflen : Nat := 32768
  startid : Nat
  resume : Bool := false
  inplace : Bool := false
  deriving DecidableEq, Repr

/-- What happens outside in a round: an interrupt, and how many bytes read(2) gives if there are that many (at least
one, if there are any). -/
structure UpEv where
  intr : Bool := false
  short : Nat := 2 ^ 31
  deriving DecidableEq, Repr

/-- sftp-client.c:2117-2122: the bytes to send -/
def chunk (cfg : UpCfg) (e : UpEv) (s : Up) : Bytes :=
  if (s.intr || e.intr) || decide (s.status ≠ FX_OK) then []
  else s.left.take (min cfg.buflen (max 1 e.short))

/-- sftp-client.c:2127-2140: sending them -/
def sendChunk (d : Bytes) (s : Up) : Up :=
  { s with
    id := (s.id + 1) % 2 ^ 32
    acks := s.acks ++ [⟨(s.id + 1) % 2 ^ 32, s.offset, d.length⟩]
    sent := s.sent ++ [⟨(s.id + 1) % 2 ^ 32, s.offset, d⟩]
    left := s.left.drop d.length }

/-- sftp-client.c:2179-2195: an acknowledgement -/
def acked (r : Rq) (code : Nat) (s : Up) : Up :=
  { s with
    status := code
    got := s.got ++ [(r.id, code)]
    acks := removeId r.id s.acks
    ackid := (s.ackid + 1) % 2 ^ 32
    maxack := if s.maxack < r.off + r.len then r.off + r.len else s.maxack
    highwater := if !s.reordered && decide (r.off ≤ s.highwater) then (if s.maxack < r.off + r.len then r.off + r.len else s.maxack)
      else s.highwater
    reordered := s.reordered || decide (r.off > s.highwater) }

/-- sftp-client.c:2148-2196: a message; `none` is `fatal` -/
def onAck (m : Bytes) (s : Up) : Option Up :=
  match getInt 1 m with
  | none => none
  | some (type, m1) =>
    match getInt 4 m1 with
    | none => none
    | some (rid, m2) =>
      if type ≠ 101 then none
      else
        match getInt 4 m2 with
        | none => none
        | some (code, _) =>
          match findId rid s.acks with
          | none => none
          | some r => some (acked r code s)

/-- sftp-client.c:2145-2147: whether to wait for an acknowledgement -/
def mustWait (cfg : UpCfg) (len : Nat) (s : Up) : Bool :=
  decide (s.id = cfg.startid) || decide (len = 0) || decide ((s.id + 2 ^ 32 - s.ackid) % 2 ^ 32 ≥ cfg.numRequests)

inductive UpOut where
  | fatal
  | ended (s : Up)
  | running (s : Up)
  deriving DecidableEq, Repr

/-- The state once a chunk has been sent, if there is one. -/
def afterSend (d : Bytes) (s : Up) : Up := if d = [] then s else sendChunk d s

def noteIntr (e : UpEv) (s : Up) : Up := { s with intr := s.intr || e.intr }

/-- sftp-client.c:2197-2199 -/
def advance (len : Nat) (s : Up) : Up := { s with offset := s.offset + len }

/-- sftp-client.c:2107-2200: the loop -/
def upLoop (cfg : UpCfg) (srv : Nat → List Wr → Bytes) (ev : Nat → UpEv) : Nat → Nat → Up → UpOut
  | 0, _, s => .running s
  | n + 1, k, s =>
    if chunk cfg (ev k) s = [] ∧ s.acks = [] then .ended (noteIntr (ev k) s)
    else if mustWait cfg (chunk cfg (ev k) s).length (afterSend (chunk cfg (ev k) s) s) then
      match onAck (srv k (afterSend (chunk cfg (ev k) s) s).sent) (afterSend (chunk cfg (ev k) s) (noteIntr (ev k) s)) with
      | none => .fatal
      | some s' => upLoop cfg srv ev n (k + 1) (advance (chunk cfg (ev k) s).length s')
    else upLoop cfg srv ev n (k + 1) (advance (chunk cfg (ev k) s).length (afterSend (chunk cfg (ev k) s) (noteIntr (ev k) s)))

/-- What happens outside at the end: both close calls work. -/
structure UpEnd where
  closedLocal : Bool := true
  closedRemote : Bool := true
  deriving DecidableEq, Repr

/-- What is to be said of an upload: the value returned, the size the remote file is cut to, the writes sent and the
acknowledgements. -/
inductive UpRes where
  | fatal
  | running
  | done (ok : Bool) (cutAt : Option Nat) (sent : List Wr) (got : List (Nat × Nat))
  deriving DecidableEq, Repr

/-- sftp-client.c:2207-2210 -/
def upReached (s : Up) : Nat := if s.status = FX_OK ∧ s.intr = false then s.maxack else s.highwater

/-- sftp-client.c:2207-2247: after the loop -/
def finishUp (cfg : UpCfg) (z : UpEnd) : UpOut → UpRes
  | .fatal => .fatal
  | .running _ => .running
  | .ended s => .done (decide (s.status = FX_OK) && z.closedLocal && z.closedRemote)
      (if cfg.inplace || (cfg.resume && (decide (s.status ≠ FX_OK) || s.intr)) then some (upReached s) else none) s.sent s.got

/-- sftp-client.c:2098-2103: the variables at the start; `msgId` is `conn->msg_id` after the open, `remote` the size of
the remote file -/
def startUp (cfg : UpCfg) (loc : Bytes) (remote msgId : Nat) : Up :=
  { id := msgId
    ackid := (msgId + 1) % 2 ^ 32
    offset := if cfg.resume then remote else 0
    left := loc.drop (if cfg.resume then remote else 0)
    highwater := if cfg.resume then remote else 0 }

/-- sftp-client.c:2031-2248 `sftp_upload`, of a regular local file to a remote file that can be opened -/
def upload (cfg : UpCfg) (srv : Nat → List Wr → Bytes) (ev : Nat → UpEv) (z : UpEnd) (loc : Bytes) (remote msgId n : Nat) : UpRes :=
  if cfg.resume && decide (remote ≥ loc.length) then .done false none [] []
  else finishUp { cfg with startid := (msgId + 1) % 2 ^ 32 } z
    (upLoop { cfg with startid := (msgId + 1) % 2 ^ 32 } srv ev n 0 (startUp cfg loc remote msgId))

/-! ### Directories -/

/-- sftp-client.c:2955-2968 `sftp_path_append` -/
def pathAppend (a b : Bytes) : Bytes :=
  if a ≠ [] ∧ a.getLast? ≠ some 47 then a ++ [47] ++ b else a ++ b

inductive Kind where
  | dir
  | reg
  | link
  | other
  deriving DecidableEq, Repr

/-- the type in the permissions of an `Attrib` -/
def kindOf (perm : Nat) : Kind :=
  if perm / 0o10000 % 16 = 4 then .dir else if perm / 0o10000 % 16 = 8 then .reg else if perm / 0o10000 % 16 = 10 then .link
  else .other

/-- sftp-client.c:775-818: the entries of one message, those with a slash dropped -/
def entries (l : List (Bytes × Nat)) : List (Bytes × Nat) := l.filter fun x => !(x.1.contains 47)

/-- What the server says: the entries of a directory (name and permissions; `none` if it cannot be read), and stat. -/
structure Remote where
  readdir : Bytes → Option (List (Bytes × Nat))
  stat : Bytes → Option Nat

/-- What is done to local files: `mkdir` (it may be there already), or opening a file to write. -/
inductive Op where
  | mkdir (path : Bytes)
  | file (path : Bytes)
  deriving DecidableEq, Repr

/-- sftp-client.c:1945-1958: the permissions after a symbolic link has been followed; `none`: skipped -/
def resolve (rem : Remote) (follow : Bool) (src : Bytes) (perm : Nat) : Option Nat :=
  if kindOf perm = .link then if follow then rem.stat src else none else some perm

/-- sftp-client.c:1890-2009 `download_dir_internal`; `n` is how many more levels there may be.  `mk` says whether
mkdir(2) lets it go on. -/
def downloadDir (rem : Remote) (mk : Bytes → Bool) (follow : Bool) : Nat → Bytes → Bytes → Nat → List Op
  | 0, _, _, _ => []
  | n + 1, src, dst, perm =>
    if kindOf perm ≠ .dir then []
    else .mkdir dst ::
      (if mk dst then
        match rem.readdir src with
        | none => []
        | some l => ((entries l).map fun x =>
          match resolve rem follow (pathAppend src x.1) x.2 with
          | none => []
          | some p =>
            if kindOf p = .dir then
              if x.1 = b!"." ∨ x.1 = b!".." then [] else downloadDir rem mk follow n (pathAppend src x.1) (pathAppend dst x.1) p
            else if kindOf p = .reg then [.file (pathAppend dst x.1)]
            else []).flatten
      else [])

end Verif.Sftp.Client
