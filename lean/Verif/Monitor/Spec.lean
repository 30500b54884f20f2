/-
What the monitor theorems say, in terms of the messages the child sends, the outside's answers and
what the monitor does and logs.
-/
import Verif.Monitor.Model
import Verif.Auth.Spec

namespace Verif.Monitor.Spec

open Wire
open Auth.Spec (Fulfils steps Usable Multi RootMay)

/-- A conversation of the child with the monitor before authentication, still going on. -/
inductive Hist (w : World) (c : Cfg) : List (Ev × Out) → St → Prop where
  | nil : Hist w c [] (init c)
  | snoc {h st} (ev : Ev) {o : Out} {st' : St} : Hist w c h st → step w c st ev = (o, st') →
      o.fate = .go → Hist w c (h ++ [(ev, o)]) st'

/-- A conversation before authentication, with the last round, however it ended. -/
def Run (w : World) (c : Cfg) (h : List (Ev × Out)) : Prop :=
  ∃ h0 st ev, Hist w c h0 st ∧ h = h0 ++ [(ev, (step w c st ev).1)]

/-- A conversation that went on after authentication; `h` is the part before, `p` the part after. -/
inductive Post (w : World) (c : Cfg) : List (Ev × Out) → List (Ev × Out) → St → Prop where
  | start {h st} (ev : Ev) {o : Out} {st' s : St} : Hist w c h st → step w c st ev = (o, st') →
      o.fate = .accepted → postInit st' = some s → Post w c (h ++ [(ev, o)]) [] s
  | snoc {h p st} (ev : Ev) {o : Out} {st' : St} : Post w c h p st → stepPost w st ev = (o, st') →
      o.fate = .go → Post w c h (p ++ [(ev, o)]) st'

/-- What the monitor did for the child, in order. -/
def acts (h : List (Ev × Out)) : List Act := h.filterMap fun x => x.2.act

/-- The request an action answers. -/
def kind : Act → Req
  | .state => .state | .moduli => .moduli | .banner => .banner | .pamStart => .pamStart
  | .pamAccount _ => .pamAccount | .sign .. => .sign | .pwnam _ => .pwnam
  | .authserv _ => .authserv | .password .. => .authpassword | .keyAllowed .. => .keyallowed
  | .keyVerify .. => .keyverify | .pamInit _ => .pamInit | .pamQuery _ => .pamQuery
  | .pamRespond _ => .pamRespond | .pamFree _ => .pamFree | .pty => .pty | .ptycleanup => .ptycleanup

def Served (r : Req) (as : List Act) : Prop := ∃ a ∈ as, kind a = r

/-- The latest answer to one of these requests. -/
def last (rs : List Req) (as : List Act) : Option Act := (as.filter fun a => decide (kind a ∈ rs)).getLast?

/-- A PAM conversation has been opened and not closed. -/
def Talking (as : List Act) : Prop := last [.pamInit, .pamFree] as = some (.pamInit true)

/-- **Which requests may be answered after what has been answered so far.** -/
def May (c : Cfg) (as : List Act) : Req → Prop
  | .state => ¬ Served .state as
  | .moduli => ¬ Served .moduli as
  | .sign => ¬ Served .sign as
  | .pwnam => Served .sign as ∧ ¬ Served .pwnam as
  | .authserv => Served .pwnam as ∧ ¬ Served .authserv as
  | .banner => Served .pwnam as ∧ ¬ Served .banner as
  | .pamStart => c.auth.usePam = true ∧ Served .pwnam as ∧ ¬ Served .pamStart as
  | .authpassword => Served .authserv as ∧ c.auth.enabled b!"password" = true
  | .keyallowed => Served .authserv as
  | .keyverify => Served .authserv as ∧
      ∃ u k cu ch, last [.keyallowed, .keyverify] as = some (.keyAllowed u k cu ch true)
  | .pamAccount => Served .pamStart as
  | .pamInit => c.auth.enabled b!"keyboard-interactive" = true ∧
      (last [.pamStart, .pamInit, .pamFree] as = some .pamStart ∨
        ∃ b, last [.pamStart, .pamInit, .pamFree] as = some (.pamFree b))
  | .pamQuery => Talking as
  | .pamRespond => Talking as ∧ ∃ b, last [.pamQuery, .pamRespond] as = some (.pamQuery b)
  | .pamFree => Talking as
  | .pty | .ptycleanup | .term => False

/-- The action says that the user has proved who they are. -/
def yes : Act → Bool
  | .password _ ok => ok
  | .keyVerify _ _ _ _ ok => ok
  | .pamFree ok => ok
  | _ => false

/-- The proofs given, by the method names the monitor logs. -/
def wins (h : List (Ev × Out)) : List (Bytes × Option Bytes) :=
  h.filterMap fun x =>
    match x.2.act, x.2.log with
    | some a, some l => if yes a then some (l.method, l.sub) else none
    | _, _ => none

/-- How often a failed attempt was logged. -/
def failed (h : List (Ev × Out)) : Nat :=
  h.countP fun x => match x.2.log with
    | some l => decide (l.verdict = .failed)
    | none => false

/-- One more round: the options of the key the child has been told it may use, and the options of
the user keys with which signatures were made. -/
def grantStep (g : Option KeyOpts.Opts × List KeyOpts.Opts) (x : Ev × Out) :
    Option KeyOpts.Opts × List KeyOpts.Opts :=
  match x.2.act with
  | some (.keyAllowed true _ _ _ true) => (x.1.ans.userKey, g.2)
  | some (.keyAllowed ..) => (none, g.2)
  | some (.keyVerify _ _ _ _ true) => (none, g.2 ++ g.1.toList)
  | some (.keyVerify ..) => (none, g.2)
  | _ => g

def grants (h : List (Ev × Out)) : Option KeyOpts.Opts × List KeyOpts.Opts := h.foldl grantStep (none, [])

/-- The options of all user keys that were accepted. -/
def granted (h : List (Ev × Out)) : List KeyOpts.Opts := (grants h).2

/-- The user name as it must appear in a signed request. -/
def fullName (user style : Bytes) : Bytes := if style = [] then user else user ++ b!":" ++ style

/-- The session identifier at the front of signed data: a string, or its bare bytes for clients that
leave out the length. -/
def sidPart (c : Cfg) (sid : Bytes) : Bytes := if c.oldSid then sid else str sid

/-- How a name may be written: as it is, or with one NUL byte at the end. -/
def Text (v s : Bytes) : Prop := v = s ∨ v = s ++ [0]

/-- **Data is a public key authentication request** (RFC 4252 section 7, and its host bound variant)
for this session and this user. -/
def UserRequest (w : World) (c : Cfg) (sid name d : Bytes) : Prop :=
  ∃ user service method alg key : Bytes, ∃ flag : Nat, Text user name ∧ flag ≠ 0 ∧ flag < 256 ∧
    ((Text method b!"publickey" ∧
      d = sidPart c sid ++ be 1 50 ++ str user ++ str service ++ str method ++ be 1 flag ++
          str alg ++ str key) ∨
     ∃ host k i, Text method b!"publickey-hostbound-v00@openssh.com" ∧
       w.parse host = some k ∧ w.hostIndex k = some i ∧
       d = sidPart c sid ++ be 1 50 ++ str user ++ str service ++ str method ++ be 1 flag ++
          str alg ++ str key ++ str host)

/-- **Data is a host based authentication request** (RFC 4252 section 9) for this session, this user,
this client host (perhaps with a dot at the end) and this client user. -/
def HostRequest (sid name cuser chost d : Bytes) : Prop :=
  ∃ user service method alg key host ruser : Bytes, Text user name ∧ Text method b!"hostbased" ∧
    (Text host chost ∨ Text host (chost ++ b!".")) ∧ Text ruser cuser ∧
    d = str sid ++ be 1 50 ++ str user ++ str service ++ str method ++
          str alg ++ str key ++ str host ++ str ruser

/-- The first thing a host key signed: the session identifier. -/
def SessionId (as : List Act) (sid : Bytes) : Prop :=
  ∃ k rest, as.filter (fun a => decide (kind a = .sign)) = .sign k sid :: rest

/-- Data a host key may sign: an exchange hash (20, 32, 48 or 64 bytes) or the proof that this host
key is in use in this session. -/
def Signable (w : World) (as : List Act) (k : Nat) (d : Bytes) : Prop :=
  d.length = 20 ∨ d.length = 32 ∨ d.length = 48 ∨ d.length = 64 ∨
    ∃ sid pub, SessionId as sid ∧ w.hostPublic k = some pub ∧
      d = str b!"hostkeys-prove-00@openssh.com" ++ str sid ++ str pub

end Verif.Monitor.Spec
