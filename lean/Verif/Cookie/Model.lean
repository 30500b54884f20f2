/-
The client's side of X11 forwarding: where the cookie of the display comes from, and what is told to the server instead: clientloop.c and channels.c.

Simplified: memory is never short; logging is left out; strings are lists of bytes without NUL; letters and digits are those of ASCII. The xauth program
is a parameter: whether a command succeeds and the first line it prints (511 bytes at most). Random bytes are parameters. Reading two hexadecimal digits
with `sscanf` is a parameter.
-/
import Verif.Dyn.Model
import Verif.Dns.Model
import Verif.Num
import Verif.Wire
import Verif.Scp.Model

namespace Verif.Cookie
open Verif
open _root_.Verif.Wire (str be)
open _root_.Verif.Dyn (Saved)
open _root_.Verif.Dns (hex)
open _root_.Verif.Scp (dec)

/-! ### The cookie of the display -/

/-- Outside: the configured path of xauth, whether it is there, the directory made by `mkdtemp`, the commands, 16 random bytes, the time -/
structure Xauth where
  path : Option Bytes
  there : Bool
  dir : Option Bytes
  gen : Bytes → Bool
  list : Bytes → Option Bytes
  rnd : Bytes
  now : Nat

def isAlnum (c : UInt8) : Bool := decide (48 ≤ c ∧ c ≤ 57 ∨ 65 ≤ c ∧ c ≤ 90 ∨ 97 ≤ c ∧ c ≤ 122)

/-- clientloop.c:267-284 `client_x11_display_valid`, of a name that is there -/
def displayValid (d : Bytes) : Bool := d.all fun c => isAlnum c || decide (c ∈ b!":/.-_")

/-- clientloop.c:326-334: the name that is used with xauth -/
def xdisplay (d : Bytes) : Option Bytes :=
  if d.take 10 = b!"localhost:" then if (b!"unix:" ++ d.drop 10).length ≥ 512 then none else some (b!"unix:" ++ d.drop 10) else some d

/-- clientloop.c:362-370 `x11_timeout_real` -/
def lifetime (timeout : Nat) : Nat := if timeout < 4294967295 - 60 then timeout + 60 else 4294967295

/-- clientloop.c:354-375 -/
def genCmd (path file disp : Bytes) (timeout : Nat) : Bytes :=
  path ++ b!" -f " ++ file ++ b!" generate " ++ disp ++ b!" MIT-MAGIC-COOKIE-1 untrusted" ++
    (if timeout = 0 then [] else b!" timeout " ++ dec (lifetime timeout)) ++ b!" 2>/dev/null"

/-- clientloop.c:398-403 -/
def listCmd (path : Bytes) (file : Option Bytes) (disp : Bytes) : Bytes :=
  path ++ b!" " ++ (file.elim [] fun f => b!"-f " ++ f) ++ b!" list " ++ disp ++ b!" 2>/dev/null"

/-- SSH_TIME_T_MAX -/
def timeMax : Nat := 9223372036854775807

/-- clientloop.c:378-386; `now` and `timeout` are 32 bits wide -/
def refuseTime (old now timeout : Nat) : Nat :=
  if timeout ≠ 0 ∧ old = 0 then
    if timeMax - timeout < (now + 1) % 4294967296 then timeMax else ((now + 1) % 4294967296 + timeout) % 4294967296
  else old

def isSpace (c : UInt8) : Bool := decide (c = 32 ∨ 9 ≤ c ∧ c ≤ 13)

/-- `%511s` -/
def token (l : Bytes) : Option (Bytes × Bytes) :=
  if ((l.dropWhile isSpace).takeWhile (fun c => !isSpace c)).take 511 = [] then none
  else some (((l.dropWhile isSpace).takeWhile (fun c => !isSpace c)).take 511,
    (l.dropWhile isSpace).drop (((l.dropWhile isSpace).takeWhile (fun c => !isSpace c)).take 511).length)

/-- clientloop.c:407 `sscanf(line, "%*s %511s %511s")`; a line is too short for the limit to matter to the first word -/
def scan (line : Bytes) : Option (Bytes × Bytes) :=
  match token line with
  | none => none
  | some (_, r) =>
    match token r with
    | none => none
    | some (proto, r) => (token r).map fun x => (proto, x.1)

/-- The cookie, if there is one, the time from which on X11 is refused (0: never), and the commands that were run -/
structure Out where
  cookie : Option (Bytes × Bytes)
  refuse : Nat
  cmds : List Bytes
  deriving DecidableEq

/-- clientloop.c:415-450: the end -/
def finish (x : Xauth) (trusted : Bool) (line : Option Bytes) (refuse : Nat) (cmds : List Bytes) : Out :=
  match line.bind scan with
  | some c => ⟨some c, refuse, cmds⟩
  | none => if trusted then ⟨some (b!"MIT-MAGIC-COOKIE-1", hex x.rnd), refuse, cmds⟩ else ⟨none, refuse, cmds⟩

/-- clientloop.c:335-412 with xauth at `path` -/
def withXauth (x : Xauth) (path disp : Bytes) (trusted : Bool) (timeout refuse : Nat) : Out :=
  if trusted then finish x true (x.list (listCmd path none disp)) refuse [listCmd path none disp]
  else match x.dir with
    | none => ⟨none, refuse, []⟩
    | some dir =>
      if (dir ++ b!"/xauthfile").length ≥ 4096 then ⟨none, refuse, []⟩
      else if x.gen (genCmd path (dir ++ b!"/xauthfile") disp timeout) then
        finish x false (x.list (listCmd path (some (dir ++ b!"/xauthfile")) disp)) (refuseTime refuse x.now timeout)
          [genCmd path (dir ++ b!"/xauthfile") disp timeout, listCmd path (some (dir ++ b!"/xauthfile")) disp]
      else finish x false none (refuseTime refuse x.now timeout) [genCmd path (dir ++ b!"/xauthfile") disp timeout]

/-- clientloop.c:288-450 `client_x11_get_proto` -/
def getProto (x : Xauth) (display : Option Bytes) (trusted : Bool) (timeout refuse : Nat) : Out :=
  match display with
  | none => ⟨none, refuse, []⟩
  | some d =>
    if displayValid d = false then ⟨none, refuse, []⟩
    else match (if x.there then x.path else none) with
      | none => finish x trusted none refuse []
      | some path =>
        match xdisplay d with
        | none => ⟨none, refuse, []⟩
        | some disp => withXauth x path disp trusted timeout refuse

/-! ### What the server is told -/

/-- Outside: `sscanf(s, "%2x", &value)`, and random bytes -/
structure World where
  scan2 : Bytes → Option Nat
  rand : Nat → Bytes

/-- `x11_saved_display`, and `x11_saved_proto`, `x11_saved_data`, `x11_fake_data` -/
structure St where
  display : Option Bytes
  saved : Option Saved
  deriving DecidableEq

def fresh : St := ⟨none, none⟩

/-- What comes of it: nothing since another display is forwarded, the program ends, memory is read that is not the cookie's, or a message is sent -/
inductive Res where
  | refused | fatal | overread
  | sent (m : Bytes)
  deriving DecidableEq

/-- channels.c:5313-5319: `n` bytes -/
def realBytes (w : World) : Nat → Bytes → Option Bytes
  | 0, _ => some []
  | n + 1, data => (w.scan2 data).bind fun v => (realBytes w n (data.drop 2)).map (UInt8.ofNat v :: ·)

/-- misc.c:1553-1570 `tohex` -/
def tohex (l : Bytes) : Bytes := if l.length > 65536 then b!"tohex: length > 65536" else hex l

/-- channels.c:5299-5305: the number of the screen; `strtonum` is 0 where there is no number up to 400 -/
def screen (disp : Bytes) : Nat :=
  if (disp.dropWhile (· ≠ 58)).dropWhile (· ≠ 46) = [] then 0
  else ((Num.strtonum (((disp.dropWhile (· ≠ 58)).dropWhile (· ≠ 46)).drop 1) 0 400).getD 0).toNat

/-- channels.c:5333-5336: the message, from after the head of the request on -/
def message (disp proto cookie : Bytes) : Bytes := [0] ++ (str proto ++ (str (tohex cookie) ++ be 4 (screen disp)))

/-- One call -/
structure Req where
  disp : Bytes
  proto : Bytes
  data : Bytes

/-- channels.c:5280-5341 `x11_request_forwarding_with_spoofing` -/
def request (w : World) (s : St) (r : Req) : St × Res :=
  if s.display ≠ none ∧ s.display ≠ some r.disp then (s, .refused)
  else match s.saved with
    | some v =>
      if r.data.length / 2 ≤ v.fake.length then (⟨some r.disp, some v⟩, .sent (message r.disp r.proto (v.fake.take (r.data.length / 2))))
      else (⟨some r.disp, some v⟩, .overread)
    | none =>
      match realBytes w (r.data.length / 2) r.data with
      | none => (⟨some r.disp, none⟩, .fatal)
      | some real =>
        (⟨some r.disp, some ⟨r.proto, real, w.rand (r.data.length / 2)⟩⟩, .sent (message r.disp r.proto (w.rand (r.data.length / 2))))

/-- All sessions of a connection; it ends where the program ends. -/
def run (w : World) : St → List Req → St × List Res
  | s, [] => (s, [])
  | s, r :: l =>
    match request w s r with
    | (s', .fatal) => (s', [.fatal])
    | (s', .overread) => (s', [.overread])
    | (s', x) => ((run w s' l).1, x :: (run w s' l).2)

end Verif.Cookie
