/-
Model of showing text that comes from elsewhere: `vis` and `strnvis` (openbsd-compat/vis.c) as used for log messages (log.c), and
the formatted output of utf8.c.
-/
import Verif.Base

namespace Verif.Show
open Verif

/-! ### vis -/

/-- openbsd-compat/vis.h:49-68: the flags -/
structure Flags where
  octal : Bool := false
  cstyle : Bool := false
  sp : Bool := false
  tab : Bool := false
  nl : Bool := false
  safe : Bool := false
  dq : Bool := false
  all : Bool := false
  noslash : Bool := false
  glob : Bool := false

/-- log.c:70 `LOG_SYSLOG_VIS` -/
def logFlags : Flags := { cstyle := true, nl := true, tab := true, octal := true }

/-- log.c:71 `LOG_STDERR_VIS` -/
def stderrFlags : Flags := { safe := true, octal := true }

/-- utf8.c: `VIS_OCTAL | VIS_ALL` -/
def escFlags : Flags := { octal := true, all := true }

/-- `isgraph` of the C locale -/
def graph (c : UInt8) : Bool := 33 ≤ c ∧ c ≤ 126

def magic (c : UInt8) : Bool := c = 42 ∨ c = 63 ∨ c = 91 ∨ c = 35

/-- openbsd-compat/vis.c:46-56 `isvisible`; a byte above 127 is a negative character, and neither ASCII nor graphic -/
def visible (F : Flags) (c : UInt8) : Bool :=
  (c = 92 ∨ F.all = false) ∧
  ((c < 128 ∧ (magic c = false ∨ F.glob = false) ∧ graph c = true) ∨ (F.sp = false ∧ c = 32) ∨ (F.tab = false ∧ c = 9) ∨
    (F.nl = false ∧ c = 10) ∨ (F.safe = true ∧ (c = 8 ∨ c = 7 ∨ c = 13 ∨ graph c = true)))

/-- openbsd-compat/vis.c:64-70: a visible character -/
def plain (F : Flags) (c : UInt8) : Bytes :=
  if (c = 34 ∧ F.dq = true) ∨ (c = 92 ∧ F.noslash = false) then [92, c] else [c]

/-- openbsd-compat/vis.c:72-115: the style of C; `next` is the byte after -/
def cStyle (c next : UInt8) : Option Bytes :=
  if c = 10 then some b!"\\n"
  else if c = 13 then some b!"\\r"
  else if c = 8 then some b!"\\b"
  else if c = 7 then some b!"\\a"
  else if c = 11 then some b!"\\v"
  else if c = 9 then some b!"\\t"
  else if c = 12 then some b!"\\f"
  else if c = 32 then some b!"\\s"
  else if c = 0 then some (if 48 ≤ next ∧ next ≤ 55 then b!"\\000" else b!"\\0")
  else none

/-- openbsd-compat/vis.c:118-121 -/
def octal (c : UInt8) : Bytes := [92, (c >>> 6 &&& 7) + 48, (c >>> 3 &&& 7) + 48, (c &&& 7) + 48]

/-- `iscntrl` for bytes below 128 -/
def cntrl (c : UInt8) : Bool := c < 32 ∨ c = 127

/-- openbsd-compat/vis.c:116-140: the other styles -/
def other (F : Flags) (c : UInt8) : Bytes :=
  if c &&& 127 = 32 ∨ F.octal = true ∨ (F.glob = true ∧ magic c = true) then octal c
  else (if F.noslash then [] else [92]) ++ (if c &&& 128 ≠ 0 then [77] else []) ++
    (if cntrl (c &&& 127) then [94, if c &&& 127 = 127 then 63 else (c &&& 127) + 64] else [45, c &&& 127])

/-- openbsd-compat/vis.c:61-144 `vis` -/
def vis (F : Flags) (c next : UInt8) : Bytes :=
  if visible F c then plain F c
  else if F.cstyle then (cStyle c next).getD (other F c)
  else other F c

/-- openbsd-compat/vis.c:180-206: the loop of `strnvis`; `out` is what has been written and `i` the length of the last piece.
The result: what has been written, the last length, and the text left. -/
def strnvisLoop (F : Flags) (siz : Nat) : Bytes → Bytes → Nat → Bytes × Nat × Bytes
  | [], out, i => (out, i, [])
  | c :: l, out, i =>
    if out.length + 1 ≥ siz then (out, i, c :: l)
    else if visible F c then
      if (plain F c).length = 2 ∧ out.length + 2 ≥ siz then (out, 2, c :: l)
      else strnvisLoop F siz l (out ++ plain F c) 1
    else if out.length + (vis F c (l.headD 0)).length + 1 ≤ siz then
      strnvisLoop F siz l (out ++ vis F c (l.headD 0)) (vis F c (l.headD 0)).length
    else (out, (vis F c (l.headD 0)).length, c :: l)

/-- openbsd-compat/vis.c:209-212: the length of what is left -/
def restLen (F : Flags) : Bytes → Nat
  | [] => 0
  | c :: l => (vis F c (l.headD 0)).length + restLen F l

/-- openbsd-compat/vis.c:173-214 `strnvis` into a buffer of `siz` bytes: the string written and the result.  With `siz` 0 nothing
is written, not even the NUL. -/
def strnvis (F : Flags) (src : Bytes) (siz : Nat) : Bytes × Nat :=
  ((strnvisLoop F siz src [] 0).1, (strnvisLoop F siz src [] 0).1.length +
    (if (strnvisLoop F siz src [] 0).1.length + (strnvisLoop F siz src [] 0).2.1 + 1 > siz
     then restLen F (strnvisLoop F siz src [] 0).2.2 else 0))

/-- log.c:338-426 `do_log` from the text of the message on: what the system's log is handed, with `%.500s` -/
def syslogText (msg : Bytes) : Bytes := (strnvis logFlags (msg.take 1023) 1024).1.take 500

/-- log.c:338-426 `do_log`: what is written to the standard error output, here without the name of the program -/
def stderrText (msg : Bytes) : Bytes := (strnvis stderrFlags (msg.take 1023) 1024).1.take 1021 ++ b!"\r\n"

/-! ### utf8.c -/

/-- What the C library knows of the locale. -/
structure Locale where
  /-- `mbtowc`: length and value of the character in front -/
  decode : Bytes → Option (Nat × Nat)
  /-- `wcwidth`; `none` is -1 -/
  width : Nat → Option Nat
  /-- utf8.c:59-70 `dangerous_locale` -/
  dangerous : Bool

structure St where
  out : Bytes
  /-- bytes allocated -/
  sz : Nat
  width : Int
  print : Bool
  /-- the result; `int` arithmetic does not overflow -/
  ret : Nat
  deriving DecidableEq, Repr

inductive R (α : Type) where
  | ok (x : α)
  /-- the text is given up: -1 -/
  | stop
  /-- a write beyond the memory allocated -/
  | overrun
  deriving DecidableEq, Repr

/-- utf8.c:72-89 `grow_dst`; memory can always be had -/
def grow (sz maxsz used need : Nat) : Nat := if used + need < sz then sz else min (sz + 128) maxsz

/-- utf8.c:160-178 and 184-199: a piece that needs `room` bytes, written with `extra` more bytes behind it (the NUL of `vis`),
of width `w`; `count` is what the result grows by -/
def put (maxsz : Nat) (maxw : Int) (st : St) (piece : Bytes) (room extra : Nat) (w : Int) (skip : Nat) : R St :=
  if st.print = true ∧ ¬ ((st.out.length : Int) ≥ (maxsz : Int) - (room : Int) ∨ st.width > maxw - (if extra = 0 then w else 4)) then
    if st.out.length + piece.length + extra > grow st.sz maxsz st.out.length room then .overrun
    else .ok { out := st.out ++ piece, sz := grow st.sz maxsz st.out.length room, width := st.width + w, print := true,
               ret := st.ret + piece.length }
  else .ok { st with print := false, ret := st.ret + skip }

/-- utf8.c:183-205: bytes that cannot be shown -/
def escape (maxsz : Nat) (maxw : Int) : Bytes → St → R St
  | [], st => .ok st
  | c :: l, st =>
    match put maxsz maxw st (vis escFlags c 0) 4 1 (vis escFlags c 0).length 4 with
    | .ok st => escape maxsz maxw l st
    | e => e

/-- utf8.c:131-156: how many bytes the next character has and its width, `none` if it is to be escaped; or the text is given up -/
def classify (L : Locale) (wp : Bool) (src : Bytes) : Option (Nat × Option Nat) :=
  match L.decode src with
  | none => if L.dangerous then none else some (1, none)
  | some (len, wc) =>
    if wp = false ∧ (wc = 10 ∨ wc = 13 ∨ wc = 9) then some (len, some 0)
    else if L.width wc = none ∧ L.dangerous = true then none
    else some (len, L.width wc)

/-- utf8.c:130-208: the loop -/
def loop (L : Locale) (wp : Bool) (maxsz : Nat) (maxw : Int) : Nat → Bytes → St → R St
  | 0, _, st => .ok st
  | fuel + 1, src, st =>
    if src = [] then .ok st
    else
      match classify L wp src with
      | none => .stop
      | some (len, some w) =>
        match put maxsz maxw st (src.take len) len 0 w len with
        | .ok st => loop L wp maxsz maxw fuel (src.drop len) st
        | e => e
      | some (len, none) =>
        match escape maxsz maxw (src.take len) st with
        | .ok st => loop L wp maxsz maxw fuel (src.drop len) st
        | e => e

/-- What `vasnmprintf` gives: the string, the result (`none` is -1), the width. -/
structure Out where
  text : Bytes
  ret : Option Nat
  width : Int
  deriving DecidableEq, Repr

/-- utf8.c:103-237 `vasnmprintf` of the text formatted; `wp` is the limit of the width if there is one.  When the text is given
up the result is -1, and the string is not of interest. -/
def show_ (L : Locale) (maxsz : Nat) (wp : Option Int) (src : Bytes) : R Out :=
  if src = [] then .ok ⟨[], some 0, 0⟩
  else
    match loop L wp.isSome (min maxsz 2147483647) (wp.getD 2147483647) src.length src ⟨[], src.length + 1, 0, true, 0⟩ with
    | .ok st =>
      if st.out.length ≥ st.sz then .overrun
      else .ok ⟨st.out, if st.ret < min maxsz 2147483647 ∧ st.print = false then none else some st.ret, st.width⟩
    | .stop => .stop
    | .overrun => .overrun

/-- utf8.c:276-290 `vfmprintf`: what is printed -/
def printed (L : Locale) (src : Bytes) : R Bytes :=
  match show_ L 2147483647 none src with
  | .ok o => .ok (if o.ret = none then [] else o.text)
  | .stop => .ok []
  | .overrun => .overrun

/-- utf8.c:239-255 `snmprintf` into a buffer of `sz` bytes (at least one): the string and the result -/
def snm (L : Locale) (sz : Nat) (wp : Option Int) (src : Bytes) : R Out :=
  match show_ L sz wp src with
  | .ok o => .ok { o with text := o.text.take (sz - 1) }
  | e => e

end Verif.Show
