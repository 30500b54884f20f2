/-
The receiving side of scp's old protocol (scp.c, `sink`) and the expansion of the requested name.
-/
import Verif.Num

namespace Verif.Scp
open Verif Verif.Num

/-- What `stat` says. -/
inductive Kind where
  | missing | dir | reg | other
  deriving Repr, DecidableEq

/-- Modification and access time, seconds and microseconds. -/
structure Times where
  mtime : Nat × Int
  atime : Nat × Int
  deriving Repr, DecidableEq

/-- System calls with an effect, as attempted, and what is sent to the peer. -/
inductive Event where
  | mkdir (p : Bytes) (mode : Nat)
  | chmod (p : Bytes) (mode : Nat)
  | utimes (p : Bytes) (t : Times)
  | open_ (p : Bytes) (mode : Nat)
  /-- to the file opened last -/
  | write (d : Bytes)
  | truncate (n : Nat)
  | fchmod (mode : Nat)
  | close
  /-- a zero byte to the peer -/
  | ack
  /-- an error message to the peer (its text is not modelled) -/
  | complain
  deriving Repr, DecidableEq

/-- The system: its answers may depend on everything that happened before. -/
structure Env where
  stat : List Event → Bytes → Kind
  /-- whether the last call of the list succeeded -/
  ok : List Event → Bool
  /-- scp.c:2227-2249 `allocbuf`: the buffer size, or none if it fails -/
  alloc : List Event → Option Nat
  fnmatch : Bytes → Bytes → Bool

structure Conf where
  /-- `-p` -/
  pflag : Bool := false
  /-- `-r` -/
  recursive : Bool := false
  /-- `-d` -/
  wantDir : Bool := false
  /-- the umask -/
  mask : Nat := 0o022
  /-- the expanded request (scp.c:1698-1705); empty when there is no restriction -/
  patterns : List Bytes := []

structure St where
  /-- what the peer has still to say -/
  inp : Bytes
  tr : List Event := []
  errs : Nat := 0
  deriving Repr, DecidableEq

def St.emit (s : St) (e : Event) : St := { s with tr := s.tr ++ [e] }
/-- scp.c:2126-2149 `run_err` -/
def St.complain (s : St) : St := { s with tr := s.tr ++ [.complain], errs := s.errs + 1 }

/-- How a function ends: it returns, or the program exits. -/
inductive Res where
  | ret (s : St)
  | exit (s : St)
  deriving Repr, DecidableEq

def Res.st : Res → St
  | .ret s => s
  | .exit s => s

/-- scp.c:1713-1718: up to `n` further characters, ending with a newline; none if the connection ends. -/
def lineRest : Nat → Bytes → Option (Bytes × Bytes)
  | 0, inp => some ([], inp)
  | _ + 1, [] => none
  | n + 1, c :: r => if c = 10 then some ([c], r) else (lineRest n r).map fun x => (c :: x.1, x.2)

/-- scp.c:1719, 1738-1739: the C string in `buf`, without the newline. -/
def textOf (l : Bytes) : Bytes := (if l.getLast? = some 10 then l.dropLast else l).takeWhile (· ≠ 0)

/-- A control record. -/
inductive Rec where
  /-- anything that ends in `run_err` and `exit(1)` -/
  | bad
  /-- a `T` record; none if a time is out of range -/
  | times (t : Option Times)
  /-- a `C` or `D` record -/
  | entry (isDir : Bool) (mode size : Nat) (name : Bytes)
  deriving Repr, DecidableEq

/-- `isdigit(*cp)` and `strtoull(cp, &cp, 10)`.  The value is not saturated: saturated values are out of range for all
callers. -/
def digits (s : Bytes) : Option (Nat × Bytes) :=
  match spanDigits s with
  | ([], _) => none
  | (ds, r) => some (digitsVal 0 ds, r)

/-- `*cp++ != ' '` -/
def blank : Bytes → Option Bytes
  | c :: r => if c = 32 then some r else none
  | [] => none

/-- `strtol(cp, &cp, 10)`; without digits the value is 0 and `cp` stays. -/
def strtol (s : Bytes) : Int × Bytes := (strtoll s).getD (0, s)

/-- scp.c:1743-1767 -/
def parseTimes (s : Bytes) : Rec :=
  match digits s with
  | none => .bad
  | some (msec, s) =>
    match blank s with
    | none => .bad
    | some s =>
      match blank (strtol s).2 with
      | none => .bad
      | some s' =>
        if (strtol s).1 < 0 ∨ (strtol s).1 > 999999 then .bad
        else match digits s' with
          | none => .bad
          | some (asec, s'') =>
            match blank s'' with
            | none => .bad
            | some s'' =>
              if (strtol s'').2 ≠ [] then .bad
              else if (strtol s'').1 < 0 ∨ (strtol s'').1 > 999999 then .bad
              else if msec > 9223372036854775807 ∨ asec > 9223372036854775807 then .times none
              else .times (some ⟨(msec, (strtol s).1), (asec, (strtol s'').1)⟩)

/-- scp.c:1786-1791: four octal digits. -/
def parseMode : Nat → Nat → Bytes → Option (Nat × Bytes)
  | 0, acc, s => some (acc, s)
  | _ + 1, _, [] => none
  | n + 1, acc, c :: r => if c < 48 || c > 55 then none else parseMode n (acc * 8 + (c.toNat - 48)) r

/-- scp.c:1806-1810: the names refused. -/
def badName (n : Bytes) : Bool := n = [] || n.contains 47 || n = [46] || n = [46, 46]

/-- scp.c:1785-1810 -/
def parseEntry (isDir : Bool) (s : Bytes) : Rec :=
  match parseMode 4 0 s with
  | none => .bad
  | some (mode, s) =>
    match blank s with
    | none => .bad
    | some s =>
      match digits s with
      | none => .bad
      | some (size, s) =>
        match blank s with
        | none => .bad
        | some name =>
          if size > 9223372036854775807 then .bad
          else if badName name then .bad
          else .entry isDir mode size name

/-- scp.c:1741-1810 -/
def parseRec : Bytes → Rec
  | c :: r => if c = 84 then parseTimes r else if c = 67 then parseEntry false r else if c = 68 then parseEntry true r else .bad
  | [] => .bad

/-- scp.c:1811-1828 -/
def wanted (C : Conf) (E : Env) (name : Bytes) : Bool :=
  C.patterns = [] || C.patterns.any fun p => p = name || E.fnmatch p name

/-- The variables of one invocation of `sink`. -/
structure Frame where
  targ : Bytes
  isDir : Bool
  times : Option Times := none

/-- scp.c:1829-1845: the path. -/
def pathOf (f : Frame) (name : Bytes) : Bytes :=
  if f.isDir then f.targ ++ (if f.targ = [47] then [] else [47]) ++ name else f.targ

/-- scp.c:1685-1697: the start; none if the target should be a directory and is not. -/
def enter (C : Conf) (E : Env) (targ : Bytes) (s : St) : Option (Frame × St) :=
  if C.wantDir && E.stat s.tr targ ≠ .dir then none
  else some ({ targ := targ, isDir := E.stat (s.tr ++ [.ack]) targ = .dir }, s.emit .ack)

/-- `mode &= ~mask` -/
def masked (C : Conf) (mode : Nat) : Nat := mode ^^^ (mode &&& C.mask)

/-- scp.c:1792-1793 -/
def modeOf (C : Conf) (mode : Nat) : Nat := if C.pflag then mode else masked C mode

/-- scp.c:1848-1865: making the directory; the flag is `mod_flag`, none stands for `goto bad`. -/
def makeDir (C : Conf) (E : Env) (np : Bytes) (mode : Nat) (s : St) : St × Option Bool :=
  match E.stat s.tr np with
  | .dir => (if C.pflag then s.emit (.chmod np mode) else s, some C.pflag)
  | .missing => (s.emit (.mkdir np (mode ||| 0o700)), if E.ok (s.emit (.mkdir np (mode ||| 0o700))).tr then some true else none)
  | _ => (s, none)

/-- scp.c:1868-1873: after the directory's contents. -/
def leaveDir (np : Bytes) (mode : Nat) (times : Option Times) (modFlag : Bool) (s : St) : St :=
  if modFlag then (times.elim s fun t => s.emit (.utimes np t)).emit (.chmod np mode) else times.elim s fun t => s.emit (.utimes np t)

/-- scp.c:1900-1934: how the copy loop ends. -/
inductive Copied where
  | lost (s : St)
  | done (s : St) (wrerr : Bool)

/-- scp.c:1917-1928 and 1935-1939: a full or a last buffer is written unless an error occurred before. -/
def put (E : Env) (d : Bytes) (s : St) (wrerr : Bool) : St × Bool :=
  if wrerr then (s, true)
  else if E.ok (s.emit (.write d)).tr then (s.emit (.write d), false)
  else ({ s.emit (.write d) with errs := s.errs + 1 }, true)

/-- scp.c:1900-1939: the loop; `rem` is what is still to come. -/
def copy (E : Env) (cnt : Nat) : Nat → Nat → St → Bool → Copied
  | 0, _, s, w => .done s w
  | fuel + 1, rem, s, w =>
    if rem = 0 then .done s w
    else if s.inp.length < min cnt rem then .lost { s with inp := [] }
    else copy E cnt fuel (rem - min cnt rem)
      { (put E (s.inp.take (min cnt rem)) s w).1 with inp := s.inp.drop (min cnt rem) }
      (put E (s.inp.take (min cnt rem)) s w).2

/-- An attempt whose failure is noted. -/
def attempt (E : Env) (e : Event) (x : St × Bool) : St × Bool :=
  if E.ok (x.1.emit e).tr then (x.1.emit e, x.2) else ({ x.1.emit e with errs := x.1.errs + 1 }, true)

/-- scp.c:1940-1942 -/
def truncate (E : Env) (size : Nat) (before : Kind) (w : Bool) (x : St × Bool) : St × Bool :=
  if !w && (before = .missing || before = .reg) then attempt E (.truncate size) x else x

/-- scp.c:1943-1966 -/
def setMode (C : Conf) (E : Env) (mode : Nat) (before : Kind) (x : St × Bool) : St × Bool :=
  if C.pflag then
    if before ≠ .missing || mode ≠ mode ||| 0o200 then attempt E (.fchmod mode) x else x
  else if before = .missing && mode ≠ mode ||| 0o200 then attempt E (.fchmod (masked C mode)) x else x

/-- scp.c:2078-2114 `response`: none if the program exits. -/
def response (s : St) : Res :=
  match s.inp with
  | [] => .exit s
  | c :: r =>
    if c = 0 then .ret { s with inp := r }
    else match lineRest (if c = 1 || c = 2 then 2047 else 2046) r with
      | none => .exit { s with inp := [] }
      | some (_, r) => if c = 1 then .ret { s with inp := r, errs := s.errs + 1 } else .exit { s with inp := r, errs := s.errs + 1 }

/-- scp.c:1971-1977: the times. -/
def setTimes (E : Env) (np : Bytes) (times : Option Times) (w : Bool) (x : St × Bool) : St × Bool :=
  match times with
  | some t => if w then x else attempt E (.utimes np t) x
  | none => x

/-- scp.c:1978-1980: the answer for the file. -/
def answer (x : St × Bool) : St := if x.2 then x.1.complain else x.1.emit .ack

/-- scp.c:1940-1980 after the copy loop: the end of a file. -/
def fileEnd (C : Conf) (E : Env) (np : Bytes) (mode size : Nat) (before : Kind) (times : Option Times) (s : St) (w : Bool) : Res :=
  match response (attempt E .close (setMode C E mode before (truncate E size before w (s, w)))).1 with
  | .exit s => .exit s
  | .ret s' =>
    .ret (answer (setTimes E np times w (s', (attempt E .close (setMode C E mode before (truncate E size before w (s, w)))).2)))

/-- scp.c:1876-1981: a file.  The times are the ones still pending afterwards. -/
def file (C : Conf) (E : Env) (np : Bytes) (mode size : Nat) (before : Kind) (times : Option Times) (s : St) : Res × Option Times :=
  if E.ok (s.emit (.open_ np (mode ||| 0o200))).tr then
    match E.alloc ((s.emit (.open_ np (mode ||| 0o200))).emit .ack).tr with
    | none => (.ret (((s.emit (.open_ np (mode ||| 0o200))).emit .ack).complain.emit .close), times)
    | some cnt =>
      match copy E cnt size size ((s.emit (.open_ np (mode ||| 0o200))).emit .ack) false with
      | .lost s => (.exit s.complain, times)
      | .done s w => (fileEnd C E np mode size before times s w, if w then times else none)
  else (.ret (s.emit (.open_ np (mode ||| 0o200))).complain, times)

/-- scp.c:1706-1981: the loop of `sink`.  The first argument bounds the number of records. -/
def loop (C : Conf) (E : Env) : Nat → Frame → St → Res
  | 0, _, s => .ret s
  | fuel + 1, f, s =>
    match s.inp with
    | [] => .ret s
    | c :: r =>
      if c = 10 then .exit { s with inp := r }.complain
      else match lineRest 2046 r with
        | none => .exit { s with inp := [] }.complain
        | some (l, r) =>
          if c = 1 then loop C E fuel f { s with inp := r, errs := s.errs + 1 }
          else if c = 2 then .exit { s with inp := r }
          else if c = 69 then .ret ({ s with inp := r }.emit .ack)
          else match parseRec (textOf (c :: l)) with
            | .bad => .exit { s with inp := r }.complain
            | .times t => loop C E fuel { f with times := t } ({ s with inp := r }.emit .ack)
            | .entry isDir mode size name =>
              if !wanted C E name then .exit { s with inp := r }.complain
              else if isDir then
                if !C.recursive then .exit { s with inp := r }.complain
                else match makeDir C E (pathOf f name) (modeOf C mode) { s with inp := r } with
                  | (s, none) => loop C E fuel f s.complain
                  | (s, some modFlag) =>
                    match enter C E (pathOf f name) s with
                    | none => .exit s.complain
                    | some (f', s) =>
                      match loop C E fuel f' s with
                      | .exit s => .exit s
                      | .ret s => loop C E fuel { f with times := none } (leaveDir (pathOf f name) (modeOf C mode) f.times modFlag s)
              else match file C E (pathOf f name) (modeOf C mode) size (E.stat s.tr (pathOf f name)) f.times { s with inp := r } with
                | (.exit s, _) => .exit s
                | (.ret s, t) => loop C E fuel { f with times := t } s

/-- scp.c:1661-1988 `sink`, called for the target `targ`. -/
def sink (C : Conf) (E : Env) (targ : Bytes) (inp : Bytes) : Res :=
  match enter C E targ { inp := inp } with
  | none => .exit { inp := inp : St }.complain
  | some (f, s) => loop C E (inp.length + 1) f s

/-! The sender -/

/-- `%llu` -/
def decF : Nat → Nat → Bytes
  | 0, _ => []
  | f + 1, n => if n < 10 then [UInt8.ofNat (48 + n)] else decF f (n / 10) ++ [UInt8.ofNat (48 + n % 10)]
def dec (n : Nat) : Bytes := decF (n + 1) n

/-- `%04o`, for values below 4096 -/
def oct (n : Nat) : Bytes :=
  [UInt8.ofNat (48 + n / 512 % 8), UInt8.ofNat (48 + n / 64 % 8), UInt8.ofNat (48 + n / 8 % 8), UInt8.ofNat (48 + n % 8)]

/-- scp.c:736-752 `do_times` -/
def timesLine (m a : Nat) : Bytes := [84] ++ dec m ++ [32, 48, 32] ++ dec a ++ [32, 48, 10]

/-- scp.c:1442-1444 -/
def fileLine (mode size : Nat) (name : Bytes) : Bytes := [67] ++ oct mode ++ [32] ++ dec size ++ [32] ++ name ++ [10]

/-- scp.c:1524-1525 (the names are at most 1024 bytes long) -/
def dirLine (mode : Nat) (name : Bytes) : Bytes := [68] ++ oct mode ++ [32, 48, 32] ++ name ++ [10]

/-- What is sent: files and directories, each with its times if `-p` was given. -/
inductive Forest where
  | nil
  | file (name : Bytes) (mode : Nat) (t : Option (Nat × Nat)) (content : Bytes) (rest : Forest)
  | dir (name : Bytes) (mode : Nat) (t : Option (Nat × Nat)) (sub : Forest) (rest : Forest)
  deriving Repr, DecidableEq

def timesPart (t : Option (Nat × Nat)) : Bytes := t.elim [] fun x => timesLine x.1 x.2

/-- scp.c:1391-1501 `source` and 1503-1550 `rsource`, when every file can be read and every answer is positive: the
bytes written. -/
def send : Forest → Bytes
  | .nil => []
  | .file name mode t content rest =>
    timesPart t ++ fileLine mode content.length name ++ content ++ [0] ++ send rest
  | .dir name mode t sub rest => timesPart t ++ dirLine mode name ++ send sub ++ [69, 10] ++ send rest

/-! The requested name -/

/-- scp.c:784-833 `find_brace`; none if the pattern is invalid, otherwise the text before, inside and after the first
group.  `pre` is what has been passed, `start` the part before the group, `body` the inside, both reversed. -/
def findBrace (p : Bytes) (br : Bool) (level : Nat) (start : Option Bytes) (acc : Bytes) :
    Option (Option (Bytes × Bytes × Bytes)) :=
  match p with
  | [] => if start.isSome || br then none else some none
  | 92 :: [] => if start.isSome || br then none else some none
  | 92 :: c :: r => findBrace r br level start (c :: 92 :: acc)
  | 91 :: r => findBrace r true level start (91 :: acc)
  | 93 :: r => findBrace r false level start (93 :: acc)
  | 123 :: 125 :: r => findBrace r br level start (125 :: 123 :: acc)
  | 123 :: r =>
    if br then findBrace r br level start (123 :: acc)
    else match start with
      | none => findBrace r br (level + 1) (some acc) []
      | some st => findBrace r br (level + 1) (some st) (123 :: acc)
  | 125 :: r =>
    if br then findBrace r br level start (125 :: acc)
    else match start with
      | none => none
      | some st => if level ≤ 1 then some (some (st.reverse, acc.reverse, r)) else findBrace r br (level - 1) start (125 :: acc)
  | c :: r => findBrace r br level start (c :: acc)

/-- The effect of one character on the bracket flag and the level (scp.c:908-926). -/
def track (c : UInt8) (br : Bool) (level : Int) : Bool × Int :=
  if c = 123 then (br, if br then level else level + 1)
  else if c = 125 then (br, if br then level else level - 1)
  else if c = 91 then (true, level)
  else if c = 93 then (false, level)
  else (br, level)

/-- scp.c:931-944: at the character `x` (after an escape: the escaped one), the selection emitted, if any, and the new
selection. -/
def select (x : UInt8) (last : Bool) (br : Bool) (level : Int) (cur : Bytes) : Option Bytes × Bytes :=
  if x = 44 ∨ last then
    if br || level > 0 then (none, cur ++ [x])
    else (some (if last then cur ++ [x] else cur), [])
  else (none, cur ++ [x])

/-- scp.c:906-948: the selections inside a group; none if it is invalid. -/
def selections (body : Bytes) (br : Bool) (level : Int) (cur : Bytes) : Option (List Bytes) :=
  match body with
  | [] => if br || level > 0 then none else some []
  | 92 :: x :: r =>
    (selections r br level (select x r.isEmpty br level (cur ++ [92])).2).map
      fun l => (select x r.isEmpty br level (cur ++ [92])).1.toList ++ l
  | c :: r =>
    (selections r (track c br level).1 (track c br level).2 (select c r.isEmpty (track c br level).1 (track c br level).2 cur).2).map
      fun l => (select c r.isEmpty (track c br level).1 (track c br level).2 cur).1.toList ++ l

/-- scp.c:888-950 `brace_expand_one`: none if invalid, `some none` if there is nothing to expand.  (The failure of
`emit_expansion` is not possible here: a pattern with a group is not empty.) -/
def expandOne (p : Bytes) : Option (Option (List Bytes)) :=
  match findBrace p false 0 none [] with
  | none => none
  | some none => some none
  | some (some (pre, body, post)) =>
    match selections body false 0 [] with
    | none => none
    | some l => some (some (l.map fun s => pre ++ s ++ post))

/-- scp.c:990-997: the part after the last slash. -/
def baseName (p : Bytes) : Bytes := (p.reverse.takeWhile (· ≠ 47)).reverse

/-- scp.c:953-1016 `brace_expand`; none stands for the fatal error.  The stack of patterns is replaced by recursion, in
the same order: the pattern pushed last is treated first.  The first argument bounds the nesting. -/
def expandF : Nat → Bytes → Option (List Bytes)
  | 0, _ => none
  | fuel + 1, p =>
    match expandOne p with
    | none => none
    | some none => some [baseName p]
    | some (some l) => (l.reverse.mapM (expandF fuel)).map List.flatten

def expand (p : Bytes) : Option (List Bytes) := expandF (p.length + 1) p

end Verif.Scp
