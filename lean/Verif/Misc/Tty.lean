/-
Terminal modes on the wire (ttymodes.c).
-/
import Verif.Wire

namespace Verif.Tty
open Verif Verif.Wire

/-- Which of the four flag words of `struct termios`. -/
inductive Field where
  | iflag | lflag | oflag | cflag
  deriving Repr, DecidableEq

/-- What the system headers decide: which `TTYCHAR` and `TTYMODE` lines of ttymodes.h:61-169 are compiled in, with
which masks, the speed constants, and `_POSIX_VDISABLE`. -/
structure Platform where
  /-- opcodes of the `TTYCHAR` lines -/
  chars : List UInt8
  /-- opcode, flag word and mask of the `TTYMODE` lines -/
  modes : List (UInt8 × Field × UInt32)
  /-- speed constants and baud rates -/
  speeds : List (Nat × Nat)
  vdisable : UInt8

/-- `struct termios`.  Control characters are indexed by the opcode of their `TTYCHAR` line (the indices of `c_cc` are
distinct constants), and the two speeds are kept apart from the flag words (as `cfgetospeed` and friends do). -/
structure Termios where
  cc : UInt8 → UInt8
  flags : Field → UInt32
  ispeed : Nat
  ospeed : Nat

/-- ttymodes.c:72-156 `speed_to_baud` -/
def speedToBaud (P : Platform) (s : Nat) : Nat := ((P.speeds.find? fun x => x.1 = s).map (·.2)).getD 9600

/-- The constant `B9600`. -/
def b9600 (P : Platform) : Nat := ((P.speeds.find? fun x => x.2 = 9600).map (·.1)).getD 0

/-- ttymodes.c:161-245 `baud_to_speed` -/
def baudToSpeed (P : Platform) (b : Nat) : Nat := ((P.speeds.find? fun x => x.2 = b).map (·.1)).getD (b9600 P)

/-- ttymodes.c:250-258 `special_char_encode` -/
def encodeChar (P : Platform) (c : UInt8) : Nat := if c = P.vdisable then 255 else c.toNat

/-- ttymodes.c:263-271 `special_char_decode`: the result is a byte. -/
def decodeChar (P : Platform) (u : Nat) : UInt8 := if u = 255 then P.vdisable else UInt8.ofNat u

/-- `sshbuf_put_u8` and `sshbuf_put_u32` -/
def item (op : UInt8) (arg : Nat) : Bytes := op :: be 4 arg

/-- ttymodes.c:314-319 `TTYMODE` when encoding; `bug` is `SSH_BUG_UTF8TTYMODE`. -/
def modeItem (bug : Bool) (t : Termios) (m : UInt8 × Field × UInt32) : Bytes :=
  if m.1 = 42 && bug then [] else item m.1 (if t.flags m.2.1 &&& m.2.2 ≠ 0 then 1 else 0)

/-- ttymodes.c:278-336 `ssh_tty_make_modes`: the string put in the packet; `none` stands for a terminal that cannot be
asked. -/
def makeModes (P : Platform) (bug : Bool) (t : Option Termios) : Bytes :=
  match t with
  | none => [0]
  | some t =>
    item 129 (speedToBaud P t.ospeed) ++ item 128 (speedToBaud P t.ispeed) ++
    P.chars.flatMap (fun op => item op (encodeChar P (t.cc op))) ++ P.modes.flatMap (modeItem bug t) ++ [0]

/-- The outcomes of `ssh_tty_parse_modes`. -/
inductive Outcome where
  /-- `fatal_fr` -/
  | fatal
  /-- returns without touching the terminal -/
  | ignored
  /-- `tcsetattr` with these settings -/
  | set (t : Termios)

/-- ttymodes.c:407-415 `TTYMODE` when decoding; `none` stands for an unknown opcode. -/
def applyMode (t : Termios) (arg : Nat) : Option (UInt8 × Field × UInt32) → Termios
  | some m => { t with flags := fun g => if g = m.2.1 then (if arg ≠ 0 then t.flags m.2.1 ||| m.2.2 else t.flags m.2.1 &&& ~~~m.2.2) else t.flags g }
  | none => t

/-- ttymodes.c:376-418: one known opcode with its argument. -/
def apply (P : Platform) (t : Termios) (op : UInt8) (arg : Nat) : Termios :=
  if op = 128 then { t with ispeed := baudToSpeed P arg }
  else if op = 129 then { t with ospeed := baudToSpeed P arg }
  else if op ∈ P.chars then { t with cc := fun c => if c = op then decodeChar P arg else t.cc c }
  else applyMode t arg (P.modes.find? fun m => m.1 = op)

/-- ttymodes.c:421-434: opcodes with an argument. -/
def takesArg (P : Platform) (op : UInt8) : Bool :=
  op = 128 || op = 129 || op ∈ P.chars || P.modes.any (fun m => m.1 = op) || (0 < op && op < 160)

/-- ttymodes.c:438-450: the end, with `left` bytes left. -/
def finish (left : Bytes) (t : Option Termios) : Outcome :=
  if left.length > 0 then .ignored
  else match t with
    | none => .ignored
    | some t => .set t

/-- ttymodes.c:371-436: the loop.  `t` is `none` when `tcgetattr` failed.  The first argument bounds the number of rounds. -/
def parseLoop (P : Platform) : Nat → Option Termios → Bytes → Outcome
  | 0, t, b => finish b t
  | fuel + 1, t, b =>
    match b with
    | [] => finish [] t
    | op :: b =>
      if op = 0 then finish b t
      else if takesArg P op then
        match getInt 4 b with
        | none => .fatal
        | some (u, b) => parseLoop P fuel (t.map fun t => apply P t op u) b
      else finish b t

/-- ttymodes.c:342-450 `ssh_tty_parse_modes`: `data` is the string in the packet, `t` what `tcgetattr` returned.  (Where the
code goes on to set control characters and flags after a failed `tcgetattr`, it writes to a `tio` that is not used.) -/
def parseModes (P : Platform) (t : Option Termios) (data : Bytes) : Outcome :=
  if data.length = 0 then .ignored else parseLoop P data.length t data

/-- Linux (glibc). -/
def linux : Platform where
  chars := [1, 2, 3, 4, 5, 6, 7, 8, 9, 10, 12, 13, 14, 16, 18]
  modes := [(30, .iflag, 0x4), (31, .iflag, 0x8), (32, .iflag, 0x10), (33, .iflag, 0x20), (34, .iflag, 0x40),
    (35, .iflag, 0x80), (36, .iflag, 0x100), (37, .iflag, 0x200), (38, .iflag, 0x400), (39, .iflag, 0x800),
    (40, .iflag, 0x1000), (41, .iflag, 0x2000), (42, .iflag, 0x4000), (50, .lflag, 0x1), (51, .lflag, 0x2),
    (52, .lflag, 0x4), (53, .lflag, 0x8), (54, .lflag, 0x10), (55, .lflag, 0x20), (56, .lflag, 0x40), (57, .lflag, 0x80),
    (58, .lflag, 0x100), (59, .lflag, 0x8000), (60, .lflag, 0x200), (61, .lflag, 0x800), (62, .lflag, 0x4000),
    (70, .oflag, 0x1), (71, .oflag, 0x2), (72, .oflag, 0x4), (73, .oflag, 0x8), (74, .oflag, 0x10), (75, .oflag, 0x20),
    (90, .cflag, 0x20), (91, .cflag, 0x30), (92, .cflag, 0x100), (93, .cflag, 0x200)]
  speeds := [(0, 0), (1, 50), (2, 75), (3, 110), (4, 134), (5, 150), (6, 200), (7, 300), (8, 600), (9, 1200), (10, 1800),
    (11, 2400), (12, 4800), (13, 9600), (14, 19200), (15, 38400), (0x1001, 57600), (0x1002, 115200), (0x1003, 230400)]
  vdisable := 0

end Verif.Tty
