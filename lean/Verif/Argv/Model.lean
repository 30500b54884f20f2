/-
How sftp reads a line of commands into arguments: sftp.c.

Simplified: the static buffers are the arguments read so far and a count of the bytes used; reading past the end of the line and writing past the end of
the buffer are outcomes of their own. The quote that an argument began with, which only the completion of names uses, is left out.
-/
import Verif.Base

namespace Verif.Argv
open Verif

/-- sftp.c:1203 the states -/
inductive Mode where
  | start | sq | dq | un
  deriving DecidableEq

/-- `state`, the argument that is being read, the arguments read, and `j` -/
structure St where
  mode : Mode
  cur : Bytes
  args : List Bytes
  j : Nat
  deriving DecidableEq

/-- What comes of it; arguments with `terminated` -/
inductive Res where
  | args (l : List Bytes) (terminated : Bool)
  | tooLong | tooMany | unterminated
  | readPast | writePast
  deriving DecidableEq

/-- MAXARGLEN -/
def size : Nat := 8192

/-- `isspace` -/
def isSpace (c : UInt8) : Bool := decide (c = 32 ∨ 9 ≤ c ∧ c ≤ 13)

/-- `?`, `[` or `*` -/
def isGlob (c : UInt8) : Bool := decide (c = 63 ∨ c = 91 ∨ c = 42)

def quoted : Mode → Bool
  | .sq | .dq => true
  | _ => false

/-- sftp.c:1231 `q` -/
def modeOf (c : UInt8) : Mode := if c = 34 then .dq else .sq

/-- sftp.c:1245 `quot` -/
def quotOf (m : Mode) : UInt8 := if m = .sq then 39 else 34

/-- `argvs[j++] = …`, for each of the bytes -/
def put (s : St) (b : Bytes) (k : St → Res) : Res :=
  if s.j + b.length > size then .writePast else k ⟨s.mode, s.cur ++ b, s.args, s.j + b.length⟩

/-- sftp.c:1225-1227 the argument ends -/
def endArg (s : St) (k : St → Res) : Res :=
  if s.j + 1 > size then .writePast else k ⟨.start, [], s.args ++ [s.cur], s.j + 1⟩

/-- sftp.c:1270-1275, 1316-1321 an argument begins -/
def enter (s : St) : St := if s.mode = .start then ⟨.un, s.cur, s.args, s.j⟩ else s

/-- sftp.c:1309-1314, 1338 `string_done` -/
def finish (s : St) (terminated : Bool) : Res :=
  if s.mode = .un then endArg s fun s => .args s.args terminated else .args s.args terminated

/-- sftp.c:1217-1337 the loop, from here on -/
def go (sloppy : Bool) : Bytes → St → Res
  | [], s =>
    if s.args.length ≥ 129 then .tooMany
    else if quoted s.mode then if sloppy then finish ⟨.un, s.cur, s.args, s.j⟩ false else .unterminated
    else finish s true
  | c :: l, s =>
    if s.args.length ≥ 129 then .tooMany
    else if isSpace c then
      if s.mode = .un then endArg s (go sloppy l) else if s.mode = .start then go sloppy l s else put s [c] (go sloppy l)
    else if c = 34 ∨ c = 39 then
      if quoted s.mode = false then go sloppy l ⟨modeOf c, s.cur, s.args, s.j⟩
      else if s.mode = modeOf c then go sloppy l ⟨.un, s.cur, s.args, s.j⟩
      else put s [c] (go sloppy l)
    else if c = 92 then
      match l with
      | [] => .readPast
      | d :: l =>
        if quoted s.mode then
          if d = quotOf s.mode then put s [d] (go sloppy l)
          else if isGlob d then if s.j ≥ size - 5 then .tooLong else put s [92, 92, 92, d] (go sloppy l)
          else put s [92, d] (go sloppy l)
        else if isGlob d ∨ d = 92 then put (enter s) [92, d] (go sloppy l)
        else put (enter s) [d] (go sloppy l)
    else if c = 35 ∧ quoted s.mode = false then finish s true
    else if quoted s.mode ∧ isGlob c then if s.j ≥ size - 3 then .tooLong else put (enter s) [92, c] (go sloppy l)
    else put (enter s) [c] (go sloppy l)

/-- sftp.c:1195-1340 `makeargv` -/
def makeargv (sloppy : Bool) (line : Bytes) : Res :=
  if line.length > size - 1 then .tooLong else go sloppy line ⟨.start, [], [], 0⟩

/-- sftp.c:1142-1175 `undo_glob_escape`: for names that are not handed to glob(3) -/
def undo : Bytes → Bytes
  | [] => []
  | 92 :: [] => [92]
  | 92 :: c :: l => if isGlob c ∨ c = 92 then c :: undo l else 92 :: c :: undo l
  | c :: l => c :: undo l

end Verif.Argv
