/-
What escape characters should do.
-/
import Verif.Loop.Escape

namespace Verif.Loop
open Verif

/-- What goes to the server. -/
def sent : List EAct → Bytes
  | [] => []
  | .put b :: l => b :: sent l
  | .cmd _ :: l => sent l
  | .refused _ :: l => sent l

/-- The commands, by the characters that stand for them (ssh.1, ESCAPE CHARACTERS). -/
inductive Key : UInt8 → Prop
  | dot : Key 46 | ctrlZ : Key 26 | amp : Key 38 | hash : Key 35 | quest : Key 63
  | B : Key 66 | C : Key 67 | R : Key 82 | V : Key 86 | v : Key 118

/-- Which character stands for which command in which session: those that concern the whole client are not for sessions of others,
and the command line must have been enabled. -/
inductive Means (E : Esc) : UInt8 → Cmd → Prop
  | quit : E.shared = false → Means E 46 .quit
  | close : E.shared = true → Means E 46 .close
  | suspend : E.shared = false → Means E 26 .suspend
  | background : E.shared = false → Means E 38 .background
  | list : Means E 35 .list
  | help : Means E 63 .help
  | brk : Means E 66 .brk
  | cmdline : E.shared = false → E.cmdline = true → Means E 67 .cmdline
  | rekey : E.noRekey = false → Means E 82 .rekey
  | quieter : E.shared = false → E.stderr = true → Means E 86 .quieter
  | louder : E.shared = false → E.stderr = true → Means E 118 .louder

/-- CR or LF. -/
def Newline (b : UInt8) : Prop := b = 13 ∨ b = 10

/-- At the beginning, or after a newline. -/
def LineStart (l : Bytes) : Prop := l = [] ∨ ∃ b, l.getLast? = some b ∧ Newline b

/-- The escape character is not at the beginning of a line. -/
def Inert (e : UInt8) (l : Bytes) : Prop := ∀ a b, l = a ++ e :: b → ¬ LineStart a

/-- To send anything: type the escape character twice where a line begins. -/
inductive Typed (e : UInt8) : Bool → Bytes → Bytes → Prop
  | nil (start : Bool) : Typed e start [] []
  | twice (l t : Bytes) (start : Bool) : (start = true ↔ Newline e) → Typed e start l t → Typed e true (e :: l) (e :: e :: t)
  | once (c : UInt8) (l t : Bytes) (start next : Bool) : ¬ (start = true ∧ c = e) → (next = true ↔ Newline c) → Typed e next l t →
    Typed e start (c :: l) (c :: t)

end Verif.Loop
