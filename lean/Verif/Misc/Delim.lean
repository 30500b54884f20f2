/-
Taking words off a line (misc.c).
-/
import Verif.Base

namespace Verif.Misc.Delim
open Verif

/-- `WHITESPACE`, misc.c:441: space, tab, carriage return, newline -/
def isWs (c : UInt8) : Bool := c == 32 || c == 9 || c == 13 || c == 10

/-- `strpbrk`: what is in front of the first byte satisfying `p`, and the text from there on -/
def brk (p : UInt8 → Bool) (s : Bytes) : Bytes × Bytes := (s.takeWhile (!p ·), s.dropWhile (!p ·))

/-- misc.c:460-469: inside quotes; `pre` is what stood before the opening quote -/
def delimQuoted (pre r : Bytes) : Option (Bytes × Option Bytes) :=
  match (brk (· == 34) r).2 with
  | [] => none
  | _ :: rest => some (pre ++ (brk (· == 34) r).1, some (rest.dropWhile isWs))

/-- misc.c:472-480: what follows a word ended by `c`; one `=` may be skipped. -/
def delimRest (eq : Bool) (c : UInt8) (rest : Bytes) : Bytes :=
  if eq && c != 61 && (rest.dropWhile isWs).head? == some 61 then ((rest.dropWhile isWs).drop 1).dropWhile isWs
  else rest.dropWhile isWs

/-- misc.c:444-483 `strdelim_internal`: the word (`none`: a quote is not closed) and what is left
(`none`: `*s` became NULL). -/
def strdelim (eq : Bool) (s : Bytes) : Option (Bytes × Option Bytes) :=
  match (brk (fun c => isWs c || c == 34 || (eq && c == 61)) s).2 with
  | [] => some (s, none)
  | c :: r =>
    if c = 34 then delimQuoted (brk (fun c => isWs c || c == 34 || (eq && c == 61)) s).1 r
    else some ((brk (fun c => isWs c || c == 34 || (eq && c == 61)) s).1, some (delimRest eq c r))

end Verif.Misc.Delim
