/-
What the authentication theorems say, in terms of the configuration, the client's messages and the
server's replies and log lines only.
-/
import Verif.Auth.Model

namespace Verif.Auth.Spec

/-- The methods a server knows. -/
def Known (m : Bytes) : Prop :=
  m = b!"none" ∨ m = b!"publickey" ∨ m = b!"password" ∨ m = b!"keyboard-interactive" ∨
    m = b!"hostbased"

/-- A required step: a method, possibly narrowed to one way of carrying it out
(`keyboard-interactive:pam`). -/
def stepOf (t : Bytes) : Bytes × Option Bytes :=
  (t.takeWhile (· ≠ 58), if 58 ∈ t then some ((t.dropWhile (· ≠ 58)).drop 1) else none)

/-- A success satisfies a step if the method is the same and so is the narrowing, if there is one. -/
def Sat (t : Bytes) (x : Bytes × Option Bytes) : Prop :=
  x.1 = (stepOf t).1 ∧ ((stepOf t).2 = none ∨ (stepOf t).2 = x.2)

/-- Every step of `steps` is satisfied, in the order given, by successes that happened in that
order (others may have happened in between). -/
inductive Fulfils : List Bytes → List (Bytes × Option Bytes) → Prop where
  | nil (xs) : Fulfils [] xs
  | skip {ts x xs} : Fulfils ts xs → Fulfils ts (x :: xs)
  | take {t ts x xs} : Sat t x → Fulfils ts xs → Fulfils (t :: ts) (x :: xs)

/-- The comma separated steps of one list. -/
def steps (l : Bytes) : List Bytes := Text.split 44 l

/-- A list can be used if every method on it is known and switched on ("none" counts as on). -/
def Usable (c : Cfg) (l : Bytes) : Prop :=
  ∀ t ∈ steps l, Known (stepOf t).1 ∧ ((stepOf t).1 = b!"none" ∨ c.enabled (stepOf t).1 = true)

/-- Step `t` is the next one the list asks for: what comes before it is fulfilled, it is not. -/
def NextStep (l : Bytes) (xs : List (Bytes × Option Bytes)) (t : Bytes) : Prop :=
  ∃ a b, steps l = a ++ t :: b ∧ Fulfils a xs ∧ ¬ Fulfils (a ++ [t]) xs

/-- `AuthenticationMethods` asks for something. -/
def Multi (c : Cfg) : Prop := c.lists ≠ [] ∧ c.lists ≠ [b!"any"]

/-- The method attempts logged as successful (completely or as one step of several), in order. -/
def wins : List (Ev × Out) → List (Bytes × Option Bytes)
  | [] => []
  | (_, o) :: h =>
    match o.log with
    | some ⟨.accepted, m, s⟩ => (m, s) :: wins h
    | some ⟨.partly, m, s⟩ => (m, s) :: wins h
    | _ => wins h

/-- The server has sent the success message. -/
def LoggedIn (h : List (Ev × Out)) : Prop := ∃ e l, (e, (⟨l, .success⟩ : Out)) ∈ h

/-- What PermitRootLogin says about a method, with `forced` for a key bound to a command. -/
def RootMay (c : Cfg) (m : Bytes) (forced : Bool) : Prop :=
  match c.root with
  | .yes => True
  | .withoutPassword => m = b!"publickey" ∨ m = b!"hostbased" ∨ m = b!"gssapi-with-mic"
  | .forcedOnly => forced = true
  | .no => False

/-- The outside world's verdict on a message. -/
def resultOf : Ev → Result
  | .request _ _ _ _ r => r
  | .response r => r

/-- The message is an attempt at method `m` (`sub`: with this keyboard-interactive device). -/
def Attempts (c : Cfg) (e : Ev) (m : Bytes) (sub : Option Bytes) : Prop :=
  (∃ u s n d r, e = .request u s n d r ∧ sub = none ∧
    (n = m ∨ (n = b!"publickey-hostbound-v00@openssh.com" ∧ m = b!"publickey"))) ∨
  (∃ r d, e = .response r ∧ m = b!"keyboard-interactive" ∧ sub = some d ∧
    ((d = b!"bsdauth" ∧ c.bsdauth = true) ∨ (d = b!"pam" ∧ c.bsdauth = false ∧ c.usePam = true)))

/-- The user and service named by the first request of the conversation. -/
def target : List (Ev × Out) → Option (Bytes × Bytes)
  | [] => none
  | (.request u s _ _ _, _) :: _ => some (u.takeWhile (· ≠ 58), s)
  | (.response _, _) :: h => target h

/-- Does this exchange count against the client?  It does if it was logged as failed, the failure is
not blamed on the server, and it is not a first request asking for "none". -/
def strike (first : Bool) (e : Ev) (o : Out) : Nat :=
  match o.log with
  | some ⟨.failed, m, _⟩ =>
    if (resultOf e).serverFail = true ∨ (first = true ∧ m = b!"none") then 0 else 1
  | _ => 0

def isRequest : Ev → Bool
  | .request .. => true
  | .response _ => false

/-- Failed attempts that count; `first` while no request has been seen. -/
def strikes (first : Bool) : List (Ev × Out) → Nat
  | [] => 0
  | (e, o) :: h => strike first e o + strikes (first && !isRequest e) h

/-- Requests the server acted on. -/
def answered : List (Ev × Out) → Nat
  | [] => 0
  | (e, o) :: h => (if isRequest e = true ∧ o.log ≠ none then 1 else 0) + answered h

/-- What must be true for the server to log method `m` (with device `s`) as successful in answer to
message `e` of conversation `h`: the method itself said yes to this very message, the method is known
and switched on, the user asked for in the first request exists and may log in, and root is let
through by PermitRootLogin. -/
structure Backed (c : Cfg) (h : List (Ev × Out)) (e : Ev) (m : Bytes) (s : Option Bytes) : Prop where
  ok : (resultOf e).ok = true
  attempts : Attempts c e m s
  known : Known m
  enabled : m ≠ b!"none" → c.enabled m = true
  user : ∃ u uid, target h = some (u, b!"ssh-connection") ∧ c.getpw u = some uid ∧
    (uid = 0 → RootMay c m (resultOf e).forced)

/-- All attempts logged as failed. -/
def failed : List (Ev × Out) → Nat
  | [] => 0
  | (_, o) :: h =>
    (match o.log with
      | some ⟨.failed, _, _⟩ => 1
      | _ => 0) + failed h

/-- The devices whose verdict a run of keyboard-interactive responses obtained: responses that were
handled and that the device did not answer with a further question. -/
def guesses : List (Ev × Out) → List Bytes
  | [] => []
  | (e, o) :: h =>
    match o.log with
    | some ⟨_, _, some d⟩ =>
      if (resultOf e).ok = false ∧ (resultOf e).more = true then guesses h else d :: guesses h
    | _ => guesses h

end Verif.Auth.Spec
