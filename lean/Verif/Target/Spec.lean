/-
Specification: destinations, canonical names, and names that are safe in commands.
-/
import Verif.Target.Model
import Verif.Match.Spec

namespace Verif.Target
open Verif
open _root_.Verif.Match (toLower Glob entries isNeg body short)
open _root_.Verif.Permit (a2port)

/-! ## Names -/

def Letter (c : UInt8) : Prop := 65 ≤ c ∧ c ≤ 90 ∨ 97 ≤ c ∧ c ≤ 122
def Digit (c : UInt8) : Prop := 48 ≤ c ∧ c ≤ 57

/-- Characters of domain names: letters, digits, `_`, `-` and `.` -/
def NameChar (c : UInt8) : Prop := Letter c ∨ Digit c ∨ c = 95 ∨ c = 45 ∨ c = 46

/-- A domain name: it starts with a letter, a digit or `_`, and has no two dots in a row. -/
def Domain (s : Bytes) : Prop :=
  (∃ c l, s = c :: l ∧ (Letter c ∨ Digit c ∨ c = 95)) ∧ (∀ c ∈ s, NameChar c) ∧ ¬ ∃ a b, s = a ++ [46, 46] ++ b

/-- `d` is `s` without a dot at the end. -/
def Unanchored (s d : Bytes) : Prop := s = d ++ [46] ∨ s = d ∧ ¬ ∃ e, s = e ++ [46]

/-! ## Destinations -/

/-- What a part of a URI stands for: `+` is a blank, `%` and two digits a byte -/
inductive Decodes : Bytes → Bytes → Prop where
  | nil : Decodes [] []
  | plus {l d : Bytes} : Decodes l d → Decodes (43 :: l) (32 :: d)
  | percent {x y b : UInt8} {u v : Nat} {l d : Bytes} : hexVal x = some u → hexVal y = some v → b.toNat = 16 * u + v → Decodes l d →
      Decodes (37 :: x :: y :: l) (b :: d)
  | other {c : UInt8} {l d : Bytes} : c ≠ 43 → c ≠ 37 → Decodes l d → Decodes (c :: l) (c :: d)

/-- `u` is what C reads of the bytes `d`. -/
def CString (d u : Bytes) : Prop := 0 ∉ u ∧ (d = u ∨ ∃ r, d = u ++ 0 :: r)

/-- The field of the host at the start of `t`: in brackets, or without `:` and `/`; then nothing, or `:` or `/` and the rest. -/
def HostField (t field : Bytes) (rest : Option (UInt8 × Bytes)) : Prop :=
  ((∃ x, field = [91] ++ x ++ [93] ∧ 93 ∉ x) ∨ field.head? ≠ some 91 ∧ 58 ∉ field ∧ 47 ∉ field) ∧
  ((rest = none ∧ t = field) ∨ ∃ d r, rest = some (d, r) ∧ (d = 58 ∨ d = 47) ∧ t = field ++ d :: r)

/-- The host of a field: without the brackets -/
def HostOf (field h : Bytes) : Prop := field = [91] ++ h ++ [93] ∨ field = h ∧ ¬ ∃ x, field = [91] ++ x ++ [93]

/-- The user in a URI: between the start and the first `@`, up to a `;`, decoded -/
inductive UriUser : Bytes → Option Bytes → Bytes → Prop where
  | none {s : Bytes} : 64 ∉ s → UriUser s none s
  | plain {e d u r : Bytes} : 64 ∉ e → 59 ∉ e → e ≠ [] → Decodes e d → CString d u → UriUser (e ++ 64 :: r) (some u) r
  | params {e d u p r : Bytes} : 64 ∉ e → 59 ∉ e → e ≠ [] → 64 ∉ p → Decodes e d → CString d u →
      UriUser (e ++ 59 :: p ++ 64 :: r) (some u) r

/-- The port in a URI and nothing after it but one `/` -/
inductive UriPort (serv : Bytes → Option Nat) : Option (UInt8 × Bytes) → Option Int → Prop where
  | none : UriPort serv none none
  | empty {c : UInt8} : UriPort serv (some (c, [])) none
  | port {p : Bytes} : p ≠ [] → 47 ∉ p → 0 < a2port serv p → UriPort serv (some (58, p)) (some (a2port serv p))
  | slash {p : Bytes} : 47 ∉ p → 0 < a2port serv p → UriPort serv (some (58, p ++ [47])) (some (a2port serv p))

/-- ssh(1): ssh://[user@]hostname[:port] -/
def SshUri (serv : Bytes → Option Nat) (s : Bytes) (D : Dest) : Prop :=
  ∃ t r field h rest, s = b!"ssh://" ++ t ∧ UriUser t D.user r ∧ HostField r field rest ∧ field ≠ [] ∧ HostOf field h ∧ Domain h ∧
    Unanchored h D.host ∧ UriPort serv rest D.port

/-- ssh(1): [user@]hostname; the last `@` counts -/
def Plain (s : Bytes) (D : Dest) : Prop :=
  D.port = none ∧ (D.user = none ∧ 64 ∉ s ∧ D.host = s ∨ ∃ u, D.user = some u ∧ u ≠ [] ∧ 64 ∉ D.host ∧ s = u ++ 64 :: D.host)

/-- ssh_config(5), ProxyJump: [user@]host[:port] or a URI; a port that is left empty is none -/
def PlainHop (serv : Bytes → Option Nat) (s : Bytes) (D : Dest) : Prop :=
  ∃ t field rest, (D.user = none ∧ 64 ∉ s ∧ t = s ∨ ∃ u, D.user = some u ∧ u ≠ [] ∧ 64 ∉ t ∧ s = u ++ 64 :: t) ∧
    HostField t field rest ∧ field ≠ [] ∧ HostOf field D.host ∧
    (D.port = none ∧ (rest = none ∨ rest = some (58, [])) ∨
      ∃ p, rest = some (58, p) ∧ p ≠ [] ∧ 0 < a2port serv p ∧ D.port = some (a2port serv p))

/-- It starts as a URI does. -/
def IsUri (s : Bytes) : Prop := ∃ t, s = b!"ssh://" ++ t

/-- The hops on the way, from the first connection to the last, when each `ssh` passes what is before its last hop on to the
one it starts. -/
inductive Via (serv : Bytes → Option Nat) : Bytes → List Dest → Prop where
  | last {s : Bytes} {d : Dest} : parseJump serv s = .via d none → Via serv s [d]
  | more {s e : Bytes} {d : Dest} {l : List Dest} : parseJump serv s = .via d (some e) → Via serv e l → Via serv s (l ++ [d])

/-! ## Canonical names -/

/-- The list permits the name (C06). -/
def Listed (list name : Bytes) : Prop :=
  (∀ e ∈ entries list, short e ∧ ¬ (isNeg e ∧ Glob ((body e).map toLower) name)) ∧
    ∃ e ∈ entries list, ¬ isNeg e ∧ Glob ((body e).map toLower) name

/-- Names are looked up before the connection: the client connects itself, or `always` asks for it. -/
def Asked (C : Cfg) : Prop := C.canon ≠ .no ∧ (C.direct = true ∨ C.canon = .always)

/-- `CanonicalizePermittedCNAMEs` is given and is not `none`. -/
def Rules (C : Cfg) : Prop := C.rules ≠ [] ∧ ¬ ∃ s, C.rules = [(s, [])] ∧ s.map toLower = b!"none"

/-- Some rule permits to go from `n` to `c`. -/
def Permitted (C : Cfg) (n c : Bytes) : Prop := Asked C ∧ Rules C ∧ ∃ r ∈ C.rules, Listed r.1 n ∧ Listed r.2 c

/-- The resolver says that `q` is an alias of `c`. -/
def AliasOf (R : Resolver) (q c : Bytes) : Prop :=
  ∃ a, R.look q = some (some a) ∧ Domain a ∧ Unanchored a c ∧ c.length < 1025

/-- The name `q` was looked up successfully as the full form of `n`; `h` is used from now on. -/
def Followed (C : Cfg) (R : Resolver) (q n h : Bytes) : Prop :=
  (∃ c, AliasOf R q c ∧ c ≠ n ∧ Permitted C n c ∧ h = c) ∨ ((∀ c, AliasOf R q c → c ≠ n → ¬ Permitted C n c) ∧ h = n)

def Exists (R : Resolver) (q : Bytes) : Prop := R.look q ≠ none

/-- Only an address: it has `%` or `:`, or has digits and dots only. -/
def LooksNumeric (n : Bytes) : Prop := 37 ∈ n ∨ 58 ∈ n ∨ ∀ c ∈ n, Digit c ∨ c = 46

/-- The word none, in any case -/
def NoneWord (d : Bytes) : Prop := d.map toLower = b!"none"

/-- The domain `d` is tried, after `pre`. -/
def Tried (C : Cfg) (pre : List Bytes) (d : Bytes) : Prop :=
  (∃ post, C.domains = pre ++ d :: post) ∧ (∀ x ∈ pre, ¬ NoneWord x) ∧ ¬ NoneWord d

/-- `q` is the first name looked up that exists, `n` its form without a dot at the end. -/
inductive Full (C : Cfg) (R : Resolver) (h : Bytes) : Bytes → Bytes → Prop where
  | anchored {n : Bytes} : h = n ++ [46] → Exists R h → Full C R h h n
  | suffix {pre : List Bytes} {d : Bytes} : (¬ ∃ n, h = n ++ [46]) → ((h.count 46 : Nat) : Int) ≤ C.maxDots → Tried C pre d →
      (∀ x ∈ pre, ¬ Exists R (h ++ [46] ++ x ++ [46])) → Exists R (h ++ [46] ++ d ++ [46]) →
      Full C R h (h ++ [46] ++ d ++ [46]) (h ++ [46] ++ d)

/-- Some full form is looked for. -/
def Applies (C : Cfg) (h : Bytes) : Prop := (∃ n, h = n ++ [46]) ∨ ((h.count 46 : Nat) : Int) ≤ C.maxDots

/-- The name of the command line or of `Hostname` in lower case, unless it is an address -/
def Begin (R : Resolver) (host h : Bytes) : Prop :=
  ((LooksNumeric host ∨ R.single host = true) ∧ h = host) ∨ (¬ LooksNumeric host ∧ R.single host = false ∧ h = host.map toLower)

/-- Canonicalisation, or the check for addresses, takes place. -/
def Entered (C : Cfg) (R : Resolver) (host : Bytes) : Prop := C.canon ≠ .no ∨ LooksNumeric host ∨ R.single host = true

/-- No full form is looked for: it looks like an address, was not asked for, or has dots enough. -/
def Skipped (C : Cfg) (h : Bytes) : Prop := LooksNumeric h ∨ ¬ Asked C ∨ ¬ Applies C h

/-- Full forms were looked for, and there is none. -/
def Missing (C : Cfg) (R : Resolver) (h : Bytes) : Prop := ¬ Skipped C h ∧ ¬ ∃ q n, Full C R h q n

/-- The name the client uses from `host` on. -/
inductive Resolves (C : Cfg) (R : Resolver) (host : Bytes) : Bytes → Bool → Prop where
  /-- an address, in its usual form unless only the case differs -/
  | address {h a g : Bytes} : Begin R host h → Entered C R host → R.numeric h = some a →
      (h.map toLower = a.map toLower ∧ g = h ∨ h.map toLower ≠ a.map toLower ∧ g = a) → Resolves C R host g true
  /-- a full form -/
  | full {h q n g : Bytes} : Begin R host h → Entered C R host → R.numeric h = none → ¬ Skipped C h → Full C R h q n →
      Followed C R q n g → Resolves C R host g true
  /-- the name itself, with rules for aliases -/
  | rules {h g : Bytes} : Begin R host h → (Entered C R host → R.numeric h = none) →
      (Entered C R host → Skipped C h ∨ Missing C R h ∧ C.fallback = true) → Rules C → (C.direct = true ∨ C.canon = .always) →
      Exists R h → Followed C R h h g → Resolves C R host g true
  /-- the name itself, which the proxy or jump host will look up -/
  | proxied {h : Bytes} : Begin R host h → (Entered C R host → R.numeric h = none) →
      (Entered C R host → Skipped C h ∨ Missing C R h ∧ C.fallback = true) → Rules C → C.direct = false → C.canon = .always →
      ¬ Exists R h → Resolves C R host h false
  /-- the name itself, without rules -/
  | plain {h : Bytes} : Begin R host h → (Entered C R host → R.numeric h = none) →
      (Entered C R host → Skipped C h ∨ Missing C R h ∧ C.fallback = true) →
      (¬ Rules C ∨ C.direct = false ∧ C.canon ≠ .always) → Resolves C R host h false

/-! ## Commands -/

/-- How sh(1) reads characters -/
inductive Quote where
  | plain | single | double | plainEsc | doubleEsc
  deriving DecidableEq

/-- Tokens: a character that stands for itself, or one with a meaning -/
inductive Tok where
  | lit (c : UInt8)
  | op (c : UInt8)
  deriving DecidableEq

/-- Characters with a meaning outside of quotes: they separate words or commands, redirect, group or substitute. -/
def metas : Bytes := b!" \t\n;&|<>(){},$`"

/-- One character. Patterns of file names, `~` and comments are left out, and so is what a backslash does before a new line
or, in double quotes, before a character without a meaning. -/
def next : Quote → UInt8 → Quote × List Tok
  | .plain, c =>
    if c = 39 then (.single, []) else if c = 34 then (.double, []) else if c = 92 then (.plainEsc, [])
    else if c ∈ metas then (.plain, [.op c]) else (.plain, [.lit c])
  | .single, c => if c = 39 then (.plain, []) else (.single, [.lit c])
  | .double, c =>
    if c = 34 then (.plain, []) else if c = 92 then (.doubleEsc, [])
    else if c = 36 ∨ c = 96 then (.double, [.op c]) else (.double, [.lit c])
  | .plainEsc, c => (.plain, [.lit c])
  | .doubleEsc, c => (.double, [.lit c])

/-- A command as sh(1) reads it: how it is read at the end, and the tokens -/
def reads : Quote → Bytes → Quote × List Tok
  | q, [] => (q, [])
  | q, c :: l => ((reads (next q c).1 l).1, (next q c).2 ++ (reads (next q c).1 l).2)

/-- The same as `q`, but not after a backslash -/
def unescaped : Quote → Quote
  | .plainEsc => .plain
  | .doubleEsc => .double
  | q => q

/-- It stands for itself wherever it is put into a command: it ends no word, and what comes after it is read as before. -/
def Inert (h : Bytes) : Prop := ∀ q, h ≠ [] → reads q h = (unescaped q, h.map .lit)

end Verif.Target
