/-
Options of certificates that ssh-keygen issues: ssh-keygen.c.

Simplified: memory is never short; `fatal` is `none`; strings are lists of bytes without NUL; `qsort` is insertion sort (its comparison tells all
entries apart that are not the same, so any sorting gives this). Reading numbers of addresses is the parameter of KeyOpts.
-/
import Verif.KeyOpts.Model

namespace Verif.Issue
open Verif
open _root_.Verif.Wire (str)
open _root_.Verif.Match (toLower)
open _root_.Verif.KeyOpts (World startsCase)

/-- ssh-keygen.c:120-126 CERTOPT_* -/
inductive Flag where
  | x11 | agent | port | pty | userRc | noPresence | verify
  deriving DecidableEq

/-- ssh-keygen.c:134-138 `struct cert_ext` -/
structure Ext where
  key : Bytes
  val : Option Bytes
  crit : Bool
  deriving DecidableEq

/-- ssh-keygen.c:127-145 what is asked for: `certflags_flags`, `certflags_command`, `certflags_src_addr`, `cert_ext` -/
structure Ask where
  flags : Flag → Bool
  command : Option Bytes
  source : Option Bytes
  exts : List Ext

/-- ssh-keygen.c:127-129 CERTOPT_DEFAULT -/
def defaults : Flag → Bool
  | .x11 | .agent | .port | .pty | .userRc => true
  | .noPresence | .verify => false
def start : Ask := ⟨defaults, none, none, []⟩

/-- `strcasecmp(a, b) == 0` -/
def caseEq (a b : Bytes) : Bool := decide (a.map toLower = b.map toLower)

/-- ssh-keygen.c:2049-2076 the options that set or clear a flag -/
def table : List (Bytes × Flag × Bool) :=
  [(b!"no-x11-forwarding", .x11, false), (b!"permit-x11-forwarding", .x11, true), (b!"no-agent-forwarding", .agent, false),
   (b!"permit-agent-forwarding", .agent, true), (b!"no-port-forwarding", .port, false), (b!"permit-port-forwarding", .port, true),
   (b!"no-pty", .pty, false), (b!"permit-pty", .pty, true), (b!"no-user-rc", .userRc, false), (b!"permit-user-rc", .userRc, true),
   (b!"touch-required", .noPresence, false), (b!"no-touch-required", .noPresence, true), (b!"no-verify-required", .verify, false),
   (b!"verify-required", .verify, true)]

def put (g : Flag → Bool) (f : Flag) (b : Bool) : Flag → Bool := fun x => if x = f then b else g x

/-- ssh-keygen.c:2095-2099: name and value of an option of one's own -/
def own (crit : Bool) (opt : Bytes) : Ext :=
  ⟨((opt.dropWhile (· ≠ 58)).drop 1).takeWhile (· ≠ 61),
    if (61 : UInt8) ∈ (opt.dropWhile (· ≠ 58)).drop 1 then some ((((opt.dropWhile (· ≠ 58)).drop 1).dropWhile (· ≠ 61)).drop 1) else none, crit⟩

/-- ssh-keygen.c:2041-2102 `add_cert_option` -/
def addOption (w : World) (a : Ask) (opt : Bytes) : Option Ask :=
  if caseEq opt b!"clear" then some ⟨fun _ => false, a.command, a.source, a.exts⟩
  else match table.find? fun e => caseEq opt e.1 with
  | some (_, f, b) => some ⟨put a.flags f b, a.command, a.source, a.exts⟩
  | none =>
    if startsCase b!"force-command=" opt then
      if opt.drop 14 = [] ∨ a.command ≠ none then none else some ⟨a.flags, some (opt.drop 14), a.source, a.exts⟩
    else if startsCase b!"source-address=" opt then
      if opt.drop 15 = [] ∨ a.source ≠ none ∨ Addr.matchCidrList w.pton none (opt.drop 15) ≠ 0 then none
      else some ⟨a.flags, a.command, some (opt.drop 15), a.exts⟩
    else if startsCase b!"extension:" opt then some ⟨a.flags, a.command, a.source, a.exts ++ [own false opt]⟩
    else if startsCase b!"critical:" opt then some ⟨a.flags, a.command, a.source, a.exts ++ [own true opt]⟩
    else none

/-- all of the command line -/
def addAll (w : World) : List Bytes → Ask → Option Ask
  | [], a => some a
  | o :: l, a => (addOption w a o).bind (addAll w l)

/-- `cert_ext_add` if a condition holds (ssh-keygen.c:1657-1665) -/
def ifThen (c : Bool) (e : Ext) : List Ext := if c then [e] else []

/-- `strcmp` -/
def strcmp : Bytes → Bytes → Ordering
  | [], [] => .eq
  | [], _ :: _ => .lt
  | _ :: _, [] => .gt
  | a :: l, b :: m => if a.toNat < b.toNat then .lt else if b.toNat < a.toNat then .gt else strcmp l m

/-- of values: none before all others -/
def valCmp : Option Bytes → Option Bytes → Ordering
  | none, none => .eq
  | none, some _ => .lt
  | some _, none => .gt
  | some a, some b => strcmp a b

/-- ssh-keygen.c:1668-1684 `cert_ext_cmp`, `true` if not greater -/
def le (a b : Ext) : Bool :=
  if a.crit ≠ b.crit then b.crit
  else match strcmp a.key b.key with
    | .lt => true
    | .gt => false
    | .eq => decide (valCmp a.val b.val ≠ .gt)

def insert (e : Ext) : List Ext → List Ext
  | [] => [e]
  | x :: l => if le e x then e :: x :: l else x :: insert e l

/-- `qsort` -/
def sort : List Ext → List Ext
  | [] => []
  | e :: l => insert e (sort l)

/-- ssh-keygen.c:1723-1749 `finalise_cert_exts` -/
def finalise (a : Ask) : List Ext :=
  sort (a.exts ++ (ifThen a.command.isSome ⟨b!"force-command", a.command, true⟩ ++ (ifThen a.source.isSome ⟨b!"source-address", a.source, true⟩ ++
    (ifThen (a.flags .verify) ⟨b!"verify-required", none, true⟩ ++ (ifThen (a.flags .x11) ⟨b!"permit-X11-forwarding", none, false⟩ ++
    (ifThen (a.flags .agent) ⟨b!"permit-agent-forwarding", none, false⟩ ++ (ifThen (a.flags .port) ⟨b!"permit-port-forwarding", none, false⟩ ++
    (ifThen (a.flags .pty) ⟨b!"permit-pty", none, false⟩ ++ (ifThen (a.flags .userRc) ⟨b!"permit-user-rc", none, false⟩ ++
    ifThen (a.flags .noPresence) ⟨b!"no-touch-required", none, false⟩)))))))))

/-- the value of an entry (ssh-keygen.c:1704-1718) -/
def data : Option Bytes → Bytes
  | none => []
  | some v => str v

/-- ssh-keygen.c:1688-1721 `prepare_options_buf`: the critical ones, or the others -/
def prepare (crit : Bool) : List Ext → Bytes
  | [] => []
  | e :: l => if e.crit ≠ crit then prepare crit l else str e.key ++ (str (data e.val) ++ prepare crit l)

/-- The two lists of a certificate that is issued (ssh-keygen.c:1862, 1896-1898) -/
def issue (a : Ask) : Bytes × Bytes := (prepare true (finalise a), prepare false (finalise a))

end Verif.Issue
