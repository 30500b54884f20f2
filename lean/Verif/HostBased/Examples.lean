/-
Non-trivial cases of C98, C99 and C100, and statements that do not hold.
-/
import Verif.HostBased.Props

namespace Verif.HostBased.Examples
open Verif Wire HostBased
open _root_.Verif.UserKey (Stat User)

def bob : User := ⟨b!"bob", 1000, b!"/home/bob"⟩

def filesOf (f content : Bytes) (m : Nat) : Files where
  openf n := if n = f then some (⟨true, 1000, 1000, 0o644⟩, content) else none
  stat n := if n = bob.dir then some ⟨false, 1000, 1000, m⟩ else if n = f then some ⟨true, 1000, 1000, 0o644⟩ else none

def groups : Groups := ⟨fun g h => decide (g = b!"lab" ∧ h = b!"pc1"), fun _ _ => false⟩

def conf : Conf := ⟨true, .no, b!"ssh-*", false, false⟩

def rhostsFile : Bytes := b!"/home/bob/.rhosts"

def sample : Bytes := b!"# hosts\n\nNO_PLUS\n-bad.example\nGood.Example alice\n+@lab\n+ +\n"

def ask (C : Conf) (m : Nat) (client hostname : Bytes) : Bool :=
  rhosts (filesOf rhostsFile sample m) groups C bob client hostname b!"10.0.0.1"

/-- C99: a name in another case, another user, a group of hosts, a name that is denied, a name not mentioned; a home directory
that others may write to; files ignored. -/
example : ask conf 0o755 b!"alice" b!"good.example" = true ∧ ask conf 0o755 b!"bob" b!"good.example" = false ∧
    ask conf 0o755 b!"bob" b!"pc1" = true ∧ ask conf 0o755 b!"bob" b!"bad.example" = false ∧ ask conf 0o755 b!"x" b!"y" = false ∧
    ask conf 0o775 b!"alice" b!"good.example" = false ∧ ask { conf with strict := false } 0o775 b!"alice" b!"good.example" = true ∧
    ask { conf with ignore := .shosts } 0o755 b!"alice" b!"good.example" = false := by
  decide +kernel

/-- the hypothesis of `C99_trusted` -/
example : ∀ f, ((filesOf rhostsFile sample 0o755).openf f).isSome = true → ((filesOf rhostsFile sample 0o755).stat f).isSome = true := by
  intro f h
  by_cases hf : f = rhostsFile
  · subst hf; decide
  · simp [filesOf, hf] at h

/-- The hypothesis of `C99_lines` holds of the sample. -/
example : sample = ([b!"# hosts", [], b!"NO_PLUS", b!"-bad.example", b!"Good.Example alice", b!"+@lab", b!"+ +"].flatMap fun l => l ++ [10]) := by
  decide +kernel

/-- **C99 (comments are not always comments).**  False: that a comment grants nothing.  The file has one line, a comment of more
than 1022 bytes; what comes after that many bytes is taken for a line of its own. -/
theorem C99_comment_false : ∃ l : Bytes, l.head? = some 35 ∧ (10 : UInt8) ∉ l ∧
    rhosts (filesOf rhostsFile (l ++ [10]) 0o755) groups conf bob b!"mallory" b!"evil" b!"10.0.0.1" = true := by
  refine ⟨35 :: List.replicate 1022 32 ++ b!"evil mallory", rfl, by decide +kernel, by decide +kernel⟩

/-- A denial in a file of the system does not outweigh a grant in a file of the user. -/
example : let F : Files := ⟨fun n => if n = b!"/etc/hosts.equiv" then some (⟨true, 0, 0, 0o644⟩, b!"-evil\n") else (filesOf rhostsFile b!"evil\n" 0o755).openf n,
      fun n => if n = b!"/etc/hosts.equiv" then some ⟨true, 0, 0, 0o644⟩ else (filesOf rhostsFile b!"evil\n" 0o755).stat n⟩
    rhosts F groups conf bob b!"bob" b!"evil" b!"10.0.0.1" = true := by
  decide +kernel

/-! ### The server -/

def hostKey : Hostfile.Key := ⟨[3, 7], 3, -1, none⟩
def hostCert : Hostfile.Key := ⟨[3, 7], 5, -1, some (b!"c", [3, 9])⟩

def certWith (critical : Bytes) : KeyOpts.Cert :=
  { type := .host, principals := [b!"good.example"], validAfter := 100, validBefore := 200, critical := critical,
    extensions := [], ca := 9 }

/-- A signature is the data with the key in front. -/
def worldOf (known : Bool → List Hostfile.Entry) (critical : Bytes) : World where
  files := filesOf rhostsFile sample 0o755
  groups := groups
  sysKnown second n := if n = b!"good.example" then known second else []
  userKnown _ _ := (none, [])
  revoked _ := false
  cert _ := certWith critical
  now := 150
  resolved := b!"good.example"
  ip := b!"10.0.0.1"
  typeOf a := if a = b!"ssh-ed25519" then some 3 else if a = b!"ssh-cert" then some 5 else none
  parse b := if b = [3, 7] then some hostKey else if b = [5, 7] then some hostCert else none
  keyOk _ := true
  verify k sig d _ := sig = k.pub ++ d

def line1 : Hostfile.Entry := ⟨hostKey, .none⟩
def lineCa : Hostfile.Entry := ⟨⟨[3, 9], 3, -1, none⟩, .ca⟩
def lineRev : Hostfile.Entry := ⟨hostKey, .revoke⟩

def sess : Session := ⟨b!"0123456789abcdef0123", true, b!"bob", b!"ssh-connection"⟩

def reqOf (s : Session) (alg blob chost cuser : Bytes) : Bytes :=
  str alg ++ str blob ++ str chost ++ str cuser ++ str ([3, 7] ++ signedData s b!"hostbased" alg blob chost cuser)

/-- C98: a right request; a signature for another user on the server; a user who is not trusted; an unknown key; a known one
that is revoked. -/
example : userauth (worldOf (fun _ => [line1]) []) conf bob sess b!"hostbased" (reqOf sess b!"ssh-ed25519" [3, 7] b!"good.example." b!"alice") = .accepted ∧
    userauth (worldOf (fun _ => [line1]) []) conf bob sess b!"hostbased" (reqOf { sess with user := b!"eve" } b!"ssh-ed25519" [3, 7] b!"good.example." b!"alice") = .refused ∧
    userauth (worldOf (fun _ => [line1]) []) conf bob sess b!"hostbased" (reqOf sess b!"ssh-ed25519" [3, 7] b!"good.example." b!"eve") = .refused ∧
    userauth (worldOf (fun _ => []) []) conf bob sess b!"hostbased" (reqOf sess b!"ssh-ed25519" [3, 7] b!"good.example." b!"alice") = .refused ∧
    userauth (worldOf (fun _ => [line1, lineRev]) []) conf bob sess b!"hostbased" (reqOf sess b!"ssh-ed25519" [3, 7] b!"good.example." b!"alice") = .refused := by
  decide +kernel

/-- **C98 (data at the end).**  Not required: that nothing follows the signature. -/
theorem C98_trailing : userauth (worldOf (fun _ => [line1]) []) conf bob sess b!"hostbased"
    (reqOf sess b!"ssh-ed25519" [3, 7] b!"good.example." b!"alice" ++ b!"more") = .accepted := by
  decide +kernel

/-- **C98 (critical options).**  False: that a certificate with critical options is refused; nothing looks at them here. -/
theorem C98_critical_false : (certWith (str b!"no-such-option" ++ str [])).critical ≠ [] ∧
    userauth (worldOf (fun _ => [lineCa]) (str b!"no-such-option" ++ str [])) conf bob sess b!"hostbased"
      (reqOf sess b!"ssh-cert" [5, 7] b!"good.example." b!"alice") = .accepted := by
  decide +kernel

/-- **C98 (second files).**  False: that a key which one of the four files revokes is refused; the second pair is only looked at
if the first says nothing. -/
theorem C98_second_false : lineRev ∈ (worldOf (fun second => if second then [lineRev] else [line1]) []).sysKnown true b!"good.example" ∧
    userauth (worldOf (fun second => if second then [lineRev] else [line1]) []) conf bob sess b!"hostbased"
      (reqOf sess b!"ssh-ed25519" [3, 7] b!"good.example." b!"alice") = .accepted := by
  decide +kernel

/-! ### The helper -/

def data (s : Session) (chost cuser : Bytes) : Bytes := signedData s b!"hostbased" b!"ssh-ed25519" [3, 7] chost cuser

/-- C100: a right request of alice; one in the name of another; from another host; for another service; with more at the end. -/
example : (validRequest (worldOf (fun _ => []) []) b!"alice" b!"pc1.example" (data sess b!"PC1.example." b!"alice")).isSome = true ∧
    (validRequest (worldOf (fun _ => []) []) b!"alice" b!"pc1.example" (data sess b!"pc1.example." b!"root")).isSome = false ∧
    (validRequest (worldOf (fun _ => []) []) b!"alice" b!"pc1.example" (data sess b!"pc2.example." b!"alice")).isSome = false ∧
    (validRequest (worldOf (fun _ => []) []) b!"alice" b!"pc1.example" (data sess b!"pc1.example" b!"alice")).isSome = false ∧
    (validRequest (worldOf (fun _ => []) []) b!"alice" b!"pc1.example" (data { sess with service := b!"other" } b!"pc1.example." b!"alice")).isSome = false ∧
    (validRequest (worldOf (fun _ => []) []) b!"alice" b!"pc1.example" (data sess b!"pc1.example." b!"alice" ++ [0])).isSome = false := by
  decide +kernel

def asker : Asker := ⟨b!"alice", fun fd => if fd = 5 then some b!"pc1.example" else none⟩

example : (keysign (worldOf (fun _ => []) []) true [hostKey] asker ([2] ++ be 4 5 ++ str (data sess b!"pc1.example." b!"alice"))).isSome = true ∧
    (keysign (worldOf (fun _ => []) []) false [hostKey] asker ([2] ++ be 4 5 ++ str (data sess b!"pc1.example." b!"alice"))).isSome = false ∧
    (keysign (worldOf (fun _ => []) []) true [] asker ([2] ++ be 4 5 ++ str (data sess b!"pc1.example." b!"alice"))).isSome = false ∧
    (keysign (worldOf (fun _ => []) []) true [hostKey] asker ([2] ++ be 4 6 ++ str (data sess b!"pc1.example." b!"alice"))).isSome = false := by
  decide +kernel

end Verif.HostBased.Examples
