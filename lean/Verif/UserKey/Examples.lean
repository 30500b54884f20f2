/-
Non-trivial cases of C95, C96 and C97.
-/
import Verif.UserKey.Props

namespace Verif.UserKey.Examples
open Verif Wire UserKey
open _root_.Verif.KeyOpts (Key Opts)

def alice : User := ⟨b!"alice", 1000, b!"/home/alice"⟩

def theFile : Bytes := b!"/home/alice/.ssh/authorized_keys"

/-- `/home` is writable for a group; everything below belongs to the user with mode `m` -/
def fsOf (m : Nat) : Fs where
  realpath n := if n = theFile then some theFile else if n = alice.dir then some alice.dir else none
  stat n :=
    if n = b!"/home/alice/.ssh" then some ⟨false, 1000, 1000, m⟩
    else if n = alice.dir then some ⟨false, 1000, 1000, 0o755⟩
    else if n = b!"/home" then some ⟨false, 0, 50, 0o775⟩
    else if n = b!"/" then some ⟨false, 0, 0, 0o755⟩ else none
  openf n := if n = theFile then some (⟨true, 1000, 1000, 0o600⟩, [b!"# my keys\n", b!"K\n"]) else none

def conf : Conf := ⟨[b!"none", b!".ssh/authorized_keys"], none, true, b!"ssh-*,!ssh-dss", true, false⟩

def worldOf (m : Nat) (bad : Nat) : World where
  fs := fsOf m
  glob n := some [n]
  percent n := n
  revoked k := match k with | .plain n => n == bad | .cert _ => false
  trusted n := n == 9
  principalsCommand := none
  keysCommand := none
  opts := ⟨fun _ => none, fun _ => none, fun _ => none⟩
  read s := if s = b!"K\n" then some 7 else none
  now := 150
  ip := b!"h"
  host := b!"h"

/-- C96: a private directory will do, one that the group may write to will not; `/home` does not matter. -/
example : safePath (fsOf 0o700) theFile ⟨true, 1000, 1000, 0o600⟩ (some alice.dir) 1000 = true ∧
    safePath (fsOf 0o770) theFile ⟨true, 1000, 1000, 0o600⟩ (some alice.dir) 1000 = false ∧
    safePath (fsOf 0o700) theFile ⟨true, 1000, 1000, 0o602⟩ (some alice.dir) 1000 = false ∧
    safePath (fsOf 0o700) theFile ⟨true, 1001, 1000, 0o600⟩ (some alice.dir) 1000 = false ∧
    safePath (fsOf 0o700) theFile ⟨true, 1000, 1000, 0o600⟩ none 1000 = false := by
  decide +kernel

/-- the path has the form supposed -/
example : (fsOf 0o700).realpath theFile = some (render [b!"home", b!"alice", b!".ssh", b!"authorized_keys"]) ∧
    OnTheWay (some alice.dir) [b!"home", b!"alice", b!".ssh", b!"authorized_keys"] [b!"home", b!"alice"] ∧
    ¬ OnTheWay (some alice.dir) [b!"home", b!"alice", b!".ssh", b!"authorized_keys"] [b!"home"] := by
  refine ⟨by decide +kernel, ⟨⟨[b!".ssh", b!"authorized_keys"], by simp, rfl⟩, ?_⟩, ?_⟩
  · rintro h ⟨e, he, h1⟩ h2
    match h, h1 with
    | [], _ => simp
    | [_], _ => simp
    | [_, _], _ => simp
    | [a, b, c], h1 =>
      simp only [List.cons_append, List.nil_append, List.cons.injEq] at h1
      obtain ⟨rfl, rfl, rfl, _⟩ := h1
      revert h2; decide +kernel
    | a :: b :: c :: d :: t, h1 =>
      simp only [List.cons_append, List.cons.injEq] at h1
      obtain ⟨_, _, _, _, h1⟩ := h1
      rcases List.append_eq_nil_iff.1 h1.symm with ⟨_, h⟩
      exact absurd h he
  · rintro ⟨_, h⟩
    have := h [b!"home", b!"alice"] ⟨[b!".ssh", b!"authorized_keys"], by simp, rfl⟩ (by decide +kernel)
    simp at this

/-- C95: the key in the file is accepted, but not if it is revoked or the directory is open to others. -/
example : (allowed (worldOf 0o700 0) conf alice (.plain 7)).isSome = true ∧ allowed (worldOf 0o700 7) conf alice (.plain 7) = none ∧
    allowed (worldOf 0o770 0) conf alice (.plain 7) = none ∧ allowed (worldOf 0o700 0) conf alice (.plain 8) = none := by
  decide +kernel

def cert (ca : Nat) : KeyOpts.Cert :=
  { type := .user, principals := [b!"alice"], validAfter := 100, validBefore := 200, critical := [],
    extensions := Wire.str b!"permit-pty" ++ Wire.str [], ca := ca }

/-- C95: a certificate of a trusted authority, unless that is revoked. -/
example : (allowed (worldOf 0o700 0) conf alice (.cert (cert 9))).isSome = true ∧
    allowed (worldOf 0o700 9) conf alice (.cert (cert 9)) = none ∧
    allowed (worldOf 0o700 0) conf alice (.cert (cert 8)) = none := by
  decide +kernel

/-- The first byte of a key is its kind, the second tells which; a signature is the data signed with the key in front. -/
def keys : KeyWorld where
  typeOf a := if a = b!"ssh-ed25519" then some 3 else if a = b!"ssh-dss" then some 1 else none
  parse b := match b with | [t, n] => some ⟨t.toNat, .plain n.toNat⟩ | _ => none
  used _ := false
  caSigOk _ := true
  sizeOk _ := true
  verify k sig d _ := match k.key with
    | .plain n => if sig = UInt8.ofNat n :: d then some (some ⟨1⟩) else none
    | .cert _ => none
  isHostKey k := match k.key with | .plain n => n == 99 | .cert _ => false
  hostBlob := [3, 99]

def sess : Session := ⟨b!"0123456789abcdef", false, false, true, b!"alice", some b!"x", b!"ssh-connection", {}⟩

def kind : Res → Nat
  | .fatal => 0
  | .refused => 1
  | .pkOk _ _ => 2
  | .accepted _ => 3

def pk : Bytes := b!"publickey"
def hb : Bytes := b!"publickey-hostbound-v00@openssh.com"

def ask (k : Bytes) : Bytes := [0] ++ str b!"ssh-ed25519" ++ str k
def signedBy (s : Session) (n : UInt8) : Bytes :=
  [1] ++ str b!"ssh-ed25519" ++ str [3, 7] ++ str (n :: signedData keys s pk false 1 b!"ssh-ed25519" [3, 7])

/-- C97: a question; a request with a right signature, with one made for another session or user, by another key, with data
after it; a key of the wrong kind. -/
example : kind (userauth (worldOf 0o700 0) keys conf alice sess pk (ask [3, 7])) = 2 ∧
    kind (userauth (worldOf 0o700 0) keys conf alice sess pk (signedBy sess 7)) = 3 ∧
    kind (userauth (worldOf 0o700 0) keys conf alice sess pk (signedBy { sess with id := b!"0123456789abcdeX" } 7)) = 1 ∧
    kind (userauth (worldOf 0o700 0) keys conf alice sess pk (signedBy { sess with user := b!"bob" } 7)) = 1 ∧
    kind (userauth (worldOf 0o700 0) keys conf alice sess pk (signedBy sess 8)) = 1 ∧
    kind (userauth (worldOf 0o700 0) keys conf alice sess pk (signedBy sess 7 ++ [0])) = 0 ∧
    kind (userauth (worldOf 0o700 0) keys conf alice sess pk (ask [1, 7])) = 1 ∧
    kind (userauth (worldOf 0o700 0) keys conf alice { sess with valid := false } pk (signedBy sess 7)) = 1 ∧
    kind (userauth (worldOf 0o700 0) keys { conf with verify := true } alice sess pk (signedBy sess 7)) = 1 := by
  decide +kernel

/-- C97: the bound method, with the host key of this connection and with another. -/
example : kind (userauth (worldOf 0o700 0) keys conf alice sess hb (ask [3, 7] ++ str [3, 99])) = 2 ∧
    kind (userauth (worldOf 0o700 0) keys conf alice sess hb (ask [3, 7] ++ str [3, 98])) = 0 ∧
    kind (userauth (worldOf 0o700 0) keys conf alice sess hb (ask [3, 7])) = 0 := by
  decide +kernel

/-- C97: the separator of user and style is not protected: the user `a` with style `b` signs the same as the user `a:b`.  (The
server splits at the first colon, so no user name contains one.) -/
example : signedData keys { sess with user := b!"a", style := some b!"b" } pk false 1 [] [] =
    signedData keys { sess with user := b!"a:b", style := none } pk false 1 [] [] := by
  decide +kernel

end Verif.UserKey.Examples
