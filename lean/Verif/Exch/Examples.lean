/-
Concrete runs of the key exchange: the hypotheses of C84, C85 and C86 are met by them.
-/
import Verif.Exch.Props
import Verif.Exch.Ext

namespace Verif.Exch
open Verif Wire Text
open scoped Verif.Match
open _root_.Verif.Kex (Support Flags Conf KeySet Err chooseConf wellFormed deriveKeys prop2buf buf2prop)

/-- The state a run ends in. -/
def okSt : Except Err St → Option St
  | .ok s => some s
  | .error _ => none

theorem okSt_some {x : Except Err St} {s : St} (h : okSt x = some s) : x = .ok s := by
  cases x with
  | ok a => injection h with h; rw [h]
  | error e => cases h

def toySupport : Support where
  cipher n := if n = b!"aes128-ctr" then some ⟨n, 16, 16, 0, 0, false⟩ else none
  mac n := if n = b!"hmac-sha2-256" then some 32 else none
  kex n := if n = b!"curve25519-sha256" then some 9 else
    if n = b!"diffie-hellman-group-exchange-sha256" then some 7 else none
  hostkey n := if n = b!"ssh-ed25519" then some 3 else none
  zlib := false

/-- Toy primitives: the hash is injective, a signature is the key and the text, the secret is made of the public parts. -/
def toyEnv (server : Bool) : Env where
  S := toySupport
  server := server
  method t := if t = 9 then some .gen else if t = 7 then some .gex else none
  H _ x := 1 :: x
  mdsz _ := 32
  keypair _ ρ := some (ρ, ρ)
  dec _ priv qs := some (str (priv ++ qs))
  enc _ ρ qc := some (ρ, str (qc ++ ρ))
  group _ _ _ _ := some (2 ^ 2047 + 1, 2)
  dhKey _ _ _ ρ := some (ofBE ρ + 2, ρ)
  dhShared _ priv e := some (mpint ((ofBE priv + 2) * e))
  gexLarge := false
  gexOld := false
  keyType k := if k = b!"K" then some 3 else none
  trusted k := decide (k = b!"K")
  verify k sig h _ := decide (sig = k ++ h)
  hostKey t := if t = 3 then some b!"K" else none
  sign k h _ _ := some (k ++ h)
  sigAlgs := b!"ssh-ed25519"

def toyProp (kex : Bytes) : Kex.Proposal :=
  [kex, b!"ssh-ed25519", b!"aes128-ctr", b!"aes128-ctr", b!"hmac-sha2-256", b!"hmac-sha2-256", b!"none", b!"none", b!"", b!""]

def startC (kex : Bytes) : Option St := okSt (setup b!"SSH-2.0-c" b!"SSH-2.0-s" (toyProp kex) b!"0123456789abcdef")
def startS (kex : Bytes) : Option St := okSt (setup b!"SSH-2.0-c" b!"SSH-2.0-s" (toyProp kex) b!"fedcba9876543210")

/-- The packets of a list, as events at the other end; after NEWKEYS the program installs its own table. -/
def deliver (l : List (Nat × Bytes)) (ρ : Bytes) : List Ev :=
  l.flatMap fun x => if x.1 = 21 then [.packet x.1 x.2 ρ ρ ρ, .table true true fun _ => false] else [.packet x.1 x.2 ρ ρ ρ]

/-- The two ends take turns; what each sends is delivered to the other one. -/
def chat (Ec Es : Env) : Nat → St → St → Nat → Nat → Option (St × St)
  | 0, c, s, _, _ => some (c, s)
  | n + 1, c, s, dc, ds =>
    match okSt (run Es s (deliver (c.sent.drop dc) b!"s")) with
    | none => none
    | some s' =>
      match okSt (run Ec c (deliver (s'.sent.drop ds) b!"c")) with
      | none => none
      | some c' => chat Ec Es n c' s' c.sent.length s'.sent.length

/-- What to look at. -/
def summary (x : St × St) : List Bool × List Nat × List Nat :=
  ([x.1.done, x.2.done, x.1.flags.strict, x.2.flags.strict, decide (x.1.sid = x.2.sid), decide (x.1.sid ≠ []),
    decide (x.1.curIn = x.2.curOut ∧ x.1.curIn ≠ none), decide (x.1.curOut = x.2.curIn ∧ x.1.curIn ≠ x.1.curOut),
    decide (x.1.recs.length = 1 ∧ x.2.recs.length = 1), x.1.hostbound],
   x.1.sent.map (·.1), x.2.sent.map (·.1))

def talk (kc ks : Bytes) : Option (St × St) :=
  match startC kc, startS ks with
  | some c, some s => chat (toyEnv false) (toyEnv true) 4 c s 0 0
  | _, _ => none

/-- Non-vacuity: a whole first exchange in strict mode, with a method of kexgen.c. -/
example : (talk b!"curve25519-sha256,ext-info-c,kex-strict-c-v00@openssh.com" b!"curve25519-sha256,kex-strict-s-v00@openssh.com").map summary =
    some ([true, true, true, true, true, true, true, true, true, true], [20, 30, 21], [20, 31, 21, 7]) := by decide +kernel

/-- The same with group exchange. -/
example : (talk b!"diffie-hellman-group-exchange-sha256,kex-strict-c-v00@openssh.com"
      b!"diffie-hellman-group-exchange-sha256,kex-strict-s-v00@openssh.com").map summary =
    some ([true, true, true, true, true, true, true, true, true, false], [20, 34, 32, 21], [20, 31, 33, 21]) := by decide +kernel

/-- Without the markers strict mode is off. -/
example : (talk b!"curve25519-sha256" b!"curve25519-sha256").map summary =
    some ([true, true, false, false, true, true, true, true, true, false], [20, 30, 21], [20, 31, 21]) := by decide +kernel

/-- A second exchange: the session identifier stays, the keys change. -/
def again : Option (St × St × St) :=
  match talk b!"curve25519-sha256,kex-strict-c-v00@openssh.com" b!"curve25519-sha256,kex-strict-s-v00@openssh.com" with
  | none => none
  | some (c, s) =>
    match okSt (run (toyEnv false) c [.authed, .rekey b!"another cookie..."]), okSt (run (toyEnv true) s [.authed]) with
    | some c', some s' =>
      match chat (toyEnv false) (toyEnv true) 4 c' s' c.sent.length s.sent.length with
      | some (c2, s2) => some (c, c2, s2)
      | none => none
    | _, _ => none

example : again.map (fun x => ([x.2.1.done, decide (x.2.1.sid = x.1.sid), decide (x.2.1.curIn ≠ x.1.curIn),
      decide (x.2.1.curIn = x.2.2.curOut), decide (x.2.1.curOut = x.2.2.curIn)], x.2.1.recs.length)) =
    some ([true, true, true, true, true], 2) := by decide +kernel

/-- Without strict mode an IGNORE message before the peer's KEXINIT is accepted and counts in the sequence number: C85
needs the hypothesis on the marker. -/
example : ((startC b!"curve25519-sha256").bind fun c => okSt (run (toyEnv false) c [.packet 2 [] [] [] []])).map (·.seq) = some 1 := by
  decide +kernel

/-- The server announces strict mode: the same message makes the client give up when KEXINIT arrives. -/
example : ((startC b!"curve25519-sha256").bind fun c => (startS b!"curve25519-sha256,kex-strict-s-v00@openssh.com").bind fun s =>
    okSt (run (toyEnv false) c (.packet 2 [] [] [] [] :: deliver s.sent []))).isNone = true ∧
    ((startC b!"curve25519-sha256").bind fun c => (startS b!"curve25519-sha256,kex-strict-s-v00@openssh.com").bind fun s =>
    okSt (run (toyEnv false) c (deliver s.sent []))).isSome = true := by
  decide +kernel

/-- A changed byte in the server's KEXINIT is noticed: the signature does not verify. -/
example : ((startC b!"curve25519-sha256").bind fun c => (startS b!"curve25519-sha256").bind fun s =>
    (okSt (run (toyEnv true) s (deliver (c.sent ++ [(30, str b!"c")]) b!"s"))).bind fun s' =>
      okSt (run (toyEnv false) c (deliver s'.sent b!"c"))).isSome = true ∧
    ((startC b!"curve25519-sha256").bind fun c => (startS b!"curve25519-sha256").bind fun s =>
    (okSt (run (toyEnv true) s (deliver (c.sent ++ [(30, str b!"c")]) b!"s"))).bind fun s' =>
      okSt (run (toyEnv false) c (deliver (s'.sent.map fun x => if x.1 = 20 then (20, x.2.set 3 0) else x) b!"c"))).isNone = true := by
  decide +kernel

/-- The hypotheses of `C86_agree` that concern the primitives hold for the toy ones. -/
example : (∀ k x, (toyEnv false).H k x ≠ []) ∧
    (∀ a b c ρ p g, (toyEnv true).group a b c ρ = some (p, g) → numBits p ≤ 8192) ∧
    (∀ k k' x y, (toyEnv false).H k x = (toyEnv false).H k' y → x = y) := by
  refine ⟨fun k x => List.cons_ne_nil _ _, fun a b c ρ p g h => ?_, fun k k' x y h => (List.cons.inj h).2⟩
  have h1 : some (2 ^ 2047 + 1, 2) = some (p, g) := h
  injection h1 with h1
  injection h1 with h1
  subst h1
  exact numBits_le (by decide +kernel)

/-- Numbers: 128 is sent with a zero in front; the same byte alone is negative and refused. -/
example : getMpint [0, 0, 0, 2, 0, 128, 7] = some (128, [7]) ∧ getMpint [0, 0, 0, 1, 128] = none ∧ twos [128] = -128 := by decide +kernel

/-! `C92_received`: a first and a second message of a server; the second does not announce `ping`. -/

def entry (n v : Bytes) : Bytes := str n ++ str v

example : (startC b!"curve25519-sha256").bind (fun s => (okSt (inputExtInfo (toyEnv false) s 3
    (be 4 2 ++ entry b!"server-sig-algs" b!"ssh-ed25519" ++ entry b!"x@y" [0]))).map fun s =>
      (s.sigAlgs, s.ping, s.extReceived)) = some (some b!"ssh-ed25519", false, 1) := by decide +kernel

example : (startC b!"curve25519-sha256").bind (fun s => (okSt (inputExtInfo (toyEnv false) { s with extReceived := 1 } 3
    (be 4 2 ++ entry b!"server-sig-algs" b!"ssh-rsa" ++ entry b!"ping@openssh.com" b!"0"))).map fun s =>
      (s.sigAlgs, s.ping, s.extReceived)) = some (some b!"ssh-rsa", false, 2) := by decide +kernel

example : (startC b!"curve25519-sha256").bind (fun s => okSt (inputExtInfo (toyEnv false) s 3
    (be 4 1 ++ entry b!"ping@openssh.com" [48, 0]))) |>.isNone := by decide +kernel

end Verif.Exch
