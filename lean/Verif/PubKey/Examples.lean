/-
Concrete keys, certificates and signatures, and what does not hold.
-/
import Verif.PubKey.Sign

namespace Verif.PubKey
open Verif Wire

/-! A world small enough to compute in: every point is on its curve, the signature of a message by an Ed25519 key is 64
times the key's first byte plus the length of the message, an RSA signature ends in the length of the message, and ECDSA
signatures have r = length and s = number of the curve; the hash is the message cut or filled up to 32 bytes. -/

def toy : World where
  onCurve := fun _ q => q.length = 5
  ed := fun pk s m => s = List.replicate 64 (pk.headD 0 + UInt8.ofNat m.length)
  rsa := fun _ _ _ m s => s.getLast? = some (UInt8.ofNat m.length)
  ecdsa := fun c _ _ m a b => a = m.length ∧ b = (match c with | .p256 => 256 | .p384 => 384 | .p521 => 521)
  sha256 := fun m => (m ++ List.replicate 32 0).take 32

def edKey : Pub := .ed25519 (List.replicate 32 7)
def caKey : Pub := .ed25519 (List.replicate 32 9)
def p384Key : Pub := .ecdsa .p384 [4, 1, 2, 3, 4]
def skKey : Pub := .ecdsaSk .p256 [4, 1, 2, 3, 4] b!"ssh:"

def edSig (pk : UInt8) (m : Bytes) : Bytes := str b!"ssh-ed25519" ++ str (List.replicate 64 (pk + UInt8.ofNat m.length))

def rs (a b : Nat) : Bytes := str (Exch.mpintBytes a) ++ str (Exch.mpintBytes b)

/-- A user certificate for `edKey`. -/
def cert : Cert := ⟨[], 1, 5, b!"id", [b!"ann", b!"bob"], 10, 20, str b!"force-command" ++ str (str b!"ls"), [], caKey, []⟩

def certBlob : Option Bytes := certify edKey cert ⟨caKey, none⟩ b!"nonce" none fun body _ => some (edSig 9 body)

/-- The certificate without what depends on the signature -/
def bare (c : Cert) : Cert := { c with blob := [], signatureType := [] }

theorem cert_read : (certBlob.bind (fromBlob toy)).map (fun k => Key.mk k.pub (k.cert.map bare)) = some ⟨edKey, some cert⟩ := by
  decide +kernel

/-- One byte of the certificate changed: refused. -/
example : ((certBlob.map fun b => b.set 100 77).bind (fromBlob toy)).isNone = true := by decide +kernel

/-- A certificate as an authority's key is refused. -/
example : (certify edKey cert ⟨caKey, some cert⟩ b!"n" none fun b _ => some (edSig 9 b)) = none := rfl

/-- `C90_plain_roundtrip`, `C90_issued`: the hypotheses can be met. -/
example : Sound toy edKey ∧ Sound toy p384Key ∧ Sound toy skKey :=
  ⟨.ed25519 rfl, .ecdsa ⟨rfl, by decide, rfl⟩, .ecdsaSk ⟨rfl, by decide, rfl⟩ (by decide) (by decide)⟩

theorem cert_fit : Fit toy edKey cert ⟨caKey, none⟩ (str b!"ssh-ed25519" ++ str (List.replicate 32 9)) where
  key := .ed25519 rfl
  ca := .ed25519 rfl
  caShort := by decide
  numbers := by decide
  type := .inl rfl
  keyId := by decide
  few := by decide
  principals := by decide
  total := by decide
  options := ⟨.cons (x := b!"force-command") (y := str b!"ls") (r := []) (by decide) (by decide) .nil, by decide, .nil, by decide⟩

/-- `C90_certificate`, `C90_signed`, `C90_kept`: there is such a certificate. -/
theorem cert_exists : ∃ b c, fromBlob toy b = some ⟨edKey, some c⟩ ∧ sayings c = sayings cert := by
  have h : certBlob.isSome = true := by decide +kernel
  obtain ⟨b, hb⟩ := Option.isSome_iff_exists.mp h
  have hs := cert_read
  rw [hb, Option.bind_some] at hs
  cases hk : fromBlob toy b with
  | none => rw [hk] at hs; cases hs
  | some k =>
    rw [hk] at hs
    obtain ⟨p, c⟩ := k
    cases c with
    | none => simp at hs
    | some c =>
      have h1 : p = edKey ∧ bare c = cert := by simpa using hs
      exact ⟨b, c, by rw [hk, h1.1], by rw [← h1.2]; rfl⟩

/-- The blob of a key is not unique: other names and a NUL at the end of the name are accepted as well, and the key is
written differently. -/
theorem C90_canonical_false : ∃ b b' k, b ≠ b' ∧ fromBlob toy b = some k ∧ fromBlob toy b' = some k ∧
    toBlob k false = some b ∧ toBlob k false ≠ some b' :=
  ⟨str nSk ++ serPublic skKey, str nWebauthn ++ serPublic skKey, ⟨skKey, none⟩, by decide +kernel,
    (C90_plain toy _ _).mpr ⟨nSk, nSk, _, rfl, text_self (by decide +kernel) (by decide +kernel), by decide +kernel,
      .ecdsaSk (text_curve _) ⟨rfl, by decide, rfl⟩ (text_self (by decide) (by decide))⟩,
    (C90_plain toy _ _).mpr ⟨nWebauthn, nWebauthn, _, rfl, text_self (by decide +kernel) (by decide +kernel), by decide +kernel,
      .ecdsaSk (text_curve _) ⟨rfl, by decide, rfl⟩ (text_self (by decide) (by decide))⟩,
    by decide +kernel, by decide +kernel⟩

example : fromBlob toy (str (nEd25519 ++ [0]) ++ str (List.replicate 32 7)) = some ⟨edKey, none⟩ :=
  (C90_plain toy _ _).mpr ⟨nEd25519 ++ [0], nEd25519, _, rfl, ⟨⟨.inr rfl, by decide⟩, by decide⟩, by decide, .ed25519 rfl⟩

example : (fromBlob toy (str nEd25519 ++ str (List.replicate 31 7))).isNone = true := by decide +kernel
example : (fromBlob toy (str nEd25519 ++ str (List.replicate 32 7) ++ [0])).isNone = true := by decide +kernel
example : (fromBlob toy (str nP384 ++ str b!"nistp256" ++ str [4, 1, 2, 3, 4])).isNone = true := by decide +kernel

/-! ### Signatures -/

example : verify toy edKey (edSig 7 b!"hello") b!"hello" none = some none := by decide +kernel
example : verify toy edKey (edSig 7 b!"hello" ++ [0]) b!"hello" none = none := by decide +kernel
example : verify toy edKey (edSig 7 b!"hello") b!"hello!" none = none := by decide +kernel
example : verify toy p384Key (str nP384 ++ str (rs 5 384)) b!"hello" (some nP384) = some none := by decide +kernel
example : verify toy p384Key (str nP256 ++ str (rs 5 256)) b!"hello" (some nP384) = none := by decide +kernel

/-- 32 bytes of the hash of the application, flags, counter, 32 bytes of the hash of the message -/
example : verify toy skKey (str nSk ++ str (rs 69 256) ++ [1] ++ be 4 42) b!"hello" none = some (some ⟨1, 42⟩) := by
  decide +kernel

def clientData : Bytes := web0 ++ b!"aGVsbG8" ++ web1 ++ b!"https://x" ++ b!"\",\"crossOrigin\":false}"

example : urlb64 b!"hello" = some b!"aGVsbG8" := by decide +kernel
example : urlb64 [251, 255, 254] = some b!"-__-" := by decide +kernel
example : Challenge clientData b!"hello" b!"https://x" :=
  ⟨b!"aGVsbG8", b!",\"crossOrigin\":false}", urlb64_iff.mp (by decide +kernel), by decide +kernel⟩

def webSig (origin : Bytes) (flags : Nat) : Bytes :=
  str nWebauthn ++ str (rs 69 256) ++ be 1 flags ++ be 4 42 ++ str origin ++ str clientData ++ str []

example : verify toy skKey (webSig b!"https://x" 1) b!"hello" none = some (some ⟨1, 42⟩) := by decide +kernel
example : verify toy skKey (webSig b!"https://x" 1) b!"hellp" none = none := by decide +kernel
example : verify toy skKey (webSig b!"https://y" 1) b!"hello" none = none := by decide +kernel
/-- The flags say that there are extensions, but there are none. -/
example : verify toy skKey (webSig b!"https://x" 129) b!"hello" none = none := by decide +kernel

/-- Without the check of the signature's type, the algorithm asked for means nothing for other keys than RSA: it may
belong to another type of key, and a signature by webauthn passes for an ordinary one. -/
theorem C91_algorithm_false :
    (∃ k sig data a, (verify toy k sig data (some a)).isSome ∧ a ∉ names k.kind k.nid false ∧ a ∉ names k.kind k.nid true) ∧
    (∃ sig data, (verify toy skKey sig data (some nSk)).isSome ∧ checkSigtype sig (some nSk) = false) :=
  ⟨⟨p384Key, str nP384 ++ str (rs 5 384), b!"hello", nP256, by decide +kernel, by decide +kernel, by decide +kernel⟩,
   ⟨webSig b!"https://x" 1, b!"hello", by decide +kernel, by decide +kernel⟩⟩

/-- The old name of RSA certificates permits all hashes. -/
example : (verify toy (.rsa 65537 (2 ^ 1024 - 1)) (str nRsa512 ++ str [5]) b!"hello" (some nRsaCert)).isSome = true ∧
    (verify toy (.rsa 65537 (2 ^ 1024 - 1)) (str nRsa512 ++ str [5]) b!"hello" (some nRsa)).isSome = false ∧
    (verify toy (.rsa 65537 (2 ^ 1024 - 1)) (str nRsa512 ++ str [5]) b!"hello" (some nRsa512Cert)).isSome = true := by
  decide +kernel

/-- `C91_token`: the length of the hash -/
example : ∀ x, (toy.sha256 x).length = 32 := by
  intro x
  simp [toy]

end Verif.PubKey
