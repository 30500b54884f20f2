/-
What is promised about keys, certificates and signatures, in terms of the layouts of RFC 4253 section 6.6, RFC 5656,
RFC 8332, RFC 8709, PROTOCOL.certkeys and PROTOCOL.u2f.
-/
import Verif.PubKey.Model
import Verif.Exch.Spec
import Verif.WireMore
import Verif.Misc.Base64Props

namespace Verif.PubKey
open Verif Wire
open _root_.Verif.Exch (twos numBits)

/-- The names under which a key of the kind is known: first the proper one.  RSA keys are also known by the names of
their signature algorithms, and so are ECDSA security keys. -/
def names : Kind → Option Curve → Bool → List Bytes
  | .rsa, none, false => [b!"ssh-rsa", b!"rsa-sha2-256", b!"rsa-sha2-512"]
  | .rsa, none, true =>
    [b!"ssh-rsa-cert-v01@openssh.com", b!"rsa-sha2-256-cert-v01@openssh.com", b!"rsa-sha2-512-cert-v01@openssh.com"]
  | .ed25519, none, false => [b!"ssh-ed25519"]
  | .ed25519, none, true => [b!"ssh-ed25519-cert-v01@openssh.com"]
  | .ed25519Sk, none, false => [b!"sk-ssh-ed25519@openssh.com"]
  | .ed25519Sk, none, true => [b!"sk-ssh-ed25519-cert-v01@openssh.com"]
  | .ecdsa, some .p256, false => [b!"ecdsa-sha2-nistp256"]
  | .ecdsa, some .p256, true => [b!"ecdsa-sha2-nistp256-cert-v01@openssh.com"]
  | .ecdsa, some .p384, false => [b!"ecdsa-sha2-nistp384"]
  | .ecdsa, some .p384, true => [b!"ecdsa-sha2-nistp384-cert-v01@openssh.com"]
  | .ecdsa, some .p521, false => [b!"ecdsa-sha2-nistp521"]
  | .ecdsa, some .p521, true => [b!"ecdsa-sha2-nistp521-cert-v01@openssh.com"]
  | .ecdsaSk, some .p256, false => [b!"sk-ecdsa-sha2-nistp256@openssh.com", b!"webauthn-sk-ecdsa-sha2-nistp256@openssh.com"]
  | .ecdsaSk, some .p256, true => [b!"sk-ecdsa-sha2-nistp256-cert-v01@openssh.com"]
  | _, _, _ => []

/-- `v` holds the C string `s` and can be sent. -/
def Text (v s : Bytes) : Prop := Named v s ∧ v.length ≤ maxString

/-- The bytes of an mpint for the number. -/
structure Number (d : Bytes) (n : Nat) : Prop where
  value : twos d = (n : Int)
  short : d.length ≤ 2049
  top : d.length = 2049 → d.headD 0 = 0

/-- `q` is an acceptable point. -/
structure Point (W : World) (c : Curve) (q : Bytes) : Prop where
  form : q.headD 0 = 4
  short : 0 < q.length ∧ q.length ≤ 133
  on : W.onCurve c q = true

/-- `f` are the fields of the key, as they follow the name (and, in certificates, the nonce). -/
inductive Fields (W : World) : Pub → Bytes → Prop
  | rsa {e n : Nat} {x y : Bytes} : Number x e → Number y n → 1024 ≤ numBits n → Fields W (.rsa e n) (str x ++ str y)
  | ecdsa {c : Curve} {v q : Bytes} : Text v (curveName c) → Point W c q → Fields W (.ecdsa c q) (str v ++ str q)
  | ed25519 {pk : Bytes} : pk.length = 32 → Fields W (.ed25519 pk) (str pk)
  | ecdsaSk {c : Curve} {v q a app : Bytes} : Text v (curveName c) → Point W c q → Text a app →
      Fields W (.ecdsaSk c q app) (str v ++ str q ++ str a)
  | ed25519Sk {pk a app : Bytes} : pk.length = 32 → Text a app → Fields W (.ed25519Sk pk app) (str pk ++ str a)

/-- `b` is the plain key. -/
def PlainBlob (W : World) (b : Bytes) (k : Pub) : Prop :=
  ∃ v name f, b = str v ++ f ∧ Text v name ∧ name ∈ names k.kind k.nid false ∧ Fields W k f

/-- `b` is a sequence of pairs of strings. -/
inductive Pairs : Bytes → Prop
  | nil : Pairs []
  | cons {x y r : Bytes} : x.length ≤ maxString → y.length ≤ maxString → Pairs r → Pairs (str x ++ str y ++ r)

/-- The body of a certificate says what `k` and `c` say, and `sig` is the authority's signature of exactly that body. -/
structure Certificate (W : World) (body sig : Bytes) (k : Pub) (c : Cert) : Prop where
  layout : ∃ v name nonce f keyId princ reserved ca : Bytes, ∃ ps : List Bytes,
    body = str v ++ str nonce ++ f ++ be 8 c.serial ++ be 4 c.type ++ str keyId ++ str princ ++ be 8 c.validAfter ++
      be 8 c.validBefore ++ str c.critical ++ str c.extensions ++ str reserved ++ str ca ∧
    Text v name ∧ name ∈ names k.kind k.nid true ∧ nonce.length ≤ maxString ∧ Fields W k f ∧ Text keyId c.keyId ∧
    princ = ps.flatMap str ∧ princ.length ≤ maxString ∧ ps.length = c.principals.length ∧
    (∀ x ∈ ps.zip c.principals, Text x.1 x.2) ∧ reserved.length ≤ maxString ∧ ca.length ≤ maxString ∧
    PlainBlob W ca c.signatureKey
  numbers : c.serial < 256 ^ 8 ∧ c.validAfter < 256 ^ 8 ∧ c.validBefore < 256 ^ 8
  type : c.type = 1 ∨ c.type = 2
  few : c.principals.length ≤ 256
  options : Pairs c.critical ∧ c.critical.length ≤ maxString ∧ Pairs c.extensions ∧ c.extensions.length ≤ maxString
  signed : (verify W c.signatureKey sig body none).isSome
  short : sig.length ≤ maxString
  algorithm : ∃ v r, sig = str v ++ r ∧ Text v c.signatureType
  blob : c.blob = body ++ str sig

/-- What a certificate says, apart from the signature. -/
def sayings (c : Cert) : Nat × Nat × Bytes × List Bytes × Nat × Nat × Bytes × Bytes × Pub :=
  (c.type, c.serial, c.keyId, c.principals, c.validAfter, c.validBefore, c.critical, c.extensions, c.signatureKey)

/-! ### Signatures -/

/-- The signature algorithms of RSA keys (RFC 4253, RFC 8332). -/
inductive RsaAlg : Bytes → Hash → Prop
  | sha1 : RsaAlg b!"ssh-rsa" .sha1
  | sha256 : RsaAlg b!"rsa-sha2-256" .sha256
  | sha512 : RsaAlg b!"rsa-sha2-512" .sha512

/-- The algorithm asked for permits signatures named `name`.  The old name of RSA certificates permits all three. -/
inductive RsaWanted : Option Bytes → Bytes → Prop
  | any {n : Bytes} : RsaWanted none n
  | old {n : Bytes} : RsaWanted (some b!"ssh-rsa-cert-v01@openssh.com") n
  | sha1 : RsaWanted (some b!"ssh-rsa") b!"ssh-rsa"
  | sha256 : RsaWanted (some b!"rsa-sha2-256") b!"rsa-sha2-256"
  | sha256Cert : RsaWanted (some b!"rsa-sha2-256-cert-v01@openssh.com") b!"rsa-sha2-256"
  | sha512 : RsaWanted (some b!"rsa-sha2-512") b!"rsa-sha2-512"
  | sha512Cert : RsaWanted (some b!"rsa-sha2-512-cert-v01@openssh.com") b!"rsa-sha2-512"

/-- An ECDSA signature: the numbers r and s. -/
def RS (s : Bytes) (a b : Nat) : Prop := ∃ x y, s = str x ++ str y ∧ Number x a ∧ Number y b

/-- The hash RFC 5656 section 6.2.1 prescribes for the curve. -/
def rfcHash : Curve → Hash
  | .p256 => .sha256
  | .p384 => .sha384
  | .p521 => .sha512

/-- What a security key signs (PROTOCOL.u2f). -/
def tokenData (W : World) (app : Bytes) (flags counter : Nat) (exts hash : Bytes) : Bytes :=
  W.sha256 app ++ be 1 flags ++ be 4 counter ++ exts ++ hash

/-- The challenge of webauthn: base64url without padding. -/
structure Url (d s : Bytes) : Prop where
  ne : d ≠ []
  text : ∃ t, Misc.Base64.Rfc d t ∧ s = (t.filter (· ≠ 61)).map fun c => if c = 43 then 45 else if c = 47 then 95 else c

/-- clientData begins with the challenge, which is the data to be signed, and the origin. -/
def Challenge (wrapper data origin : Bytes) : Prop :=
  ∃ c rest, Url data c ∧ wrapper =
    b!"{\"type\":\"webauthn.get\",\"challenge\":\"" ++ c ++ b!"\",\"origin\":\"" ++ origin ++ b!"\"" ++ rest

/-- The signature `sig` of `data` is acceptable for the key if the algorithm `alg` is asked for. -/
inductive Accepts (W : World) (alg : Option Bytes) (data : Bytes) : Pub → Bytes → Option Details → Prop
  | rsa {e n : Nat} {v name s : Bytes} {h : Hash} : Text v name → RsaAlg name h → RsaWanted alg name →
      1024 ≤ numBits n → numBits n ≤ 16384 → s.length ≤ (numBits n + 7) / 8 →
      W.rsa e n h data (List.replicate ((numBits n + 7) / 8 - s.length) 0 ++ s) = true →
      Accepts W alg data (.rsa e n) (str v ++ str s) none
  | ecdsa {c : Curve} {q v name s : Bytes} {a b : Nat} : Text v name → name ∈ names .ecdsa (some c) false →
      s.length ≤ maxString → RS s a b → W.ecdsa c q (rfcHash c) data a b = true →
      Accepts W alg data (.ecdsa c q) (str v ++ str s) none
  | ed25519 {pk v s : Bytes} : Text v b!"ssh-ed25519" → s.length = 64 → W.ed pk s data = true →
      Accepts W alg data (.ed25519 pk) (str v ++ str s) none
  | ed25519Sk {pk app v s : Bytes} {flags counter : Nat} : Text v b!"sk-ssh-ed25519@openssh.com" → s.length = 64 →
      flags < 256 → counter < 4294967296 → W.ed pk s (tokenData W app flags counter [] (W.sha256 data)) = true →
      Accepts W alg data (.ed25519Sk pk app) (str v ++ str s ++ be 1 flags ++ be 4 counter) (some ⟨flags, counter⟩)
  | ecdsaSk {q app v s : Bytes} {flags counter a b : Nat} : Text v b!"sk-ecdsa-sha2-nistp256@openssh.com" →
      s.length ≤ maxString → RS s a b → flags < 256 → counter < 4294967296 →
      W.ecdsa .p256 q .sha256 (tokenData W app flags counter [] (W.sha256 data)) a b = true →
      Accepts W alg data (.ecdsaSk .p256 q app) (str v ++ str s ++ be 1 flags ++ be 4 counter) (some ⟨flags, counter⟩)
  | webauthn {q app v s o origin wrapper exts : Bytes} {flags counter a b : Nat} :
      Text v b!"webauthn-sk-ecdsa-sha2-nistp256@openssh.com" → s.length ≤ maxString → RS s a b →
      flags < 256 → counter < 4294967296 → flags.testBit 6 = false → (flags.testBit 7 = true ↔ exts ≠ []) →
      Text o origin → 34 ∉ origin → wrapper.length ≤ maxString → exts.length ≤ maxString →
      Challenge wrapper data origin →
      W.ecdsa .p256 q .sha256 (tokenData W app flags counter exts (W.sha256 wrapper)) a b = true →
      Accepts W alg data (.ecdsaSk .p256 q app)
        (str v ++ str s ++ be 1 flags ++ be 4 counter ++ str o ++ str wrapper ++ str exts) (some ⟨flags, counter⟩)

end Verif.PubKey
