/-
Public keys, certificates and signatures: sshkey.c, ssh-rsa.c, ssh-ecdsa.c, ssh-ed25519.c, ssh-ecdsa-sk.c,
ssh-ed25519-sk.c.

The configuration is the usual one: OpenSSL with its three NIST curves, support for security keys, neither DSA nor XMSS.
Errors are not told apart.  The primitives (`World`) are parameters.  EC points are kept as the bytes of their uncompressed
encoding, and the DER encoding of ECDSA signatures inside OpenSSL is left out.  Failing allocations are not modelled.
-/
import Verif.Exch.Model
import Verif.Misc.Base64

namespace Verif.PubKey
open Verif Wire
open _root_.Verif.Exch (getMpint mpint numBits)

/-- sshkey.h:63-79 `enum sshkey_types`, without certificates -/
inductive Kind where
  | rsa
  | ecdsa
  | ed25519
  | ecdsaSk
  | ed25519Sk
  deriving DecidableEq, Repr

/-- The curves, OpenSSL's NIDs -/
inductive Curve where
  | p256
  | p384
  | p521
  deriving DecidableEq, Repr

/-- The hash functions of signatures -/
inductive Hash where
  | sha1
  | sha256
  | sha384
  | sha512
  deriving DecidableEq, Repr

/-- A row of `keyimpls`, sshkey.h:193-203.  `shortname`, `sigonly` and `keybits` are left out. -/
structure Impl where
  name : Bytes
  sigalg : Option Bytes
  kind : Kind
  nid : Option Curve
  cert : Bool

def nEd25519 : Bytes := b!"ssh-ed25519"
def nEd25519Cert : Bytes := b!"ssh-ed25519-cert-v01@openssh.com"
def nEd25519Sk : Bytes := b!"sk-ssh-ed25519@openssh.com"
def nEd25519SkCert : Bytes := b!"sk-ssh-ed25519-cert-v01@openssh.com"
def nP256 : Bytes := b!"ecdsa-sha2-nistp256"
def nP256Cert : Bytes := b!"ecdsa-sha2-nistp256-cert-v01@openssh.com"
def nP384 : Bytes := b!"ecdsa-sha2-nistp384"
def nP384Cert : Bytes := b!"ecdsa-sha2-nistp384-cert-v01@openssh.com"
def nP521 : Bytes := b!"ecdsa-sha2-nistp521"
def nP521Cert : Bytes := b!"ecdsa-sha2-nistp521-cert-v01@openssh.com"
def nSk : Bytes := b!"sk-ecdsa-sha2-nistp256@openssh.com"
def nSkCert : Bytes := b!"sk-ecdsa-sha2-nistp256-cert-v01@openssh.com"
def nWebauthn : Bytes := b!"webauthn-sk-ecdsa-sha2-nistp256@openssh.com"
def nRsa : Bytes := b!"ssh-rsa"
def nRsaCert : Bytes := b!"ssh-rsa-cert-v01@openssh.com"
def nRsa256 : Bytes := b!"rsa-sha2-256"
def nRsa256Cert : Bytes := b!"rsa-sha2-256-cert-v01@openssh.com"
def nRsa512 : Bytes := b!"rsa-sha2-512"
def nRsa512Cert : Bytes := b!"rsa-sha2-512-cert-v01@openssh.com"

/-- sshkey.c:132-171 `keyimpls` and the entries it points to -/
def keyimpls : List Impl :=
  [⟨nEd25519, none, .ed25519, none, false⟩,
   ⟨nEd25519Cert, none, .ed25519, none, true⟩,
   ⟨nEd25519Sk, none, .ed25519Sk, none, false⟩,
   ⟨nEd25519SkCert, none, .ed25519Sk, none, true⟩,
   ⟨nP256, none, .ecdsa, some .p256, false⟩,
   ⟨nP256Cert, none, .ecdsa, some .p256, true⟩,
   ⟨nP384, none, .ecdsa, some .p384, false⟩,
   ⟨nP384Cert, none, .ecdsa, some .p384, true⟩,
   ⟨nP521, none, .ecdsa, some .p521, false⟩,
   ⟨nP521Cert, none, .ecdsa, some .p521, true⟩,
   ⟨nSk, none, .ecdsaSk, some .p256, false⟩,
   ⟨nSkCert, none, .ecdsaSk, some .p256, true⟩,
   ⟨nWebauthn, none, .ecdsaSk, some .p256, false⟩,
   ⟨nRsa, none, .rsa, none, false⟩,
   ⟨nRsaCert, none, .rsa, none, true⟩,
   ⟨nRsa256, none, .rsa, none, false⟩,
   ⟨nRsa256Cert, some nRsa256, .rsa, none, true⟩,
   ⟨nRsa512, none, .rsa, none, false⟩,
   ⟨nRsa512Cert, some nRsa512, .rsa, none, true⟩]

/-- sshkey.c:249-265 `type_from_name`, without short names: the type, and whether it is one of certificates -/
def typeFromName (name : Bytes) : Option (Kind × Bool) :=
  (keyimpls.find? fun i => i.name = name).map fun i => (i.kind, i.cert)

/-- sshkey.c:216-224 `sshkey_ssh_name_from_type_nid` and sshkey.c:185-196 `sshkey_impl_from_type_nid` -/
def sshName (kind : Kind) (cert : Bool) (nid : Option Curve) : Option Bytes :=
  (keyimpls.find? fun i => i.kind = kind ∧ i.cert = cert ∧ (i.nid = none ∨ i.nid = nid)).map Impl.name

/-- sshkey.c:292-305 `sshkey_ecdsa_nid_from_name` -/
def nidFromName (name : Bytes) : Option Curve :=
  match keyimpls.find? fun i => (i.kind = .ecdsa ∨ i.kind = .ecdsaSk) ∧ i.name = name with
  | some i => i.nid
  | none => none

/-- sshkey.c:589-602 `sshkey_curve_name_to_nid` -/
def curveFromName (n : Bytes) : Option Curve :=
  if n = b!"nistp256" then some .p256
  else if n = b!"nistp384" then some .p384
  else if n = b!"nistp521" then some .p521
  else none

/-- sshkey.c:638-653 `sshkey_curve_nid_to_name` -/
def curveName : Curve → Bytes
  | .p256 => b!"nistp256"
  | .p384 => b!"nistp384"
  | .p521 => b!"nistp521"

/-- sshkey.c:655-670 `sshkey_ec_nid_to_hash_alg` -/
def curveHash : Curve → Hash
  | .p256 => .sha256
  | .p384 => .sha384
  | .p521 => .sha512

/-- The public part of a key. -/
inductive Pub where
  | rsa (e n : Nat)
  | ecdsa (c : Curve) (q : Bytes)
  | ed25519 (pk : Bytes)
  | ecdsaSk (c : Curve) (q app : Bytes)
  | ed25519Sk (pk app : Bytes)
  deriving DecidableEq, Repr

def Pub.kind : Pub → Kind
  | .rsa .. => .rsa
  | .ecdsa .. => .ecdsa
  | .ed25519 .. => .ed25519
  | .ecdsaSk .. => .ecdsaSk
  | .ed25519Sk .. => .ed25519Sk

/-- `ecdsa_nid` -/
def Pub.nid : Pub → Option Curve
  | .ecdsa c _ => some c
  | .ecdsaSk c _ _ => some c
  | _ => none

/-- sshkey.h:114-126 `struct sshkey_cert` -/
structure Cert where
  blob : Bytes
  type : Nat
  serial : Nat
  keyId : Bytes
  principals : List Bytes
  validAfter : Nat
  validBefore : Nat
  critical : Bytes
  extensions : Bytes
  signatureKey : Pub
  signatureType : Bytes
  deriving DecidableEq

/-- sshkey.h:129-160 `struct sshkey`: a certificate is present just if the type is one of certificates. -/
structure Key where
  pub : Pub
  cert : Option Cert
  deriving DecidableEq

/-- What the code calls. -/
structure World where
  /-- `EC_POINT_oct2point` on an uncompressed point, and `sshkey_ec_validate_public` -/
  onCurve : Curve → Bytes → Bool
  /-- The check of the Ed25519 signature made of the first 64 bytes, over the message -/
  ed : Bytes → Bytes → Bytes → Bool
  /-- `EVP_DigestVerify` with the RSA key (e, n) -/
  rsa : Nat → Nat → Hash → Bytes → Bytes → Bool
  /-- `EVP_DigestVerify` with the point on the curve, and the numbers r and s -/
  ecdsa : Curve → Bytes → Hash → Bytes → Nat → Nat → Bool
  sha256 : Bytes → Bytes

/-! ### Public keys -/

/-- sshbuf-getput-crypto.c:94-127 `sshbuf_get_eckey` with sshbuf-getput-crypto.c:59-71 `get_ec` -/
def getPoint (W : World) (c : Curve) (b : Bytes) : Option (Bytes × Bytes) :=
  match getStr b with
  | none => none
  | some (q, r) => if q.length = 0 ∨ q.length > 133 ∨ q.headD 0 ≠ 4 ∨ W.onCurve c q = false then none else some (q, r)

/-- ssh-ecdsa.c:230-281 `ssh_ecdsa_deserialize_public` -/
def deserEcdsa (W : World) (ktype b : Bytes) : Option (Curve × Bytes × Bytes) :=
  match nidFromName ktype with
  | none => none
  | some c =>
    match getCstr b with
    | none => none
    | some (curve, r) =>
      if curveFromName curve ≠ some c then none
      else
        match getPoint W c r with
        | none => none
        | some (q, r) => some (c, q, r)

/-- ssh-ed25519.c:102-118 `ssh_ed25519_deserialize_public` -/
def deserEd25519 (b : Bytes) : Option (Bytes × Bytes) :=
  match getStr b with
  | none => none
  | some (pk, r) => if pk.length ≠ 32 then none else some (pk, r)

/-- ssh-rsa.c:194-231 `ssh_rsa_deserialize_public` with sshkey.c:1466-1481 `sshkey_check_rsa_length` -/
def deserRsa (b : Bytes) : Option (Nat × Nat × Bytes) :=
  match getMpint b with
  | none => none
  | some (e, r) =>
    match getMpint r with
    | none => none
    | some (n, r) => if numBits n < 1024 then none else some (e, n, r)

/-- `impl->funcs->deserialize_public`, with sshkey.c:1992-1999 `sshkey_deserialize_sk` -/
def deserPublic (W : World) (kind : Kind) (ktype b : Bytes) : Option (Pub × Bytes) :=
  match kind with
  | .rsa => (deserRsa b).map fun x => (.rsa x.1 x.2.1, x.2.2)
  | .ecdsa => (deserEcdsa W ktype b).map fun x => (.ecdsa x.1 x.2.1, x.2.2)
  | .ed25519 => (deserEd25519 b).map fun x => (.ed25519 x.1, x.2)
  | .ecdsaSk =>
    match deserEcdsa W ktype b with
    | none => none
    | some (c, q, r) => (getCstr r).map fun x => (.ecdsaSk c q x.1, x.2)
  | .ed25519Sk =>
    match deserEd25519 b with
    | none => none
    | some (pk, r) => (getCstr r).map fun x => (.ed25519Sk pk x.1, x.2)

/-- `impl->funcs->serialize_public`: ssh-rsa.c:70-89, ssh-ecdsa.c:135-149, ssh-ed25519.c:54-66, ssh-ecdsa-sk.c:84-96,
ssh-ed25519-sk.c:58-70 -/
def serPublic : Pub → Bytes
  | .rsa e n => mpint e ++ mpint n
  | .ecdsa c q => str (curveName c) ++ str q
  | .ed25519 pk => str pk
  | .ecdsaSk c q app => str (curveName c) ++ str q ++ str app
  | .ed25519Sk pk app => str pk ++ str app

/-! ### Signatures -/

/-- What a security key adds: flags and counter -/
structure Details where
  flags : Nat
  counter : Nat
  deriving DecidableEq, Repr

/-- ssh-rsa.c:330-340 `rsa_hash_id_from_ident` -/
def rsaHash (n : Bytes) : Option Hash :=
  if n = nRsa then some .sha1
  else if n = nRsa256 then some .sha256
  else if n = nRsa512 then some .sha512
  else none

/-- ssh-rsa.c:347-361 `rsa_hash_id_from_keyname` -/
def rsaHashOfKeyname (n : Bytes) : Option Hash :=
  match rsaHash n with
  | some h => some h
  | none =>
    if n = nRsaCert then some .sha1
    else if n = nRsa256Cert then some .sha256
    else if n = nRsa512Cert then some .sha512
    else none

/-- The length of an RSA signature, `EVP_PKEY_size` -/
def modLen (n : Nat) : Nat := (numBits n + 7) / 8

/-- ssh-rsa.c:471-555 `ssh_rsa_verify` -/
def verifyRsa (W : World) (e n : Nat) (sig data : Bytes) (alg : Option Bytes) : Bool :=
  if numBits n < 1024 then false
  else
    match getCstr sig with
    | none => false
    | some (sigtype, r) =>
      match rsaHash sigtype with
      | none => false
      | some h =>
        if alg ≠ none ∧ alg ≠ some nRsaCert ∧ alg.bind rsaHashOfKeyname ≠ some h then false
        else
          match getStr r with
          | none => false
          | some (s, r) =>
            if r.length ≠ 0 ∨ s.length > modLen n ∨ modLen n > 2048 then false
            else W.rsa e n h data (List.replicate (modLen n - s.length) 0 ++ s)

/-- ed25519.c:1988-2030 `crypto_sign_ed25519_open`: how the signed message is cut up.  The result is the length of the
message. -/
def edOpen (W : World) (pk sm : Bytes) : Option Nat :=
  if sm.length < 64 then none
  else if W.ed pk (sm.take 64) (sm.drop 64) then some (sm.length - 64)
  else none

/-- ssh-ed25519.c:204-273 `ssh_ed25519_verify` -/
def verifyEd25519 (W : World) (pk sig data : Bytes) : Bool :=
  match getCstr sig with
  | none => false
  | some (ktype, r) =>
    match getStr r with
    | none => false
    | some (s, r) =>
      if ktype ≠ nEd25519 ∨ r.length ≠ 0 ∨ s.length > 64 then false
      else edOpen W pk (s ++ data) = some data.length

/-- ssh-ecdsa.c:385-472 `ssh_ecdsa_verify`, from the signature proper on: the numbers r and s -/
def getRS (s : Bytes) : Option (Nat × Nat) :=
  match getMpint s with
  | none => none
  | some (a, r) =>
    match getMpint r with
    | none => none
    | some (b, r) => if r.length ≠ 0 then none else some (a, b)

/-- ssh-ecdsa.c:385-472 `ssh_ecdsa_verify` -/
def verifyEcdsa (W : World) (c : Curve) (q sig data : Bytes) : Bool :=
  match getCstr sig with
  | none => false
  | some (ktype, r) =>
    match getStr r with
    | none => false
    | some (s, r) =>
      if sshName .ecdsa false (some c) ≠ some ktype ∨ r.length ≠ 0 then false
      else
        match getRS s with
        | none => false
        | some (a, b) => W.ecdsa c q (curveHash c) data a b

/-- What a security key signs: ssh-ed25519-sk.c:207-211, ssh-ecdsa-sk.c:361-367 -/
def skMessage (W : World) (app : Bytes) (d : Details) (exts hash : Bytes) : Bytes :=
  W.sha256 app ++ be 1 d.flags ++ be 4 d.counter ++ exts ++ hash

/-- ssh-ed25519-sk.c:124-249 `ssh_ed25519_sk_verify` -/
def verifyEd25519Sk (W : World) (pk app sig data : Bytes) : Option Details :=
  match getCstr sig with
  | none => none
  | some (ktype, r) =>
    match getStr r with
    | none => none
    | some (s, r) =>
      match getInt 1 r with
      | none => none
      | some (flags, r) =>
        match getInt 4 r with
        | none => none
        | some (counter, r) =>
          if ktype ≠ nEd25519Sk ∨ r.length ≠ 0 ∨ s.length > 64 then none
          else if edOpen W pk (s ++ skMessage W app ⟨flags, counter⟩ [] (W.sha256 data)) =
              some (skMessage W app ⟨flags, counter⟩ [] (W.sha256 data)).length then some ⟨flags, counter⟩
          else none

/-- ssh-ecdsa-sk.c:200-202: the parts of clientData that are fixed -/
def web0 : Bytes := b!"{\"type\":\"webauthn.get\",\"challenge\":\""
def web1 : Bytes := b!"\",\"origin\":\""

/-- sshbuf-misc.c:171-212 `sshbuf_dtourlb64`, taking away the padding -/
def unpad : Nat → Bytes → Option Bytes
  | 0, _ => none
  | fuel + 1, s =>
    if s.length ≤ 1 then none
    else if s.getLast? ≠ some 61 then some s
    else unpad fuel s.dropLast

/-- sshbuf-misc.c:202-207 -/
def urlChar (c : UInt8) : UInt8 := if c = 43 then 45 else if c = 47 then 95 else c

/-- sshbuf-misc.c:171-212 `sshbuf_dtourlb64` without line breaks -/
def urlb64 (d : Bytes) : Option Bytes :=
  match Misc.Base64.dtob64 d false with
  | none => none
  | some s => (unpad (s.length + 1) s).map fun s => s.map urlChar

/-- ssh-ecdsa-sk.c:169-231 `webauthn_check_prepare_hash`: the text clientData has to begin with -/
def webPrefix (data origin : Bytes) : Option Bytes :=
  (urlb64 data).map fun c => web0 ++ c ++ web1 ++ origin ++ [34]

/-- ssh-ecdsa-sk.c:169-231 `webauthn_check_prepare_hash` -/
def webHash (W : World) (data origin wrapper : Bytes) (flags : Nat) (exts : Bytes) : Option Bytes :=
  if 34 ∈ origin ∨ flags.testBit 6 = true ∨ (flags.testBit 7 = false ∧ exts.length ≠ 0) ∨
      (flags.testBit 7 = true ∧ exts.length = 0) then none
  else
    match webPrefix data origin with
    | none => none
    | some m => if wrapper.take m.length = m then some (W.sha256 wrapper) else none

/-- ssh-ecdsa-sk.c:288-299: what a webauthn signature has in addition, and the end of the signature -/
def webParts (web : Bool) (b : Bytes) : Option (Bytes × Bytes × Bytes) :=
  if web = false then (if b.length ≠ 0 then none else some ([], [], []))
  else
    match getCstr b with
    | none => none
    | some (origin, r) =>
      match getStr r with
      | none => none
      | some (wrapper, r) =>
        match getStr r with
        | none => none
        | some (exts, r) => if r.length ≠ 0 then none else some (origin, wrapper, exts)

/-- ssh-ecdsa-sk.c:233-439 `ssh_ecdsa_sk_verify` -/
def verifyEcdsaSk (W : World) (c : Curve) (q app sig data : Bytes) : Option Details :=
  if c ≠ .p256 then none
  else
    match getCstr sig with
    | none => none
    | some (ktype, r) =>
      if ktype ≠ nWebauthn ∧ ktype ≠ nSk then none
      else
        match getStr r with
        | none => none
        | some (s, r) =>
          match getInt 1 r with
          | none => none
          | some (flags, r) =>
            match getInt 4 r with
            | none => none
            | some (counter, r) =>
              match webParts (ktype = nWebauthn) r with
              | none => none
              | some (origin, wrapper, exts) =>
                match getRS s with
                | none => none
                | some (a, b) =>
                  match if ktype = nWebauthn then webHash W data origin wrapper flags exts else some (W.sha256 data) with
                  | none => none
                  | some h =>
                    if W.ecdsa c q .sha256 (skMessage W app ⟨flags, counter⟩ exts h) a b then some ⟨flags, counter⟩ else none

/-- sshkey.c:2232-2248 `sshkey_verify`: what is reported if the signature is accepted -/
def verify (W : World) (key : Pub) (sig data : Bytes) (alg : Option Bytes) : Option (Option Details) :=
  if sig.length = 0 ∨ data.length > 1048576 then none
  else
    match key with
    | .rsa e n => if verifyRsa W e n sig data alg then some none else none
    | .ecdsa c q => if verifyEcdsa W c q sig data then some none else none
    | .ed25519 pk => if verifyEd25519 W pk sig data then some none else none
    | .ecdsaSk c q app => (verifyEcdsaSk W c q app sig data).map some
    | .ed25519Sk pk app => (verifyEd25519Sk W pk app sig data).map some

/-- sshkey.c:2149-2167 `sshkey_sigalg_by_name` -/
def sigalgByName (name : Bytes) : Option Bytes :=
  match keyimpls.find? fun i => i.name = name with
  | none => none
  | some i =>
    match i.sigalg with
    | some a => some a
    | none => if i.cert = false then some i.name else sshName i.kind false i.nid

/-- sshkey.c:2173-2190 `sshkey_check_sigtype` -/
def checkSigtype (sig : Bytes) (alg : Option Bytes) : Bool :=
  match alg with
  | none => true
  | some a =>
    match sigalgByName a with
    | none => false
    | some e =>
      match getCstr sig with
      | none => false
      | some (t, _) => t = e

/-! ### Certificates -/

/-- sshkey.c:2001-2066 `sshkey_from_blob_internal` with `allow_cert` off -/
def plainFromBlob (W : World) (b : Bytes) : Option Pub :=
  match getCstr b with
  | none => none
  | some (ktype, r) =>
    match typeFromName ktype with
    | none => none
    | some (kind, cert) =>
      if cert = true then none
      else
        match deserPublic W kind ktype r with
        | none => none
        | some (pub, r) => if r.length ≠ 0 then none else some pub

/-- sshkey.c:1909-1934: the principals, at most 256 -/
def getPrincipals : Nat → Bytes → Option (List Bytes)
  | 0, b => if b.length = 0 then some [] else none
  | n + 1, b =>
    if b.length = 0 then some []
    else
      match getCstr b with
      | none => none
      | some (p, r) => (getPrincipals n r).map (p :: ·)

/-- sshkey.c:1945-1963: pairs of strings; `fuel` is at least the length -/
def pairsOk : Nat → Bytes → Bool
  | 0, b => b.length = 0
  | fuel + 1, b =>
    if b.length = 0 then true
    else
      match getStr b with
      | none => false
      | some (_, r) =>
        match getStr r with
        | none => false
        | some (_, r) => pairsOk fuel r

/-- sshkey.c:1866-1990 `cert_parse`; `b` is what is left of `blob` after the public key.  The result is what is left
after the signature. -/
def certParse (W : World) (blob b : Bytes) : Option (Cert × Bytes) :=
  match getInt 8 b with
  | none => none
  | some (serial, r) =>
  match getInt 4 r with
  | none => none
  | some (type, r) =>
  match getCstr r with
  | none => none
  | some (keyId, r) =>
  match getStr r with
  | none => none
  | some (princ, r) =>
  match getInt 8 r with
  | none => none
  | some (after, r) =>
  match getInt 8 r with
  | none => none
  | some (before, r) =>
  match getStr r with
  | none => none
  | some (crit, r) =>
  match getStr r with
  | none => none
  | some (exts, r) =>
  match getStr r with
  | none => none
  | some (_, r) =>
  match getStr r with
  | none => none
  | some (ca, r) =>
  match getStr r with
  | none => none
  | some (sig, rest) =>
    if type ≠ 1 ∧ type ≠ 2 then none
    else
      match getPrincipals 256 princ with
      | none => none
      | some principals =>
        if pairsOk crit.length crit = false ∨ pairsOk exts.length exts = false then none
        else
          match plainFromBlob W ca with
          | none => none
          | some key =>
            match verify W key sig (blob.take (blob.length - r.length)) none with
            | none => none
            | some _ =>
              match getCstr sig with
              | none => none
              | some (sigtype, _) =>
                some (⟨blob, type, serial, keyId, principals, after, before, crit, exts, key, sigtype⟩, rest)

/-- sshkey.c:2001-2066 `sshkey_from_blob_internal` with `allow_cert` on: sshkey.c:2068-2079 `sshkey_from_blob` -/
def fromBlob (W : World) (b : Bytes) : Option Key :=
  match getCstr b with
  | none => none
  | some (ktype, r) =>
    match typeFromName ktype with
    | none => none
    | some (kind, false) =>
      match deserPublic W kind ktype r with
      | none => none
      | some (pub, r) => if r.length ≠ 0 then none else some ⟨pub, none⟩
    | some (kind, true) =>
      match getStr r with
      | none => none
      | some (_, r) =>
        match deserPublic W kind ktype r with
        | none => none
        | some (pub, r) =>
          match certParse W b r with
          | none => none
          | some (cert, r) => if r.length ≠ 0 then none else some ⟨pub, some cert⟩

/-- sshkey.c:877-907 `to_blob_buf` -/
def toBlob (k : Key) (forcePlain : Bool) : Option Bytes :=
  match if forcePlain then none else k.cert with
  | some c => if c.blob.length = 0 then none else some c.blob
  | none => (sshName k.pub.kind false k.pub.nid).map fun n => str n ++ serPublic k.pub

/-- sshkey.c:2277-2386 `sshkey_certify_custom`: the part that is signed; the key is of a certificate type -/
def certBody (k : Pub) (c : Cert) (nonce caBlob : Bytes) : Option Bytes :=
  (sshName k.kind true k.nid).map fun name =>
    str name ++ str nonce ++ serPublic k ++ be 8 c.serial ++ be 4 c.type ++ str c.keyId ++
      str (c.principals.flatMap str) ++ be 8 c.validAfter ++ be 8 c.validBefore ++ str c.critical ++ str c.extensions ++
      str [] ++ str caBlob

/-- sshkey.c:2277-2386 `sshkey_certify_custom`.  `signer` is given the text and the algorithm; `wanted` is the algorithm
asked for, `c.signatureType` is ignored. -/
def certify (k : Pub) (c : Cert) (ca : Key) (nonce : Bytes) (wanted : Option Bytes)
    (signer : Bytes → Option Bytes → Option Bytes) : Option Bytes :=
  if ca.cert ≠ none then none
  else
    match toBlob ca false with
    | none => none
    | some caBlob =>
      match certBody k c nonce caBlob with
      | none => none
      | some body =>
        match signer body (if wanted = none ∧ ca.pub.kind = .rsa then some nRsa512 else wanted) with
        | none => none
        | some sig =>
          match getCstr sig with
          | none => none
          | some (t, _) =>
            if (if wanted = none ∧ ca.pub.kind = .rsa then some nRsa512 else wanted).any (· ≠ t) then none
            else some (body ++ str sig)

end Verif.PubKey
