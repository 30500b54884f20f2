/-
What is promised about public-key authentication.
-/
import Verif.UserKey.Model

namespace Verif.UserKey
open Verif Wire
open _root_.Verif.KeyOpts (Key Opts)

/-! ### Trusted paths -/

/-- The names of the directories on the way. -/
def Comps (cs : List Bytes) : Prop := ∀ c ∈ cs, c ≠ [] ∧ (47 : UInt8) ∉ c

/-- The absolute path with these components. -/
def render : List Bytes → Bytes
  | [] => [47]
  | c :: cs => (c :: cs).flatMap fun c => 47 :: c

/-- `realpath` gives absolute paths without empty components. -/
def Fs.Canonical (fs : Fs) : Prop := ∀ n r, fs.realpath n = some r → ∃ cs, Comps cs ∧ r = render cs

/-- The rules of Unix: may a process with this user and these groups write to the object? -/
def mayWrite (uid : Nat) (groups : List Nat) (st : Stat) : Bool :=
  if uid = 0 then true
  else if uid = st.uid then st.mode.testBit 7
  else if st.gid ∈ groups then st.mode.testBit 4
  else st.mode.testBit 1

/-- An object that belongs to root or the user and is not writable for group or others. -/
def Owned (uid : Nat) (st : Stat) : Prop :=
  (st.uid = 0 ∨ st.uid = uid) ∧ st.mode.testBit 4 = false ∧ st.mode.testBit 1 = false

/-- The directory with the components `d` is on the way to the file, and not above the home directory if that is on the way. -/
def OnTheWay (home : Option Bytes) (cs d : List Bytes) : Prop :=
  (∃ e, e ≠ [] ∧ cs = d ++ e) ∧
  ∀ h, (∃ e, e ≠ [] ∧ cs = h ++ e) → home = some (render h) → h.length ≤ d.length

/-! ### Where keys are looked for -/

/-- The contents of the files that may be used, in order. -/
inductive Usable (fs : Fs) (pw : User) (strict : Bool) : List Bytes → List (List Bytes) → Prop
  | nil : Usable fs pw strict [] []
  | used {n : Bytes} {ns : List Bytes} {c : List Bytes} {l : List (List Bytes)} : openFile fs pw strict n = some c →
      Usable fs pw strict ns l → Usable fs pw strict (n :: ns) (c :: l)
  | not {n : Bytes} {ns : List Bytes} {l : List (List Bytes)} : openFile fs pw strict n = none → Usable fs pw strict ns l →
      Usable fs pw strict (n :: ns) l

/-- The word "none", in letters of either case. -/
def NoneWord (f : Bytes) : Prop :=
  ∃ n o m e, f = [n, o, m, e] ∧ (n = 110 ∨ n = 78) ∧ (o = 111 ∨ o = 79) ∧ (m = 110 ∨ m = 78) ∧ (e = 101 ∨ e = 69)

/-- Where principals are looked for: in those of the files the configured name stands for that may be used, and in the output of the
command. -/
inductive Principals (W : World) (C : Conf) (pw : User) : KeyOpts.Sources → Prop
  | noFile : C.principalsFile = none → Principals W C pw ⟨none, W.principalsCommand⟩
  | noGlob {f : Bytes} : C.principalsFile = some f → W.glob (expandFile W pw f) = none → Principals W C pw ⟨some [], W.principalsCommand⟩
  | files {f : Bytes} {names : List Bytes} {l : List (List Bytes)} : C.principalsFile = some f →
      W.glob (expandFile W pw f) = some names → Usable W.fs pw C.strict names l → Principals W C pw ⟨some l, W.principalsCommand⟩

/-- The key is accepted, with these options, by one of the places configured. -/
inductive Accepts (W : World) (C : Conf) (pw : User) (key : Key) : Opts → Prop
  /-- a line of an authorized_keys file -/
  | file {f path : Bytes} {names lines : List Bytes} {o : Opts} : f ∈ C.keyFiles → ¬ NoneWord f →
      W.glob (expandFile W pw f) = some names → path ∈ names → openFile W.fs pw C.strict path = some lines →
      KeyOpts.checkFile W.opts W.read W.now pw.name W.ip W.host key lines = some o → Accepts W C pw key o
  /-- a trusted certification authority -/
  | ca {c : KeyOpts.Cert} {src : KeyOpts.Sources} {o : Opts} : key = .cert c → Principals W C pw src →
      KeyOpts.trustedCert W.opts W.trusted src W.now pw.name W.ip W.host c = some o → Accepts W C pw key o
  /-- a line of the output of AuthorizedKeysCommand, which succeeded -/
  | command {lines : List Bytes} {o : Opts} : W.keysCommand = some (some lines) →
      KeyOpts.checkFile W.opts W.read W.now pw.name W.ip W.host key lines = some o → Accepts W C pw key o

/-- Neither the key nor, for a certificate, the key that signed it is revoked. -/
def NotRevoked (W : World) (key : Key) : Prop :=
  W.revoked key = false ∧ ∀ c, key = .cert c → W.revoked (.plain c.ca) = false

/-! ### The request -/

/-- The name of the method that includes the host key. -/
def Hostbound (method : Bytes) : Prop := method = b!"publickey-hostbound-v00@openssh.com"

/-- The fields of the request after the name of the method. -/
inductive Request (K : KeyWorld) (method : Bytes) : UInt8 → Bytes → Bytes → Bytes → Bytes → Prop
  | plain {h : UInt8} {a alg blob rest : Bytes} : ¬ Hostbound method → Named a alg → a.length ≤ maxString →
      blob.length ≤ maxString → Request K method h alg blob rest ([h] ++ str a ++ str blob ++ rest)
  | bound {h : UInt8} {a alg blob hk rest : Bytes} {k : PubKey} : Hostbound method → Named a alg → a.length ≤ maxString →
      blob.length ≤ maxString → hk.length ≤ maxString → K.parse hk = some k → K.isHostKey k = true →
      Request K method h alg blob rest ([h] ++ str a ++ str blob ++ str hk ++ rest)

/-- The key may be tried: it is what the algorithm says, was not used before, and the configuration permits it. -/
def Eligible (K : KeyWorld) (C : Conf) (alg blob : Bytes) (k : PubKey) : Prop :=
  K.parse blob = some k ∧ K.typeOf alg = some k.kind ∧ K.used k = false ∧ Match.matchPatternList alg C.accepted false = 1 ∧
  K.caSigOk k = true ∧ K.sizeOk k = true

/-- What the client must have signed (RFC 4252 section 7): identifier of the session, kind of message, user, service, method,
the byte, algorithm, key, and for the bound method the host key. -/
inductive Signed (K : KeyWorld) (s : Session) (method : Bytes) (h : UInt8) (alg blob : Bytes) : Bytes → Prop
  | mk {i u t : Bytes} : (i = str s.id ∧ s.oldId = false ∨ i = s.id ∧ s.oldId = true) →
      (u = s.user ∧ s.style = none ∨ ∃ y, s.style = some y ∧ u = s.user ++ b!":" ++ y) →
      (t = [] ∧ ¬ Hostbound method ∨ t = str K.hostBlob ∧ Hostbound method) →
      Signed K s method h alg blob (i ++ [50] ++ str u ++ str s.service ++ str method ++ [h] ++ str alg ++ str blob ++ t)

/-- For security keys: someone touched it unless neither the server nor the options of the key ask for it, and proved who they
are if one of them asks for it. -/
def TouchOk (C : Conf) (o : Opts) (d : Option SigDetails) : Prop :=
  ∀ x, d = some x → (x.flags.testBit 0 = true ∨ (C.touch = false ∧ o.noPresence = true)) ∧
    (x.flags.testBit 2 = true ∨ (C.verify = false ∧ o.verify = false))

end Verif.UserKey
