/-
What a file signature says (PROTOCOL.sshsig), and what an allowed signers file says (ssh-keygen(1)).
-/
import Verif.Sig.Model
import Verif.WireMore
import Verif.KeyOpts.Grammar
import Verif.Misc.Base64Props

namespace Verif.Sig.Spec
open Verif Wire

/-! ### Signatures -/

/-- The bytes a signature is made over (PROTOCOL.sshsig, section 3): a magic string, then four strings. -/
def Signed (ns h hm : Bytes) : Bytes :=
  [83, 83, 72, 83, 73, 71] ++ be 4 ns.length ++ ns ++ be 4 0 ++ be 4 h.length ++ h ++ be 4 hm.length ++ hm

variable {K : Type}

/-- `b` is a good signature of message `m` for the namespace `ns` made by the key `k`. -/
inductive Good (w : World K) (b m ns : Bytes) (k : K) : Prop where
  | mk (v : Nat) (kb nsb res hb sig h : Bytes)
      (shape : b = [83, 83, 72, 83, 73, 71] ++ be 4 v ++ str kb ++ str nsb ++ str res ++ str hb ++ str sig)
      (version : v ≤ 1)
      (short : kb.length ≤ maxString ∧ nsb.length ≤ maxString ∧ res.length ≤ maxString ∧ hb.length ≤ maxString ∧
        sig.length ≤ maxString)
      (key : w.fromBlob kb = some k)
      (namespace_ : Named nsb ns)
      (hash : Named hb h)
      (allowed : h = b!"sha256" ∨ h = b!"sha512")
      (rsa : w.isRsa k = true → ∃ alg a rest, sig = str alg ++ rest ∧ alg.length ≤ maxString ∧ Named alg a ∧
        (a = b!"rsa-sha2-256" ∨ a = b!"rsa-sha2-512"))
      (verified : w.verify k sig (Signed ns h (w.digest h m)) = true)

/-! ### The text form -/

/-- A signature as text: header line, base64 (with white space anywhere), footer on a line of its own; anything may
follow. One NUL is tolerated in front of the footer's line. -/
inductive Text (s d : Bytes) : Prop where
  | mk (cr : Bool) (body nul tail : Bytes)
      (shape : s = b!"-----BEGIN SSH SIGNATURE-----" ++ (if cr then [13, 10] else [10]) ++ body ++ nul ++
        [10] ++ b!"-----END SSH SIGNATURE-----" ++ tail)
      (h : nul = [] ∨ nul = [0])
      (rfc : Misc.Base64.Rfc d (Misc.Base64.squeeze body))

/-! ### Allowed signers -/

inductive Item where
  | ca
  | namespaces (v : Bytes)
  | after (v : Bytes)
  | before (v : Bytes)
  deriving DecidableEq, Repr

open _root_.Verif.KeyOpts.Spec (Quoted)
open _root_.Verif.Match (toLower)

/-- Option `i` written as `t`, in any mix of upper and lower case. -/
inductive Written : Item → Bytes → Prop where
  | ca {t} : t.map toLower = b!"cert-authority" → Written .ca t
  | namespaces {t q v} : t.map toLower = b!"namespaces" → Quoted q v →
      Written (.namespaces v) (t ++ 61 :: 34 :: (q ++ [34]))
  | after {t q v} : t.map toLower = b!"valid-after" → Quoted q v → Written (.after v) (t ++ 61 :: 34 :: (q ++ [34]))
  | before {t q v} : t.map toLower = b!"valid-before" → Quoted q v → Written (.before v) (t ++ 61 :: 34 :: (q ++ [34]))

/-- The whole text is a list of options: separated by commas, of which there may be too many but none at the end. -/
inductive Options : List Item → Bytes → Prop where
  | none : Options [] []
  | last {i t} : Written i t → Options [i] t
  | empty {is r} : r ≠ [] → Options is r → Options is (44 :: r)
  | more {i is t r} : Written i t → r ≠ [] → Options is r → Options (i :: is) (t ++ 44 :: r)

def isNs : Item → Bool | .namespaces _ => true | _ => false
def isAfter : Item → Bool | .after _ => true | _ => false
def isBefore : Item → Bool | .before _ => true | _ => false

/-- What a list of options means: each clause at most once, times that can be read. -/
structure Means (time : Bytes → Option Nat) (is : List Item) (o : SigOpts) : Prop where
  onceNs : (is.filter isNs).length ≤ 1
  onceAfter : (is.filter isAfter).length ≤ 1
  onceBefore : (is.filter isBefore).length ≤ 1
  ca : o.ca = true ↔ .ca ∈ is
  ns : ∀ v, o.namespaces = some v ↔ .namespaces v ∈ is
  after : ∀ v, .after v ∈ is → time v = some o.validAfter ∧ o.validAfter ≠ 0
  noAfter : (∀ v, .after v ∉ is) → o.validAfter = 0
  before : ∀ v, .before v ∈ is → time v = some o.validBefore ∧ o.validBefore ≠ 0
  noBefore : (∀ v, .before v ∉ is) → o.validBefore = 0

def Ws (c : UInt8) : Prop := c = 32 ∨ c = 9 ∨ c = 13 ∨ c = 10

/-- A line starts (after white space) with the names; what follows them and the white space behind is `rest`.
The names end at white space; a part of them may be in quotes. -/
inductive Names (line names rest : Bytes) : Prop where
  | plain (lead gap : Bytes) (c : UInt8) (shape : line = lead ++ names ++ c :: (gap ++ rest))
      (hl : ∀ x ∈ lead, Ws x) (hne : names ≠ []) (hcom : names.head? ≠ some 35) (hn : ∀ x ∈ names, ¬ Ws x ∧ x ≠ 34)
      (hc : Ws c) (hg : ∀ x ∈ gap, Ws x) (hr : ∀ x r, rest = x :: r → ¬ Ws x)
  | quoted (lead pre q gap : Bytes) (shape : line = lead ++ pre ++ 34 :: (q ++ 34 :: (gap ++ rest)))
      (e : names = pre ++ q)
      (hl : ∀ x ∈ lead, Ws x) (hcom : pre.head? ≠ some 35) (hn : ∀ x ∈ pre, ¬ Ws x ∧ x ≠ 34)
      (hq : 34 ∉ q) (hg : ∀ x ∈ gap, Ws x) (hr : ∀ x r, rest = x :: r → ¬ Ws x)

/-- The line is an entry: names, options, key. -/
inductive Entry (rd : Reader) (line names : Bytes) (is : List Item) (k : KeyId) : Prop where
  | bare (rest : Bytes) (h : Names line names rest) (hk : rd.read rest = some k) (he : is = [])
  | opts (rest t gap kt : Bytes) (c : UInt8) (h : Names line names rest) (hk : rd.read rest = none)
      (shape : rest = t ++ c :: (gap ++ kt)) (ho : Options is t) (hc : c = 32 ∨ c = 9)
      (hg : ∀ x ∈ gap, x = 32 ∨ x = 9) (hkt : ∀ x r, kt = x :: r → ¬ (x = 32 ∨ x = 9))
      (hread : rd.read kt = some k)

/-- The times given in the options are those of an interval. -/
def Consistent (o : SigOpts) : Prop := o.validAfter = 0 ∨ o.validBefore = 0 ∨ o.validAfter < o.validBefore

/-- At time `t` the certificate is a valid user certificate that lists names. -/
def CertValid (c : KeyOpts.Cert) (t : Nat) : Prop :=
  c.type = .user ∧ c.validAfter ≤ t ∧ t < c.validBefore ∧ c.principals ≠ []

/-- The options let a signature for namespace `ns` be checked at time `t`. -/
structure Allows (o : SigOpts) (ns : Option Bytes) (t : Nat) : Prop where
  ns : ∀ l n, o.namespaces = some l → ns = some n → Match.matchPatternList n l false = 1
  after : o.validAfter ≠ 0 → o.validAfter ≤ t
  before : o.validBefore ≠ 0 → t ≤ o.validBefore

/-- The line lets the signer sign as `p`. -/
def Permits (rd : Reader) (s : Signer) (p : Bytes) (ns : Option Bytes) (t : Nat) (line : Bytes) : Prop :=
  ∃ names is k o, Entry rd line names is k ∧ Means rd.time is o ∧ Consistent o ∧
    Match.matchPatternList p names false = 1 ∧ Allows o ns t ∧
    ((Item.ca ∉ is ∧ k.full = s.id.full) ∨
     (Item.ca ∈ is ∧ ∃ c, s.cert = some c ∧ c.ca = k.pub ∧ CertValid c t ∧ p ∈ c.principals))

end Verif.Sig.Spec
