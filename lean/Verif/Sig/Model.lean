/-
Signatures over files: sshsig.c, and the file of allowed signers.

Buffers' size limits and failing allocations are not modelled; digest, key parsing and the signature
scheme are parameters.
-/
import Verif.KeyOpts.Model
import Verif.Misc.Base64
import Verif.Misc.Delim
import Verif.Wire

namespace Verif.Sig
open Verif Wire

/-- Keys, digests and signatures, as the code sees them. -/
structure World (K : Type) where
  /-- `sshkey_from_blob` / `sshkey_puts` -/
  fromBlob : Bytes → Option K
  toBlob : K → Bytes
  /-- `sshkey_type_plain(key->type) == KEY_RSA` -/
  isRsa : K → Bool
  /-- `sshkey_sign` (or the signer callback) with the algorithm asked for -/
  sign : K → Option Bytes → Bytes → Option Bytes
  /-- `sshkey_verify(key, sig, data, NULL)` succeeds -/
  verify : K → Bytes → Bytes → Bool
  /-- `ssh_digest_buffer` by the name of the hash -/
  digest : Bytes → Bytes → Bytes

variable {K : Type}

/-! ### Signing and verifying -/

/-- sshsig.c:262-270 `sshsig_check_hashalg` (never NULL here) -/
def hashAllowed (h : Bytes) : Bool := decide (Match.matchPatternList h b!"sha256,sha512" false = 1)

/-- sshsig.c:405-445 `hash_buffer` -/
def hashBuffer (w : World K) (h m : Bytes) : Option Bytes := if hashAllowed h then some (w.digest h m) else none

/-- sshsig.c:184-189 and 325-330: the data that is signed -/
def toSign (ns h hm : Bytes) : Bytes := b!"SSHSIG" ++ str ns ++ str [] ++ str h ++ str hm

/-- sshsig.c:194-201: the signature algorithm asked for -/
def signAlg (w : World K) (k : K) (h : Bytes) : Option Bytes :=
  if w.isRsa k then
    if h = b!"sha256" then some b!"rsa-sha2-256" else if h = b!"sha512" then some b!"rsa-sha2-512" else some b!"rsa-sha2-512"
  else none

/-- sshsig.c:163-238 `sshsig_wrap_sign` -/
def wrapSign (w : World K) (k : K) (h hm ns : Bytes) : Option Bytes :=
  match w.sign k (signAlg w k h) (toSign ns h hm) with
  | none => none
  | some sig => some (b!"SSHSIG" ++ be 4 1 ++ str (w.toBlob k) ++ str ns ++ str [] ++ str h ++ str sig)

/-- sshsig.c:447-472 `sshsig_signb`; no hash given means sha512 -/
def signb (w : World K) (k : K) (hash : Option Bytes) (m ns : Bytes) : Option Bytes :=
  match hashBuffer w (hash.getD b!"sha512") m with
  | none => none
  | some hm => wrapSign w k (hash.getD b!"sha512") hm ns

/-- sshsig.c:241-260 `sshsig_parse_preamble`: what is left -/
def preamble (b : Bytes) : Option Bytes :=
  if b.take 6 = b!"SSHSIG" then
    match getInt 4 (b.drop 6) with
    | none => none
    | some (v, r) => if v > 1 then none else some r
  else none

/-- sshsig.c:272-302 `sshsig_peek_hashalg` -/
def peekHash (b : Bytes) : Option Bytes :=
  match preamble b with
  | none => none
  | some r0 =>
    match getStr r0 with
    | none => none
    | some (_, r1) =>
      match getStr r1 with
      | none => none
      | some (_, r2) =>
        match getStr r2 with
        | none => none
        | some (_, r3) =>
          match getCstr r3 with
          | none => none
          | some (h, r4) =>
            match getStr r4 with
            | none => none
            | some _ => some h

/-- sshsig.c:339-347: the fields of a signature, and what follows them -/
def parseSig (w : World K) (r0 : Bytes) : Option (K × Bytes × Bytes × Bytes × Bytes) :=
  match getStr r0 with
  | none => none
  | some (kb, r1) =>
    match w.fromBlob kb with
    | none => none
    | some k =>
      match getCstr r1 with
      | none => none
      | some (ns, r2) =>
        match getStr r2 with
        | none => none
        | some (_, r3) =>
          match getCstr r3 with
          | none => none
          | some (h, r4) =>
            match getStr r4 with
            | none => none
            | some (sig, r5) => some (k, ns, h, sig, r5)

/-- sshsig.c:370-382: RSA signatures must be of an acceptable kind -/
def rsaOk (w : World K) (k : K) (sig : Bytes) : Bool :=
  if w.isRsa k then
    match getCstr sig with
    | none => false
    | some (t, _) => decide (Match.matchPatternList t b!"rsa-sha2-512,rsa-sha2-256" false = 1)
  else true

/-- sshsig.c:304-403 `sshsig_wrap_verify`: the key, if the signature is good -/
def wrapVerify (w : World K) (b h hm ns : Bytes) : Option K :=
  match preamble b with
  | none => none
  | some r0 =>
    match parseSig w r0 with
    | none => none
    | some (k, gotNs, gotH, sig, rest) =>
      if rest.length ≠ 0 then none
      else if ns ≠ gotNs then none
      else if h ≠ gotH then none
      else if rsaOk w k sig = false then none
      else if w.verify k sig (toSign ns h hm) = false then none
      else some k

/-- sshsig.c:474-503 `sshsig_verifyb` -/
def verifyb (w : World K) (b m ns : Bytes) : Option K :=
  match peekHash b with
  | none => none
  | some h =>
    match hashBuffer w h m with
    | none => none
    | some hm => wrapVerify w b h hm ns

/-! ### The text form -/

scoped notation "BEGIN" => b!"-----BEGIN SSH SIGNATURE-----"
scoped notation "END" => b!"-----END SSH SIGNATURE-----"

/-- sshsig.c:48-85 `sshsig_armor` -/
def armor (b : Bytes) : Option Bytes :=
  match Misc.Base64.dtob64 b true with
  | none => none
  | some t => some (BEGIN ++ [10] ++ t ++ END ++ [10])

/-- `memmem`, as used by sshbuf-misc.c:252-272 `sshbuf_find`: what is in front of the first occurrence -/
def findFront (p : Bytes) : Bytes → Option Bytes
  | [] => if p = [] then some [] else none
  | c :: r => if (c :: r).take p.length = p then some [] else (findFront p r).map (c :: ·)

/-- sshsig.c:111-122: the end of the first line -/
def eol (s : Bytes) : Option Bytes :=
  if s.take 2 = [13, 10] then some (s.drop 2) else if s.take 1 = [10] then some (s.drop 1) else none

/-- sshsig.c:87-161 `sshsig_dearmor`; `cstr` is `sshbuf_dup_string` -/
def dearmor (s : Bytes) : Option Bytes :=
  if s.take (BEGIN).length ≠ BEGIN then none
  else
    match eol (s.drop (BEGIN).length) with
    | none => none
    | some r =>
      match findFront (10 :: END) r with
      | none => none
      | some body =>
        match cstr body with
        | none => none
        | some t => Misc.Base64.b64tod t

/-! ### Allowed signers -/

/-- `struct sshsigopt`, sshsig.c:633-637 -/
structure SigOpts where
  ca : Bool := false
  namespaces : Option Bytes := none
  validAfter : Nat := 0
  validBefore : Nat := 0
  deriving DecidableEq, Repr

/-- sshsig.c:666-679 and 680-693: a time that may be given once; `pt` is `parse_absolute_time` -/
def onceTime (pt : Bytes → Option Nat) (old : Nat) (r : Bytes) : Option (Nat × Bytes) :=
  if old ≠ 0 then none
  else
    match KeyOpts.dequote r with
    | none => none
    | some (v, r') =>
      match pt v with
      | none => none
      | some t => if t = 0 then none else some (t, r')

/-- sshsig.c:656-665 -/
def onceText (old : Option Bytes) (r : Bytes) : Option (Bytes × Bytes) :=
  if old ≠ none then none else KeyOpts.dequote r

/-- sshsig.c:654-694: one option, if there is one here -/
def sigOne (pt : Bytes → Option Nat) (s : Bytes) (o : SigOpts) : Option (SigOpts × Bytes) :=
  match KeyOpts.optFlag b!"cert-authority" false s with
  | some (_, r) => some ({ o with ca := true }, r)
  | none =>
    match KeyOpts.optMatch b!"namespaces" s with
    | some r => (onceText o.namespaces r).map fun x => ({ o with namespaces := some x.1 }, x.2)
    | none =>
      match KeyOpts.optMatch b!"valid-after" s with
      | some r => (onceTime pt o.validAfter r).map fun x => ({ o with validAfter := x.1 }, x.2)
      | none =>
        match KeyOpts.optMatch b!"valid-before" s with
        | some r => (onceTime pt o.validBefore r).map fun x => ({ o with validBefore := x.1 }, x.2)
        | none => some (o, s)

/-- sshsig.c:652-710: the loop -/
def sigLoop (pt : Bytes → Option Nat) : Nat → Bytes → SigOpts → Option SigOpts
  | 0, _, _ => none
  | _ + 1, [], o => some o
  | fuel + 1, c :: s, o =>
    if KeyOpts.isBlank c then some o
    else
      match sigOne pt (c :: s) o with
      | none => none
      | some (o', []) => some o'
      | some (o', d :: r) =>
        if KeyOpts.isBlank d then some o'
        else if d ≠ 44 then none
        else if r = [] then none
        else sigLoop pt fuel r o'

/-- sshsig.c:639-724 `sshsigopt_parse` -/
def sigOpts (pt : Bytes → Option Nat) (s : Bytes) : Option SigOpts :=
  match sigLoop pt (s.length + 1) s {} with
  | none => none
  | some o => if o.validAfter ≠ 0 ∧ o.validBefore ≠ 0 ∧ o.validBefore ≤ o.validAfter then none else some o

/-- A key as it is compared: `full` tells keys apart for `sshkey_equal` (certificates included), `pub` for
`sshkey_equal_public`. -/
structure KeyId where
  full : Nat
  pub : Nat
  deriving DecidableEq, Repr

/-- What the file is read with: `sshkey_read` into a key of any type, and `parse_absolute_time`. -/
structure Reader where
  read : Bytes → Option KeyId
  time : Bytes → Option Nat

/-- sshsig.c:785-807: the text of the options and the key -/
def keyAndOpts (rd : Reader) (cp : Bytes) : Option (Bytes × KeyId) :=
  match rd.read cp with
  | some k => some ([], k)
  | none =>
    match KeyOpts.advance false cp with
    | none => none
    | some [] => none
    | some (_ :: r) =>
      match rd.read (KeyOpts.skipSpace r) with
      | none => none
      | some k => some (cp.take (cp.length - (r.length + 1)), k)

/-- What can come out of a line (`SSH_ERR_KEY_NOT_FOUND`, `SSH_ERR_INVALID_FORMAT`). -/
inductive Line where
  | none
  | bad
  | entry (names : Bytes) (k : KeyId) (o : SigOpts)

/-- sshsig.c:769-776: a principal is asked for and the line does not list it -/
def notListed (required : Option Bytes) (names : Bytes) : Bool :=
  match required with
  | some p => decide (Match.matchPatternList p names false ≠ 1)
  | none => false

/-- sshsig.c:735-835 `parse_principals_key_and_options` -/
def parseLine (rd : Reader) (required : Option Bytes) (line : Bytes) : Line :=
  if (line.dropWhile Misc.Delim.isWs).head? = some 35 ∨ line.dropWhile Misc.Delim.isWs = [] then .none
  else
    match Misc.Delim.strdelim false (line.dropWhile Misc.Delim.isWs) with
    | some (names, some cp) =>
      if notListed required names then .none
      else
        match keyAndOpts rd cp with
        | none => .bad
        | some (opts, k) =>
          match sigOpts rd.time opts with
          | none => .bad
          | some o => .entry names k o
    | _ => .bad

/-- The key that made the signature. -/
structure Signer where
  id : KeyId
  /-- its certificate, which names the public part of the key that signed it -/
  cert : Option KeyOpts.Cert

/-- sshsig.c:855-876: the names of the certificate that match one pattern after the other, up to an empty one -/
def filterNames (c : KeyOpts.Cert) : List Bytes → List Bytes
  | [] => []
  | p :: ps => if p = [] then [] else c.principals.filter (fun n => Match.matchPattern n p) ++ filterNames c ps

/-- sshsig.c:837-892 `cert_filter_principals`.  (The separating comma is written when the buffer is not empty,
so empty names at the front leave no trace.) -/
def certFilter (c : KeyOpts.Cert) (t : Nat) (names : Bytes) : Option Bytes :=
  if KeyOpts.certCheck c false true false t none = false then none
  else
    let out := (filterNames c (Text.split 44 names)).foldl (fun b n => if b.length ≠ 0 then b ++ 44 :: n else n) []
    if out.length = 0 then none else some out

/-- sshsig.c:914-946: the entry is for this key; the names it stands for -/
def entryKey (s : Signer) (principal : Option Bytes) (t : Nat) (names : Bytes) (k : KeyId) (o : SigOpts) : Option Bytes :=
  if !o.ca && decide (k.full = s.id.full) then some names
  else
    match s.cert with
    | none => none
    | some c =>
      if o.ca && decide (c.ca = k.pub) then
        match principal with
        | some p => if KeyOpts.certCheck c false true false t (some p) then some names else none
        | none => certFilter c t names
      else none

/-- sshsig.c:949-955: the entry is for other namespaces -/
def nsRefused (l ns : Option Bytes) : Bool :=
  match l, ns with
  | some l, some n => decide (Match.matchPatternList n l false ≠ 1)
  | _, _ => false

/-- sshsig.c:949-977: the options let the key be used -/
def optsAllow (o : SigOpts) (ns : Option Bytes) (t : Nat) : Bool :=
  if nsRefused o.namespaces ns then false
  else if o.validAfter ≠ 0 ∧ t < o.validAfter then false
  else if o.validBefore ≠ 0 ∧ t > o.validBefore then false
  else true

/-- sshsig.c:894-987 `check_allowed_keys_line`: `none` is `SSH_ERR_KEY_NOT_FOUND` -/
def checkLine (rd : Reader) (s : Signer) (principal ns : Option Bytes) (t : Nat) (line : Bytes) : Option Bytes :=
  match parseLine rd principal line with
  | .entry names k o =>
    match entryKey s principal t names k o with
    | none => none
    | some r => if optsAllow o ns t then some r else none
  | _ => none

/-- sshsig.c:989-1028 `sshsig_check_allowed_keys`, of a file that can be opened -/
def checkAllowed (rd : Reader) (s : Signer) (principal : Bytes) (ns : Option Bytes) (t : Nat) : List Bytes → Bool
  | [] => false
  | l :: ls =>
    match checkLine rd s (some principal) ns t l with
    | some _ => true
    | none => checkAllowed rd s principal ns t ls

/-- sshsig.c:1030-1076 `sshsig_find_principals` -/
def findPrincipals (rd : Reader) (s : Signer) (t : Nat) : List Bytes → Option Bytes
  | [] => none
  | l :: ls =>
    match checkLine rd s none none t l with
    | some p => some p
    | none => findPrincipals rd s t ls

/-- sshsig.c:1078-1145 `sshsig_match_principals`: the names of the lines that list the principal; `none` is an error
(a malformed line), the empty list is `SSH_ERR_KEY_NOT_FOUND` -/
def matchPrincipals (rd : Reader) (principal : Bytes) : List Bytes → Option (List Bytes)
  | [] => some []
  | l :: ls =>
    match parseLine rd (some principal) l with
    | .none => matchPrincipals rd principal ls
    | .bad => none
    | .entry names _ _ => (matchPrincipals rd principal ls).map (names :: ·)

end Verif.Sig
