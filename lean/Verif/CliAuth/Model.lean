/-
Model of user authentication in the client (sshconnect2.c): the choice of methods, passwords, prompts, which keys are
offered and what is signed with them.

Each message the server sends is an event.  What the agent, the file system, hardware, `ssh-keysign` and the user answer is
a parameter; the answers of the first three may depend on all that happened before, those of the user are a list, with an
end of file after its end.  GSSAPI, `AddKeysToAgent`, notices of touching a security key and log messages are not
modelled, messages 1 to 4 are dealt with elsewhere (`Verif.Packet`).  Memory and buffers do not run out.
-/
import Verif.PubKey.Model
import Verif.Match.Model
import Verif.Text

namespace Verif.CliAuth
open Verif Wire Text
open _root_.Verif.PubKey (Key Kind Curve Pub typeFromName sshName sigalgByName fromBlob toBlob nRsa256 nRsa512 nRsa256Cert nRsa512Cert nRsa nRsaCert)
open _root_.Verif.Match (matchList matchPatternList)
open scoped _root_.Verif.Match
open _root_.Verif.Exch (numBits)

/-! ### What there is -/

/-- The methods, in the order of the table sshconnect2.c:384-417 `authmethods` -/
inductive Meth where
  | hostbased
  | publickey
  | kbdint
  | password
  | nothing
  deriving DecidableEq, Repr

def methods : List Meth := [.hostbased, .publickey, .kbdint, .password, .nothing]

def Meth.name : Meth → Bytes
  | .hostbased => b!"hostbased"
  | .publickey => b!"publickey"
  | .kbdint => b!"keyboard-interactive"
  | .password => b!"password"
  | .nothing => b!"none"

/-- sshconnect2.c:301-309 `struct identity`; `ext` is SSHKEY_FLAG_EXT of the key -/
structure Ident where
  key : Option Key
  ext : Bool
  agent : Bool
  file : Bytes
  tried : Bool
  isPrivate : Bool
  deriving DecidableEq

/-- The options used, and what is fixed for the connection. -/
structure Conf where
  user : Bytes
  localUser : Bytes
  host : Bytes
  hostAlias : Option Bytes
  preferred : Option Bytes
  hostbased : Bool
  pubkey : Nat
  kbdint : Bool
  password : Bool
  batch : Bool
  prompts : Nat
  accepted : Bytes
  hostAccepted : Bytes
  identitiesOnly : Bool
  skProvider : Bool
  minRsa : Nat
  devices : Bytes
  /-- `IdentityFile`, with the key if it could be read and whether it is held by a token -/
  idFiles : List (Bytes × Option (Key × Bool))
  certFiles : List (Bytes × Key × Bool)
  /-- the keys of this host, for host-based authentication -/
  hostKeys : List (Option Key)
  sessionId : Bytes
  /-- the server's key in the first key exchange -/
  hostKey : Option Key
  /-- SSH_OLD_SESSIONID, SSH_BUG_SIGTYPE and SSH_BUG_SIGTYPE74 -/
  oldId : Bool
  bugSig : Bool
  bug74 : Bool
  /-- the server takes part in RFC 8308 -/
  extInfoS : Bool

/-- What loading a private key gives. -/
inductive Load where
  | ok (k : Key)
  | wrongPass
  | error

/-- What signing gives. -/
inductive Sign where
  | ok (sig : Bytes)
  | wrongPin
  | notFound
  | algUnsupported
  | error

/-- Who is asked to sign. -/
inductive Signer where
  | agent (k : Key)
  /-- the key is in memory, or held by a token -/
  | held (k : Key)
  /-- the key has been read from the file -/
  | file (name : Bytes) (k : Key)
  deriving DecidableEq

/-- What can be observed of the client. -/
inductive Act where
  | packet (ty : Nat) (payload : Bytes)
  | prompt (text : Bytes) (echo : Bool)
  | shown (text : Bytes)
  | load (file pass : Bytes)
  | sign (who : Signer) (data alg : Bytes)
  /-- `ssh-keysign` is asked to sign for the host -/
  | keysign (k : Key) (data : Bytes)
  deriving DecidableEq

structure World where
  /-- for decoding keys -/
  keys : PubKey.World
  /-- the keys held by the agent, with their comments, if there is one -/
  agent : Option (List (Key × Bytes))
  present : List Act → Bytes → Bool
  load : List Act → Bytes → Bytes → Load
  /-- the agent's answer, before it is checked -/
  agentSign : List Act → Key → Bytes → Bytes → Sign
  /-- `sshkey_sign`, with the PIN -/
  keySign : List Act → Key → Bytes → Bytes → Option Bytes → Sign
  hostSign : List Act → Key → Bytes → Option Bytes
  localName : Option Bytes

inductive Status where
  | running
  | success
  /-- the client gives up -/
  | ended
  /-- a null pointer is dereferenced -/
  | crashed
  deriving DecidableEq, Repr

/-- The handler of message 60: SSH2_MSG_USERAUTH_PK_OK, PASSWD_CHANGEREQ and INFO_REQUEST are all this one -/
inductive Slot where
  | none
  | pkOk
  | changeReq
  | infoReq
  deriving DecidableEq, Repr

/-- The handler of SSH2_MSG_EXT_INFO -/
inductive Ext where
  | input
  | kexError
  | error
  deriving DecidableEq, Repr

/-- sshconnect2.c:312-338 `struct cauthctxt`, the variables sshconnect2.c:2295-2297 and the handlers of messages. -/
structure St where
  status : Status
  /-- handlers of messages 51 to 53 are set -/
  started : Bool
  method : Meth
  authlist : Option Bytes
  /-- methods of which `enabled` has been set to NULL -/
  off : List Meth
  supported : Option Bytes
  preferred : Bytes
  current : Option Meth
  prepared : Bool
  keys : List Ident
  ktypes : Option Bytes
  activeKtype : Option Bytes
  hostKeys : List (Option Key)
  infoReqSeen : Bool
  attemptKbd : Nat
  attemptPw : Nat
  slot : Slot
  ext : Ext
  extCount : Nat
  sigAlgs : Option Bytes
  hasHostbound : Bool
  answers : List (Option Bytes)
  out : List Act

def St.act (s : St) (a : Act) : St := { s with out := s.out ++ [a] }

/-- What a method did. -/
inductive Res where
  | sent (s : St)
  | unsent (s : St)
  /-- the client has come to its end -/
  | stop (s : St)

/-! ### Small parts -/

/-- The user is asked; `none` is an end of file. -/
def ask (s : St) (text : Bytes) (echo : Bool) : Option Bytes × St :=
  match s.answers with
  | [] => (none, s.act (.prompt text echo))
  | a :: l => (a, { s.act (.prompt text echo) with answers := l })

/-- readpass.c:122-197 `read_passphrase` without RP_ALLOW_EOF: an end of file is an empty answer -/
def read (s : St) (text : Bytes) (echo : Bool) : Bytes × St := ((ask s text echo).1.getD [], (ask s text echo).2)

def service : Bytes := b!"ssh-connection"

/-- The start of each SSH2_MSG_USERAUTH_REQUEST -/
def reqHead (C : Conf) (m : Bytes) : Bytes := str C.user ++ str service ++ str m

def hostName (C : Conf) : Bytes := C.hostAlias.getD C.host

def keyType (k : Key) : Kind × Bool := (k.pub.kind, k.cert.isSome)

/-- sshkey.c:236-240 `sshkey_ssh_name` -/
def sshKeyName (k : Key) : Bytes := (sshName k.pub.kind k.cert.isSome k.pub.nid).getD b!"ssh-unknown"

/-- sshkey.c:839-850 `sshkey_equal_public`, of keys that are there -/
def equalPublic (a b : Key) : Bool := a.pub = b.pub

/-- sshkey.c:852-862 `sshkey_equal` with cert_compare -/
def equalKey (a b : Key) : Bool :=
  keyType a = keyType b ∧ a.cert.map PubKey.Cert.blob = b.cert.map PubKey.Cert.blob ∧ equalPublic a b

def isSk (k : Key) : Bool := k.pub.kind = .ecdsaSk ∨ k.pub.kind = .ed25519Sk

/-- sshkey.c:1466-1481 `sshkey_check_rsa_length`; SSH_RSA_MINIMUM_MODULUS_SIZE is 1024 -/
def rsaLengthOk (C : Conf) (k : Key) : Bool :=
  match k.pub with
  | .rsa _ n => ¬ (numBits n < 1024 ∨ (C.minRsa > 0 ∧ numBits n < C.minRsa))
  | _ => true

/-! ### Methods -/

/-- sshconnect2.c:2268-2280 `authmethod_is_enabled` -/
def isEnabled (C : Conf) (off : List Meth) (m : Meth) : Bool :=
  if m ∈ off then false
  else
    match m with
    | .hostbased => C.hostbased
    | .publickey => C.pubkey ≠ 0
    | .kbdint => C.kbdint ∧ C.batch = false
    | .password => C.password ∧ C.batch = false
    | .nothing => false

/-- sshconnect2.c:2282-2292 `authmethod_lookup` -/
def lookup (n : Bytes) : Option Meth := methods.find? fun m => n = m.name

/-- sshconnect2.c:2344-2365 `authmethods_get` -/
def methodsGet (C : Conf) : Bytes := join COMMA ((methods.filter (isEnabled C [])).map Meth.name)

/-- sshconnect2.c:429-430 -/
def preferredList (C : Conf) : Bytes := C.preferred.getD (methodsGet C)

/-- sshconnect2.c:2324-2341: the loop of `authmethod_get`, with what is left of the list -/
def getGo (C : Conf) (off : List Meth) (supported : Bytes) : Nat → Bytes → Option Meth × Bytes
  | 0, p => (none, p)
  | fuel + 1, p =>
    match matchList p supported with
    | (none, _) => (none, p)
    | (some n, k) =>
      match lookup n with
      | some m => if isEnabled C off m then (some m, p.drop k) else getGo C off supported fuel (p.drop k)
      | none => getGo C off supported fuel (p.drop k)

/-- sshconnect2.c:2310-2312 -/
def effective (C : Conf) (authlist : Option Bytes) : Bytes :=
  if authlist.getD [] = [] then preferredList C else authlist.getD []

def getFrom (C : Conf) (s : St) (list p : Bytes) : Option Meth × St :=
  match getGo C s.off list (p.length + 1) p with
  | (m, p) => (m, { s with supported := some list, preferred := p, current := m })

/-- sshconnect2.c:2304-2342 `authmethod_get` -/
def methodGet (C : Conf) (s : St) : Option Meth × St :=
  if s.supported ≠ some (effective C s.authlist) then getFrom C s (effective C s.authlist) (preferredList C)
  else if s.current.any (isEnabled C s.off) then (s.current, s)
  else getFrom C s (effective C s.authlist) s.preferred

/-! ### Passwords and prompts -/

/-- sshconnect2.c:1034-1069 `userauth_passwd` -/
def userauthPasswd (C : Conf) (s : St) : Res :=
  if s.attemptPw ≥ C.prompts then .unsent { s with attemptPw := s.attemptPw + 1 }
  else
    match read { s with attemptPw := s.attemptPw + 1 } (C.user ++ b!"@" ++ hostName C ++ b!"'s password: ") false with
    | (pw, s) =>
      .sent { s.act (.packet 50 (reqHead C (s.method.name) ++ be 1 0 ++ str pw)) with slot := .changeReq }

/-- sshconnect2.c:1105-1107, 1113-1115 and 1121-1123: the prompts for a change of the password -/
def changePrompt (C : Conf) (what : Bytes) : Bytes :=
  what ++ C.user.take 30 ++ b!"@" ++ (hostName C).take 128

/-- sshconnect2.c:1112-1132: the new password, asked for until it is given twice; the loop ends with the answers -/
def newPassword (C : Conf) : Nat → St → Option Bytes × St
  | 0, s => (none, s)
  | fuel + 1, s =>
    match ask s (changePrompt C b!"Enter " ++ b!"'s new password: ") false with
    | (none, s) => (none, s)
    | (some pw, s) =>
      match read s (changePrompt C b!"Retype " ++ b!"'s new password: ") false with
      | (again, s) => if pw ≠ again then newPassword C fuel s else (some pw, s)

/-- sshconnect2.c:1074-1146 `input_userauth_passwd_changereq` -/
def changeReq (C : Conf) (s : St) (b : Bytes) : St :=
  match getCstr b with
  | none => { s with status := .ended }
  | some (info, b) =>
    match getCstr b with
    | none => { s with status := .ended }
    | some (_, _) =>
      match read (if info = [] then s else s.act (.shown info)) (changePrompt C b!"Enter " ++ b!"'s old password: ") false with
      | (old, s) =>
        match newPassword C (s.answers.length + 1) s with
        | (none, s) => s
        | (some pw, s) => s.act (.packet 50 (reqHead C s.method.name ++ be 1 1 ++ str old ++ str pw))

/-- sshconnect2.c:1907-1935 `userauth_kbdint` -/
def userauthKbdint (C : Conf) (s : St) : Res :=
  if s.attemptKbd ≥ C.prompts then .unsent { s with attemptKbd := s.attemptKbd + 1 }
  else if s.attemptKbd + 1 > 1 ∧ s.infoReqSeen = false then .unsent { s with attemptKbd := s.attemptKbd + 1, slot := .none }
  else
    .sent { s.act (.packet 50 (reqHead C s.method.name ++ str [] ++ str C.devices)) with
      attemptKbd := s.attemptKbd + 1, slot := .infoReq }

/-- sshconnect2.c:1981-1998: the prompts; `acc` is the answer so far -/
def infoPrompts (C : Conf) : Nat → Bytes → Bytes → St → Option (Bytes × Bytes) × St
  | 0, b, acc, s => (some (b, acc), s)
  | n + 1, b, acc, s =>
    match getCstr b with
    | none => (none, s)
    | some (prompt, b) =>
      match getInt 1 b with
      | none => (none, s)
      | some (echo, b) =>
        match read s (b!"(" ++ C.user ++ b!"@" ++ hostName C ++ b!") " ++ prompt) (echo ≠ 0) with
        | (resp, s) => infoPrompts C n b (acc ++ str resp) s

def show? (s : St) (t : Bytes) : St := if t = [] then s else s.act (.shown t)

/-- sshconnect2.c:1940-2009 `input_userauth_info_req`; what the prompts show of the text is in `Verif.Show` -/
def infoReq (C : Conf) (s : St) (b : Bytes) : St :=
  match getCstr b with
  | none => { s with infoReqSeen := true, status := .ended }
  | some (name, b) =>
    match getCstr b with
    | none => { s with infoReqSeen := true, status := .ended }
    | some (inst, b) =>
      match getCstr b with
      | none => { s with infoReqSeen := true, status := .ended }
      | some (_, b) =>
        match getInt 4 b with
        | none => { show? (show? { s with infoReqSeen := true } name) inst with status := .ended }
        | some (n, b) =>
          match infoPrompts C n b (be 4 n) (show? (show? { s with infoReqSeen := true } name) inst) with
          | (none, s) => { s with status := .ended }
          | (some (rest, acc), s) => if rest ≠ [] then { s with status := .ended } else s.act (.packet 61 acc)

/-! ### Algorithms -/

/-- sshconnect2.c:1187-1199: the first name of the list that fits the key and the server's list -/
def sigAlgGo (t : Kind × Bool) (server : Bytes) : List Bytes → Option Bytes
  | [] => none
  | cp :: l =>
    if typeFromName cp ≠ some t then sigAlgGo t server l
    else
      match sigalgByName cp with
      | none => sigAlgGo t server l
      | some a => if (matchList a server).1 ≠ none then some cp else sigAlgGo t server l

/-- sshconnect2.c:1164-1172: the algorithm of the key itself -/
def baseAlg (C : Conf) (k : Key) : Option Bytes := (matchList (sshKeyName k) C.accepted).1

/-- sshconnect2.c:1155-1202 `key_sig_algorithm`; `withServer` is false if it is called with NULL -/
def sigAlgorithm (C : Conf) (s : St) (withServer : Bool) (k : Key) : Option Bytes :=
  match (if withServer then s.sigAlgs else none) with
  | none => baseAlg C k
  | some server =>
    if k.pub.kind ≠ .rsa ∨ (k.cert.isSome ∧ C.bugSig) then baseAlg C k
    else
      sigAlgGo (keyType k) (if k.cert.isNone ∧ C.bug74 then b!"rsa-sha2-256,rsa-sha2-512" else server)
        (split COMMA C.accepted)

/-- sshconnect2.c:1600-1627 `key_type_allowed_by_config` -/
def typeAllowed (C : Conf) (k : Key) : Bool :=
  matchPatternList (sshKeyName k) C.accepted false = 1 ∨
    (k.pub.kind = .rsa ∧ k.cert.isNone ∧
      (matchPatternList nRsa512 C.accepted false = 1 ∨ matchPatternList nRsa256 C.accepted false = 1)) ∨
    (k.pub.kind = .rsa ∧ k.cert.isSome ∧
      (matchPatternList nRsa512Cert C.accepted false = 1 ∨ matchPatternList nRsa256Cert C.accepted false = 1))

/-! ### The keys -/

/-- sshconnect2.c:1685-1707: keys named in the configuration; SSH2_CERT_TYPE_USER is 1 -/
def fromFile (C : Conf) (f : Bytes × Option (Key × Bool)) : Option Ident :=
  match f.2 with
  | none => some ⟨none, false, false, f.1, false, false⟩
  | some (k, ext) =>
    if k.cert.any (fun c => c.type ≠ 1) then none
    else if isSk k ∧ C.skProvider = false then none
    else some ⟨some k, ext, false, f.1, false, false⟩

/-- sshconnect2.c:1709-1733: certificates named in the configuration -/
def fromCert (C : Conf) (f : Bytes × Key × Bool) : Option Ident :=
  if f.2.1.cert.all (fun c => c.type ≠ 1) then none
  else if isSk f.2.1 ∧ C.skProvider = false then none
  else some ⟨some f.2.1, f.2.2, false, f.1, false, false⟩

/-- sshconnect2.c:1744-1757: the first file with the key, and the others -/
def takeFile (k : Key) : List Ident → Option (Ident × List Ident)
  | [] => none
  | id :: l =>
    if id.key.any (equalKey k) then some (id, l)
    else
      match takeFile k l with
      | none => none
      | some (x, l) => some (x, id :: l)

/-- sshconnect2.c:1737-1768: the agent's keys; the lists of files, of preferred keys and of other keys of the agent -/
def agentGo (C : Conf) : List (Key × Bytes) → List Ident → List Ident → List Ident → List Ident × List Ident
  | [], files, pref, other => (files, pref ++ other)
  | (k, comment) :: l, files, pref, other =>
    if rsaLengthOk C k = false then agentGo C l files pref other
    else
      match takeFile k files with
      | some (id, files) => agentGo C l files (pref ++ [{ id with agent := true }]) other
      | none =>
        if C.identitiesOnly then agentGo C l files pref other
        else agentGo C l files pref (other ++ [⟨some k, false, true, comment, false, false⟩])

/-- the other file `id2` has the same key as `id`, sshconnect2.c:1780-1785 -/
def sameListed (id id2 : Ident) : Bool :=
  match id.key, id2.key with
  | some a, some b => id2.ext = false ∧ equalKey a b
  | _, _ => false

/-- sshconnect2.c:1774-1796: keys of tokens; `done` are those before that stay -/
def tokenGo (C : Conf) (pref done : List Ident) : List Ident → List Ident × List Ident
  | [] => (pref, done)
  | id :: l =>
    if id.key.isNone ∨ id.ext = false then tokenGo C pref (done ++ [id]) l
    else if (done ++ id :: l).any (sameListed id) then tokenGo C (pref ++ [id]) done l
    else if C.identitiesOnly then tokenGo C pref done l
    else tokenGo C pref (done ++ [id]) l

/-- sshconnect2.c:1800-1818: the algorithm is allowed -/
def keyAllowed (C : Conf) (s : St) (id : Ident) : Bool :=
  match id.key with
  | none => true
  | some k => typeAllowed C k ∧ (s.sigAlgs = none ∨ sigAlgorithm C s true k ≠ none)

/-- sshconnect2.c:1735-1772 -/
def withAgent (C : Conf) (W : World) : List Ident × List Ident :=
  match W.agent with
  | none => (C.idFiles.filterMap (fromFile C), C.certFiles.filterMap (fromCert C))
  | some l => agentGo C l (C.idFiles.filterMap (fromFile C)) (C.certFiles.filterMap (fromCert C)) []

/-- sshconnect2.c:1668-1827 `pubkey_prepare` -/
def prepare (C : Conf) (W : World) (s : St) : List Ident :=
  match withAgent C W with
  | (files, pref) =>
    match tokenGo C pref [] files with
    | (pref, files) => (pref ++ files).filter (keyAllowed C s)

/-- sshconnect2.c:1534-1596: the loop of `load_identity_file`; `first` is the attempt without passphrase -/
def loadGo (C : Conf) (W : World) (file : Bytes) : Nat → Bool → St → Option Key × St
  | 0, _, s => (none, s)
  | fuel + 1, first, s =>
    match (if first then ([], s) else read s (b!"Enter passphrase for key '" ++ file.take 100 ++ b!"': ") false) with
    | (pass, s) =>
      if first = false ∧ pass = [] then (none, s)
      else
        match W.load s.out file pass with
        | .error => (none, s.act (.load file pass))
        | .wrongPass =>
          if C.batch then (none, s.act (.load file pass)) else loadGo C W file fuel false (s.act (.load file pass))
        | .ok k =>
          if isSk k ∧ C.skProvider = false then (none, s.act (.load file pass))
          else if rsaLengthOk C k = false then (none, s.act (.load file pass))
          else (some k, s.act (.load file pass))

/-- sshconnect2.c:1521-1598 `load_identity_file` -/
def loadFile (C : Conf) (W : World) (file : Bytes) (s : St) : Option Key × St :=
  if W.present s.out file = false then (none, s) else loadGo C W file (C.prompts + 1) true s

/-! ### Signatures -/

/-- sshkey.c:2173-2190 `sshkey_check_sigtype`, for an algorithm that is given -/
def checked (alg sig : Bytes) : Sign :=
  match sigalgByName alg with
  | none => .error
  | some e =>
    match getCstr sig with
    | none => .error
    | some (t, _) => if t = e then .ok sig else .algUnsupported

/-- authfd.c:403-453 `ssh_agent_sign` and sshconnect2.c:1262-1269: what comes back is checked -/
def checkSign (alg : Bytes) : Sign → Sign
  | .ok sig => checked alg sig
  | r => r

/-- sshconnect2.c:1238-1260: signing with a key that is here, asking for a PIN at most once -/
def signKey (W : World) (file : Bytes) (who : Signer) (k : Key) (data alg : Bytes) (mayAsk : Bool) (s : St) : Sign × St :=
  match W.keySign s.out k data alg none with
  | .wrongPin =>
    if mayAsk ∧ isSk k then
      match read (s.act (.sign who data alg)) (b!"Enter PIN for " ++ sshKeyName k ++ b!" key " ++ file ++ b!": ") false with
      | (pin, s) => (checkSign alg (W.keySign s.out k data alg (some pin)), s.act (.sign who data alg))
    else (.wrongPin, s.act (.sign who data alg))
  | r => (checkSign alg r, s.act (.sign who data alg))

/-- sshconnect2.c:1204-1289 `identity_sign`.  The name of the key's type in the prompt for a PIN is a longer one here. -/
def identitySign (C : Conf) (W : World) (id : Ident) (data alg : Bytes) (s : St) : Sign × St :=
  match id.key with
  | some k =>
    if id.agent then (checkSign alg (W.agentSign s.out k data alg), s.act (.sign (.agent k) data alg))
    else if id.isPrivate ∨ id.ext then signKey W id.file (.held k) k data alg false s
    else
      match loadFile C W id.file s with
      | (none, s) => (.notFound, s)
      | (some prv, s) =>
        if equalPublic prv k = false then (.notFound, s)
        else signKey W id.file (.file id.file prv) prv data alg true s
  | none =>
    match loadFile C W id.file s with
    | (none, s) => (.notFound, s)
    | (some prv, s) => signKey W id.file (.file id.file prv) prv data alg true s

/-- sshconnect2.c:1291-1308 `id_filename_matches` -/
def fileMatches (id priv : Bytes) : Bool :=
  id = priv ∨ (priv ≠ [] ∧ (id = priv ++ b!".pub" ∨ id = priv ++ b!"-cert.pub"))

/-- sshconnect2.c:1341-1381: who signs -/
def signIdent (keys : List Ident) (id : Ident) (k : Key) : Ident :=
  if k.cert.isSome then
    match keys.find? (fun p => p.key.any fun q => equalPublic k q ∧ keyType k ≠ keyType q) with
    | some p => p
    | none =>
      if id.isPrivate = false ∧ id.agent = false ∧ id.ext = false then
        (keys.find? fun p => p.key.isNone ∧ fileMatches id.file p.file).getD id
      else id
  else id

/-- sshconnect2.c:1323-1328 -/
def hostbound (C : Conf) (s : St) : Bool := s.hasHostbound ∧ C.pubkey &&& 2 ≠ 0

def pkMethod (C : Conf) (s : St) : Bytes :=
  if hostbound C s then b!"publickey-hostbound-v00@openssh.com" else b!"publickey"

def idPart (C : Conf) : Bytes := if C.oldId then C.sessionId else str C.sessionId

/-- sshconnect2.c:1393-1428: the data to be signed; `none` is a fatal error -/
def signedData (C : Conf) (s : St) (k : Key) (alg : Bytes) : Option Bytes :=
  match toBlob k false with
  | none => none
  | some blob =>
    if hostbound C s then
      match C.hostKey.bind (toBlob · false) with
      | none => none
      | some hb => some (idPart C ++ be 1 50 ++ str C.user ++ str service ++ str (pkMethod C s) ++ be 1 1 ++ str alg ++ str blob ++ str hb)
    else some (idPart C ++ be 1 50 ++ str C.user ++ str service ++ str (pkMethod C s) ++ be 1 1 ++ str alg ++ str blob)

/-- sshconnect2.c:1384-1452: one turn of the loop, and what is done with the signature -/
def trySign (C : Conf) (W : World) (sid : Ident) (k : Key) (withServer : Bool) (again : St → Res) (s : St) : Res :=
  match sigAlgorithm C s withServer k with
  | none => .unsent s
  | some alg =>
    match signedData C s k alg with
    | none => .stop { s with status := .ended }
    | some data =>
      match identitySign C W sid data alg s with
      | (.ok sig, s) => .sent (s.act (.packet 50 ((data ++ str sig).drop ((idPart C).length + 1))))
      | (.notFound, s) => .unsent s
      | (.algUnsupported, s) =>
        if withServer then
          if sid.agent = false ∧ sid.key.isNone then .stop { s with status := .crashed }
          else again s
        else .unsent s
      | (_, s) => .unsent s

/-- sshconnect2.c:1310-1479 `sign_and_send_pubkey`; `keys` is the list with `id` in it, `k` its key -/
def signAndSend (C : Conf) (W : World) (keys : List Ident) (id : Ident) (k : Key) (s : St) : Res :=
  if toBlob k true = none then .unsent s
  else trySign C W (signIdent keys id k) k true (trySign C W (signIdent keys id k) k false .unsent) s

/-- sshconnect2.c:1481-1519 `send_pubkey_test` -/
def pubkeyTest (C : Conf) (k : Key) (s : St) : Res :=
  match sigAlgorithm C s true k with
  | none => .unsent s
  | some alg =>
    match toBlob k false with
    | none => .unsent s
    | some blob =>
      .sent { s.act (.packet 50 (reqHead C s.method.name ++ be 1 0 ++ str alg ++ str blob)) with slot := .pkOk }

/-- sshconnect2.c:1869-1900: the loop of `userauth_pubkey` -/
def pubkeyGo (C : Conf) (W : World) : Nat → St → Res
  | 0, s => .unsent s
  | fuel + 1, s =>
    match s.keys with
    | [] => .unsent s
    | id :: l =>
      if id.tried then .unsent s
      else
        match id.key with
        | some k =>
          match pubkeyTest C k { s with keys := l ++ [{ id with tried := true }] } with
          | .unsent s => pubkeyGo C W fuel s
          | r => r
        | none =>
          match loadFile C W id.file { s with keys := l ++ [{ id with tried := true }] } with
          | (none, s) => pubkeyGo C W fuel s
          | (some k, s) =>
            match signAndSend C W (l ++ [{ id with tried := true, key := some k, isPrivate := true }])
                { id with tried := true, key := some k, isPrivate := true } k s with
            | .unsent s => pubkeyGo C W fuel s
            | r => r

/-- sshconnect2.c:1857-1902 `userauth_pubkey` -/
def userauthPubkey (C : Conf) (W : World) (s : St) : Res :=
  if s.prepared then pubkeyGo C W (s.keys.length + 1) s
  else pubkeyGo C W ((prepare C W s).length + 1) { s with keys := prepare C W s, prepared := true }

/-! ### Host-based authentication -/

/-- sshkey.c:307-328 `sshkey_match_keyname_to_sigalgs` -/
def keyMatches (k : Key) (sigalgs : Bytes) : Bool :=
  match typeFromName (sshKeyName k) with
  | none => false
  | some t =>
    if sigalgs = [] then false
    else if t = (.rsa, false) then
      matchPatternList nRsa sigalgs false = 1 ∨ matchPatternList nRsa256 sigalgs false = 1 ∨
        matchPatternList nRsa512 sigalgs false = 1
    else if t = (.rsa, true) then
      matchPatternList nRsaCert sigalgs false = 1 ∨ matchPatternList nRsa256Cert sigalgs false = 1 ∨
        matchPatternList nRsa512Cert sigalgs false = 1
    else matchPatternList (sshKeyName k) sigalgs false = 1

/-- sshconnect2.c:2157-2170: the first key of the type is taken from the list -/
def takeKey (t : Bytes) : List (Option Key) → Option (Key × List (Option Key))
  | [] => none
  | none :: l =>
    match takeKey t l with
    | none => none
    | some (k, l) => some (k, none :: l)
  | some k :: l =>
    if keyMatches k t then some (k, none :: l)
    else
      match takeKey t l with
      | none => none
      | some (x, l) => some (x, some k :: l)

/-- sshconnect2.c:2138-2141: `strsep` on the list of types -/
def popType : Option Bytes → Option Bytes × Option Bytes
  | none => (none, none)
  | some b => (some (strsep COMMA b).1, (strsep COMMA b).2)

/-- sshconnect2.c:2147-2176: the type in use, what is left of the list, and the key -/
def pickKey (keys : List (Option Key)) :
    Nat → Option Bytes → Option Bytes → Option (Bytes × Option Bytes × Key × List (Option Key))
  | 0, _, _ => none
  | fuel + 1, active, ktypes =>
    match (match active with | some a => (some a, ktypes) | none => popType ktypes) with
    | (none, _) => none
    | (some t, ktypes) =>
      if t = [] then none
      else
        match takeKey t keys with
        | some (k, keys) => some (t, ktypes, k, keys)
        | none => pickKey keys fuel none ktypes

/-- sshconnect2.c:2208-2216 -/
def hostBody (C : Conf) (alg blob chost : Bytes) : Bytes :=
  str alg ++ str blob ++ str chost ++ str C.localUser

/-- sshconnect2.c:2184-2250 -/
def hostSend (C : Conf) (W : World) (alg : Bytes) (k : Key) (s : St) : Res :=
  match toBlob k true, W.localName, toBlob k false with
  | some _, some lname, some blob =>
    match W.hostSign s.out k (str C.sessionId ++ be 1 50 ++ reqHead C s.method.name ++ hostBody C alg blob (lname ++ b!".")) with
    | none =>
      .unsent (s.act (.keysign k (str C.sessionId ++ be 1 50 ++ reqHead C s.method.name ++ hostBody C alg blob (lname ++ b!"."))))
    | some sig =>
      .sent ((s.act (.keysign k (str C.sessionId ++ be 1 50 ++ reqHead C s.method.name ++ hostBody C alg blob (lname ++ b!".")))).act
        (.packet 50 (reqHead C s.method.name ++ hostBody C alg blob (lname ++ b!".") ++ str sig)))
  | _, _, _ => .unsent s

/-- sshconnect2.c:2127-2260 `userauth_hostbased` -/
def userauthHostbased (C : Conf) (W : World) (s : St) : Res :=
  match pickKey s.hostKeys (C.hostAccepted.length + (s.ktypes.getD []).length + 3) s.activeKtype
      (some (s.ktypes.getD C.hostAccepted)) with
  | none => .unsent { s with ktypes := none, activeKtype := none }
  | some (alg, ktypes, k, keys) => hostSend C W alg k { s with ktypes := ktypes, activeKtype := some alg, hostKeys := keys }

/-! ### The exchange -/

/-- sshconnect2.c:1018-1032 `userauth_none` -/
def userauthNone (C : Conf) (s : St) : St := s.act (.packet 50 (reqHead C s.method.name))

def runMethod (C : Conf) (W : World) (s : St) : Res :=
  match s.method with
  | .hostbased => userauthHostbased C W s
  | .publickey => userauthPubkey C W s
  | .kbdint => userauthKbdint C s
  | .password => userauthPasswd C s
  | .nothing => .sent (userauthNone C s)

/-- sshconnect2.c:523-559 `userauth`, with the list stored; each turn disables a method -/
def userauthGo (C : Conf) (W : World) : Nat → St → St
  | 0, s => { s with status := .crashed }
  | fuel + 1, s =>
    match methodGet C s with
    | (none, s) => { s with status := .ended }
    | (some m, s) =>
      match runMethod C W { s with method := m, slot := .none } with
      | .sent s => s
      | .stop s => s
      | .unsent s => userauthGo C W fuel { s with off := m :: s.off }

def userauth (C : Conf) (W : World) (s : St) : St := userauthGo C W 5 s

/-- sshconnect2.c:1848-1855 `pubkey_reset` -/
def resetKeys (s : St) : St := { s with keys := s.keys.map fun id => { id with tried := false } }

/-- sshconnect2.c:620-648 `input_userauth_failure`: a malformed message is ignored -/
def failure (C : Conf) (W : World) (s : St) (b : Bytes) : St :=
  match getCstr b with
  | none => s
  | some (list, b) =>
    match getInt 1 b with
    | none => s
    | some (partial_, b) =>
      if b ≠ [] then s
      else if partial_ ≠ 0 then userauth C W { resetKeys s with authlist := some list }
      else userauth C W { s with authlist := some list }

/-- sshconnect2.c:490-521 `input_userauth_service_accept` -/
def serviceAccept (C : Conf) (s : St) (b : Bytes) : St :=
  match (if b = [] then some ([], []) else getCstr b) with
  | none => { s with status := .ended }
  | some (_, b) =>
    if b ≠ [] then { s with status := .ended }
    else { userauthNone C s with started := true, ext := if C.extInfoS then .input else .error }

/-- sshconnect2.c:680-751 `input_userauth_pk_ok` -/
def pkOk (C : Conf) (W : World) (s : St) (b : Bytes) : St :=
  match getCstr b with
  | none => { s with status := .ended }
  | some (alg, b) =>
    match getStr b with
    | none => { s with status := .ended }
    | some (blob, b) =>
      if b ≠ [] then { s with status := .ended }
      else
        match typeFromName alg, fromBlob W.keys blob with
        | some t, some key =>
          if keyType key ≠ t then { s with status := .ended }
          else
            match s.keys.reverse.find? (fun id => id.key.any (equalKey key)) with
            | some ⟨some k, ext, agent, file, tried, isPrivate⟩ =>
              match signAndSend C W s.keys ⟨some k, ext, agent, file, tried, isPrivate⟩ k s with
              | .sent s => s
              | .stop s => s
              | .unsent s => userauth C W s
            | _ => { s with status := .ended }
        | _, _ => { s with status := .ended }

/-- sshconnect2.c:568-585 `input_userauth_banner` -/
def banner (s : St) (b : Bytes) : St :=
  match getCstr b with
  | none => { s with status := .ended }
  | some (msg, b) =>
    match getCstr b with
    | none => { s with status := .ended }
    | some (_, _) => show? s msg

/-- kex.c:426-458 `kex_ext_info_client_parse`, kex.c:410-424 `kex_ext_info_check_ver`; `none` is an error -/
def extEntry (s : St) (name val : Bytes) : Option St :=
  if name = b!"server-sig-algs" then (if 0 ∈ val then none else some { s with sigAlgs := some val })
  else if s.extCount = 1 ∧ name = b!"publickey-hostbound@openssh.com" then
    (if 0 ∈ val then none else some (if val = b!"0" then { s with hasHostbound := true } else s))
  else if s.extCount = 1 ∧ name = b!"ping@openssh.com" then (if 0 ∈ val then none else some s)
  else some s

/-- kex.c:497-519: the entries; an error leaves what has been set -/
def extGo : Nat → Bytes → St → St
  | 0, b, s => if b ≠ [] then { s with status := .ended } else s
  | n + 1, b, s =>
    match getCstr b with
    | none => { s with status := .ended }
    | some (name, b) =>
      match getStr b with
      | none => { s with status := .ended }
      | some (val, b) =>
        match extEntry s name val with
        | none => { s with status := .ended }
        | some s => extGo n b s

/-- kex.c:235-251 `kex_protocol_error` when the first exchange is over, and dispatch.c:39-51 `dispatch_protocol_error` -/
def protocolError (s : St) (seq : Nat) : St := s.act (.packet 3 (be 4 seq))

/-- kex.c:476-521 `kex_input_ext_info` -/
def extInfo (s : St) (seq : Nat) (b : Bytes) : St :=
  if s.extCount + 1 > 2 then protocolError { s with extCount := s.extCount + 1 } seq
  else
    match getInt 4 b with
    | none => { s with extCount := s.extCount + 1, ext := .kexError, status := .ended }
    | some (n, b) =>
      if n ≥ 1024 then protocolError { s with extCount := s.extCount + 1, ext := .kexError } seq
      else extGo n b { s with extCount := s.extCount + 1, ext := .kexError }

/-- A message from the server. -/
structure Msg where
  ty : Nat
  seq : Nat
  payload : Bytes

/-- dispatch.c:86-125 `ssh_dispatch_run` with the handlers in force, for messages that come this far -/
def step (C : Conf) (W : World) (s : St) (m : Msg) : St :=
  if s.status ≠ .running then s
  else if m.ty = 6 then serviceAccept C s m.payload
  else if m.ty = 7 then
    match s.ext with
    | .input => extInfo s m.seq m.payload
    | .kexError => protocolError s m.seq
    | .error => { s with status := .ended }
  else if m.ty = 51 ∧ s.started then failure C W s m.payload
  else if m.ty = 52 ∧ s.started then { s with authlist := none, status := .success }
  else if m.ty = 53 ∧ s.started then banner s m.payload
  else if m.ty = 60 then
    match s.slot with
    | .none => { s with status := .ended }
    | .pkOk => pkOk C W s m.payload
    | .changeReq => changeReq C s m.payload
    | .infoReq => infoReq C s m.payload
  else { s with status := .ended }

/-- What the key exchange has left: EXT_INFO may have been received before. -/
structure Before where
  extCount : Nat
  sigAlgs : Option Bytes
  hasHostbound : Bool

/-- sshconnect2.c:422-488 `ssh_userauth2` up to the loop -/
def init (C : Conf) (b : Before) (answers : List (Option Bytes)) : St :=
  { status := .running, started := false, method := .nothing, authlist := none, off := [], supported := none, preferred := [],
    current := none, prepared := false, keys := [], ktypes := none, activeKtype := none, hostKeys := C.hostKeys,
    infoReqSeen := false, attemptKbd := 0, attemptPw := 0, slot := .none, ext := .input, extCount := b.extCount,
    sigAlgs := b.sigAlgs, hasHostbound := b.hasHostbound, answers := answers, out := [.packet 5 (str b!"ssh-userauth")] }

/-- A run of the client, fed with messages. -/
def run (C : Conf) (W : World) : St → List Msg → St
  | s, [] => s
  | s, m :: l => run C W (step C W s m) l

end Verif.CliAuth
