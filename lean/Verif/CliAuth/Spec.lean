/-
What is to hold of user authentication in the client.
-/
import Verif.CliAuth.Model
import Verif.WireMore
import Verif.Match.Spec
import Verif.Exch.Spec

namespace Verif.CliAuth
open Verif Wire Text
open _root_.Verif.PubKey (Key Kind Curve Pub typeFromName sigalgByName toBlob fromBlob)
open _root_.Verif.Match (names matchPatternList)
open scoped _root_.Verif.Match

/-- The states the client comes into, whatever the server sends. -/
inductive Reach (C : Conf) (W : World) : St → Prop
  | start (b : Before) (answers : List (Option Bytes)) : Reach C W (init C b answers)
  | step {s : St} (m : Msg) : Reach C W s → Reach C W (step C W s m)

/-! ### Methods -/

/-- The configuration allows the method.  In batch mode nothing that asks the user is allowed. -/
def Configured (C : Conf) : Meth → Prop
  | .hostbased => C.hostbased = true
  | .publickey => C.pubkey ≠ 0
  | .kbdint => C.kbdint = true ∧ C.batch = false
  | .password => C.password = true ∧ C.batch = false
  | .nothing => False

/-- The server's list, or our own if that is empty; forty names of it are looked at. -/
def offered (C : Conf) (authlist : Option Bytes) : List Bytes := (names (effective C authlist)).take 40

/-- The method may be used: it is allowed, the server offers it, and it has not run out. -/
def Usable (C : Conf) (off : List Meth) (authlist : Option Bytes) (n : Bytes) : Prop :=
  n ∈ offered C authlist ∧ ∃ m : Meth, n = m.name ∧ m ∉ off ∧ Configured C m

/-- The first of the preferred methods that may be used. -/
def First (C : Conf) (off : List Meth) (authlist : Option Bytes) (m : Meth) : Prop :=
  ∃ before after, names (preferredList C) = before ++ m.name :: after ∧ Usable C off authlist m.name ∧
    ∀ n ∈ before, ¬ Usable C off authlist n

/-- The method has run out: as many passwords have been tried as the user is to be asked for; the server has no more questions
to ask; or each key on the list has been tried. -/
def Exhausted (C : Conf) (s : St) : Meth → Prop
  | .password => C.prompts < s.attemptPw
  | .kbdint => C.prompts < s.attemptKbd ∨ (1 < s.attemptKbd ∧ s.infoReqSeen = false)
  | .publickey => s.prepared = true ∧ ∀ id ∈ s.keys, id.tried = true
  | .hostbased => True
  | .nothing => True

/-! ### Requests -/

/-- An SSH2_MSG_USERAUTH_REQUEST of RFC 4252 section 5: the user, the service, the method and what follows. -/
def request (C : Conf) (m body : Bytes) : Act := .packet 50 (str C.user ++ str b!"ssh-connection" ++ str m ++ body)

/-- The method and the body of a request of this user. -/
def requestOf (C : Conf) : Act → Option (Bytes × Bytes)
  | .packet ty p =>
    if ty = 50 ∧ (str C.user ++ str b!"ssh-connection").isPrefixOf p then
      getStr (p.drop (str C.user ++ str b!"ssh-connection").length)
    else none
  | _ => none

/-- A request by this method whose body has the property. -/
def isRequest (C : Conf) (m : Bytes) (p : Bytes → Bool) (a : Act) : Bool :=
  (requestOf C a).any fun r => r.1 = m ∧ p r.2

/-- Passwords sent, without changes of the password. -/
def passwords (C : Conf) (out : List Act) : Nat := out.countP (isRequest C b!"password" fun b => b.head? = some 0)

/-- Requests that the server ask questions. -/
def kbdints (C : Conf) (out : List Act) : Nat := out.countP (isRequest C b!"keyboard-interactive" fun b => b ≠ [])

/-- Requests signed with a key of this host. -/
def hostbaseds (C : Conf) (out : List Act) : Nat := out.countP (isRequest C b!"hostbased" fun b => b ≠ [])

/-- Offers of a key, without a signature. -/
def offers (C : Conf) (out : List Act) : Nat := out.countP (isRequest C b!"publickey" fun b => b.head? = some 0)

/-- A prompt for the PIN of a security key -/
def isPinPrompt : Act → Prop
  | .prompt t _ => ∃ rest, t = b!"Enter PIN for " ++ rest
  | _ => False

def isPrompt : Act → Prop
  | .prompt _ _ => True
  | _ => False

/-! ### Keys -/

/-- The key may be used for signatures by the configuration: some name of it is in the list, which may hold patterns. -/
def TypeAccepted (C : Conf) (k : Key) : Prop :=
  ∃ n, matchPatternList n C.accepted false = 1 ∧ (n = sshKeyName k ∨
    (k.pub.kind = .rsa ∧ k.cert = none ∧ (n = b!"rsa-sha2-256" ∨ n = b!"rsa-sha2-512")) ∨
    (k.pub.kind = .rsa ∧ k.cert ≠ none ∧
      (n = b!"rsa-sha2-256-cert-v01@openssh.com" ∨ n = b!"rsa-sha2-512-cert-v01@openssh.com")))

/-- Some name of the key is in the list: for RSA also that of the older signatures. -/
def TypeIn (list : Bytes) (k : Key) : Prop :=
  ∃ n, matchPatternList n list false = 1 ∧ (n = sshKeyName k ∨
    (k.pub.kind = .rsa ∧ k.cert = none ∧ (n = b!"ssh-rsa" ∨ n = b!"rsa-sha2-256" ∨ n = b!"rsa-sha2-512")) ∨
    (k.pub.kind = .rsa ∧ k.cert ≠ none ∧ (n = b!"ssh-rsa-cert-v01@openssh.com" ∨
      n = b!"rsa-sha2-256-cert-v01@openssh.com" ∨ n = b!"rsa-sha2-512-cert-v01@openssh.com")))

/-- A key can be presented to the server: if it is a certificate then it is one for users. -/
def ForUsers (k : Key) : Prop := ∀ c, k.cert = some c → c.type = 1

def usableSk (C : Conf) (k : Key) : Prop := isSk k = true → C.skProvider = true

/-- RSA keys have at least 1024 bits and as many as the configuration asks for. -/
def LongEnough (C : Conf) (k : Key) : Prop :=
  ∀ e n, k.pub = .rsa e n → 1024 ≤ Exch.numBits n ∧ C.minRsa ≤ Exch.numBits n

/-- Where an entry of the list of keys comes from. -/
inductive Origin (C : Conf) (W : World) : Option Key → Bytes → Bool → Bool → Prop
  /-- a file of the configuration whose public key is not known -/
  | private_ (f : Bytes) : (f, none) ∈ C.idFiles → Origin C W none f false false
  /-- a key of the configuration; if the agent has it then it is the agent that signs -/
  | file (f : Bytes) (k : Key) (ext agent : Bool) : (f, some (k, ext)) ∈ C.idFiles → ForUsers k → usableSk C k →
      (agent = true → ∃ l k' c, W.agent = some l ∧ (k', c) ∈ l ∧ equalKey k' k = true ∧ LongEnough C k') →
      (ext = true → agent = false → C.identitiesOnly = true →
        ∃ f' k', (f', some (k', false)) ∈ C.idFiles ∧ equalKey k k' = true) →
      Origin C W (some k) f ext agent
  /-- a certificate of the configuration -/
  | cert (f : Bytes) (k : Key) (ext : Bool) : (f, k, ext) ∈ C.certFiles → k.cert ≠ none → ForUsers k → usableSk C k →
      Origin C W (some k) f ext false
  /-- another key of the agent, only if these may be used -/
  | agent (k : Key) (comment : Bytes) (l : List (Key × Bytes)) : C.identitiesOnly = false → W.agent = some l → (k, comment) ∈ l →
      LongEnough C k → Origin C W (some k) comment false true

/-- An entry of the list of keys is as it should be. -/
structure Listed (C : Conf) (W : World) (id : Ident) : Prop where
  origin : Origin C W id.key id.file id.ext id.agent
  accepted : ∀ k, id.key = some k → TypeAccepted C k
  public_ : id.isPrivate = false

/-! ### Signatures -/

/-- The algorithm may be used with the key: it is one of its names, the configuration lists it, and if the server says which
algorithms it knows then it knows this one.  The algorithm that goes with the key's own name is used whatever the server
says. -/
def AlgOk (C : Conf) (sigAlgs : Option Bytes) (k : Key) (alg : Bytes) : Prop :=
  alg ∈ split COMMA C.accepted ∧
    (alg = sshKeyName k ∨
      (k.pub.kind = .rsa ∧ typeFromName alg = some (keyType k) ∧
        ∃ l a, sigAlgs = some l ∧ sigalgByName alg = some a ∧
          (a ∈ names l ∨ (C.bug74 = true ∧ (a = b!"rsa-sha2-256" ∨ a = b!"rsa-sha2-512")))))

/-- What is signed, RFC 4252 section 7: the session, then the request with the user, the service, the algorithm and the key;
PROTOCOL section 3.1 (publickey-hostbound-v00@openssh.com) if the server has announced it (`hb`) and the configuration
does not forbid it: and the server's key. -/
def Signed (C : Conf) (hb : Bool) (k : Key) (alg data : Bytes) : Prop :=
  ∃ blob, toBlob k false = some blob ∧
    ((¬ (hb = true ∧ C.pubkey / 2 % 2 = 1) ∧
        data = (if C.oldId then C.sessionId else str C.sessionId) ++ [50] ++ str C.user ++ str b!"ssh-connection" ++
          str b!"publickey" ++ [1] ++ str alg ++ str blob) ∨
      (hb = true ∧ C.pubkey / 2 % 2 = 1 ∧
        ∃ hk hkb, C.hostKey = some hk ∧ toBlob hk false = some hkb ∧
          data = (if C.oldId then C.sessionId else str C.sessionId) ++ [50] ++ str C.user ++ str b!"ssh-connection" ++
            str b!"publickey-hostbound-v00@openssh.com" ++ [1] ++ str alg ++ str blob ++ str hkb))

/-- Who may sign for the key `k` of the file `f`: the same key; or, for a certificate, a private key that belongs to it by the
name of its file, and of which nothing else is known. -/
inductive Signs (C : Conf) (W : World) (f : Bytes) (k : Key) : Signer → Prop
  | agent (q : Key) : q.pub = k.pub → Signs C W f k (.agent q)
  | held (q : Key) : q.pub = k.pub → Signs C W f k (.held q)
  | file (g : Bytes) (q : Key) : q.pub = k.pub → LongEnough C q → usableSk C q → Signs C W f k (.file g q)
  | named (g : Bytes) (q : Key) : k.cert ≠ none → (g, none) ∈ C.idFiles →
      (f = g ∨ (g ≠ [] ∧ (f = g ++ b!".pub" ∨ f = g ++ b!"-cert.pub"))) → LongEnough C q → usableSk C q →
      Signs C W f k (.file g q)

/-- A file that may be read: it is named in the configuration. -/
def FileOf (C : Conf) (W : World) (g : Bytes) : Prop := ∃ o ext, Origin C W o g ext false

/-- A key to authenticate with: one from the list, or one read from a file of the list whose public key was not known. -/
def Mine (C : Conf) (W : World) (f : Bytes) (k : Key) : Prop :=
  (∃ ext agent, Origin C W (some k) f ext agent ∧ TypeAccepted C k) ∨
    ((f, none) ∈ C.idFiles ∧ LongEnough C k ∧ usableSk C k)

/-- What the client does to prove that it has a key.  `sa` are the algorithms the server has announced. -/
inductive Proves (C : Conf) (W : World) (sa : Option Bytes) (hb : Bool) (f : Bytes) (k : Key) : Act → Prop
  | passphrase (t : Bytes) : C.batch = false → Proves C W sa hb f k (.prompt (b!"Enter passphrase for key '" ++ t) false)
  | load (g p : Bytes) : FileOf C W g → Proves C W sa hb f k (.load g p)
  /-- the PIN of a security key, when it is asked to sign -/
  | pin (g : Bytes) (q : Key) : isSk q = true → Signs C W f k (.file g q) →
      Proves C W sa hb f k (.prompt (b!"Enter PIN for " ++ sshKeyName q ++ b!" key " ++ g ++ b!": ") false)
  | sign (who : Signer) (data alg : Bytes) : AlgOk C sa k alg → Signed C hb k alg data → Signs C W f k who →
      Proves C W sa hb f k (.sign who data alg)
  /-- the request is what has been signed, with a signature of the algorithm that was asked for -/
  | send (data alg sig p e rest : Bytes) : AlgOk C sa k alg → Signed C hb k alg data →
      (if C.oldId then C.sessionId else str C.sessionId) ++ [50] ++ p = data ++ str sig →
      sigalgByName alg = some e → getCstr sig = some (e, rest) → Proves C W sa hb f k (.packet 50 p)

/-- It is the turn of the method, when the server has sent the list. -/
def Turn (C : Conf) (al : Option Bytes) (m : Meth) : Prop := ∃ off, First C off al m

/-- The text that is signed for this host, RFC 4252 section 9. -/
def hostRequest (C : Conf) (alg blob lname : Bytes) : Bytes :=
  str alg ++ str blob ++ str (lname ++ b!".") ++ str C.localUser

structure HostOk (C : Conf) (W : World) (k : Key) (alg blob lname : Bytes) : Prop where
  key : some k ∈ C.hostKeys
  listed : alg ∈ split COMMA C.hostAccepted
  fits : TypeIn alg k
  name : W.localName = some lname
  blob : toBlob k false = some blob

/-- What the client does when it has been told which methods can continue. -/
inductive Does (C : Conf) (W : World) (al sa : Option Bytes) (hb : Bool) : Act → Prop
  | askPassword : Turn C al .password → Does C W al sa hb (.prompt (C.user ++ b!"@" ++ hostName C ++ b!"'s password: ") false)
  | password (pw : Bytes) : Turn C al .password → Does C W al sa hb (request C b!"password" (0 :: str pw))
  | kbdint : Turn C al .kbdint → Does C W al sa hb (request C b!"keyboard-interactive" (str [] ++ str C.devices))
  | offer (f : Bytes) (k : Key) (ext agent : Bool) (alg blob : Bytes) : Turn C al .publickey →
      Origin C W (some k) f ext agent → TypeAccepted C k → AlgOk C sa k alg → toBlob k false = some blob →
      Does C W al sa hb (request C b!"publickey" (0 :: (str alg ++ str blob)))
  /-- the passphrase of a key file is asked for, and the file is read -/
  | passphrase (t : Bytes) : Turn C al .publickey → C.batch = false →
      Does C W al sa hb (.prompt (b!"Enter passphrase for key '" ++ t) false)
  | load (g p : Bytes) : Turn C al .publickey → (g, none) ∈ C.idFiles → Does C W al sa hb (.load g p)
  | prove (f : Bytes) (k : Key) (a : Act) : Turn C al .publickey → (f, none) ∈ C.idFiles → LongEnough C k → usableSk C k →
      Proves C W sa hb f k a → Does C W al sa hb a
  | keysign (k : Key) (alg blob lname : Bytes) : Turn C al .hostbased → HostOk C W k alg blob lname →
      Does C W al sa hb (.keysign k (str C.sessionId ++ [50] ++ str C.user ++ str b!"ssh-connection" ++ str b!"hostbased" ++
        hostRequest C alg blob lname))
  | hostbased (k : Key) (alg blob lname sig : Bytes) : Turn C al .hostbased → HostOk C W k alg blob lname →
      Does C W al sa hb (request C b!"hostbased" (hostRequest C alg blob lname ++ str sig))

/-- What the client does when it is asked for a new password. -/
inductive Changes (C : Conf) : Act → Prop
  | shown (t : Bytes) : Changes C (.shown t)
  | old : Changes C (.prompt (b!"Enter " ++ C.user.take 30 ++ b!"@" ++ (hostName C).take 128 ++ b!"'s old password: ") false)
  | new : Changes C (.prompt (b!"Enter " ++ C.user.take 30 ++ b!"@" ++ (hostName C).take 128 ++ b!"'s new password: ") false)
  | again : Changes C (.prompt (b!"Retype " ++ C.user.take 30 ++ b!"@" ++ (hostName C).take 128 ++ b!"'s new password: ") false)
  | send (old new : Bytes) : Changes C (request C b!"password" (1 :: (str old ++ str new)))

/-- What the client does when it is asked questions: each prompt says who asks, and there is an answer for each, RFC 4256
section 3.4. -/
inductive Informs (C : Conf) : Act → Prop
  | shown (t : Bytes) : Informs C (.shown t)
  | prompt (t : Bytes) (echo : Bool) : Informs C (.prompt (b!"(" ++ C.user ++ b!"@" ++ hostName C ++ b!") " ++ t) echo)
  | send (l : List Bytes) : l.length < 2 ^ 32 → Informs C (.packet 61 (be 4 l.length ++ (l.map str).flatten))

/-- What the client may do when the message comes. -/
inductive Answers (C : Conf) (W : World) (s : St) (m : Msg) : Act → Prop
  /-- the service is there: a request without anything in it -/
  | bare : m.ty = 6 → Answers C W s m (request C s.method.name [])
  | unknown : m.ty = 7 → Answers C W s m (.packet 3 (be 4 m.seq))
  /-- the methods that can continue -/
  | next (a : Act) (v list : Bytes) (p : UInt8) : m.ty = 51 → s.started = true → m.payload = str v ++ [p] → Named v list →
      Does C W (some list) s.sigAlgs s.hasHostbound a → Answers C W s m a
  | banner (v t rest : Bytes) : m.ty = 53 → s.started = true → m.payload = str v ++ rest → Named v t → Answers C W s m (.shown t)
  /-- a key is acceptable: the request is for that key, which is on the list -/
  | prove (alg blob f : Bytes) (key k : Key) (ext agent : Bool) (a : Act) : m.ty = 60 → s.method = .publickey →
      m.payload = str alg ++ str blob → fromBlob W.keys blob = some key → equalKey key k = true →
      Origin C W (some k) f ext agent → TypeAccepted C k → Proves C W s.sigAlgs s.hasHostbound f k a → Answers C W s m a
  /-- no signature could be made -/
  | other (a : Act) : m.ty = 60 → s.method = .publickey → Does C W s.authlist s.sigAlgs s.hasHostbound a → Answers C W s m a
  | change (a : Act) : m.ty = 60 → s.method = .password → Changes C a → Answers C W s m a
  | inform (a : Act) : m.ty = 60 → s.method = .kbdint → Informs C a → Answers C W s m a

/-- A failure that says that the method before it has succeeded. -/
def isPartial (m : Msg) : Prop := m.ty = 51 ∧ ∃ (list : Bytes) (p : UInt8), m.payload = str list ++ [p] ∧ p ≠ 0

/-- A certificate goes with a private key by the name of the file only. -/
def ByName (C : Conf) (W : World) : Prop :=
  ∃ f g k, (∃ ext, Origin C W (some k) f ext false) ∧ k.cert ≠ none ∧ (g, none) ∈ C.idFiles ∧
    (f = g ∨ (g ≠ [] ∧ (f = g ++ b!".pub" ∨ f = g ++ b!"-cert.pub")))

end Verif.CliAuth
