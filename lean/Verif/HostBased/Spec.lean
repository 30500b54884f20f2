/-
What is promised about host-based authentication.
-/
import Verif.HostBased.Model
import Verif.Hostfile.Props

namespace Verif.HostBased
open Verif Wire
open _root_.Verif.UserKey (Stat User)

/-! ### Files of trusted hosts -/

/-- The words of a line: the longest parts without white space. -/
inductive Fields : Bytes → List Bytes → Prop
  | nil {l : Bytes} : (∀ c ∈ l, Num.isSpace c = true) → Fields l []
  | cons {s w r : Bytes} {ws : List Bytes} : (∀ c ∈ s, Num.isSpace c = true) → w ≠ [] → (∀ c ∈ w, Num.isSpace c = false) →
      (∀ c, r.head? = some c → Num.isSpace c = true) → Fields r ws → Fields (s ++ w ++ r) (w :: ws)

/-- Comments, empty lines and the word NO_PLUS. -/
def Skipped (l : Bytes) : Prop :=
  ∃ b r, l = b ++ r ∧ (∀ c ∈ b, c = 32 ∨ c = 9) ∧
    (r = [] ∨ (∃ t, r = 35 :: t) ∨ (∃ t, r = 10 :: t) ∨ ∃ t, r = b!"NO_PLUS" ++ t)

/-- A field with an optional sign, the name not empty. -/
inductive Field : Bytes → Bool → Bytes → Prop
  | bare {n : Bytes} : n ≠ [] → n.head? ≠ some 45 → n.head? ≠ some 43 → Field n false n
  | plus {n : Bytes} : n ≠ [] → Field (43 :: n) false n
  | minus {n : Bytes} : n ≠ [] → Field (45 :: n) true n

/-- The host of an entry is the client's: by a group, by its name in any case, or by its address. -/
def HostIs (G : Groups) (hostname ip n : Bytes) : Prop :=
  (∃ g, n = 64 :: g ∧ (G.host g hostname = true ∨ G.host g ip = true)) ∨
  (n.head? ≠ some 64 ∧ (n.map Match.toLower = hostname.map Match.toLower ∨ n = ip))

def UserIs (G : Groups) (client n : Bytes) : Prop :=
  (∃ g, n = 64 :: g ∧ G.user g client = true) ∨ (n.head? ≠ some 64 ∧ n = client)

/-- The line is an entry for this client, denying it or not: host and user, or the host alone, which stands for the user of the
same name. -/
inductive Entry (G : Groups) (hostname ip client server : Bytes) : Bytes → Bool → Prop
  | both {l h u n m : Bytes} {x y : Bool} : ¬ Skipped l → Fields l [h, u] → Field h x n → Field u y m →
      HostIs G hostname ip n → UserIs G client m → Entry G hostname ip client server l (x || y)
  | host {l h n m : Bytes} {x y : Bool} : ¬ Skipped l → Fields l [h] → Field h x n → Field (server.take 1023) y m →
      HostIs G hostname ip n → UserIs G client m → Entry G hostname ip client server l (x || y)

/-- The first line that is an entry for this client does not deny it. -/
def Grants (G : Groups) (hostname ip client server : Bytes) (ls : List Bytes) : Prop :=
  ∃ pre l post, ls = pre ++ l :: post ∧ Entry G hostname ip client server l false ∧
    ∀ p ∈ pre, ∀ d, ¬ Entry G hostname ip client server p d

/-- The file can be read and one of its lines, cut as `fgets` does, grants access. -/
def FileGrants (F : Files) (G : Groups) (file hostname ip client server : Bytes) : Prop :=
  ∃ st content, F.openf file = some (st, content) ∧ st.regular = true ∧
    Grants G hostname ip client server ((pieces 1022 [] content).map cut)

/-- Belongs to root or the user and not writable for others, if modes matter. -/
def Private (C : Conf) (pw : User) (st : Stat) : Prop :=
  C.strict = true → (st.uid = 0 ∨ st.uid = pw.uid) ∧ st.mode.testBit 4 = false ∧ st.mode.testBit 1 = false

/-- A user from a host may log in: by a file of the system unless as root, or by a file of the user, unless these are ignored or
others could change them. -/
def Trusted (F : Files) (G : Groups) (C : Conf) (pw : User) (client hostname ip : Bytes) : Prop :=
  (pw.uid ≠ 0 ∧ ∃ f, (f = b!"/etc/hosts.equiv" ∨ f = b!"/etc/ssh/shosts.equiv") ∧
    FileGrants F G f hostname ip client pw.name) ∨
  (∃ sh, F.stat pw.dir = some sh ∧ Private C pw sh ∧ ∃ n st, (n = b!".shosts" ∧ C.ignore ≠ .yes ∨ n = b!".rhosts" ∧ C.ignore = .no) ∧
    F.stat (pw.dir ++ b!"/" ++ n) = some st ∧ Private C pw st ∧ FileGrants F G (pw.dir ++ b!"/" ++ n) hostname ip client pw.name)

/-! ### The server -/

/-- The name of the client's host as it is looked up, and that it is trusted. -/
inductive From (W : World) (C : Conf) (pw : User) (cuser chost : Bytes) : Bytes → Prop
  | packet {h : Bytes} : C.nameFromPacket = true → (chost = h ++ b!"." ∨ chost = h ∧ h.getLast? ≠ some 46) →
      Trusted W.files W.groups C pw cuser h h → From W C pw cuser chost h
  | resolved : C.nameFromPacket = false → Trusted W.files W.groups C pw cuser W.resolved W.ip →
      From W C pw cuser chost W.resolved

/-- The lines that count for a name: those of the system-wide file, and those of the user's unless that is to be ignored or
others could change it. -/
def KnownLine (W : World) (C : Conf) (pw : User) (second : Bool) (host : Bytes) (e : Hostfile.Entry) : Prop :=
  e ∈ W.sysKnown second host ∨
  (C.ignoreKnown = false ∧ (∀ st, (W.userKnown second host).1 = some st → Private C pw st) ∧ e ∈ (W.userKnown second host).2)

/-- Some line vouches for the key, and none revokes it. -/
def Vouched (W : World) (C : Conf) (pw : User) (second : Bool) (host : Bytes) (k : Hostfile.Key) : Prop :=
  (¬ ∃ e, KnownLine W C pw second host e ∧ Hostfile.Revokes e k) ∧ ∃ e, KnownLine W C pw second host e ∧ Hostfile.Vouches e k

/-- The files say nothing: no line vouches for the key or revokes it, and, for a plain key, no other key is given. -/
def Silent (W : World) (C : Conf) (pw : User) (host : Bytes) (k : Hostfile.Key) : Prop :=
  (¬ ∃ e, KnownLine W C pw false host e ∧ Hostfile.Revokes e k) ∧ (¬ ∃ e, KnownLine W C pw false host e ∧ Hostfile.Vouches e k) ∧
  ¬ (k.cert = none ∧ ∃ e, KnownLine W C pw false host e ∧ e.marker = .none)

/-- The certificate is one of a host, valid now, and for this name or any. -/
def CertFor (W : World) (key : Hostfile.Key) (name : Bytes) : Prop :=
  (W.cert key).type = .host ∧ 0 ≤ W.now ∧ (W.cert key).validAfter ≤ W.now.toNat ∧ W.now.toNat < (W.cert key).validBefore ∧
  ((W.cert key).principals = [] ∨ name ∈ (W.cert key).principals)

/-- The fields of the request; anything may follow. -/
inductive Request (alg blob chost cuser sig : Bytes) : Bytes → Prop
  | mk {a h u rest : Bytes} : Named a alg → Named h chost → Named u cuser → a.length ≤ maxString → blob.length ≤ maxString →
      h.length ≤ maxString → u.length ≤ maxString → sig.length ≤ maxString →
      Request alg blob chost cuser sig (str a ++ str blob ++ str h ++ str u ++ str sig ++ rest)

/-- What must have been signed (RFC 4252 section 9). -/
def Signed (s : Session) (method alg blob chost cuser : Bytes) : Bytes :=
  str s.id ++ [50] ++ str s.user ++ str s.service ++ str method ++ str alg ++ str blob ++ str chost ++ str cuser

/-- The key may be tried. -/
def Eligible (W : World) (C : Conf) (alg blob : Bytes) (k : Hostfile.Key) : Prop :=
  W.parse blob = some k ∧ W.typeOf alg = some k.type ∧ Match.matchPatternList alg C.accepted false = 1 ∧ W.keyOk k = true

/-! ### Signing for the client -/

/-- What the helper signs: a request for host-based authentication on behalf of this user from this host. -/
inductive Signable (W : World) (name host : Bytes) (k : Hostfile.Key) (alg : Bytes) : Bytes → Prop
  | mk {id user blob sv mt a p p' l : Bytes} : (id.length = 20 ∨ id.length = 32 ∨ id.length = 48 ∨ id.length = 64) →
      user.length ≤ maxString → blob.length ≤ maxString → Named sv b!"ssh-connection" → Named mt b!"hostbased" →
      Named a alg → a.length ≤ maxString → Named p (p' ++ b!".") → p.length ≤ maxString →
      p'.map Match.toLower = host.map Match.toLower → Named l name → l.length ≤ maxString →
      W.parse blob = some k → W.typeOf alg = some k.type →
      Signable W name host k alg (str id ++ [50] ++ str user ++ str sv ++ str mt ++ str a ++ str blob ++ str p ++ str l)

end Verif.HostBased
