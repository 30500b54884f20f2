/-
What UpdateHostkeys is supposed to do, stated on the lines of the files.
-/
import Verif.HostKey.Update

namespace Verif.HostKey.Update
open Verif
open _root_.Verif.Hostfile (Key Marker equal Terminated Says Names NamesEither Plain extractSalt)

/-- The line is in a file of the user's. -/
def At (E : Env) (l : Bytes) : Prop := ∃ mems ls, some mems ∈ E.files ∧ Terminated mems ls ∧ l ∈ ls

/-- Every line of the files ends with a newline and is free of NULs. -/
def Ended (E : Env) : Prop := ∀ mems, some mems ∈ E.files → ∃ ls, Terminated mems ls

/-- The keys the client takes from an announcement: plain keys of an accepted algorithm. -/
def accepted (E : Env) (blobs : List Bytes) : List Key :=
  blobs.filterMap fun b => (E.parse b).filter fun k => E.algOk k && k.cert.isNone

/-- The key is listed for the host or its address already. -/
def Known (E : Env) (k : Key) : Prop := ∃ l k', At E l ∧ Plain E.P E.host E.ip l k' ∧ equal k' k = true

/-- A key is listed for the host or its address that is not among the given ones. -/
def Stale (E : Env) (ks : List Key) (k : Key) : Prop :=
  ∃ l, At E l ∧ Plain E.P E.host E.ip l k ∧ ∀ x ∈ ks, equal k x = false

/-- The server holds the private key: it signed a text that names the purpose, the session and the key.  For
an RSA key either with the algorithm of the key exchange or with SHA-2. -/
def Proved (E : Env) (sigs : List Bytes) (k : Key) : Prop :=
  ∃ sig ∈ sigs, E.verify k sig
    (Wire.str b!"hostkeys-prove-00@openssh.com" ++ (Wire.str E.sid ++ Wire.str (E.blob k)))
    (if E.isRsa k then E.rsaKex else none) = true ∧
    (E.isRsa k = true → E.rsaKex = none → E.sigAlg sig = some b!"rsa-sha2-512" ∨ E.sigAlg sig = some b!"rsa-sha2-256")

/-- Names without wildcards, at most two of them. -/
def Simple (hosts : Bytes) : Prop := 42 ∉ hosts ∧ 63 ∉ hosts ∧ hosts.count 44 ≤ 1

/-- The names can be read (a hash is well formed). -/
def Readable (E : Env) (hosts : Bytes) : Prop := hosts.head? = some 124 → extractSalt E.P hosts ≠ none

/-- Nothing in the files speaks against the change: every line for the host is unmarked, has simple names,
and with CheckHostIP, if there are two names, they are the host and its address; and no announced key and no
key about to go is listed for somebody else. -/
def Tidy (E : Env) (ks : List Key) : Prop :=
  ∀ l mk hosts key k, At E l → Says l mk hosts key → E.P.readKey key = some k → Readable E hosts →
    (NamesEither E.P E.host E.ip hosts → mk = .none ∧ Simple hosts ∧
      ∀ a, E.ip = some a → 44 ∈ hosts → Names E.P E.host hosts ∧ Names E.P a hosts) ∧
    (¬ NamesEither E.P E.host E.ip hosts → (∀ x ∈ ks, equal k x = false) ∧ ∀ k', Stale E ks k' → equal k k' = false)

/-- The user said yes, in at most three tries and not after saying no. -/
def Agreed (replies : List Bytes) : Prop :=
  ∃ n < 3, (∃ r, replies[n]? = some r ∧ r.map Match.toLower = b!"yes") ∧
    ∀ m < n, ∃ r, replies[m]? = some r ∧ r.map Match.toLower ≠ b!"yes" ∧ r.map Match.toLower ≠ b!"no"

end Verif.HostKey.Update
