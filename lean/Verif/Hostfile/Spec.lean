/-
What a known_hosts file says, independent of how the code reads it.
-/
import Verif.Hostfile.Model
import Verif.Match.Spec

namespace Verif.Hostfile
open Verif

/-- A run of blanks (spaces and tabs). -/
def Blanks (s : Bytes) : Prop := ∀ c ∈ s, c = 32 ∨ c = 9
/-- A word: not empty, no blanks. -/
def Word (s : Bytes) : Prop := s ≠ [] ∧ ∀ c ∈ s, c ≠ 32 ∧ c ≠ 9
/-- A key text: begins with something that is neither blank nor a comment sign. -/
def KeyText (s : Bytes) : Prop := ∃ c r, s = c :: r ∧ c ≠ 32 ∧ c ≠ 9 ∧ c ≠ 35

/-- The word for a marker. -/
inductive MarkerWord : Bytes → Marker → Prop where
  | ca : MarkerWord b!"@cert-authority" .ca
  | revoke : MarkerWord b!"@revoked" .revoke

/-- `Says l m hosts key`: the line `l` consists of an optional marker, host names and a key text, separated
by blanks.  The blanks after a marker begin with a space, or the line has no space at all after the marker
(the code looks for a space first, wherever it is). -/
inductive Says : Bytes → Marker → Bytes → Bytes → Prop where
  | plain {w hosts b key : Bytes} (hw : Blanks w) (hh : Word hosts) (h1 : hosts.head? ≠ some 64)
      (h2 : hosts.head? ≠ some 35) (hb : Blanks b) (hbn : b ≠ []) (hk : KeyText key) :
      Says (w ++ (hosts ++ (b ++ key))) .none hosts key
  | marked {w m b0 hosts b key : Bytes} {mk : Marker} (hw : Blanks w) (hm : MarkerWord m mk) (hb0 : Blanks b0)
      (hb0n : b0 ≠ []) (hs : b0.head? = some 32 ∨ 32 ∉ b0 ++ (hosts ++ (b ++ key))) (hh : Word hosts)
      (h1 : hosts.head? ≠ some 64) (hb : Blanks b) (hbn : b ≠ []) (hk : KeyText key) :
      Says (w ++ (m ++ (b0 ++ (hosts ++ (b ++ key))))) mk hosts key

/-- The host-names field of a line names a host: a pattern list that matches it, or a hash of it. -/
def Names (P : Prims) (host hosts : Bytes) : Prop :=
  (hosts.head? ≠ some 124 ∧
    (∀ e ∈ Match.entries hosts, Match.short e ∧
      ¬ (Match.isNeg e ∧ Match.Glob ((Match.body e).map Match.toLower) (host.map Match.toLower))) ∧
    ∃ e ∈ Match.entries hosts, ¬ Match.isNeg e ∧
      Match.Glob ((Match.body e).map Match.toLower) (host.map Match.toLower)) ∨
  (∃ salt : Bytes, salt.length = 20 ∧ hosts = b!"|1|" ++ P.b64enc salt ++ b!"|" ++ P.b64enc (P.hmac salt host))

/-- What is required of base64: decoding undoes encoding, and the encoding of 20 bytes is a short text
without the separator. -/
structure Base64Ok (P : Prims) : Prop where
  back : ∀ s : Bytes, s.length = 20 → P.b64dec (P.b64enc s) = some s
  sep : ∀ s, 124 ∉ P.b64enc s
  size : ∀ s : Bytes, s.length = 20 → P.b64enc s ≠ [] ∧ (P.b64enc s).length ≤ 1024

/-- `Lists P ls host m k`: some line of the file, with marker `m`, names the host and holds key `k`. -/
def Lists (P : Prims) (ls : List Bytes) (host : Bytes) (m : Marker) (k : Key) : Prop :=
  ∃ l ∈ ls, ∃ hosts key, Says l m hosts key ∧ Names P host hosts ∧ P.readKey key = some k

/-- The line buffer after a line ended by a newline was read: the line, the newline, a NUL, and whatever
was there before. -/
def Terminated : List Bytes → List Bytes → Prop
  | [], [] => True
  | mem :: mems, l :: ls => (0 ∉ l ∧ 10 ∉ l ∧ ∃ stale : Bytes, mem = l ++ 10 :: 0 :: stale) ∧ Terminated mems ls
  | _, _ => False

end Verif.Hostfile
