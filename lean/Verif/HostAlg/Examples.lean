/-
Cases that meet the hypotheses of C137, and witnesses.
-/
import Verif.HostAlg.Props

namespace Verif.HostAlg.Examples
open Verif Verif.HostAlg Verif.Hostfile

def nEd : Bytes := b!"ssh-ed25519"
def nEdCert : Bytes := b!"ssh-ed25519-cert-v01@openssh.com"
def nEc : Bytes := b!"ecdsa-sha2-nistp256"
def nRsa : Bytes := b!"rsa-sha2-512"

def some4 : HostAlg.Names where
  type n := if n = nEd then some 3 else if n = nEdCert then some 7 else if n = nEc then some 2 else if n = nRsa then some 0 else none
  plain t := if t = 7 then 3 else t
  cert t := t == 7
  nid n := if n = nEc then 415 else -1
  ecdsa t := t == 2

def algs : Bytes := nEdCert ++ b!"," ++ nEd ++ b!"," ++ nEc ++ b!"," ++ nRsa

def rsa : Entry := ⟨{ pub := b!"R", type := 0 }, .none⟩
def rsa2 : Entry := ⟨{ pub := b!"S", type := 0 }, .none⟩
def ed : Entry := ⟨{ pub := b!"E", type := 3 }, .none⟩
def ca : Entry := ⟨{ pub := b!"C", type := 0 }, .ca⟩

-- C137_order, C137_same
example : proposed some4 [rsa] none algs = some (nRsa ++ b!"," ++ nEdCert ++ b!"," ++ nEd ++ b!"," ++ nEc) := by decide +kernel
example : proposed some4 [rsa, ca] (some b!"-x") algs = some (nEdCert ++ b!"," ++ nRsa ++ b!"," ++ nEd ++ b!"," ++ nEc) := by decide +kernel
example : proposed some4 [rsa, ed] none algs = some algs := by decide +kernel
example : proposed some4 [rsa] (some algs) algs = some algs := by decide +kernel
example : proposed some4 [rsa] none (nEc ++ b!",unknown") = none := by decide +kernel

-- C137_negotiated_partial, C137_expected_partial
example : bestKnown some4 [rsa] algs = false ∧ expected some4 [rsa] nRsa = true := by decide +kernel
example : (Match.matchList (nRsa ++ b!"," ++ nEdCert ++ b!"," ++ nEd ++ b!"," ++ nEc) (nEc ++ b!"," ++ nRsa)).1 = some nRsa := by decide +kernel

/-- C137: keys of two types are known, the better one of which the server does not have any more. A third type is used, for which no key is
known, although the server still has the other key. -/
theorem C137_negotiated_original_false :
    proposed some4 [rsa, ed] none algs = some algs ∧ expected some4 [rsa, ed] nRsa = true ∧ expected some4 [rsa, ed] nEc = false ∧
    (Match.matchList algs (nRsa ++ b!"," ++ nEc)).1 = some nEc := by decide +kernel

/-- C137: two keys of a type are known, of which the first is revoked: it is as if there were none. -/
theorem C137_revoked_original_false :
    proposed some4 [rsa, rsa2, ⟨rsa.key, .revoke⟩] none algs = some algs ∧
    proposed some4 [rsa2, rsa, ⟨rsa.key, .revoke⟩] none algs = some (nRsa ++ b!"," ++ nEdCert ++ b!"," ++ nEd ++ b!"," ++ nEc) := by
  decide +kernel

end Verif.HostAlg.Examples
