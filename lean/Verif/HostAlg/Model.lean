/-
The order in which a client asks for types of host keys: sshconnect2.c.

The keys known for the host come as a list, see `Verif.Hostfile`. What is known of a name of an algorithm is a parameter.
-/
import Verif.Match.Model
import Verif.Hostfile.Model

namespace Verif.HostAlg
open Verif Verif.Text Verif.Hostfile
open scoped _root_.Verif.Match

/-- What sshkey.c says of names and types -/
structure Names where
  /-- sshkey.c:267-271 `sshkey_type_from_name`, none for KEY_UNSPEC -/
  type : Bytes → Option Nat
  /-- sshkey.c:448-469 `sshkey_type_plain` -/
  plain : Nat → Nat
  /-- sshkey.c:226-234 `sshkey_type_is_cert` -/
  cert : Nat → Bool
  /-- sshkey.c:292-305 `sshkey_ecdsa_nid_from_name` -/
  nid : Bytes → Int
  /-- the type is KEY_ECDSA -/
  ecdsa : Nat → Bool

/-- hostfile.c:416-422 `lookup_key_in_hostkeys_by_type` as it is called here: is there a key for an algorithm of type `t` -/
def haveKey (N : Names) (es : List Entry) (alg : Bytes) (t : Nat) : Bool := (lookupType es (N.plain t) (N.nid alg) (N.ecdsa (N.plain t))).isSome

/-- hostfile.c:424-434 `lookup_marker_in_hostkeys` for MRK_CA -/
def haveCa (es : List Entry) : Bool := es.any fun e => e.marker = .ca

/-- sshconnect2.c:108-117 `first_alg` -/
def firstAlg (algs : Bytes) : Bytes := algs.takeWhile (· ≠ COMMA)

/-- sshconnect2.c:169-174 ALG_APPEND -/
def append (maxlen : Nat) (to src : Bytes) : Bytes := Match.strlcat (if to ≠ [] then Match.strlcat to [COMMA] maxlen else to) src maxlen

/-- sshconnect2.c:183-194 is the algorithm put first -/
def preferred (N : Names) (es : List Entry) (alg : Bytes) (t : Nat) : Bool := (N.cert t && haveCa es) || haveKey N es alg t

/-- sshconnect2.c:176-197 the loop; none for `fatal` -/
def orderGo (N : Names) (es : List Entry) (maxlen : Nat) : Nat → Option Bytes → Bytes → Bytes → Option (Bytes × Bytes)
  | 0, _, first, last => some (first, last)
  | _, none, first, last => some (first, last)
  | fuel + 1, some s, first, last =>
    if (strsep COMMA s).1 = [] then some (first, last)
    else match N.type (strsep COMMA s).1 with
      | none => none
      | some t =>
        if preferred N es (strsep COMMA s).1 t then orderGo N es maxlen fuel (strsep COMMA s).2 (append maxlen first (strsep COMMA s).1) last
        else orderGo N es maxlen fuel (strsep COMMA s).2 first (append maxlen last (strsep COMMA s).1)

/-- sshconnect2.c:149-152 is there a key for the best one -/
def bestKnown (N : Names) (es : List Entry) (algs : Bytes) : Bool :=
  match N.type (firstAlg algs) with
  | none => false
  | some t => haveKey N es (firstAlg algs) t

/-- sshconnect2.c:119-215 `order_hostkeyalgs` -/
def order (N : Names) (es : List Entry) (algs : Bytes) : Option Bytes :=
  if bestKnown N es algs then some algs
  else (orderGo N es (algs.length + 1) (algs.length + 1) (some algs) [] []).map fun r =>
    r.1 ++ (if r.1 = [] ∨ r.2 = [] then [] else [COMMA]) ++ r.2

/-- sshconnect2.c:217-257 of `ssh_kex2`: what is proposed; `given` is HostkeyAlgorithms as it is written, `algs` after `kex_assemble_names` -/
def proposed (N : Names) (es : List Entry) (given : Option Bytes) (algs : Bytes) : Option Bytes :=
  if given = none ∨ (given.bind List.head?) = some 45 ∨ (given.bind List.head?) = some 43 then order N es algs else some algs

end Verif.HostAlg
