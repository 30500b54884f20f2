/-
Model of addr.c and addrmatch.c.  An address is held as four 32-bit words in network order; an IPv4
address uses the first word only (`v4` overlays `addr32[0]` in the C union).  `&`, `|`, `~` act on whole
words, so byte order does not matter for them; `htonl`/`ntohl` convert between a word's number and its
network representation and are identities here.
-/
import Verif.Num
import Verif.Wire
import Verif.Match.Model

namespace Verif.Addr
open Verif Text

inductive Family | inet | inet6 | other (n : Nat)
  deriving DecidableEq, Repr

/-- addr.h:25-41 `struct xaddr` -/
structure XAddr where
  af : Family
  w0 : UInt32
  w1 : UInt32
  w2 : UInt32
  w3 : UInt32
  scope : UInt32
  deriving DecidableEq, Repr

/-- A zeroed address of some family. -/
def zeroed (af : Family) : XAddr := ⟨af, 0, 0, 0, 0, 0⟩

/-- addr.c:36-47 `addr_unicast_masklen` (as the `u_int` it is stored in). -/
def unicastMasklen : Family → Nat
  | .inet => 32
  | .inet6 => 128
  | .other _ => 4294967295

/-- addr.c:49-60 `masklen_valid` -/
def masklenValid (af : Family) (l : Nat) : Bool :=
  match af with
  | .inet => l ≤ 32
  | .inet6 => l ≤ 128
  | .other _ => false

/-- addr.c:141-161 `addr_invert` -/
def invert (n : XAddr) : Option XAddr :=
  match n.af with
  | .inet => some { n with w0 := ~~~ n.w0 }
  | .inet6 => some { n with w0 := ~~~ n.w0, w1 := ~~~ n.w1, w2 := ~~~ n.w2, w3 := ~~~ n.w3 }
  | .other _ => none

/-- `(0xffffffff << (32 - l)) & 0xffffffff`, only reached with `1 ≤ l ≤ 32` (addr.c:181, 187). -/
def wordMask (l : Nat) : UInt32 := 0xffffffff <<< UInt32.ofNat (32 - l)

/-- The loop of addr.c:185-189 over `n` remaining words. -/
def maskWords : Nat → Nat → List UInt32
  | 0, _ => []
  | n + 1, l =>
    if l ≥ 32 then 0xffffffff :: maskWords n (l - 32)
    else (if l ≠ 0 then wordMask l else 0) :: List.replicate n 0

/-- addr.c:167-193 `addr_netmask` -/
def netmask (af : Family) (l : Nat) : Option XAddr :=
  if masklenValid af l = false then none
  else match af with
    | .inet => some { zeroed .inet with w0 := if l = 0 then 0 else wordMask l }
    | .inet6 =>
      match maskWords 4 l with
      | [a, b, c, d] => some ⟨.inet6, a, b, c, d, 0⟩
      | _ => none
    | .other _ => none

/-- addr.c:196-202 `addr_hostmask` -/
def hostmask (af : Family) (l : Nat) : Option XAddr :=
  match netmask af l with
  | none => none
  | some n => invert n

/-- addr.c:208-229 `addr_and` (`none`: -1) -/
def and (a b : XAddr) : Option XAddr :=
  if a.af ≠ b.af then none
  else match a.af with
    | .inet => some { a with w0 := a.w0 &&& b.w0 }
    | .inet6 => some { a with w0 := a.w0 &&& b.w0, w1 := a.w1 &&& b.w1, w2 := a.w2 &&& b.w2, w3 := a.w3 &&& b.w3 }
    | .other _ => none

/-- addr.c:231-251 `addr_or` -/
def or (a b : XAddr) : Option XAddr :=
  if a.af ≠ b.af then none
  else match a.af with
    | .inet => some { a with w0 := a.w0 ||| b.w0 }
    | .inet6 => some { a with w0 := a.w0 ||| b.w0, w1 := a.w1 ||| b.w1, w2 := a.w2 ||| b.w2, w3 := a.w3 ||| b.w3 }
    | .other _ => none

/-- The sixteen bytes of an address (`addr8`). -/
def addr8 (a : XAddr) : Bytes :=
  Wire.be 4 a.w0.toNat ++ Wire.be 4 a.w1.toNat ++ Wire.be 4 a.w2.toNat ++ Wire.be 4 a.w3.toNat

/-- The loop of addr.c:275-277: difference of the first differing bytes. -/
def cmpBytes : Bytes → Bytes → Int
  | x :: xs, y :: ys => if (x.toNat : Int) - y.toNat ≠ 0 then (x.toNat : Int) - y.toNat else cmpBytes xs ys
  | _, _ => 0

/-- addr.c:253-284 `addr_cmp` -/
def cmp (a b : XAddr) : Int :=
  if a.af ≠ b.af then (if a.af = .inet6 then 1 else -1)
  else match a.af with
    | .inet => if a.w0 = b.w0 then 0 else if a.w0 > b.w0 then 1 else -1
    | .inet6 =>
      let d := cmpBytes (addr8 a) (addr8 b)
      if d ≠ 0 then d else if a.scope = b.scope then 0 else if a.scope > b.scope then 1 else -1
    | .other _ => -1

/-- addr.c:286-302 `addr_is_all0s` -/
def isAll0s (a : XAddr) : Bool :=
  match a.af with
  | .inet => a.w0 = 0
  | .inet6 => a.w0 = 0 && a.w1 = 0 && a.w2 = 0 && a.w3 = 0
  | .other _ => false

/-- addr.c:305-325 `addr_increment` -/
def increment (a : XAddr) : XAddr :=
  match a.af with
  | .inet => { a with w0 := a.w0 + 1 }
  | .inet6 =>
    let a := { a with w3 := a.w3 + 1 }
    if a.w3 ≠ 0 then a else
    let a := { a with w2 := a.w2 + 1 }
    if a.w2 ≠ 0 then a else
    let a := { a with w1 := a.w1 + 1 }
    if a.w1 ≠ 0 then a else { a with w0 := a.w0 + 1 }
  | .other _ => a

/-- addr.c:333-345 `addr_host_is_all0s` (`true`: returns 0). -/
def hostIsAll0s (a : XAddr) (l : Nat) : Bool :=
  match hostmask a.af l with
  | none => false
  | some m => match and a m with
    | none => false
    | some r => isAll0s r

/-- addr.c:360-370 `addr_host_to_all1s` -/
def hostToAll1s (a : XAddr) (l : Nat) : Option XAddr :=
  match hostmask a.af l with
  | none => none
  | some m => or a m

/-- addr.c:497-510 `addr_netmatch` (`0` means match). -/
def netmatch (host net : XAddr) (l : Nat) : Int :=
  if host.af ≠ net.af then -1
  else match netmask host.af l with
    | none => -1
    | some m => match and host m with
      | none => -1
      | some r => cmp r net

inductive CidrRes | parseError | inconsistent | ok (n : XAddr) (l : Nat)
  deriving DecidableEq, Repr

/-- addr.c:459-494 `addr_pton_cidr`; `pton` is `addr_pton`, i.e. `getaddrinfo` with `AI_NUMERICHOST`. -/
def ptonCidr (pton : Bytes → Option XAddr) (p : Bytes) : CidrRes :=
  if p.length ≥ 64 then .parseError
  else
    match strsep 47 p with
    | (host, some m) =>
      match Num.strtonum m 0 2147483647 with
      | none => .parseError
      | some l => finish host (some l.toNat)
    | (host, none) => finish host none
where
  finish (host : Bytes) (m : Option Nat) : CidrRes :=
    match pton host with
    | none => .parseError
    | some n =>
      let l := m.getD (unicastMasklen n.af)
      if masklenValid n.af l = false then .inconsistent
      else if hostIsAll0s n l = false then .inconsistent
      else .ok n l

/-- Does one list entry (without `!`) match: addrmatch.c:71-93. -/
def entryMatches (pton : Bytes → Option XAddr) (addr : Option (Bytes × XAddr)) (cp : Bytes) : Option Bool :=
  match ptonCidr pton cp with
  | .inconsistent => none
  | .ok n l => some (match addr with | none => false | some (_, a) => netmatch a n l = 0)
  | .parseError => some (match addr with | none => false | some (s, _) => Match.matchPattern s cp)

/-- The loop of addrmatch.c:62-94. -/
def matchListGo (pton : Bytes → Option XAddr) (addr : Option (Bytes × XAddr)) : Nat → Option Bytes → Int → Int
  | 0, _, ret => ret
  | _, none, ret => ret
  | fuel + 1, some s, ret =>
    match strsep 44 s with
    | (cp, list) =>
      let neg := cp.head? = some 33
      let cp := if cp.head? = some 33 then cp.tail else cp
      if cp = [] then -2
      else match entryMatches pton addr cp with
        | none => -2
        | some true => if neg then -1 else matchListGo pton addr fuel list 1
        | some false => matchListGo pton addr fuel list ret

/-- addrmatch.c:48-98 `addr_match_list` (`strdup` succeeds). -/
def matchList (pton : Bytes → Option XAddr) (addr : Option Bytes) (list : Bytes) : Int :=
  match addr with
  | none => matchListGo pton none (list.length + 1) (some list) 0
  | some s => match pton s with
    | none => 0
    | some a => matchListGo pton (some (s, a)) (list.length + 1) (some list) 0

/-- addrmatch.c:142 -/
def validCidrChar (c : UInt8) : Bool := c ∈ b!"0123456789abcdefABCDEF.:/"

/-- The loop of addrmatch.c:122-165. -/
def matchCidrGo (pton : Bytes → Option XAddr) (addr : Option XAddr) : Nat → Option Bytes → Int → Int
  | 0, _, ret => ret
  | _, none, ret => ret
  | fuel + 1, some s, ret =>
    match strsep 44 s with
    | (cp, list) =>
      if cp = [] then -1
      else if cp.length > 46 + 3 then -1
      else
        let ret := if cp.all validCidrChar then ret else -1
        match ptonCidr pton cp with
        | .parseError => -1
        | .inconsistent => -1
        | .ok n l =>
          match addr with
          | some a => matchCidrGo pton addr fuel list (if netmatch a n l = 0 then 1 else ret)
          | none => matchCidrGo pton addr fuel list ret

/-- addrmatch.c:108-169 `addr_match_cidr_list` -/
def matchCidrList (pton : Bytes → Option XAddr) (addr : Option Bytes) (list : Bytes) : Int :=
  match addr with
  | none => matchCidrGo pton none (list.length + 1) (some list) 0
  | some s => match pton s with
    | none => 0
    | some a => matchCidrGo pton (some a) (list.length + 1) (some list) 0

end Verif.Addr
