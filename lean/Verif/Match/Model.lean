/-
Model of match.c.  C strings are byte lists without their terminating NUL.
-/
import Verif.Text

namespace Verif.Match
open Verif Text

scoped notation "STAR" => (42 : UInt8)
scoped notation "QUEST" => (63 : UInt8)
scoped notation "COMMA" => (44 : UInt8)
scoped notation "BANG" => (33 : UInt8)
scoped notation "AT" => (64 : UInt8)
/-- match.c:117 `sizeof(sub) - 1` -/
scoped notation "SUB_MAX" => (1023 : Nat)
/-- match.c:272 -/
scoped notation "MAX_PROP" => (40 : Nat)

/-- The loops `for (; *s; s++) if (cond(s)) return 1; return 0;` of match.c:80-85, 92-96. -/
def scan (f : Bytes → Bool) : Bytes → Bool
  | [] => false
  | x :: t => f (x :: t) || scan f t

/-- match.c:57-114 `match_pattern`.  `star` says that the loop of lines 67-68 is skipping asterisks.
In the branch of line 92 the pattern starts with `?`, so the recursive call `match_pattern(s, pattern)`
on a non-empty `s` has been unfolded once. -/
def matchGo : Bytes → Bool → Bytes → Bool
  | [], star, s => if star then true else s.isEmpty
  | c :: p, false, s =>
    if c = STAR then matchGo p true s
    else match s with
      | [] => false
      | x :: s' => if c ≠ QUEST ∧ c ≠ x then false else matchGo p false s'
  | c :: p, true, s =>
    if c = STAR then matchGo p true s
    else if c ≠ QUEST then
      scan (fun t => match t with | x :: t' => x = c && matchGo p false t' | [] => false) s
    else
      scan (fun t => match t with | _ :: t' => matchGo p false t' | [] => false) s

/-- match.c:57-114 -/
def matchPattern (s pattern : Bytes) : Bool := matchGo pattern false s

/-- `isupper(c) ? tolower(c) : c` in the C locale. -/
def toLower (c : UInt8) : UInt8 := if 65 ≤ c ∧ c ≤ 90 then c + 32 else c

/-- match.c:141-145: copy the subpattern up to a comma, the end, or `n` characters;
returns the copy and the unread rest. -/
def takeSub (dolower : Bool) : Nat → Bytes → Bytes × Bytes
  | 0, p => ([], p)
  | _, [] => ([], [])
  | n + 1, c :: p =>
    if c = COMMA then ([], c :: p)
    else
      let (a, r) := takeSub dolower n p
      ((if dolower then toLower c else c) :: a, r)

/-- match.c:151-153: skip the comma that ended the subpattern. -/
def skipComma : Bytes → Bytes
  | x :: r => if x = COMMA then r else x :: r
  | [] => []

/-- match.c:128-166, the loop of `match_pattern_list`; `p` is the unread part of the pattern and
`fuel` bounds the number of iterations (one character at least is read in each). -/
def listGo (string : Bytes) (dolower : Bool) : Nat → Bytes → Bool → Int
  | 0, _, gotPositive => if gotPositive then 1 else 0
  | _ + 1, [], gotPositive => if gotPositive then 1 else 0
  | fuel + 1, c :: p, gotPositive =>
    let negated := c = BANG
    let p1 := if c = BANG then p else c :: p
    let (sub, rest) := takeSub dolower SUB_MAX p1
    if sub.length ≥ SUB_MAX then 0
    else
      let rest := skipComma rest
      if matchPattern string sub then
        if negated then -1 else listGo string dolower fuel rest true
      else listGo string dolower fuel rest gotPositive

/-- match.c:122-173 `match_pattern_list` -/
def matchPatternList (string pattern : Bytes) (dolower : Bool) : Int :=
  listGo string dolower pattern.length pattern false

/-- match.c:176-186 `match_usergroup_pattern_list` (not on Cygwin). -/
def matchUsergroup (string pattern : Bytes) : Int := matchPatternList string pattern false

/-- match.c:194-204 `match_hostname` -/
def matchHostname (host pattern : Bytes) : Int := matchPatternList (host.map toLower) pattern true

/-- match.c:211-230 `match_host_and_ip`, with `mip` the value of `addr_match_list(ipaddr, patterns)` and
`none` for a NULL pointer. -/
def matchHostAndIp (host : Option Bytes) (ipaddr : Option Bytes) (patterns : Bytes)
    (addrMatchList : Option Bytes → Bytes → Int) : Int :=
  let mip := addrMatchList ipaddr patterns
  if mip = -2 then -1
  else match host, ipaddr with
    | some h, some _ =>
      if mip = -1 then 0
      else
        let mhost := matchHostname h patterns
        if mhost = -1 then 0 else if mhost = 0 ∧ mip = 0 then 0 else 1
    | _, _ => 0

/-- `strrchr(s, c)` split: the part before and the part after the last occurrence. -/
def splitLast (c : UInt8) : Bytes → Option (Bytes × Bytes)
  | [] => none
  | x :: xs =>
    match splitLast c xs with
    | some (a, b) => some (x :: a, b)
    | none => if x = c then some ([], xs) else none

/-- match.c:237-266 `match_user` -/
def matchUser (user host ipaddr : Option Bytes) (pattern : Bytes)
    (addrMatchList : Option Bytes → Bytes → Int) : Int :=
  match user with
  | none =>
    if host = none ∧ ipaddr = none then
      match splitLast AT pattern with
      | some (_, p) => if matchHostAndIp none none p addrMatchList < 0 then -1 else 0
      | none => 0
    else 0
  | some u =>
    match splitLast AT pattern with
    | none => if matchPattern u pattern then 1 else 0
    | some (pat, p) =>
      if matchPattern u pat then matchHostAndIp host ipaddr p addrMatchList else 0

/-- match.c:284-291: the server's proposals, at most `n` of them, up to the first empty one. -/
def proposals : Nat → Nat → Option Bytes → List Bytes
  | 0, _, _ => []
  | _, 0, _ => []
  | _, _, none => []
  | fuel + 1, n + 1, some s =>
    match strsep COMMA s with
    | (p, rest) => if p = [] then [] else p :: proposals fuel n rest

/-- match.c:294-307: walk the client's list; `pos` is the offset of the next token, `total` is
`strlen(client)`. -/
def selectGo (server : List Bytes) (total : Nat) : Nat → Nat → Option Bytes → Option Bytes × Nat
  | 0, _, _ => (none, total)
  | _, _, none => (none, total)
  | fuel + 1, pos, some s =>
    match strsep COMMA s with
    | (p, rest) =>
      if p = [] then (none, total)
      else if p ∈ server then
        (some p, match rest with | none => total | some _ => pos + p.length + 1)
      else selectGo server total fuel (pos + p.length + 1) rest

/-- match.c:274-314 `match_list`: the chosen name and the value stored in `*next`. -/
def matchList (client server : Bytes) : Option Bytes × Nat :=
  selectGo (proposals (server.length + 1) MAX_PROP (some server)) client.length (client.length + 1) 0 (some client)

/-- `strlcat(dst, src, size)` -/
def strlcat (dst src : Bytes) (size : Nat) : Bytes := (dst ++ src).take (max dst.length (size - 1))

/-- match.c:341-348: the loop of `filter_list`. -/
def filterGo (filter : Bytes) (deny : Bool) (len : Nat) : Nat → Option Bytes → Bytes → Bytes
  | 0, _, fix => fix
  | _, none, fix => fix
  | fuel + 1, some s, fix =>
    match strsep COMMA s with
    | (cp, tmp) =>
      let r := matchPatternList cp filter false
      if (deny ∧ r ≠ 1) ∨ (¬ deny ∧ r = 1) then
        let fix := if fix ≠ [] then strlcat fix [COMMA] len else fix
        filterGo filter deny len fuel tmp (strlcat fix cp len)
      else filterGo filter deny len fuel tmp fix

/-- match.c:323-351 `filter_list` (allocations succeed). -/
def filterList (proposal filter : Bytes) (deny : Bool) : Bytes :=
  filterGo filter deny (proposal.length + 1) (proposal.length + 1) (some proposal) []

/-- match.c:357-361 -/
def filterDenylist (proposal filter : Bytes) : Bytes := filterList proposal filter true
/-- match.c:367-371 -/
def filterAllowlist (proposal filter : Bytes) : Bytes := filterList proposal filter false

end Verif.Match
