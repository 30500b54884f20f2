/-
What is promised about dynamic forwarding and X11 forwarding, in terms of RFC 1928, the description of SOCKS4 and SOCKS4A,
and the X11 protocol.
-/
import Verif.Dyn.Model

namespace Verif.Dyn
open Verif Wire

/-- `r` is a request of SOCKS4 for the host and port; the two strings have together at most 1018 bytes with their NULs. -/
inductive Req4 (W : World) : Bytes → Bytes → Nat → Prop
  | ip {p1 p2 a b c d : UInt8} {user : Bytes} : ¬ (a = 0 ∧ b = 0 ∧ c = 0 ∧ d ≠ 0) → 0 ∉ user → user.length ≤ 1017 →
      Req4 W ([4, 1, p1, p2, a, b, c, d] ++ user ++ [0]) (W.ntop4 [a, b, c, d]) (256 * p1.toNat + p2.toNat)
  | name {p1 p2 d : UInt8} {user host : Bytes} : d ≠ 0 → 0 ∉ user → 0 ∉ host → user.length + 1 + host.length ≤ 1017 →
      Req4 W ([4, 1, p1, p2, 0, 0, 0, d] ++ user ++ [0] ++ host ++ [0]) host (256 * p1.toNat + p2.toNat)

/-- `r` are the methods the client of SOCKS5 can use: among them "no authentication". -/
def Greeting (r : Bytes) : Prop := ∃ n m, r = 5 :: n :: m ∧ m.length = n.toNat ∧ 0 ∈ m

/-- `r` is a request of SOCKS5 for the host and port.  A name is taken up to the first NUL. -/
inductive Req5 (W : World) : Bytes → Bytes → Nat → Prop
  | v4 {a : Bytes} {p1 p2 : UInt8} : a.length = 4 →
      Req5 W ([5, 1, 0, 1] ++ a ++ [p1, p2]) (W.ntop4 a) (256 * p1.toNat + p2.toNat)
  | v6 {a : Bytes} {p1 p2 : UInt8} : a.length = 16 →
      Req5 W ([5, 1, 0, 4] ++ a ++ [p1, p2]) (W.ntop6 a) (256 * p1.toNat + p2.toNat)
  | name {n : UInt8} {a h : Bytes} {p1 p2 : UInt8} : a.length = n.toNat → 0 ∉ h → (a = h ∨ ∃ t, a = h ++ 0 :: t) →
      Req5 W ([5, 1, 0, 3, n] ++ a ++ [p1, p2]) h (256 * p1.toNat + p2.toNat)

/-- `s` begins with all that is needed to ask for the host and port, and goes on with `rest`. -/
inductive Asks (W : World) : Bytes → Bytes → Nat → Bytes → Bytes → Prop
  | v4 {r h rest : Bytes} {p : Nat} : Req4 W r h p → Asks W (r ++ rest) h p [0, 90, 0, 0, 0, 0, 0, 0] rest
  | v5 {g r h rest : Bytes} {p : Nat} : Greeting g → Req5 W r h p →
      Asks W (g ++ r ++ rest) h p ([5, 0] ++ [5, 0, 0, 1, 0, 0, 0, 0, 0, 0]) rest
  /-- a peculiarity: SOCKS4 after the greeting of SOCKS5 -/
  | mixed {g r h rest : Bytes} {p : Nat} : Greeting g → Req4 W r h p →
      Asks W (g ++ r ++ rest) h p ([5, 0] ++ [0, 90, 0, 0, 0, 0, 0, 0]) rest

/-- A 16-bit number in the byte order announced. -/
def word (big : Bool) (n : Nat) : Bytes :=
  if big then [UInt8.ofNat (n / 256), UInt8.ofNat n] else [UInt8.ofNat n, UInt8.ofNat (n / 256)]

/-- What surrounds the cookie in the first message of an X11 client that uses the protocol and a cookie of `n` bytes: byte
order, version, lengths and name of the protocol with its padding before, padding after. -/
inductive Frame (proto : Bytes) (n : Nat) : Bytes → Bytes → Prop
  | mk {big : Bool} {x1 v1 v2 v3 v4 y1 y2 : UInt8} {pad1 pad2 : Bytes} : proto.length < 65536 → n < 65536 →
      pad1.length = (4 - proto.length % 4) % 4 → pad2.length = (4 - n % 4) % 4 →
      Frame proto n ([if big then 0x42 else 0x6c, x1, v1, v2, v3, v4] ++ word big proto.length ++ word big n ++ [y1, y2] ++
        proto ++ pad1) pad2

end Verif.Dyn
