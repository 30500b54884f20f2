/-
Concrete cases for C143 and C144.
-/
import Verif.Cookie.Props

namespace Verif.Cookie.Examples
open Verif Verif.Cookie
open _root_.Verif.Dns (hex Hex hexValue)
open _root_.Verif.Dyn (Saved xOpen xLens pad4)

/-- reads digits; random bytes are all 7 -/
def world : World where
  scan2 s := match s with
    | c :: d :: _ => match hexValue c, hexValue d with
      | some x, some y => some (16 * x + y)
      | _, _ => none
    | _ => none
  rand n := List.replicate n 7

example : Sound world := ⟨fun c d x y rest h1 h2 => by simp [world, h1, h2], fun n => by simp [world]⟩

def first : Req := ⟨b!":0.1", b!"MIT", b!"00ff"⟩
def saved : Saved := ⟨b!"MIT", [0, 255], [7, 7]⟩

example : Hex first.data [0, 255] := .cons (x := 0) (y := 0) (by decide) (by decide) (by decide) (.cons (x := 15) (y := 15) (by decide) (by decide) (by decide) .nil)
example : request world fresh first = (⟨some b!":0.1", some saved⟩, .sent ([0, 0, 0, 0, 3] ++ b!"MIT" ++ [0, 0, 0, 4] ++ b!"0707" ++ [0, 0, 0, 1])) := by decide +kernel
/-- another display, another cookie of the same length -/
example : (run world fresh [first, ⟨b!":1", b!"MIT", b!"00ff"⟩, ⟨b!":0.1", b!"MIT", b!"1234"⟩]).2.length = 3 ∧
    (run world fresh [first, ⟨b!":1", b!"MIT", b!"00ff"⟩, ⟨b!":0.1", b!"MIT", b!"1234"⟩]).2.getLast? = (run world fresh [first]).2.head? ∧
    (run world fresh [first, ⟨b!":1", b!"MIT", b!"00ff"⟩]).1.saved = some saved := by decide +kernel
/-- alike, but another cookie -/
example : Alike world first ⟨b!":0.1", b!"MIT", b!"1234"⟩ := ⟨rfl, rfl, rfl, by decide⟩
/-- not digits -/
example : request world fresh ⟨b!":0", b!"MIT", b!"zz"⟩ = (⟨some b!":0", none⟩, .fatal) := by decide +kernel

/-- the first message of a client of the display -/
def hello : Bytes := [0x6c, 0, 11, 0, 0, 0, 3, 0, 2, 0, 0, 0] ++ b!"MIT" ++ [0, 7, 7, 0, 0, 42]
example : xLens hello = some (saved.proto.length, saved.fake.length) ∧ 12 + pad4 saved.proto.length + pad4 saved.fake.length ≤ hello.length ∧
    (hello.drop 12).take saved.proto.length = saved.proto ∧ (hello.drop (12 + pad4 saved.proto.length)).take saved.fake.length = saved.fake := by decide +kernel
example : xOpen saved false hello = (.pass, [0x6c, 0, 11, 0, 0, 0, 3, 0, 2, 0, 0, 0] ++ b!"MIT" ++ [0, 0, 255, 0, 0, 42]) := by decide +kernel

/-- C143, as it was meant, is false: where a later session over the same connection has a longer cookie than the first, memory after the made-up one is
read, and sent to the server. -/
theorem C143_safe_original_false : ¬∀ (w : World) (_ : Sound w) (l : List Req), Res.overread ∉ (run w fresh l).2 := by
  intro h
  have := h world ⟨fun c d x y rest h1 h2 => by simp [world, h1, h2], fun n => by simp [world]⟩ [first, ⟨b!":0.1", b!"MIT", b!"00ff00"⟩]
  exact this (by decide +kernel)

/-- an xauth that lists a cookie from its own file -/
def xauth : Xauth where
  path := some b!"/x"
  there := true
  dir := some b!"/t"
  gen c := decide (c = b!"/x -f /t/xauthfile generate unix:0 MIT-MAGIC-COOKIE-1 untrusted timeout 1260 2>/dev/null")
  list c := if c = b!"/x -f /t/xauthfile list unix:0 2>/dev/null" then some b!"h/unix:0  MIT-MAGIC-COOKIE-1\t0a0b\n"
    else if c = b!"/x  list unix:0 2>/dev/null" then some b!"h/unix:0  MIT-MAGIC-COOKIE-1  c0de\n" else none
  rnd := [1, 2]
  now := 1000

example : getProto xauth (some b!"localhost:0") false 1200 0 = ⟨some (b!"MIT-MAGIC-COOKIE-1", b!"0a0b"), 2201,
    [b!"/x -f /t/xauthfile generate unix:0 MIT-MAGIC-COOKIE-1 untrusted timeout 1260 2>/dev/null", b!"/x -f /t/xauthfile list unix:0 2>/dev/null"]⟩ := by
  decide +kernel
example : getProto xauth (some b!"localhost:0") true 1200 0 = ⟨some (b!"MIT-MAGIC-COOKIE-1", b!"c0de"), 0, [b!"/x  list unix:0 2>/dev/null"]⟩ := by
  decide +kernel
/-- it is not made -/
example : (getProto xauth (some b!"localhost:0") false 0 0).cookie = none := by decide +kernel
/-- no xauth -/
example : getProto { xauth with there := false } (some b!":0") false 0 0 = ⟨none, 0, []⟩ ∧
    getProto { xauth with there := false } (some b!":0") true 0 0 = ⟨some (b!"MIT-MAGIC-COOKIE-1", b!"0102"), 0, []⟩ := by decide +kernel
example : getProto xauth (some b!":0;reboot") true 0 0 = ⟨none, 0, []⟩ := by decide +kernel
example : displayValid b!"localhost:0" = true ∧ xdisplay b!"localhost:0" = some b!"unix:0" := by decide +kernel

end Verif.Cookie.Examples
