/-
Concrete cases for C93 and C94.
-/
import Verif.Dyn.Props
import Verif.Dyn.X11

namespace Verif.Dyn
open Verif Wire

def toy : World := ⟨fun a => b!"v4:" ++ a.map (· + 48), fun a => b!"v6:" ++ a.map (· + 48)⟩

-- SOCKS4, in two pieces, with data following
example : run toy fresh [[4, 1, 0, 80, 1, 2], [3, 4, 117, 0, 88, 89]] =
    ⟨[88, 89], [0, 90, 0, 0, 0, 0, 0, 0], false, .opening (b!"v4:1234") 80⟩ := by decide +kernel

-- SOCKS4A
example : run toy fresh [[4, 1, 0, 22, 0, 0, 0, 1, 0] ++ b!"host" ++ [0]] =
    ⟨[], [0, 90, 0, 0, 0, 0, 0, 0], false, .opening (b!"host") 22⟩ := by decide +kernel

-- 0.0.0.0 is an address, not the announcement of a name
example : (run toy fresh [[4, 1, 0, 22, 0, 0, 0, 0, 0]]).phase = .opening (b!"v4:0000") 22 := by decide +kernel

-- SOCKS5 by name, greeting and request together and byte by byte
example : run toy fresh [[5, 2, 2, 0, 5, 1, 0, 3, 2, 97, 98, 1, 0, 7]] =
    ⟨[7], [5, 0, 5, 0, 0, 1, 0, 0, 0, 0, 0, 0], true, .opening (b!"ab") 256⟩ := by decide +kernel
example : run toy fresh ([5, 2, 2, 0, 5, 1, 0, 3, 2, 97, 98, 1, 0, 7].map fun c => [c]) =
    ⟨[7], [5, 0, 5, 0, 0, 1, 0, 0, 0, 0, 0, 0], true, .opening (b!"ab") 256⟩ := by decide +kernel

-- SOCKS5 with an IPv6 address
example : (run toy fresh [[5, 1, 0], [5, 1, 0, 4, 0, 1, 2, 3, 4, 5, 6, 7, 8, 9, 0, 1, 2, 3, 4, 5, 0, 22]]).phase =
    .opening (b!"v6:0123456789012345") 22 := by decide +kernel

-- refused: another command, no acceptable method, another version, an unknown kind of address
example : (run toy fresh [[4, 2, 0, 80, 1, 2, 3, 4, 0]]).phase = .dead := by decide +kernel
example : (run toy fresh [[5, 1, 2]]).phase = .dead := by decide +kernel
example : (run toy fresh [b!"GET / HTTP/1.1"]).phase = .dead := by decide +kernel
example : (run toy fresh [[5, 1, 0], [5, 1, 0, 2, 0]]).phase = .dead := by decide +kernel

-- waiting
example : (run toy fresh [[5, 2, 0]]).phase = .waiting := by decide +kernel

/-- A request, to show that `Asks` is met. -/
example : Asks toy ([4, 1, 0, 80, 1, 2, 3, 4, 117, 0] ++ [88]) (toy.ntop4 [1, 2, 3, 4]) 80 [0, 90, 0, 0, 0, 0, 0, 0] [88] :=
  .v4 (.ip (user := [117]) (by decide) (by decide) (by decide))

/-- **C93, not quite the protocols (1).**  "Only SOCKS5 is spoken after the greeting of SOCKS5" is false of the code: a
request of SOCKS4 is then granted. -/
theorem C93_mixed_false :
    (run toy fresh [[5, 1, 0], [4, 1, 0, 80, 1, 2, 3, 4, 0]]).phase = .opening (b!"v4:1234") 80 := by decide +kernel

/-- **C93, not quite the protocols (2).**  "The host asked for is the name in the request" is false of the code for a name
with a NUL: it is cut off there. -/
theorem C93_nul_false :
    (run toy fresh [[5, 1, 0], [5, 1, 0, 3, 5] ++ [97, 98, 0, 99, 100] ++ [0, 22]]).phase = .opening (b!"ab") 22 := by
  decide +kernel

/-! ### X11 -/

def jar : Saved := ⟨b!"PROTO", [1, 2, 3], [7, 8, 9]⟩

def firstMsg (cookie : Bytes) : Bytes :=
  [0x6c, 0, 11, 0, 0, 0, 5, 0, 3, 0, 0, 0] ++ b!"PROTO" ++ [0, 0, 0] ++ cookie ++ [0]

-- the made-up cookie passes and is replaced
example : xRun jar (.waiting []) [firstMsg [7, 8, 9], b!"more"] = .passed (firstMsg [1, 2, 3] ++ b!"more") := by
  decide +kernel
example : xRun jar (.waiting []) ((firstMsg [7, 8, 9] ++ b!"more").map fun c => [c]) =
    .passed (firstMsg [1, 2, 3] ++ b!"more") := by decide +kernel

-- the real one, another one, and none do not
example : xRun jar (.waiting []) [firstMsg [1, 2, 3], b!"more"] = .rejected := by decide +kernel
example : xRun jar (.waiting []) [firstMsg [7, 8, 8]] = .rejected := by decide +kernel
example : xRun jar (.waiting []) [[0x42, 0, 0, 11, 0, 0, 0, 0, 0, 0, 0, 0]] = .rejected := by decide +kernel
example : xRun jar (.waiting []) [[0x43, 0, 0, 11, 0, 0, 0, 0, 0, 0, 0, 0]] = .rejected := by decide +kernel

-- an incomplete message waits
example : xRun jar (.waiting []) [(firstMsg [7, 8, 9]).take 23] = .waiting ((firstMsg [7, 8, 9]).take 23) := by
  decide +kernel

/-- `Frame` is met. -/
example : Frame jar.proto 3 ([0x6c, 0, 11, 0, 0, 0, 5, 0, 3, 0, 0, 0] ++ b!"PROTO" ++ [0, 0, 0]) [0] :=
  .mk (big := false) (x1 := 0) (v1 := 11) (v2 := 0) (v3 := 0) (v4 := 0) (y1 := 0) (y2 := 0) (pad1 := [0, 0, 0]) (pad2 := [0])
    (by decide) (by decide) (by decide) (by decide)

end Verif.Dyn
