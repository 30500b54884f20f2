/-
What transfers by the SFTP client are to do.
-/
import Verif.Sftp.Client

namespace Verif.Sftp.Client
open Verif Wire Sftp

/-- A possible answer to one of the read requests made so far, of a server with a file that holds `F`: some of the bytes
asked for, the end of the file if there are none, or an error.  Requests can be answered in any order. -/
inductive Answers (F : Bytes) (sent : List Rq) : Bytes → Prop
  | data (v : Nat) (r : Rq) (d : Bytes) : r ∈ sent → d ≠ [] → d <+: F.drop r.off → d.length ≤ r.len → d.length < 2 ^ 18 →
      Answers F sent (encReply v (.data r.id d))
  | eof (v : Nat) (r : Rq) (msg : Option Bytes) : r ∈ sent → F.length ≤ r.off →
      Answers F sent (encReply v (.status r.id FX_EOF msg))
  | error (v : Nat) (r : Rq) (code : Nat) (msg : Option Bytes) : r ∈ sent → code ≠ FX_EOF → code < 2 ^ 32 →
      Answers F sent (encReply v (.status r.id code msg))

def Honest (F : Bytes) (srv : Nat → List Rq → Bytes) : Prop := ∀ k sent, sent ≠ [] → Answers F sent (srv k sent)

/-! ### Uploads -/

/-- The writes go from `o` on, without gaps. -/
def Tiles : Nat → List Wr → Prop
  | _, [] => True
  | o, w :: l => w.off = o ∧ w.data ≠ [] ∧ Tiles (o + w.data.length) l

/-- The writes are those of a file that holds `loc`, from `start` on. -/
def Covers (start : Nat) (loc : Bytes) (sent : List Wr) : Prop :=
  Tiles start sent ∧ (sent.map Wr.data).flatten = loc.drop start

/-- What a file becomes by these writes. -/
def written (f : Bytes) (sent : List Wr) : Bytes := sent.foldl (fun f w => pwrite f w.off w.data) f

/-- Once a write has been refused, all that is acknowledged after it is refused. -/
def Sticky (got : List (Nat × Nat)) : Prop := got.Pairwise fun a b => a.2 ≠ FX_OK → b.2 ≠ FX_OK

/-! ### Paths -/

/-- A component that is not empty or `.`. -/
def component (c : Bytes) : List Bytes := if c = [] ∨ c = b!"." then [] else [c]

/-- The steps a path takes; `cur` is the component so far. -/
def stepsFrom (cur : Bytes) : Bytes → List Bytes
  | [] => component cur
  | c :: l => if c = 47 then component cur ++ stepsFrom [] l else stepsFrom (cur ++ [c]) l

def steps (p : Bytes) : List Bytes := stepsFrom [] p

/-- `p` is `dst` or is reached from it by going down only. -/
def Below (dst p : Bytes) : Prop := dst <+: p ∧ ∃ down, steps p = steps dst ++ down ∧ b!".." ∉ down

end Verif.Sftp.Client
