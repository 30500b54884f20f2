/-
Several buffers sharing storage: `sshbuf_fromb`, `sshbuf_froms`, `sshbuf_set_parent` and `sshbuf_free` of
/repo/sshbuf.c and /repo/sshbuf-getput-basic.c, with an explicit heap.

Objects and storage blocks have addresses that are never used again; using one after it was freed, freeing it
twice, or writing to or freeing memory of somebody else, is the distinct outcome `fault`.  What a single call does to one buffer is `exec` of the single-buffer
model, run on what the buffer points to.  A resized storage is always a new block (the worst case of
`recallocarray`).  Memory given to `sshbuf_from` by its caller is a block that nobody frees here.
-/
import Verif.SshBuf.Frame

namespace Verif.SshBuf
open Verif Wire

/-- sshbuf.c:41-51 `struct sshbuf`; `blk`/`base`: what `cd` points to. -/
structure Obj where
  blk : Nat
  base : Nat
  off : Nat
  size : Nat
  maxSize : Nat
  alloc : Nat
  readonly : Bool
  refcount : Nat
  parent : Option Nat

structure Heap where
  objs : Nat → Option Obj := fun _ => none
  blks : Nat → Option Bytes := fun _ => none
  extern : Nat → Bool := fun _ => false   -- blocks that belong to the caller of `sshbuf_from`
  nextO : Nat := 0
  nextB : Nat := 0

def upd (f : Nat → Option α) (i : Nat) (v : Option α) : Nat → Option α := fun j => if j = i then v else f j

def Heap.setO (h : Heap) (i : Nat) (o : Option Obj) : Heap := { h with objs := upd h.objs i o }

/-- The single-buffer view of an object. -/
def Obj.view (o : Obj) (bytes : Bytes) : Buf :=
  { d := if o.readonly then (bytes.drop o.base).take o.alloc else bytes
    off := o.off, size := o.size, maxSize := o.maxSize, alloc := o.alloc, readonly := o.readonly, refcount := o.refcount }

def Obj.with (o : Obj) (b : Buf) : Obj :=
  { o with off := b.off, size := b.size, maxSize := b.maxSize, alloc := b.alloc, readonly := b.readonly, refcount := b.refcount }

/-- Outcomes: `fault` is a use of freed memory, a double free, or a write to or free of memory that
is not the buffer's own; `stop` is
an abort by the sanity check or an access outside the storage (see C01). -/
inductive Out (α : Type)
  | ok (a : α)
  | fault
  | stop

/-- The buffer after a call: same block, or a new one if the storage was resized. -/
def writeBack (h : Heap) (i : Nat) (o : Obj) (bytes : Bytes) (b' : Buf) : Out Heap :=
  if o.readonly then
    if b'.d = (o.view bytes).d then .ok (h.setO i (some (o.with b'))) else .fault
  else if h.extern o.blk then .fault
  else if b'.d.length = bytes.length then
    .ok { h.setO i (some (o.with b')) with blks := upd h.blks o.blk (some b'.d) }
  else
    .ok { h.setO i (some { o.with b' with blk := h.nextB }) with
      blks := upd (upd h.blks o.blk none) h.nextB (some b'.d), nextB := h.nextB + 1 }

/-- Any call on one buffer (the functions of the single-buffer model). -/
def callB (h : Heap) (i : Nat) (x : SB α) : Out (Res α × Heap) :=
  match h.objs i with
  | none => .fault
  | some o =>
    match h.blks o.blk with
    | none => .fault
    | some bytes =>
      match x (o.view bytes) with
      | (.abort, _) => .stop
      | (.ub, _) => .stop
      | (r, b') =>
        match writeBack h i o bytes b' with
        | .ok h' => .ok (r, h')
        | .fault => .fault
        | .stop => .stop

/-- sshbuf.c:92-109 `sshbuf_new`. -/
def newH (h : Heap) : Heap :=
  { h with
    objs := upd h.objs h.nextO (some { blk := h.nextB, base := 0, off := 0, size := 0, maxSize := SIZE_MAX_BUF, alloc := SIZE_INIT, readonly := false, refcount := 1, parent := none })
    blks := upd h.blks h.nextB (some (List.replicate SIZE_INIT 0))
    nextO := h.nextO + 1
    nextB := h.nextB + 1 }

/-- A read-only object over `len` bytes at `base` of block `blk`. -/
def roObj (blk base len : Nat) (parent : Option Nat) : Obj :=
  { blk := blk, base := base, off := 0, size := len, maxSize := len, alloc := len, readonly := true, refcount := 1, parent := parent }

/-- sshbuf.c:111-126 `sshbuf_from`, on memory of the caller. -/
def fromH (h : Heap) (bytes : Bytes) : Heap :=
  { objs := upd h.objs h.nextO (some (roObj h.nextB 0 bytes.length none))
    blks := upd h.blks h.nextB (some bytes)
    extern := fun b => if b = h.nextB then true else h.extern b
    nextO := h.nextO + 1
    nextB := h.nextB + 1 }

/-- sshbuf.c:128-142 `sshbuf_set_parent` on a child just created; the child is `child`. -/
def adopt (h : Heap) (i : Nat) (o : Obj) (child : Obj) : Heap :=
  { h with
    objs := upd (upd h.objs i (some { o with refcount := o.refcount + 1 })) h.nextO (some { child with parent := some i })
    nextO := h.nextO + 1 }

/-- sshbuf.c:144-158 `sshbuf_fromb`; `none`: NULL. -/
def fromb (h : Heap) (i : Nat) (mem : Bool) : Out (Option Nat × Heap) :=
  match h.objs i with
  | none => .fault
  | some o =>
    match h.blks o.blk with
    | none => .fault
    | some bytes =>
      if insane (o.view bytes) then .stop
      else if mem then .ok (some h.nextO, adopt h i o (roObj o.blk (o.base + o.off) (o.size - o.off) none))
      else .ok (none, h)

/-- sshbuf-getput-basic.c:546-568 `sshbuf_froms`; `none`: an error was returned. -/
def froms (h : Heap) (i : Nat) (mem : Bool) : Out (Option Nat × Heap) :=
  match callB h i peekStringDirect with
  | .fault => .fault
  | .stop => .stop
  | .ok (.ok (p, n), h1) =>
    if mem then
      match callB h1 i (consume (szAdd n 4)) with
      | .fault => .fault
      | .stop => .stop
      | .ok (.ok _, h2) =>
        match h1.objs i, h2.objs i with
        | some o1, some o2 => .ok (some h2.nextO, adopt h2 i o2 (roObj o1.blk (o1.base + p) n none))
        | _, _ => .fault
      | .ok (_, h2) => .ok (none, h2)
    else .ok (none, h1)
  | .ok (_, h1) => .ok (none, h1)

/-- sshbuf.c:190-192, the end of `sshbuf_free`: `freezero` of the storage and of the structure. -/
def release (h : Heap) (i : Nat) (o : Obj) : Out Heap :=
  if o.readonly then .ok (h.setO i none)
  else
    match h.blks o.blk with
    | none => .fault
    | some _ =>
      if h.extern o.blk then .fault
      else .ok { h.setO i none with blks := upd h.blks o.blk none }

/-- sshbuf.c:160-193 `sshbuf_free`; the recursion follows parent pointers. -/
def free : Nat → Heap → Nat → Out Heap
  | 0, _, _ => .stop
  | fuel + 1, h, i =>
    match h.objs i with
    | none => .fault
    | some o =>
      -- the sanity check does not look at the storage
      if insane (o.view []) then .stop
      else if o.refcount - 1 > 0 then .ok (h.setO i (some { o with refcount := o.refcount - 1 }))
      else
        let h := h.setO i (some { o with refcount := o.refcount - 1 })
        match o.parent with
        | some p =>
          match free fuel h p with
          | .fault => .fault
          | .stop => .stop
          | .ok h => release h i o
        | none => release h i o

/-- What users of the API do.  Each user holds some buffers (has a pointer from a constructor and has not freed
it). -/
inductive Ev
  | new
  | ext (bytes : Bytes)
  | call (i : Nat) (op : Op) (mem : Bool)
  | fromb (i : Nat) (mem : Bool)
  | froms (i : Nat) (mem : Bool)
  | free (i : Nat)

structure World where
  heap : Heap := {}
  held : Nat → Bool := fun _ => false

def World.hold (w : World) (i : Nat) (v : Bool) : Nat → Bool := fun j => if j = i then v else w.held j

/-- The buffer an event acts on. -/
def Ev.target : Ev → Option Nat
  | .new => none
  | .ext _ => none
  | .call i _ _ => some i
  | .fromb i _ => some i
  | .froms i _ => some i
  | .free i => some i

def step (w : World) : Ev → Out World
  | .new => .ok { heap := newH w.heap, held := w.hold w.heap.nextO true }
  | .ext b =>
    if b.length > SIZE_MAX_BUF then .ok w   -- NULL
    else .ok { heap := fromH w.heap b, held := w.hold w.heap.nextO true }
  | .call i op mem =>
    match callB w.heap i (exec op mem) with
    | .fault => .fault
    | .stop => .stop
    | .ok (_, h) => .ok { w with heap := h }
  | .fromb i mem =>
    match fromb w.heap i mem with
    | .fault => .fault
    | .stop => .stop
    | .ok (none, h) => .ok { w with heap := h }
    | .ok (some c, h) => .ok { heap := h, held := w.hold c true }
  | .froms i mem =>
    match froms w.heap i mem with
    | .fault => .fault
    | .stop => .stop
    | .ok (none, h) => .ok { w with heap := h }
    | .ok (some c, h) => .ok { heap := h, held := w.hold c true }
  | .free i =>
    match free (i + 1) w.heap i with
    | .fault => .fault
    | .stop => .stop
    | .ok h => .ok { heap := h, held := w.hold i false }

/-- A history in which users only touch buffers they hold; ends early when the process stops. -/
inductive Run : World → List Ev → Out World → Prop
  | nil (w : World) : Run w [] (.ok w)
  | ok {w w' : World} {e : Ev} {es : List Ev} {r : Out World} :
      (∀ i, e.target = some i → w.held i = true) → step w e = .ok w' → Run w' es r → Run w (e :: es) r
  | bad {w : World} {e : Ev} {es : List Ev} :
      (∀ i, e.target = some i → w.held i = true) → step w e = .fault → Run w (e :: es) .fault
  | stop {w : World} {e : Ev} {es : List Ev} :
      (∀ i, e.target = some i → w.held i = true) → step w e = .stop → Run w (e :: es) .stop

end Verif.SshBuf
