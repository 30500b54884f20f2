/-
What C15-C18 and C55 claim, stated without the functions of the model.
-/
import Verif.Packet.Model

namespace Verif.Packet
open Verif Wire

/-! ### Senders -/

/-- Message numbers that may be sent during a key exchange: transport layer generic (1-4; not the service
messages 5 and 6 nor the extension message 7), and 8-49 (RFC 4253 section 7.1). -/
def InKex (t : UInt8) : Prop := 1 ≤ t.toNat ∧ t.toNat ≤ 49 ∧ t.toNat ∉ [5, 6, 7]

instance (t : UInt8) : Decidable (InKex t) := by unfold InKex; infer_instance

/-- The types of the messages sent, in order. -/
def sentTypes {σ : Type} (s : Tx σ) : List UInt8 := s.sent.map fun r => r.payload.headD 0

/-- The messages sent that are not key exchange messages, in order. -/
def sentData {σ : Type} (s : Tx σ) : List Bytes :=
  (s.sent.map (·.payload)).filter fun p => decide (¬ InKex (p.headD 0))

/-- The messages handed to the packet layer that are not key exchange messages, in order. -/
def submitted : List TxEvent → List Bytes
  | [] => []
  | .submit _ _ p :: es => if InKex (p.headD 0) then submitted es else p :: submitted es
  | _ :: es => submitted es

/-- Sequence numbers sent in key epoch `e`. -/
def seqsOf {σ : Type} (s : Tx σ) (e : Nat) : List Nat :=
  (s.sent.filter fun r => decide (r.epoch = e)).map (·.seq)

/-- A connection that has not sent anything yet: no keys, nothing queued, all counters zero. -/
structure Fresh {σ : Type} (s : Tx σ) : Prop where
  sent : s.sent = []
  output : s.output = []
  queue : s.queue = []
  epoch : s.epoch = 0
  seqnr : s.seqnr = 0
  packets : s.packets = 0
  initial : s.initial = true
  rekeying : s.rekeying = false
  initSent : s.initSent = false
  done : s.done = false

/-- The sequence number that follows `seq` in one direction, after a message of type `t`. -/
def nextSeq (strict : Bool) (t : UInt8) (seq : Nat) : Nat :=
  if strict = true ∧ t = 21 then 0 else (seq + 1) % 2 ^ 32

/-- Consecutive (type, sequence number) pairs, starting at `n`. -/
def Follows (strict : Bool) : Nat → List (UInt8 × Nat) → Prop
  | _, [] => True
  | n, (t, q) :: rest => q = n ∧ Follows strict (nextSeq strict t q) rest

end Verif.Packet

namespace Verif.Packet
open Verif Wire
variable {σ : Type}

/-! ### Receivers -/

/-- The little that is needed of a cipher for the reader to be independent of how its input is cut: blocks are
not empty, and the length found in a prefix of the input does not change when more arrives. -/
structure Sane (k : Keys σ) : Prop where
  block : 0 < k.blockSize
  getLen : ∀ st q b e n, k.getLen st q b = some n → k.getLen st q (b ++ e) = some n

/-- All keys a receiver has or will have. -/
def SaneRx (r : Rx σ) : Prop := Sane r.keys ∧ ∀ k ∈ r.future, Sane k.1

/-- Two receivers that cannot be told apart any more: equal, or both throwing away the same number of bytes
before failing. -/
def SameRx (a b : Rx σ) : Prop := a = b ∨ (a.discard ≠ 0 ∧ a.discard = b.discard)

/-- Same messages delivered, and same final status. -/
def SameResult (x y : List Msg × Status σ) : Prop :=
  x.1 = y.1 ∧
  match x.2, y.2 with
  | .failed e, .failed e' => e = e'
  | .alive a, .alive b => SameRx a b
  | _, _ => False

/-- What is required of the cryptographic primitives for honest packets to be read back: decryption inverts
encryption with the same context and sequence number, sizes are as the protocol says, ciphers without
authenticated length work block by block and ignore the sequence number, the packet length can be recovered from
its four bytes, and MACs have a fixed length. -/
structure Lawful (k : Keys σ) : Prop where
  block : k.blockSize = 8 ∨ k.blockSize = 16
  enc_len : ∀ st q src n, src.length = k.aadlen + n → n % k.blockSize = 0 →
    (k.enc st q src n k.aadlen).2.length = k.aadlen + n + k.authlen
  dec_enc : ∀ st q src n, src.length = k.aadlen + n → n % k.blockSize = 0 →
    k.dec st q (k.enc st q src n k.aadlen).2 n k.aadlen = some ((k.enc st q src n k.aadlen).1, src)
  getLen_ext : ∀ st q b e n, k.getLen st q b = some n → k.getLen st q (b ++ e) = some n
  getLen_nil : k.aadlen ≠ 0 → ∀ st q, k.getLen st q [] = none
  getLen_enc : k.aadlen ≠ 0 → ∀ st q src n, src.length = k.aadlen + n → n % k.blockSize = 0 →
    k.getLen st q (k.enc st q src n k.aadlen).2 = some (ofBE (src.take 4))
  split : k.aadlen = 0 → ∀ st q a b n m, a.length = n → b.length = m → n % k.blockSize = 0 → m % k.blockSize = 0 →
    k.enc st q (a ++ b) (n + m) 0 =
      ((k.enc (k.enc st q a n 0).1 q b m 0).1, (k.enc st q a n 0).2 ++ (k.enc (k.enc st q a n 0).1 q b m 0).2)
  seq_free : k.aadlen = 0 → ∀ st q q' src n, k.enc st q src n 0 = k.enc st q' src n 0
  mac_len : ∀ m, k.activeMac = some m → ∀ q d, (m.compute q d).length = m.len

/-- The message a sent record stands for. -/
def msgOf (r : Sent) : Msg := ⟨r.payload.headD 0, r.payload.tail, r.seq⟩

/-- A payload the reader accepts: a type byte (not zero) and a total size within the limit. -/
def Small (p : Bytes) : Prop := 1 ≤ p.headD 0 ∧ p.length + 256 ≤ 262144

/-- A receiver at the other end of a sender: same keys, same counters, nothing pending. -/
structure Sync (t : Tx σ) (r : Rx σ) : Prop where
  seqnr : r.seqnr = t.seqnr
  packets : r.packets = t.packets
  keys : r.keys = t.keys
  ctx : r.ctx = t.ctx
  future : r.future = t.future
  epoch : r.epoch = t.epoch
  input : r.input = []
  packlen : r.packlen = 0
  discard : r.discard = 0
  rinit : r.initial = true → r.epoch = 0
  tinit : t.epoch = 0 → t.initial = true

/-- All keys of a connection are lawful. -/
def LawfulTx (t : Tx σ) : Prop := Lawful t.keys ∧ ∀ k ∈ t.future, Lawful k.1

/-- What a receiver accepted: key epoch, sequence number and bytes of every packet it delivered. -/
def accepted (c : Conf) : Nat → Rx σ → List (Nat × Nat × Bytes)
  | 0, _ => []
  | f + 1, s =>
    match poll c s with
    | .packet m s' =>
      (s.epoch, s.seqnr, s.input.take (s.input.length - s'.input.length)) ::
        match handle m s' with
        | .ok s'' => accepted c f s''
        | .error _ => []
    | _ => []

/-- The cryptographic assumption of C17: nobody but the sender can make bytes that pass the receiver's check for
a key epoch and sequence number.  `b` is everything the receiver got, made up by an attacker who saw `log`. -/
def Unforged (c : Conf) (r : Rx σ) (b : Bytes) (log : List Sent) : Prop :=
  ∀ a ∈ accepted c (b.length + 2) { r with input := r.input ++ b }, ∃ x ∈ log, a = (x.epoch, x.seq, x.wire)

/-- The check a packet `w` passed, for each kind of protection: authenticated encryption; MAC over the sequence
number and the encrypted packet; MAC over the sequence number and the plain packet.  With no MAC (before the first
key exchange) there is none. -/
def Checked (k : Keys σ) (q : Nat) (ctx : σ) (w : Bytes) : Prop :=
  (k.authlen ≠ 0 → ∃ n r, k.dec ctx q w n 4 = some r ∧ w.length = 4 + n + k.authlen) ∧
  (∀ m, k.authlen = 0 → k.mac = some m → m.etm = true → ∃ d, w = d ++ m.compute q d) ∧
  (∀ m, k.authlen = 0 → k.mac = some m → m.etm = false →
    ∃ d1 d2 q1 p1 p2 x1 x2 n, w = d1 ++ d2 ++ m.compute q (p1 ++ p2) ∧ d1.length = k.blockSize ∧
      k.dec ctx q1 d1 k.blockSize 0 = some (x1, p1) ∧ k.dec x1 q d2 n 0 = some (x2, p2))

end Verif.Packet
