/-
Concrete, if weak, ciphers and MACs: they show that the assumptions of the packet theorems can be met by keys
that do change the bytes, and the examples run complete connections.
-/
import Verif.Packet.RoundTrip

namespace Verif.Packet
open Verif Wire

/-! ### A stream cipher whose context is the position in the key stream -/

def xorAt : Nat → Bytes → Bytes
  | _, [] => []
  | i, b :: l => (b ^^^ UInt8.ofNat (7 * i + 3)) :: xorAt (i + 1) l

theorem xorAt_length (i : Nat) (l : Bytes) : (xorAt i l).length = l.length := by
  induction l generalizing i with
  | nil => rfl
  | cons b l ih => simp [xorAt, ih]

theorem xorAt_xorAt (i : Nat) (l : Bytes) : xorAt i (xorAt i l) = l := by
  induction l generalizing i with
  | nil => rfl
  | cons b l ih => simp [xorAt, ih, UInt8.xor_assoc]

theorem xorAt_append (i : Nat) (a b : Bytes) : xorAt i (a ++ b) = xorAt i a ++ xorAt (i + a.length) b := by
  induction a generalizing i with
  | nil => simp [xorAt]
  | cons x a ih =>
    simp only [List.cons_append, xorAt, ih, List.length_cons, List.cons.injEq, true_and]
    rw [show i + 1 + a.length = i + (a.length + 1) by omega]

/-- Sum of the bytes. -/
def sum (d : Bytes) : Nat := d.foldl (fun n b => 31 * n + b.toNat) 0

def toyMac (etm : Bool) : Mac where
  etm := etm
  len := 4
  compute := fun q d => be 4 (7 * q + sum d + 1)

/-- Cipher with a separate MAC. -/
def toyKeys (etm : Bool) : Keys Nat where
  blockSize := 8
  authlen := 0
  cbc := false
  enc := fun st _ src n a => (st + n, src.take a ++ xorAt st (src.drop a))
  dec := fun st _ src n a => if src.length = a + n then some (st + n, src.take a ++ xorAt st (src.drop a)) else none
  getLen := fun _ _ b => if b.length < 4 then none else some (ofBE (b.take 4))
  mac := some (toyMac etm)

/-- Authenticated cipher: the tag covers sequence number, length and ciphertext. -/
def toyAead : Keys Nat where
  blockSize := 16
  authlen := 4
  cbc := false
  enc := fun st q src n a =>
    (st + n, (src.take a ++ xorAt st (src.drop a)) ++ be 4 (7 * q + sum (src.take a ++ xorAt st (src.drop a)) + 1))
  dec := fun st q src n a =>
    if src.length = a + n + 4 ∧ src.drop (a + n) = be 4 (7 * q + sum (src.take (a + n)) + 1) then
      some (st + n, (src.take a) ++ xorAt st ((src.take (a + n)).drop a)) else none
  getLen := fun _ _ b => if b.length < 4 then none else some (ofBE (b.take 4))
  mac := none

theorem len4 (b e : Bytes) (n : Nat) (h : (if b.length < 4 then none else some (ofBE (b.take 4))) = some n) :
    (if (b ++ e).length < 4 then none else some (ofBE ((b ++ e).take 4))) = some n := by
  split at h
  · cases h
  · rename_i hl
    rw [if_neg (by rw [List.length_append]; omega), List.take_append_of_le_length (by omega)]
    exact h

theorem lawful_plain (σ : Type) : Lawful (plainKeys σ) := by
  have ha : (plainKeys σ).aadlen = 0 := rfl
  refine ⟨.inl rfl, ?_, ?_, ?_, fun h => absurd ha h, fun h => absurd ha h, ?_, fun _ _ _ _ _ _ => rfl, ?_⟩
  · intro st q src n h _
    rw [ha] at h ⊢; exact h
  · intro st q src n h _
    rw [ha] at h ⊢
    simp only [plainKeys]
    rw [if_pos (by omega)]
  · intro st q b e n h
    exact len4 b e n h
  · intro _ st q a b n m h1 h2 _ _
    rfl
  · intro m hm
    simp [plainKeys, Keys.activeMac] at hm

theorem toy_aad (etm : Bool) : (toyKeys etm).aadlen = if etm then 4 else 0 := by
  cases etm <;> rfl

theorem lawful_toy (etm : Bool) : Lawful (toyKeys etm) := by
  refine ⟨.inl rfl, ?_, ?_, ?_, ?_, ?_, ?_, fun _ _ _ _ _ _ => rfl, ?_⟩
  · intro st q src n h _
    simp only [toyKeys, List.length_append, xorAt_length, List.length_take, List.length_drop] at h ⊢
    omega
  · intro st q src n h _
    generalize (toyKeys etm).aadlen = a at *
    simp only [toyKeys, List.length_append, xorAt_length, List.length_take, List.length_drop]
    rw [if_pos (by omega)]
    have e1 : (src.take a ++ xorAt st (src.drop a)).take a = src.take a := by
      rw [List.take_append_of_le_length (by rw [List.length_take]; omega), List.take_of_length_le (by rw [List.length_take]; omega)]
    have e2 : (src.take a ++ xorAt st (src.drop a)).drop a = xorAt st (src.drop a) := by
      rw [List.drop_append, List.drop_of_length_le (by rw [List.length_take]; omega), List.length_take,
        show a - min a src.length = 0 by omega]
      simp
    rw [e1, e2, xorAt_xorAt, List.take_append_drop]
  · intro st q b e n h
    exact len4 b e n h
  · intro _ st q; rfl
  · intro ha st q src n h _
    have : (toyKeys etm).aadlen = 4 := by rw [toy_aad] at ha ⊢; cases etm <;> simp_all
    rw [this] at h ⊢
    simp only [toyKeys, List.length_append, xorAt_length, List.length_take, List.length_drop]
    rw [if_neg (by omega), List.take_append_of_le_length (by rw [List.length_take]; omega), List.take_take]
    rfl
  · intro _ st q a b n m h1 h2 _ _
    simp only [toyKeys, List.take_zero, List.drop_zero, List.nil_append, xorAt_append, h1, Nat.add_assoc]
  · intro m hm q d
    have : m = toyMac etm := by
      have : (toyKeys etm).activeMac = some (toyMac etm) := rfl
      rw [this] at hm; simpa using hm.symm
    subst this
    simp [toyMac]

theorem lawful_aead : Lawful toyAead := by
  have ha : toyAead.aadlen = 4 := rfl
  refine ⟨.inr rfl, ?_, ?_, ?_, fun _ _ _ => rfl, ?_, fun h => absurd (ha ▸ h) (by decide), fun h => absurd (ha ▸ h) (by decide), ?_⟩
  · intro st q src n h _
    simp only [toyAead, List.length_append, xorAt_length, List.length_take, List.length_drop, be_length] at h ⊢
    omega
  · intro st q src n h _
    rw [ha] at h ⊢
    simp only [toyAead]
    generalize hc : src.take 4 ++ xorAt st (src.drop 4) = ct
    have hl : ct.length = 4 + n := by
      rw [← hc]; simp only [List.length_append, xorAt_length, List.length_take, List.length_drop]; omega
    have t1 : ∀ x : Bytes, (ct ++ x).take (4 + n) = ct := fun x => by
      rw [List.take_append_of_le_length (by omega), List.take_of_length_le (by omega)]
    have t2 : ∀ x : Bytes, (ct ++ x).drop (4 + n) = x := fun x => by
      rw [List.drop_append, List.drop_of_length_le (by omega)]; simp [hl]
    rw [t1, t2, if_pos ⟨by simp [hl], rfl⟩]
    have t3 : ∀ x : Bytes, (ct ++ x).take 4 = src.take 4 := fun x => by
      rw [← hc, List.append_assoc, List.take_append_of_le_length (by rw [List.length_take]; omega),
        List.take_of_length_le (by rw [List.length_take]; omega)]
    have t4 : ct.drop 4 = xorAt st (src.drop 4) := by
      rw [← hc, List.drop_append, List.drop_of_length_le (by rw [List.length_take]; omega), List.length_take,
        show 4 - min 4 src.length = 0 by omega]
      simp
    rw [t3, t4, xorAt_xorAt, List.take_append_drop]
  · intro st q b e n h
    exact len4 b e n h
  · intro _ st q src n h _
    rw [ha] at h ⊢
    simp only [toyAead, List.length_append, xorAt_length, List.length_take, List.length_drop]
    rw [if_neg (by omega), List.append_assoc, List.take_append_of_le_length (by rw [List.length_take]; omega), List.take_take]
    rfl
  · intro m hm
    simp [toyAead, Keys.activeMac] at hm

/-! ### A complete connection -/

def conf : Conf := { strict := true, noRekey := false, serverSide := true, rekeyInterval := 0, rekeyLimit := 0, kexinit := [1, 2, 3] }

/-- A sender whose successive keys are of the three kinds. -/
def tx0 : Tx Nat := { ctx := 0, future := [(toyKeys false, 5), (toyKeys true, 9), (toyAead, 1)] }
def rx0 : Rx Nat := { ctx := 0, future := [(toyKeys false, 5), (toyKeys true, 9), (toyAead, 1)] }

def env : Env := { now := 0, readPackets := 1, readBlocks := 0, readMaxBlocks := 0 }
def rnd : Nat → Nat → UInt8 := fun i j => UInt8.ofNat (3 * i + j)

/-- Three key exchanges with data before, between and during them (message 94 is channel data; the one sent
between KEXINIT and NEWKEYS is queued). -/
def history : List TxEvent :=
  [.kexinit (rnd 1), .submit env rnd [30, 1], .submit env rnd [21], .peerNewkeys, .auth,
   .pad 64, .submit env rnd [50, 9, 9, 9], .submit env rnd [94, 1, 2, 3],
   .kexinit (rnd 2), .submit env rnd [94, 4, 4], .submit env rnd [30, 2], .submit env rnd [21], .peerNewkeys,
   .submit env rnd [94, 5], .kexinit (rnd 3), .submit env rnd [21], .peerNewkeys, .submit env rnd [94, 6]]

theorem fresh_tx0 : Fresh tx0 := ⟨rfl, rfl, rfl, rfl, rfl, rfl, rfl, rfl, rfl, rfl⟩

theorem lawful_tx0 : LawfulTx tx0 := by
  refine ⟨lawful_plain _, ?_⟩
  intro k hk
  simp only [tx0, List.mem_cons, List.not_mem_nil, or_false] at hk
  rcases hk with rfl | rfl | rfl
  · exact lawful_toy _
  · exact lawful_toy _
  · exact lawful_aead

theorem sync0 : Sync tx0 rx0 := ⟨rfl, rfl, rfl, rfl, rfl, rfl, rfl, rfl, rfl, fun _ => rfl, fun _ => rfl⟩

instance (p : Bytes) : Decidable (Small p) := by unfold Small; infer_instance

def Res.isOk {σ : Type} : Res σ → Bool
  | .ok _ => true
  | .err _ _ => false

theorem Res.eq_ok {σ : Type} {r : Res σ} (h : r.isOk = true) : r = .ok r.state := by
  cases r
  · rfl
  · cases h

/-- The run ends well, in the last key epoch; the queued message went out after NEWKEYS, under the new keys. -/
theorem history_ok : (txRun conf tx0 history).isOk = true ∧
    (txRun conf tx0 history).state.sent.map (fun r => (r.epoch, r.seq, r.payload)) =
        [(0, 0, [20, 1, 2, 3]), (0, 1, [30, 1]), (0, 2, [21]), (1, 0, [50, 9, 9, 9]), (1, 1, [94, 1, 2, 3]),
         (1, 2, [20, 1, 2, 3]), (1, 3, [30, 2]), (1, 4, [21]), (2, 0, [94, 4, 4]), (2, 1, [94, 5]),
         (2, 2, [20, 1, 2, 3]), (2, 3, [21]), (3, 0, [94, 6])] ∧
    ∀ r ∈ (txRun conf tx0 history).state.sent, Small r.payload := by decide +kernel

/-- Its output, received in chunks of 7 bytes. -/
def output : Bytes := (txRun conf tx0 history).state.output

def chunksOf (n : Nat) : Nat → Bytes → List Bytes
  | 0, b => [b]
  | f + 1, b => b.take n :: chunksOf n f (b.drop n)

example : (recvAll conf rx0 (chunksOf 7 100 output)).1.map (fun m => (m.typ, m.body)) =
    [(20, [1, 2, 3]), (30, [1]), (21, []), (50, [9, 9, 9]), (94, [1, 2, 3]), (20, [1, 2, 3]), (30, [2]), (21, []),
     (94, [4, 4]), (94, [5]), (20, [1, 2, 3]), (21, []), (94, [6])] := by decide +kernel

/-- One bit changed in a packet of the second epoch: everything before it is delivered, then nothing. -/
example : ((recvAll conf rx0 (chunksOf 7 100 (output.set 150 (output.getD 150 0 ^^^ 1)))).1.length,
    (match (recvAll conf rx0 (chunksOf 7 100 (output.set 150 (output.getD 150 0 ^^^ 1)))).2 with
      | .failed e => some e | .alive _ => none)) = (5, some .macInvalid) := by decide +kernel

/-- The hypotheses of `C17_prefix` hold for this run and an attacker who cuts the stream short (with `es₁` empty;
the attacker's bytes are the first 200). -/
example : ∃ t, txRun conf tx0 history = .ok t ∧ (∀ x ∈ t.sent, Small x.payload) ∧
    Unforged conf rx0 (output.take 200) t.sent ∧ (recvAll conf rx0 [output.take 200]).1.length = 8 := by
  refine ⟨_, Res.eq_ok history_ok.1, history_ok.2.2, ?_, by decide +kernel⟩
  have : ∀ a ∈ accepted conf ((output.take 200).length + 2) { rx0 with input := rx0.input ++ output.take 200 },
      ∃ x ∈ (txRun conf tx0 history).state.sent, a = (x.epoch, x.seq, x.wire) := by decide +kernel
  exact this

end Verif.Packet
