/- One-step simulation of the buffer code by the queue specification. -/
import Verif.SshBuf.Lemmas

namespace Verif.SshBuf
open Verif Wire

/-- Executing one API call on the concrete buffer (the functions of `Verif.SshBuf.Model`). -/
def exec : Op → Bool → SB Val
  | .put v, m => do put v m; pure .unit
  | .putf v, m => do putfv v m; pure .unit
  | .putU8 v, m => do putU8 v m; pure .unit
  | .putU16 v, m => do putU16 v m; pure .unit
  | .putU32 v, m => do putU32 v m; pure .unit
  | .putU64 v, m => do putU64 v m; pure .unit
  | .putString v, m => do putString v m; pure .unit
  | .putBignum v, m => do putBignum2Bytes v m; pure .unit
  | .reserve n, m => do let _ ← reserve n m; pure .unit
  | .consume n, _ => do consume n; pure .unit
  | .consumeEnd n, _ => do consumeEnd n; pure .unit
  | .reset, m => do reset m; pure .unit
  | .setMax n, m => do setMaxSize n m; pure .unit
  | .get n, _ => do let v ← get n; pure (.bytes v)
  | .getU8, _ => do let v ← getU8; pure (.num v.toNat)
  | .getU16, _ => do let v ← getU16; pure (.num v.toNat)
  | .getU32, _ => do let v ← getU32; pure (.num v.toNat)
  | .getU64, _ => do let v ← getU64; pure (.num v.toNat)
  | .getString, m => do let v ← getString m; pure (.bytes v)
  | .getCString, m => do let v ← getCString m; pure (.bytes v)
  | .getBignum, _ => do let v ← getBignum2Bytes; pure (.bytes v)
  | .peekU8 o, _ => do let v ← peekU8At o; pure (.num v.toNat)
  | .peekU16 o, _ => do let v ← peekU16At o; pure (.num v.toNat)
  | .peekU32 o, _ => do let v ← peekU32At o; pure (.num v.toNat)
  | .peekU64 o, _ => do let v ← peekU64At o; pure (.num v.toNat)
  | .poke o v, _ => do poke o v; pure .unit
  | .len, _ => do let n ← len; pure (.num n)
  | .avail, _ => do let n ← avail; pure (.num n)
  | .dupString, m => do
      let v ← dupString m
      pure (match v with | none => .null | some v => .bytes v)
  | .cmp o s, _ => do cmp o s; pure .unit
  | .find o s, _ => do let n ← find o s; pure (.num n)
  | .readFd r n, m => do let n ← readFd r n m; pure (.num n)

/-- The abstract queue a concrete buffer represents. -/
def Buf.queue (b : Buf) : Queue := ⟨b.contents, b.maxSize, b.writable⟩

/-- One call is simulated: no undefined behaviour or abort, invariant kept, specification followed. -/
def StepOK (b : Buf) (op : Op) (mem : Bool) : Prop :=
  ∃ r b', exec op mem b = (r, b') ∧ b'.WF ∧ r ≠ .abort ∧ r ≠ .ub ∧ SpecStep mem b.queue op r b'.queue

/-! ### integers -/

theorem poke_peek32 (p0 p1 p2 p3 : UInt8) : pokeU32 (peekU32 [p0,p1,p2,p3]) = [p0,p1,p2,p3] := by
  simp only [pokeU32, peekU32, List.cons.injEq, and_true]
  refine ⟨?_, ?_, ?_, ?_⟩ <;>
  · apply UInt8.eq_of_toBitVec_eq
    apply BitVec.eq_of_getLsbD_eq
    intro i hi
    simp [BitVec.getLsbD_setWidth]
    have : i = 0 ∨ i = 1 ∨ i = 2 ∨ i = 3 ∨ i = 4 ∨ i = 5 ∨ i = 6 ∨ i = 7 := by omega
    rcases this with rfl|rfl|rfl|rfl|rfl|rfl|rfl|rfl <;> simp

theorem poke_peek16 (p0 p1 : UInt8) : pokeU16 (peekU16 [p0,p1]) = [p0,p1] := by
  simp only [pokeU16, peekU16, List.cons.injEq, and_true]
  refine ⟨?_, ?_⟩ <;>
  · apply UInt8.eq_of_toBitVec_eq
    apply BitVec.eq_of_getLsbD_eq
    intro i hi
    simp [BitVec.getLsbD_setWidth]
    have : i = 0 ∨ i = 1 ∨ i = 2 ∨ i = 3 ∨ i = 4 ∨ i = 5 ∨ i = 6 ∨ i = 7 := by omega
    rcases this with rfl|rfl|rfl|rfl|rfl|rfl|rfl|rfl <;> simp

theorem poke_peek64 (p0 p1 p2 p3 p4 p5 p6 p7 : UInt8) :
    pokeU64 (peekU64 [p0,p1,p2,p3,p4,p5,p6,p7]) = [p0,p1,p2,p3,p4,p5,p6,p7] := by
  simp only [pokeU64, peekU64, List.cons.injEq, and_true]
  refine ⟨?_, ?_, ?_, ?_,?_, ?_, ?_, ?_⟩ <;>
  · apply UInt8.eq_of_toBitVec_eq
    apply BitVec.eq_of_getLsbD_eq
    intro i hi
    simp [BitVec.getLsbD_setWidth]
    have : i = 0 ∨ i = 1 ∨ i = 2 ∨ i = 3 ∨ i = 4 ∨ i = 5 ∨ i = 6 ∨ i = 7 := by omega
    rcases this with rfl|rfl|rfl|rfl|rfl|rfl|rfl|rfl <;> simp

theorem pokeU64_eq (v : UInt64) : pokeU64 v = be 8 v.toNat := by
  simp [be, pokeU64, ← UInt8.toNat_inj, Nat.shiftRight_eq_div_pow]
  refine ⟨?_, ?_, ?_, ?_,?_, ?_, ?_, ?_⟩ <;> exact (Nat.and_two_pow_sub_one_eq_mod _ 8).trans (by simp)
theorem pokeU32_eq (v : UInt32) : pokeU32 v = be 4 v.toNat := by
  simp [be, pokeU32, ← UInt8.toNat_inj, Nat.shiftRight_eq_div_pow]
  refine ⟨?_, ?_, ?_, ?_⟩ <;> exact (Nat.and_two_pow_sub_one_eq_mod _ 8).trans (by simp)
theorem pokeU16_eq (v : UInt16) : pokeU16 v = be 2 v.toNat := by
  simp [be, pokeU16, ← UInt8.toNat_inj, Nat.shiftRight_eq_div_pow]
  refine ⟨?_, ?_⟩ <;> exact (Nat.and_two_pow_sub_one_eq_mod _ 8).trans (by simp)

theorem peekU64_eq {l : Bytes} (h : l.length = 8) : (peekU64 l).toNat = ofBE l := by
  match l, h with
  | [p0,p1,p2,p3,p4,p5,p6,p7], _ =>
    rw [← poke_peek64 p0 p1 p2 p3 p4 p5 p6 p7, pokeU64_eq, ofBE_be_of_lt (by have := UInt64.toNat_lt (peekU64 [p0,p1,p2,p3,p4,p5,p6,p7]); omega), ← pokeU64_eq, poke_peek64]
theorem peekU32_eq {l : Bytes} (h : l.length = 4) : (peekU32 l).toNat = ofBE l := by
  match l, h with
  | [p0,p1,p2,p3], _ =>
    rw [← poke_peek32 p0 p1 p2 p3, pokeU32_eq, ofBE_be_of_lt (by have := UInt32.toNat_lt (peekU32 [p0,p1,p2,p3]); omega), ← pokeU32_eq, poke_peek32]
theorem peekU16_eq {l : Bytes} (h : l.length = 2) : (peekU16 l).toNat = ofBE l := by
  match l, h with
  | [p0,p1], _ =>
    rw [← poke_peek16 p0 p1, pokeU16_eq, ofBE_be_of_lt (by have := UInt16.toNat_lt (peekU16 [p0,p1]); omega), ← pokeU16_eq, poke_peek16]
theorem headD_eq {l : Bytes} (h : l.length = 1) : (l.headD 0).toNat = ofBE l := by
  match l, h with
  | [p0], _ => simp [ofBE]

/-! ### appending -/

/-- From the outcome of reserve-and-fill to the specification of appending. -/
theorem append_step {b : Buf} (h : b.WF) (v : Bytes) (mem : Bool) (x : SB Unit) (fill : Nat → SB Unit)
    (hx : x = (reserve v.length mem >>= fill))
    (hfill : ∀ (b1 : Buf) (p : Nat), b1.WF → b1.off ≤ p → p + v.length = b1.size →
      ∃ b2, fill p b1 = (.ok (), b2) ∧ b2.WF ∧ b2.maxSize = b1.maxSize ∧ b2.readonly = b1.readonly ∧
        b2.refcount = b1.refcount ∧ b2.contents = b1.contents.take (p - b1.off) ++ v) :
    ∃ r b', (do x; pure Val.unit : SB Val) b = (r, b') ∧ b'.WF ∧ r ≠ .abort ∧ r ≠ .ub ∧
      ((r, b'.queue) = b.queue.append v ∨ NoMem mem r b'.queue b.queue) := by
  have hw' : ∀ b' : Buf, b'.readonly = b.readonly → b'.refcount = b.refcount → b'.writable = b.writable := by
    intro b' h1 h2; simp [Buf.writable, h1, h2]
  rcases reserve_fill h v mem fill hfill with ⟨hw, he⟩ | ⟨hw, hs, he⟩ |
    ⟨hw, hs, b1, hwf, hm, hr, hrc, ⟨hmem, hcont, he⟩ | ⟨he, hcont⟩⟩
  · refine ⟨.err .readOnly, b, by rw [bind_apply, hx, he], h, by simp, by simp, .inl ?_⟩
    simp [Queue.append, Buf.queue, hw]
  · refine ⟨.err .noSpace, b, by rw [bind_apply, hx, he], h, by simp, by simp, .inl ?_⟩
    simp [Queue.append, Buf.queue, hw]; omega
  · refine ⟨.err .allocFail, b1, by rw [bind_apply, hx, he], hwf, by simp, by simp, .inr ⟨hmem, ?_⟩⟩
    simp [Buf.queue, hcont, hm, hw' b1 hr hrc]
  · refine ⟨.ok .unit, b1, by rw [bind_apply, hx, he]; rfl, hwf, by simp, by simp, .inl ?_⟩
    simp [Queue.append, Buf.queue, hcont, hm, hw' b1 hr hrc, hw]; omega

theorem step_put {b : Buf} (h : b.WF) (v : Bytes) (mem : Bool) : StepOK b (.put v) mem := by
  refine append_step h v mem (put v mem) (fun p => if v.length ≠ 0 then memWrite p v else pure ()) rfl ?_
  intro b1 p hwf h1 h2
  by_cases hv : v.length = 0
  · have : v = [] := List.length_eq_zero_iff.1 hv
    subst this
    refine ⟨b1, by simp, hwf, rfl, rfl, rfl, ?_⟩
    rw [List.take_of_length_le]; simp
    rw [contents_length hwf]; simp at h2; omega
  · simp only [ne_eq, hv, not_false_eq_true, if_true]
    exact fill_write v b1 p hwf h1 h2

theorem step_putU8 {b : Buf} (h : b.WF) (v : UInt8) (mem : Bool) : StepOK b (.putU8 v) mem :=
  append_step h [v] mem (putU8 v mem) (fun p => memWrite p [v]) rfl (fill_write [v])
theorem step_putU16 {b : Buf} (h : b.WF) (v : UInt16) (mem : Bool) : StepOK b (.putU16 v) mem := by
  have := append_step h (pokeU16 v) mem (putU16 v mem) (fun p => memWrite p (pokeU16 v)) rfl (fill_write _)
  rw [pokeU16_eq] at this; exact this
theorem step_putU32 {b : Buf} (h : b.WF) (v : UInt32) (mem : Bool) : StepOK b (.putU32 v) mem := by
  have := append_step h (pokeU32 v) mem (putU32 v mem) (fun p => memWrite p (pokeU32 v)) rfl (fill_write _)
  rw [pokeU32_eq] at this; exact this
theorem step_putU64 {b : Buf} (h : b.WF) (v : UInt64) (mem : Bool) : StepOK b (.putU64 v) mem := by
  have := append_step h (pokeU64 v) mem (putU64 v mem) (fun p => memWrite p (pokeU64 v)) rfl (fill_write _)
  rw [pokeU64_eq] at this; exact this

theorem ofNat_len {n : Nat} (h : n ≤ maxString) : pokeU32 (UInt32.ofNat n) = be 4 n := by
  rw [pokeU32_eq]; congr 1; simp; omega

theorem step_putString {b : Buf} (h : b.WF) (v : Bytes) (mem : Bool) : StepOK b (.putString v) mem := by
  by_cases hv : v.length > maxString
  · refine ⟨.err .noSpace, b, ?_, h, by simp, by simp, ?_⟩
    · simp only [exec, bind_apply, putString]
      rw [if_pos (by omega)]; rfl
    · simp only [SpecStep, hv, if_true]
  · have hspec : ∀ r q', SpecStep mem b.queue (.putString v) r q' ↔
      ((r, q') = b.queue.append (str v) ∨ NoMem mem r q' b.queue) := by
      intro r q'; simp only [SpecStep, hv, if_false]
    unfold StepOK
    simp only [hspec]
    refine append_step h (str v) mem (putString v mem) (fun p => do
      memWrite p (pokeU32 (UInt32.ofNat v.length))
      if v.length ≠ 0 then memWrite (p + 4) v else pure ()) ?_ ?_
    · unfold putString
      rw [if_neg (by omega)]
      have : (str v).length = v.length + 4 := by simp [str]; omega
      rw [this]
    · intro b1 p hwf h1 h2
      rw [ofNat_len (by omega)]
      by_cases hz : v.length = 0
      · have : v = [] := List.length_eq_zero_iff.1 hz
        subst this
        have := fill_write (str []) b1 p hwf h1 h2
        obtain ⟨b2, he, h'⟩ := this
        refine ⟨b2, ?_, h'⟩
        simp [str] at he
        simp [he]
      · have := fill_write2 (be 4 v.length) v b1 p hwf h1 h2
        simpa [hz, str] using this

/-- Every statement about bytes is a statement about 8-bit vectors (so that it can be decided). -/
theorem UInt8.forall_iff (p : UInt8 → Prop) : (∀ x, p x) ↔ ∀ b : BitVec 8, p ⟨b⟩ :=
  ⟨fun h b => h ⟨b⟩, fun h x => h x.toBitVec⟩

theorem and_msb : ∀ x : UInt8, (x &&& 0x80 ≠ 0) = (x ≥ 0x80) := by
  rw [UInt8.forall_iff]; simp only [ne_eq, ge_iff_le, eq_iff_iff]; decide +kernel

theorem skipZeros_eq (v : Bytes) : skipZeros v = v.dropWhile (· = 0) := by
  induction v with
  | nil => rfl
  | cons x xs ih =>
    unfold skipZeros
    by_cases h : x = 0 <;> simp [h, ih]

theorem skipZeros_length (v : Bytes) : (skipZeros v).length ≤ v.length := by
  induction v with
  | nil => simp [skipZeros]
  | cons x xs ih =>
    unfold skipZeros
    split
    · simp; omega
    · simp

theorem step_putBignum {b : Buf} (h : b.WF) (v : Bytes) (mem : Bool) : StepOK b (.putBignum v) mem := by
  by_cases hv : v.length > maxString - 1
  · refine ⟨.err .noSpace, b, ?_, h, by simp, by simp, ?_⟩
    · simp only [exec, bind_apply, putBignum2Bytes]
      rw [if_pos (by omega)]; rfl
    · simp only [SpecStep, hv, if_true]
  · have hspec : ∀ r q', SpecStep mem b.queue (.putBignum v) r q' ↔
      ((r, q') = b.queue.append (str (mpint v)) ∨ NoMem mem r q' b.queue) := by
      intro r q'; simp only [SpecStep, hv, if_false]
    unfold StepOK
    simp only [hspec]
    have hl := skipZeros_length v
    cases hs : skipZeros v with
    | nil =>
      have hmp : mpint v = [] := by simp [mpint, ← skipZeros_eq, hs]
      rw [hmp]
      refine append_step h (str []) mem (putBignum2Bytes v mem) (fun p => do
        memWrite p (pokeU32 (UInt32.ofNat 0))
        pure ()) ?_ ?_
      · unfold putBignum2Bytes
        rw [if_neg (by omega), hs]
        simp [str]
      · intro b1 p hwf h1 h2
        rw [ofNat_len (by omega)]
        obtain ⟨b2, he, h'⟩ := fill_write (str []) b1 p hwf h1 h2
        refine ⟨b2, ?_, h'⟩
        have he' : memWrite p (be 4 0) b1 = (.ok (), b2) := by simpa [str] using he
        simp [he']
    | cons x xs =>
      rw [hs] at hl
      simp only [List.length_cons] at hl
      by_cases hx : x &&& 0x80 ≠ 0
      · have hx' : x ≥ 0x80 := by rwa [and_msb] at hx
        have hmp : mpint v = 0 :: x :: xs := by simp [mpint, ← skipZeros_eq, hs]; simpa using hx'
        rw [hmp]
        refine append_step h (str (0 :: x :: xs)) mem (putBignum2Bytes v mem) (fun p => do
          memWrite p (pokeU32 (UInt32.ofNat (xs.length + 1 + 1)))
          memWrite (p + 4) [0]
          memWrite (p + 4 + 1) (x :: xs)) ?_ ?_
        · unfold putBignum2Bytes
          rw [if_neg (by omega), hs]
          simp only [if_pos hx, List.length_cons, str, List.length_append, be_length]
          have : xs.length + 1 + 4 + 1 = 4 + (xs.length + 1 + 1) := by omega
          rw [this]
          simp
        · intro b1 p hwf h1 h2
          rw [ofNat_len (by omega)]
          have hc := contents_length hwf
          simp [str] at h2
          obtain ⟨b2, he, hwf2, ho, hs2, hm, hr, hrc, hcont⟩ :=
            memWrite_ok hwf (p := p) (v := be 4 (xs.length + 1 + 1)) h1 (by simp; omega)
          obtain ⟨b3, he3, hwf3, hm3, hr3, hrc3, hcont3⟩ := fill_write2 [0] (x :: xs) b2 (p + 4) hwf2
            (by omega) (by simp; omega)
          refine ⟨b3, ?_, hwf3, hm3.trans hm, hr3.trans hr, hrc3.trans hrc, ?_⟩
          · simp only [bind_apply, he]
            simpa using he3
          · rw [hcont3, hcont, ho]
            have e : p + 4 - b1.off = (b1.contents.take (p - b1.off) ++ be 4 (xs.length + 1 + 1)).length := by
              simp; omega
            rw [e, List.take_left]
            simp [str]
      · have hx' : ¬ x ≥ 0x80 := by rwa [and_msb] at hx
        have hmp : mpint v = x :: xs := by simp [mpint, ← skipZeros_eq, hs]; simpa using hx'
        rw [hmp]
        refine append_step h (str (x :: xs)) mem (putBignum2Bytes v mem) (fun p => do
          memWrite p (pokeU32 (UInt32.ofNat (xs.length + 1)))
          memWrite (p + 4) (x :: xs)) ?_ ?_
        · unfold putBignum2Bytes
          rw [if_neg (by omega), hs]
          simp only [if_neg hx, List.length_cons, str, List.length_append, be_length]
          have : xs.length + 1 + 4 + 0 = 4 + (xs.length + 1) := by omega
          rw [this]
          simp
        · intro b1 p hwf h1 h2
          rw [ofNat_len (by omega)]
          have := fill_write2 (be 4 (xs.length + 1)) (x :: xs) b1 p hwf h1 h2
          simpa [str] using this

theorem consumeEnd_eq {b : Buf} (h : b.WF) (n : Nat) :
    consumeEnd n b = if n ≤ b.contents.length then (.ok (), { b with size := b.size - n })
      else (.err .incomplete, b) := by
  have hc := contents_length h
  simp only [consumeEnd, bind_apply, checkSanity_ok h, ite_apply', pure_apply, len_ok h, fail_apply, getB_apply,
    setB_apply, hc]
  by_cases h0 : n = 0
  · simp [h0]
  · by_cases hn : n ≤ b.size - b.off
    · simp [h0, hn, if_neg (show ¬ b.size - b.off < n by omega)]
    · simp [h0, hn, if_pos (show b.size - b.off < n by omega)]

theorem consumedEnd_wf {b : Buf} (h : b.WF) {n : Nat} (hn : n ≤ b.contents.length) :
    ({ b with size := b.size - n } : Buf).WF := by
  have hc := contents_length h
  obtain ⟨h11, h22, h3, h4, h5, h6, h7⟩ := id h
  constructor <;> simp <;> omega

theorem consumedEnd_contents {b : Buf} (h : b.WF) {n : Nat} (hn : n ≤ b.contents.length) :
    ({ b with size := b.size - n } : Buf).contents = b.contents.take (b.contents.length - n) := by
  have hc := contents_length h
  obtain ⟨h11, h22, h3, h4, h5, h6, h7⟩ := id h
  rw [hc]
  simp only [Buf.contents, List.drop_take, List.take_take]
  congr 1; omega

theorem step_consume {b : Buf} (h : b.WF) (n : Nat) (mem : Bool) : StepOK b (.consume n) mem := by
  unfold StepOK
  by_cases hn : n ≤ b.contents.length
  · refine ⟨.ok .unit, b.consumed n, by simp [exec, consume_eq h, hn], consumed_wf h hn, by simp, by simp, ?_⟩
    simp [SpecStep, Queue.take, Buf.queue, hn, consumed_contents h hn]
  · refine ⟨.err .incomplete, b, by simp [exec, consume_eq h, hn], h, by simp, by simp, ?_⟩
    simp [SpecStep, Queue.take, Buf.queue, hn]

theorem step_consumeEnd {b : Buf} (h : b.WF) (n : Nat) (mem : Bool) : StepOK b (.consumeEnd n) mem := by
  unfold StepOK
  by_cases hn : n ≤ b.contents.length
  · refine ⟨.ok .unit, _, by simp only [exec, bind_apply, consumeEnd_eq h, hn, if_true]; rfl,
      consumedEnd_wf h hn, by simp, by simp, ?_⟩
    simp [SpecStep, Buf.queue, hn, consumedEnd_contents h hn]; rfl
  · refine ⟨.err .incomplete, b, by simp [exec, consumeEnd_eq h, hn], h, by simp, by simp, ?_⟩
    simp [SpecStep, Buf.queue, hn]

theorem writable_eq {b b' : Buf} (h1 : b'.readonly = b.readonly) (h2 : b'.refcount = b.refcount) :
    b'.writable = b.writable := by simp [Buf.writable, h1, h2]

theorem step_putf {b : Buf} (h : b.WF) (v : Bytes) (mem : Bool) : StepOK b (.putf v) mem := by
  by_cases hv : v = []
  · subst hv
    exact ⟨.ok .unit, b, by simp [exec, putfv], h, by simp, by simp, by simp [SpecStep]⟩
  · have hl : v.length ≠ 0 := by simpa using hv
    have hvl : (v ++ [0]).length = v.length + 1 := by simp
    have key := reserve_fill h (v ++ [0]) mem (fun p => memWrite p (v ++ [0])) (fill_write _)
    rw [hvl] at key
    have hdef : putfv v mem = (do
        let p ← reserve (v.length + 1) mem
        memWrite p (v ++ [0])
        consumeEnd 1) := by unfold putfv; rw [if_neg hl]
    have hex : ∀ b', exec (.putf v) mem b' = match (reserve (v.length + 1) mem >>= fun p => memWrite p (v ++ [0])) b' with
      | (.ok _, b'') => (do consumeEnd 1; pure Val.unit : SB Val) b''
      | (.err e, b'') => (.err e, b'')
      | (.abort, b'') => (.abort, b'')
      | (.ub, b'') => (.ub, b'') := by
      intro b'
      simp only [exec, hdef, bind_apply]
      rcases reserve (v.length + 1) mem b' with ⟨r, b1⟩
      cases r <;> simp only []
      rename_i p
      rcases memWrite p (v ++ [0]) b1 with ⟨r, b2⟩
      cases r <;> simp only []
    rcases key with ⟨hw, he⟩ | ⟨hw, hs, he⟩ |
      ⟨hw, hs, b1, hwf, hm, hr, hrc, ⟨hmem, hcont, he⟩ | ⟨he, hcont⟩⟩
    · refine ⟨.err .readOnly, b, by rw [hex, he], h, by simp, by simp, ?_⟩
      simp [SpecStep, hv, Buf.queue, hw]
    · refine ⟨.err .noSpace, b, by rw [hex, he], h, by simp, by simp, ?_⟩
      have : b.contents.length + v.length + 1 > b.maxSize := by omega
      simp [SpecStep, hv, Buf.queue, hw, this]
    · refine ⟨.err .allocFail, b1, by rw [hex, he], hwf, by simp, by simp, ?_⟩
      have : ¬ b.contents.length + v.length + 1 > b.maxSize := by omega
      simp [SpecStep, hv, Buf.queue, hw, this, NoMem, hmem, hcont, hm, writable_eq hr hrc]
    · have hlen : 1 ≤ b1.contents.length := by rw [hcont]; simp; omega
      refine ⟨.ok .unit, _, by rw [hex, he]; simp only [bind_apply, consumeEnd_eq hwf, hlen, if_true]; rfl,
        consumedEnd_wf hwf hlen, by simp, by simp, ?_⟩
      have : ¬ b.contents.length + v.length + 1 > b.maxSize := by omega
      have hw1 := writable_eq hr hrc
      rw [hw] at hw1
      have hce : Buf.contents { b1 with size := b1.size - 1 } = b.contents ++ v := by
        rw [consumedEnd_contents hwf hlen, hcont, ← List.append_assoc]
        exact List.take_left' (by simp)
      have hwe : Buf.writable { b1 with size := b1.size - 1 } = true := hw1
      simp only [SpecStep, hv, Buf.queue, hw, this, if_false, hce, hwe]
      left
      simp [hm]

theorem step_reserve {b : Buf} (h : b.WF) (n : Nat) (mem : Bool) : StepOK b (.reserve n) mem := by
  rcases reserve_cases h n mem with ⟨hw, he⟩ | ⟨hw, hs, he⟩ |
    ⟨hw, hs, b1, hwf, hm, hr, hrc, ⟨hmem, hcont, he⟩ | ⟨p, junk, he, hcont, hj, hp, hp2⟩⟩
  · refine ⟨.err .readOnly, b, by simp [exec, he], h, by simp, by simp, ?_⟩
    exact .inl ⟨List.replicate n 0, by simp, by simp [Queue.append, Buf.queue, hw]⟩
  · refine ⟨.err .noSpace, b, by simp [exec, he], h, by simp, by simp, ?_⟩
    exact .inl ⟨List.replicate n 0, by simp, by simp [Queue.append, Buf.queue, hw]; omega⟩
  · refine ⟨.err .allocFail, b1, by simp [exec, he], hwf, by simp, by simp, ?_⟩
    exact .inr ⟨hmem, by simp [Buf.queue, hcont, hm, writable_eq hr hrc]⟩
  · refine ⟨.ok .unit, b1, by simp [exec, he], hwf, by simp, by simp, ?_⟩
    exact .inl ⟨junk, hj, by simp [Queue.append, Buf.queue, hw, hcont, hm, writable_eq hr hrc]; omega⟩

theorem step_reset {b : Buf} (h : b.WF) (mem : Bool) (hmax : b.writable = true → SIZE_INIT ≤ b.maxSize) :
    StepOK b .reset mem := by
  have hwr := writable_iff h
  obtain ⟨h11, h22, h3, h4, h5, h6, h7⟩ := id h
  by_cases hw : b.readonly ∨ b.refcount > 1
  · refine ⟨.ok .unit, { b with off := b.size }, ?_, ?_, by simp, by simp, ?_⟩
    · simp only [exec, reset, bind_apply, getB_apply, ite_apply', if_pos hw, setB_apply, pure_apply]
    · constructor <;> simp <;> omega
    · simp [SpecStep, Buf.queue, Buf.contents, Buf.writable]
  · have hw1 : b.writable = true := by
      rw [hwr] at hw; simpa using hw
    have hmx := hmax hw1
    by_cases hc : b.alloc ≠ SIZE_INIT ∧ mem = true
    · refine ⟨.ok .unit, Buf.mk (List.replicate 256 0 ++ (recalloc b.d 256).drop 256) 0 0 b.maxSize 256
          b.readonly b.refcount, ?_, ?_, by simp, by simp, ?_⟩
      · simp only [exec, reset, bind_apply, getB_apply, ite_apply', if_neg hw, setB_apply, pure_apply,
          checkSanity_ok h, if_pos hc]
      · have := recalloc_length b.d 256
        constructor <;> simp only [List.length_append, List.length_replicate, List.length_drop] <;> omega
      · simp only [SpecStep, Buf.queue, Buf.contents, Buf.writable, List.take_zero, List.drop_nil]
    · refine ⟨.ok .unit, Buf.mk (List.replicate b.alloc 0 ++ b.d.drop b.alloc) 0 0 b.maxSize b.alloc
          b.readonly b.refcount, ?_, ?_, by simp, by simp, ?_⟩
      · simp only [exec, reset, bind_apply, getB_apply, ite_apply', if_neg hw, setB_apply, pure_apply,
          checkSanity_ok h, if_neg hc]
      · constructor <;> simp <;> omega
      · simp [SpecStep, Buf.queue, Buf.contents, Buf.writable]

theorem roundup_min {s m : Nat} (h : s < m) :
    let rlen := if s < SIZE_INIT then SIZE_INIT else roundup s SIZE_INC
    let rlen := if rlen > m then m else rlen
    s ≤ rlen ∧ rlen ≤ m := by
  have := roundup_ge s
  simp only
  split <;> split <;> omega

theorem step_setMax {b : Buf} (h : b.WF) (n : Nat) (mem : Bool) : StepOK b (.setMax n) mem := by
  have hwr := writable_iff h
  have hc := contents_length h
  obtain ⟨h11, h22, h3, h4, h5, h6, h7⟩ := id h
  by_cases he : n = b.maxSize
  · refine ⟨.ok .unit, b, ?_, h, by simp, by simp, ?_⟩
    · simp [exec, setMaxSize, checkSanity_ok h, he]
    · exact .inl ⟨by simp [Buf.queue, he], by simp [Buf.queue]; omega, by simp [Buf.queue, he]⟩
  by_cases hw : b.readonly ∨ b.refcount > 1
  · refine ⟨.err .readOnly, b, ?_, h, by simp, by simp, ?_⟩
    · simp only [exec, setMaxSize, bind_apply, checkSanity_ok h, getB_apply, ite_apply', if_neg he, if_pos hw, fail_apply]
    · exact .inr (.inl ⟨rfl, by simpa [Buf.queue] using hwr.1 hw, he⟩)
  by_cases hbig : n > SIZE_MAX_BUF
  · refine ⟨.err .noSpace, b, ?_, h, by simp, by simp, ?_⟩
    · simp only [exec, setMaxSize, bind_apply, checkSanity_ok h, getB_apply, ite_apply', if_neg he, if_neg hw,
        if_pos hbig, fail_apply]
    · exact .inr (.inr (.inl ⟨rfl, .inl hbig⟩))
  have hw1 : b.writable = true := by rw [hwr] at hw; simpa using hw
  obtain ⟨b1, hp, hwf, hsame, halloc, hforce, hor⟩ := maybePack_ok h (decide (n < b.size))
  have hc1 := contents_length hwf
  have hcl : b1.contents.length = b.contents.length := by rw [hsame.contents]
  obtain ⟨g11, g22, g3, g4, g5, g6, g7⟩ := id hwf
  have hsmax := hsame.maxSize
  by_cases hsh : n < b1.alloc ∧ n > b1.size
  · have hrl := roundup_min (s := b1.size) (m := n) hsh.2
    simp only at hrl
    generalize hr : (if (if b1.size < SIZE_INIT then SIZE_INIT else roundup b1.size SIZE_INC) > n then n
      else (if b1.size < SIZE_INIT then SIZE_INIT else roundup b1.size SIZE_INC)) = rlen at hrl
    cases mem with
    | false =>
      refine ⟨.err .allocFail, b1, ?_, hwf, by simp, by simp, ?_⟩
      · simp only [exec, setMaxSize, bind_apply, checkSanity_ok h, getB_apply, ite_apply', if_neg he, if_neg hw,
          if_neg hbig, hp, if_pos hsh, fail_apply, Bool.false_eq_true, if_false]
      · refine .inr (.inr (.inr ⟨rfl, ?_⟩))
        simp [Buf.queue, hsame.contents, hsame.maxSize, hsame.writable]
    | true =>
      obtain ⟨hwf2, hsame2⟩ := resize_ok hwf (n := rlen) hrl.1 (by omega)
      refine ⟨.ok .unit, { b1 with d := recalloc b1.d rlen, alloc := rlen, maxSize := n }, ?_, ?_, by simp, by simp, ?_⟩
      · simp only [exec, setMaxSize, bind_apply, checkSanity_ok h, getB_apply, ite_apply', if_neg he, if_neg hw,
          if_neg hbig, hp, if_pos hsh, setB_apply, if_true, hr, pure_apply, if_neg (show ¬ n < rlen by omega)]
      · obtain ⟨k11, k22, k3, k4, k5, k6, k7⟩ := id hwf2
        constructor <;> simp_all <;> omega
      · refine .inl ⟨?_, ?_, .inr ?_⟩
        · have e1 := hsame2.contents
          rw [hsame.contents] at e1
          have e2 : Buf.contents { b1 with d := recalloc b1.d rlen, alloc := rlen, maxSize := n } = b.contents := e1
          have e3 : Buf.writable { b1 with d := recalloc b1.d rlen, alloc := rlen, maxSize := n } = b.writable :=
            hsame2.writable.trans hsame.writable
          simp only [Buf.queue, e2, e3]
        · simp only [Buf.queue]; omega
        · exact hw1
  · by_cases hlt : n < b1.alloc
    · refine ⟨.err .noSpace, b1, ?_, hwf, by simp, by simp, ?_⟩
      · simp only [exec, setMaxSize, bind_apply, checkSanity_ok h, getB_apply, ite_apply', if_neg he, if_neg hw,
          if_neg hbig, hp, if_neg hsh, pure_apply, if_pos hlt, fail_apply]
      · refine .inr (.inr (.inl ⟨?_, .inr ?_⟩))
        · simp [Buf.queue, hsame.contents, hsame.maxSize, hsame.writable]
        · simp only [Buf.queue]; omega
    · refine ⟨.ok .unit, { b1 with maxSize := n }, ?_, ?_, by simp, by simp, ?_⟩
      · simp only [exec, setMaxSize, bind_apply, checkSanity_ok h, getB_apply, ite_apply', if_neg he, if_neg hw,
          if_neg hbig, hp, if_neg hsh, pure_apply, if_neg hlt, setB_apply]
      · constructor <;> simp <;> omega
      · refine .inl ⟨?_, ?_, .inr ?_⟩
        · have e2 : Buf.contents { b1 with maxSize := n } = b.contents := hsame.contents
          have e3 : Buf.writable { b1 with maxSize := n } = b.writable := hsame.writable
          simp only [Buf.queue, e2, e3]
        · simp only [Buf.queue]; omega
        · exact hw1

/-! ### reading -/

/-- Reading a fixed number of bytes from the front. -/
theorem take_step {b : Buf} (h : b.WF) (n : Nat) (f : Bytes → Val) (x : SB Val)
    (hx : ∀ b1 : Buf, b1.d = b.d → n ≤ b.contents.length → consume n b = (.ok (), b1) →
      x b = (.ok (f (b.contents.take n)), b1))
    (hx' : consume n b = (.err .incomplete, b) → x b = (.err .incomplete, b)) :
    ∃ r b', x b = (r, b') ∧ b'.WF ∧ r ≠ .abort ∧ r ≠ .ub ∧ (r, b'.queue) = b.queue.take n f := by
  have hc := consume_eq h n
  by_cases hn : n ≤ b.contents.length
  · rw [if_pos hn] at hc
    refine ⟨_, b.consumed n, hx _ (by simp) hn hc, consumed_wf h hn, by simp, by simp, ?_⟩
    simp [Queue.take, Buf.queue, hn, consumed_contents h hn]
  · rw [if_neg hn] at hc
    refine ⟨_, b, hx' hc, h, by simp, by simp, ?_⟩
    simp [Queue.take, Buf.queue, hn]

theorem step_get {b : Buf} (h : b.WF) (n : Nat) (mem : Bool) : StepOK b (.get n) mem := by
  refine take_step h n .bytes _ ?_ ?_
  · intro b1 hd hn he
    by_cases h0 : n = 0
    · subst h0; simp [exec, get, ptr_ok h, he]
    · simp [exec, get, ptr_ok h, he, h0, memRead_front h hd hn]
  · intro he; simp [exec, get, ptr_ok h, he]

theorem step_getU8 {b : Buf} (h : b.WF) (mem : Bool) : StepOK b .getU8 mem := by
  refine take_step h 1 (fun v => .num (ofBE v)) _ ?_ ?_
  · intro b1 hd hn he
    have := headD_eq (l := b.contents.take 1) (by simp; omega)
    simp only [exec, getU8, bind_apply, ptr_ok h, he, memRead_front h hd hn, pure_apply, this]
  · intro he; simp [exec, getU8, ptr_ok h, he]
theorem step_getU16 {b : Buf} (h : b.WF) (mem : Bool) : StepOK b .getU16 mem := by
  refine take_step h 2 (fun v => .num (ofBE v)) _ ?_ ?_
  · intro b1 hd hn he
    have := peekU16_eq (l := b.contents.take 2) (by simp; omega)
    simp only [exec, getU16, bind_apply, ptr_ok h, he, memRead_front h hd hn, pure_apply, this]
  · intro he; simp [exec, getU16, ptr_ok h, he]
theorem step_getU32 {b : Buf} (h : b.WF) (mem : Bool) : StepOK b .getU32 mem := by
  refine take_step h 4 (fun v => .num (ofBE v)) _ ?_ ?_
  · intro b1 hd hn he
    have := peekU32_eq (l := b.contents.take 4) (by simp; omega)
    simp only [exec, getU32, bind_apply, ptr_ok h, he, memRead_front h hd hn, pure_apply, this]
  · intro he; simp [exec, getU32, ptr_ok h, he]
theorem step_getU64 {b : Buf} (h : b.WF) (mem : Bool) : StepOK b .getU64 mem := by
  refine take_step h 8 (fun v => .num (ofBE v)) _ ?_ ?_
  · intro b1 hd hn he
    have := peekU64_eq (l := b.contents.take 8) (by simp; omega)
    simp only [exec, getU64, bind_apply, ptr_ok h, he, memRead_front h hd hn, pure_apply, this]
  · intro he; simp [exec, getU64, ptr_ok h, he]

theorem contents_lt {b : Buf} (h : b.WF) : b.contents.length ≤ 134217728 := by
  have hc := contents_length h
  obtain ⟨h11, h22, h3, h4, h5, h6, h7⟩ := id h
  omega

theorem checkOffset_eq {b : Buf} (h : b.WF) (wr : Bool) (o n : Nat) (ho : o < sizeMod) (hn : n < sizeMod) :
    checkOffset wr o n b = (if o + n ≥ SIZE_MAX then .err .invalidArg
      else if o + n > b.contents.length then .err (if wr then .noSpace else .incomplete) else .ok (), b) := by
  simp only [checkOffset, bind_apply, ptr_ok h, ite_apply', fail_apply, len_ok h, pure_apply]
  by_cases h1 : o + n ≥ SIZE_MAX
  · rw [if_pos h1, if_pos (by omega)]
  · rw [if_neg h1, if_neg (by omega)]
    have : szAdd o n = o + n := by unfold szAdd; omega
    rw [this]
    split <;> rfl

/-- Peeking at a fixed number of bytes. -/
theorem peek_step {b : Buf} (h : b.WF) (o n : Nat) (f : Bytes → Val) (g : Bytes → SB Val)
    (ho : o < sizeMod) (hn : n < sizeMod)
    (hg : ∀ v, v.length = n → ∀ b, g v b = (.ok (f v), b)) :
    ∃ r b', (do let p ← checkROffset o n; let v ← memRead p n; g v : SB Val) b = (r, b') ∧ b'.WF ∧
      r ≠ .abort ∧ r ≠ .ub ∧ (r, b'.queue) = (b.queue.peek o n f, b.queue) := by
  have hco := checkOffset_eq h false o n ho hn
  by_cases h1 : o + n ≥ SIZE_MAX
  · refine ⟨.err .invalidArg, b, ?_, h, by simp, by simp, ?_⟩
    · simp only [checkROffset, bind_apply, hco, if_pos h1]
    · simp only [Queue.peek, if_pos h1]
  · by_cases h2 : o + n ≤ b.contents.length
    · refine ⟨.ok (f ((b.contents.drop o).take n)), b, ?_, h, by simp, by simp, ?_⟩
      · simp only [checkROffset, bind_apply, hco, if_neg h1, if_neg (show ¬ o + n > b.contents.length by omega),
          ptr_ok h, pure_apply, memRead_at h rfl h2]
        exact hg _ (by simp; omega) _
      · have h2' : o + n ≤ b.queue.data.length := h2
        simp only [Queue.peek, if_neg h1, if_pos h2']; rfl
    · refine ⟨.err .incomplete, b, ?_, h, by simp, by simp, ?_⟩
      · simp only [checkROffset, bind_apply, hco, if_neg h1, if_pos (show o + n > b.contents.length by omega)]
        rfl
      · have h2' : ¬ o + n ≤ b.queue.data.length := h2
        simp only [Queue.peek, if_neg h1, if_neg h2']

theorem bind_assoc' {α β γ : Type} (x : SB α) (f : α → SB β) (g : β → SB γ) :
    ((x >>= f) >>= g) = (x >>= fun a => f a >>= g) := by
  funext b
  simp only [bind_apply]
  rcases x b with ⟨r, b'⟩
  cases r <;> rfl

theorem step_peekU8 {b : Buf} (h : b.WF) (o : Nat) (ho : o < sizeMod) (mem : Bool) : StepOK b (.peekU8 o) mem := by
  have := peek_step h o 1 (fun v => .num (ofBE v)) (fun v => do let x ← pure (v.headD 0); pure (.num x.toNat)) ho (by omega)
    (fun v hv b => by simp only [bind_apply, pure_apply, headD_eq hv])
  simpa only [StepOK, exec, peekU8At, bind_assoc', SpecStep] using this
theorem step_peekU16 {b : Buf} (h : b.WF) (o : Nat) (ho : o < sizeMod) (mem : Bool) : StepOK b (.peekU16 o) mem := by
  have := peek_step h o 2 (fun v => .num (ofBE v)) (fun v => do let x ← pure (peekU16 v); pure (.num x.toNat)) ho (by omega)
    (fun v hv b => by simp only [bind_apply, pure_apply, peekU16_eq hv])
  simpa only [StepOK, exec, peekU16At, bind_assoc', SpecStep] using this
theorem step_peekU32 {b : Buf} (h : b.WF) (o : Nat) (ho : o < sizeMod) (mem : Bool) : StepOK b (.peekU32 o) mem := by
  have := peek_step h o 4 (fun v => .num (ofBE v)) (fun v => do let x ← pure (peekU32 v); pure (.num x.toNat)) ho (by omega)
    (fun v hv b => by simp only [bind_apply, pure_apply, peekU32_eq hv])
  simpa only [StepOK, exec, peekU32At, bind_assoc', SpecStep] using this
theorem step_peekU64 {b : Buf} (h : b.WF) (o : Nat) (ho : o < sizeMod) (mem : Bool) : StepOK b (.peekU64 o) mem := by
  have := peek_step h o 8 (fun v => .num (ofBE v)) (fun v => do let x ← pure (peekU64 v); pure (.num x.toNat)) ho (by omega)
    (fun v hv b => by simp only [bind_apply, pure_apply, peekU64_eq hv])
  simpa only [StepOK, exec, peekU64At, bind_assoc', SpecStep] using this

/-! ### strings -/

theorem peekStringDirect_eq {b : Buf} (h : b.WF) :
    peekStringDirect b = (match b.queue.front with
      | .error e => .err e
      | .ok v => .ok (b.off + 4, v.length), b) := by
  have hfr : b.queue.front = if b.contents.length < 4 then .error .incomplete
    else if ofBE (b.contents.take 4) > maxString then .error .stringTooLarge
    else if b.contents.length - 4 < ofBE (b.contents.take 4) then .error .incomplete
    else .ok ((b.contents.drop 4).take (ofBE (b.contents.take 4))) := rfl
  rw [hfr]
  simp only [peekStringDirect, bind_apply, ptr_ok h, len_ok h, ite_apply', fail_apply]
  by_cases h1 : b.contents.length < 4
  · simp only [if_pos h1]
  · simp only [if_neg h1, memRead_front h rfl (show 4 ≤ b.contents.length by omega)]
    rw [peekU32_eq (by simp; omega)]
    generalize ofBE (b.contents.take 4) = n
    by_cases h2 : n > maxString
    · simp only [if_pos h2, if_pos (show n > SIZE_MAX_BUF - 4 by omega)]
    · simp only [if_neg h2, if_neg (show ¬ n > SIZE_MAX_BUF - 4 by omega), len_ok h]
      by_cases h3 : b.contents.length - 4 < n
      · simp only [if_pos h3]
      · simp only [if_neg h3, pure_apply, List.length_take, List.length_drop]
        rw [Nat.min_eq_left (by omega)]

theorem front_ok {q : Queue} {v : Bytes} (h : q.front = .ok v) :
    4 + v.length ≤ q.data.length ∧ v.length ≤ maxString ∧ v = (q.data.drop 4).take v.length := by
  unfold Queue.front at h
  split at h
  · cases h
  split at h
  · cases h
  split at h
  · cases h
  injection h with h
  subst h
  simp only [List.length_take, List.length_drop]
  refine ⟨by omega, by omega, ?_⟩
  rw [Nat.min_eq_left (by omega)]

theorem getStringDirect_eq {b : Buf} (h : b.WF) :
    getStringDirect b = match b.queue.front with
      | .error e => (.err e, b)
      | .ok v => (.ok (b.off + 4, v.length), b.consumed (4 + v.length)) := by
  simp only [getStringDirect, peekStringDirect_eq h]
  rcases hf : b.queue.front with e | v
  · rfl
  · obtain ⟨h1, h2, h3⟩ := front_ok hf
    simp only [Buf.queue] at h1
    have : szAdd v.length 4 = 4 + v.length := by unfold szAdd; omega
    simp only [this, consume_eq h, if_pos h1]

theorem dropStr_queue {b : Buf} (h : b.WF) {v : Bytes} (h1 : 4 + v.length ≤ b.contents.length) :
    (b.consumed (4 + v.length)).queue = b.queue.dropStr v := by
  simp [Buf.queue, Queue.dropStr, consumed_contents h h1]

theorem step_getString {b : Buf} (h : b.WF) (mem : Bool) : StepOK b .getString mem := by
  have hg := getStringDirect_eq h
  rcases hf : b.queue.front with e | v
  · rw [hf] at hg
    refine ⟨.err e, b, by simp [exec, getString, hg], h, by simp, by simp, ?_⟩
    simp only [SpecStep, hf]
  · rw [hf] at hg
    obtain ⟨h1, h2, h3⟩ := front_ok hf
    simp only [Buf.queue] at h1 h3
    cases mem with
    | true =>
      refine ⟨.ok (.bytes v), b.consumed (4 + v.length), ?_, consumed_wf h h1, by simp, by simp, ?_⟩
      · simp [exec, getString, hg, memRead_at h (consumed_d b _) h1, ← h3]
      · simp only [SpecStep, hf, dropStr_queue h h1, true_or]
    | false =>
      refine ⟨.err .allocFail, b.consumed (4 + v.length), ?_, consumed_wf h h1, by simp, by simp, ?_⟩
      · simp [exec, getString, hg]
      · simp only [SpecStep, hf, dropStr_queue h h1, NoMem, true_and, or_true]

theorem firstNul_spec (v : Bytes) :
    nulEarly v v.length = true ↔ nulInside v := by
  unfold nulInside nulEarly
  induction v with
  | nil => simp [firstNul]
  | cons x xs ih =>
    cases xs with
    | nil => by_cases hx : x = 0 <;> simp [firstNul, hx]
    | cons y ys =>
      rw [List.dropLast_cons_of_ne_nil (by simp)]
      by_cases hx : x = 0
      · simp [firstNul, hx]
      · simp only [List.mem_cons, Ne.symm hx, false_or]
        rw [← ih]
        rw [firstNul, if_neg hx]
        rcases firstNul (y :: ys) with _ | z
        · simp
        · simp

theorem firstNul_some {v : Bytes} {z : Nat} (h : firstNul v = some z) : z < v.length := by
  induction v generalizing z with
  | nil => simp [firstNul] at h
  | cons x xs ih =>
    rw [firstNul] at h
    split at h
    · simp at h; simp; omega
    · rcases hf : firstNul xs with _ | y
      · simp [hf] at h
      · simp [hf] at h; have := ih hf; simp; omega

theorem step_getCString {b : Buf} (h : b.WF) (mem : Bool) : StepOK b .getCString mem := by
  have hp := peekStringDirect_eq h
  have hg := getStringDirect_eq h
  rcases hf : b.queue.front with e | v
  · rw [hf] at hp
    refine ⟨.err e, b, by simp [exec, getCString, hp], h, by simp, by simp, ?_⟩
    simp only [SpecStep, hf]
  · rw [hf] at hp hg
    obtain ⟨h1, h2, h3⟩ := front_ok hf
    simp only [Buf.queue] at h1 h3
    have hr : memRead (b.off + 4) v.length b = (.ok v, b) := by
      rw [memRead_at h rfl h1, ← h3]
    have hr2 : memRead (b.off + 4) v.length (b.consumed (4 + v.length)) = (.ok v, b.consumed (4 + v.length)) := by
      rw [memRead_at h (consumed_d b _) h1, ← h3]
    have hn := firstNul_spec v
    by_cases hin : nulInside v
    · refine ⟨.err .invalidFormat, b, ?_, h, by simp, by simp, ?_⟩
      · have hv : v.length > 0 := by
          cases v with
          | nil => simp [nulInside] at hin
          | cons => simp
        simp only [exec, getCString, bind_apply, hp, hr, ite_apply', if_pos (And.intro hv (hn.2 hin)), fail_apply]
      · simp only [SpecStep, hf, if_pos hin]
    · have hnot : ¬ (v.length > 0 ∧ nulEarly v v.length = true) :=
        fun hh => hin (hn.1 hh.2)
      cases mem with
      | true =>
        refine ⟨.ok (.bytes v), b.consumed (4 + v.length), ?_, consumed_wf h h1, by simp, by simp, ?_⟩
        · simp only [exec, getCString, bind_apply, hp, hr, ite_apply', if_neg hnot, orInternal, hg, if_true, hr2, pure_apply]
        · simp only [SpecStep, hf, if_neg hin, dropStr_queue h h1, true_or]
      | false =>
        refine ⟨.err .allocFail, b.consumed (4 + v.length), ?_, consumed_wf h h1, by simp, by simp, ?_⟩
        · simp only [exec, getCString, bind_apply, hp, hr, ite_apply', if_neg hnot, orInternal, hg, Bool.false_eq_true, if_false,
            fail_apply]
        · simp only [SpecStep, hf, if_neg hin, dropStr_queue h h1, NoMem, true_and, or_true]

theorem step_getBignum {b : Buf} (h : b.WF) (mem : Bool) : StepOK b .getBignum mem := by
  have hp := peekStringDirect_eq h
  rcases hf : b.queue.front with e | v
  · rw [hf] at hp
    refine ⟨.err e, b, by simp [exec, getBignum2Bytes, hp], h, by simp, by simp, ?_⟩
    simp only [SpecStep, hf]
  · rw [hf] at hp
    obtain ⟨h1, h2, h3⟩ := front_ok hf
    simp only [Buf.queue] at h1 h3
    have hr : memRead (b.off + 4) v.length b = (.ok v, b) := by
      rw [memRead_at h rfl h1, ← h3]
    have hm : (v.length ≠ 0 ∧ v.headD 0 &&& 0x80 ≠ 0) ↔ v.headD 0 ≥ 0x80 := by
      cases v with
      | nil => simp
      | cons x xs => simp [and_msb]
    simp only [StepOK, SpecStep, hf]
    by_cases hneg : v.headD 0 ≥ 0x80
    · refine ⟨.err .bignumNegative, b, ?_, h, by simp, by simp, ?_⟩
      · simp only [exec, getBignum2Bytes, bind_apply, hp, hr, ite_apply', if_pos (hm.2 hneg), fail_apply]
      · simp only [if_pos hneg]
    · have hneg' : ¬ (v.length ≠ 0 ∧ v.headD 0 &&& 0x80 ≠ 0) := fun hh => hneg (hm.1 hh)
      by_cases hbig : v.length > 2049 ∨ (v.length = 2049 ∧ v.headD 0 ≠ 0)
      · refine ⟨.err .bignumTooLarge, b, ?_, h, by simp, by simp, ?_⟩
        · simp only [exec, getBignum2Bytes, bind_apply, hp, hr, ite_apply', if_neg hneg', fail_apply]
          rw [if_pos hbig]
        · simp only [if_neg hneg, if_pos hbig]
      · have : szAdd v.length 4 = 4 + v.length := by unfold szAdd; omega
        refine ⟨.ok (.bytes (v.dropWhile (· = 0))), b.consumed (4 + v.length), ?_, consumed_wf h h1, by simp, by simp, ?_⟩
        · simp only [exec, getBignum2Bytes, bind_apply, hp, hr, ite_apply', if_neg hneg', fail_apply]
          rw [if_neg hbig]
          simp only [orInternal, this, consume_eq h, bind_apply, if_pos h1, pure_apply, skipZeros_eq]
        · simp only [if_neg hneg, if_neg hbig, dropStr_queue h h1]


/-! ### remaining calls -/

theorem step_len {b : Buf} (h : b.WF) (mem : Bool) : StepOK b .len mem :=
  ⟨_, b, by simp only [exec, bind_apply, len_ok h, pure_apply]; rfl, h, by simp, by simp, rfl⟩

theorem step_avail {b : Buf} (h : b.WF) (mem : Bool) : StepOK b .avail mem := by
  have hwr := writable_iff h
  have hc := contents_length h
  by_cases hw : b.readonly ∨ b.refcount > 1
  · refine ⟨.ok (.num 0), b, ?_, h, by simp, by simp, ?_⟩
    · simp only [exec, avail, bind_apply, checkSanity_ok h, getB_apply, ite_apply', if_pos hw, pure_apply]
    · simp [SpecStep, Buf.queue, hwr.1 hw]
  · have hw1 : b.writable = true := by rw [hwr] at hw; simpa using hw
    refine ⟨.ok (.num (b.maxSize - b.contents.length)), b, ?_, h, by simp, by simp, ?_⟩
    · simp only [exec, avail, bind_apply, checkSanity_ok h, getB_apply, ite_apply', if_neg hw, pure_apply, hc]
    · simp [SpecStep, Buf.queue, hw1]

theorem step_poke {b : Buf} (h : b.WF) (o : Nat) (v : Bytes) (ho : o < sizeMod) (hv : v.length < sizeMod) (mem : Bool) :
    StepOK b (.poke o v) mem := by
  have hwr := writable_iff h
  have hc := contents_length h
  have hco := checkOffset_eq h true o v.length ho hv
  simp only [StepOK, SpecStep]
  by_cases h1 : o + v.length ≥ SIZE_MAX
  · refine ⟨.err .invalidArg, b, ?_, h, by simp, by simp, ?_⟩
    · simp only [exec, poke, checkWOffset, bind_apply, hco, if_pos h1]
    · rw [if_pos h1]
  · by_cases h2 : o + v.length > b.contents.length
    · refine ⟨.err .noSpace, b, ?_, h, by simp, by simp, ?_⟩
      · simp only [exec, poke, checkWOffset, bind_apply, hco, if_neg h1, if_pos h2]; rfl
      · rw [if_neg h1, if_pos (show _ > b.queue.data.length from h2)]
    · by_cases hw : b.readonly ∨ b.refcount > 1
      · refine ⟨.err .readOnly, b, ?_, h, by simp, by simp, ?_⟩
        · simp only [exec, poke, checkWOffset, bind_apply, hco, if_neg h1, if_neg h2, mutablePtr, checkSanity_ok h,
            getB_apply, pure_apply, ite_apply', if_pos hw, fail_apply]
        · rw [if_neg h1, if_neg (show ¬ _ > b.queue.data.length from h2), if_pos (show b.queue.writable = false from hwr.1 hw)]
      · have hw1 : b.writable = true := by rw [hwr] at hw; simpa using hw
        have := h.off
        obtain ⟨b2, he, hwf2, ho2, hs2, hm, hr, hrc, hcont⟩ :=
          memWrite_ok h (v := v) (p := b.off + o) (by omega) (by omega)
        refine ⟨.ok .unit, b2, ?_, hwf2, by simp, by simp, ?_⟩
        · simp only [exec, poke, checkWOffset, bind_apply, hco, if_neg h1, if_neg h2, mutablePtr, checkSanity_ok h,
            getB_apply, pure_apply, ite_apply', if_neg hw, he]
        · rw [if_neg h1, if_neg (show ¬ _ > b.queue.data.length from h2)]
          simp [Buf.queue, hw1, hcont, hm, writable_eq hr hrc]

theorem firstNul_take {v : Bytes} : firstNul v = none ↔ (0 : UInt8) ∉ v := by
  induction v with
  | nil => simp [firstNul]
  | cons x xs ih =>
    rw [firstNul]
    by_cases hx : x = 0
    · simp [hx]
    · simp [hx, ih, Ne.symm hx]

theorem nulInside_mem {v : Bytes} (h : nulInside v) : (0 : UInt8) ∈ v := List.dropLast_subset _ h

theorem mem_last {v : Bytes} (h : (0 : UInt8) ∈ v) (h' : ¬ nulInside v) : v.getLast? = some 0 := by
  unfold nulInside at h'
  cases hv : v.getLast? with
  | none => simp at hv; simp [hv] at h
  | some x =>
    obtain ⟨u, hu⟩ := List.getLast?_eq_some_iff.1 hv
    subst hu
    simp at h h'
    rcases h with h | h
    · exact absurd h h'
    · rw [h]

theorem step_dupString {b : Buf} (h : b.WF) (mem : Bool) : StepOK b .dupString mem := by
  have hr : memRead b.off b.contents.length b = (.ok b.contents, b) := by
    have := memRead_front h rfl (Nat.le_refl b.contents.length)
    rwa [List.take_length] at this
  have hspec := firstNul_spec b.contents
  simp only [StepOK, SpecStep]
  rcases hf : firstNul b.contents with _ | z
  · have hnot := firstNul_take.1 hf
    have hin : ¬ nulInside b.contents := fun hh => hnot (nulInside_mem hh)
    have hlast : b.contents.getLast? ≠ some 0 := fun hh => hnot (List.mem_of_getLast? hh)
    cases mem with
    | true =>
      refine ⟨.ok (.bytes b.contents), b, ?_, h, by simp, by simp, rfl, .inr ⟨hin, .inr ?_⟩⟩
      · simp [exec, dupString, ptr_ok h, len_ok h, hr, hf]
      · rw [if_neg (show ¬ b.queue.data.getLast? = some 0 from hlast)]; rfl
    | false =>
      refine ⟨.ok .null, b, ?_, h, by simp, by simp, rfl, .inr ⟨hin, .inl ⟨rfl, rfl⟩⟩⟩
      simp [exec, dupString, ptr_ok h, len_ok h, hr, hf]
  · have hz := firstNul_some hf
    unfold nulEarly at hspec
    rw [hf] at hspec
    simp only [decide_eq_true_eq] at hspec
    by_cases hin : nulInside b.contents
    · have := hspec.2 hin
      refine ⟨.ok .null, b, ?_, h, by simp, by simp, rfl, .inl ⟨hin, rfl⟩⟩
      simp [exec, dupString, ptr_ok h, len_ok h, hr, hf, show ¬ z = b.contents.length - 1 by omega]
    · have hz1 : z = b.contents.length - 1 := by
        have : ¬ z < b.contents.length - 1 := fun hh => hin (hspec.1 hh)
        omega
      have hmem : (0 : UInt8) ∈ b.contents := by
        refine Classical.byContradiction fun hh => ?_
        rw [firstNul_take.2 hh] at hf; cases hf
      cases mem with
      | true =>
        refine ⟨.ok (.bytes b.contents.dropLast), b, ?_, h, by simp, by simp, rfl, .inr ⟨hin, .inr ?_⟩⟩
        · simp [exec, dupString, ptr_ok h, len_ok h, hr, hf, hz1, List.dropLast_eq_take]
        · rw [if_pos (show b.queue.data.getLast? = some 0 from mem_last hmem hin)]; rfl
      | false =>
        refine ⟨.ok .null, b, ?_, h, by simp, by simp, rfl, .inr ⟨hin, .inl ⟨rfl, rfl⟩⟩⟩
        simp [exec, dupString, ptr_ok h, len_ok h, hr, hf, hz1]

theorem step_cmp {b : Buf} (h : b.WF) (o : Nat) (s : Bytes) (mem : Bool) : StepOK b (.cmp o s) mem := by
  simp only [StepOK, SpecStep]
  by_cases h1 : o > SIZE_MAX_BUF ∨ s.length > SIZE_MAX_BUF ∨ s = []
  · have h1' : o > SIZE_MAX_BUF ∨ s.length > SIZE_MAX_BUF ∨ s.length = 0 := by
      rwa [List.length_eq_zero_iff]
    refine ⟨.err .invalidArg, b, ?_, h, by simp, by simp, rfl, ?_⟩
    · simp only [exec, cmp, bind_apply, ptr_ok h, ite_apply', if_pos h1', fail_apply]
    · rw [if_pos h1]
  · have h1' : ¬ (o > SIZE_MAX_BUF ∨ s.length > SIZE_MAX_BUF ∨ s.length = 0) := by
      rwa [List.length_eq_zero_iff]
    by_cases h2 : o + s.length > b.contents.length
    · refine ⟨.err .incomplete, b, ?_, h, by simp, by simp, rfl, ?_⟩
      · simp only [exec, cmp, bind_apply, ptr_ok h, ite_apply', if_neg h1', len_ok h, if_pos h2, fail_apply]
      · rw [if_neg h1, if_pos (show _ > b.queue.data.length from h2)]
    · have hr := memRead_at (b := b) h rfl (show o + s.length ≤ b.contents.length by omega)
      by_cases h3 : (b.contents.drop o).take s.length = s
      · refine ⟨.ok .unit, b, ?_, h, by simp, by simp, rfl, ?_⟩
        · simp only [exec, cmp, bind_apply, ptr_ok h, ite_apply', if_neg h1', len_ok h, if_neg h2, hr, if_pos h3, pure_apply]
        · rw [if_neg h1, if_neg (show ¬ _ > b.queue.data.length from h2), if_pos (show (b.queue.data.drop o).take s.length = s from h3)]
      · refine ⟨.err .invalidFormat, b, ?_, h, by simp, by simp, rfl, ?_⟩
        · simp only [exec, cmp, bind_apply, ptr_ok h, ite_apply', if_neg h1', len_ok h, if_neg h2, hr, if_neg h3, fail_apply]
        · rw [if_neg h1, if_neg (show ¬ _ > b.queue.data.length from h2), if_neg (show ¬ (b.queue.data.drop o).take s.length = s from h3)]

theorem memmem_spec (s v : Bytes) (hs : s ≠ []) :
    match memmem s v with
    | some k => s <+: v.drop k ∧ ∀ j, j < k → ¬ s <+: v.drop j
    | none => ∀ j, ¬ s <+: v.drop j := by
  induction v with
  | nil =>
    have : ¬ s <+: [] := by simpa using hs
    simp [memmem, hs]
  | cons x xs ih =>
    rw [memmem]
    by_cases hp : s <+: x :: xs
    · have : s.isPrefixOf (x :: xs) = true := by simpa using hp
      simp [this, hp]
    · have : ¬ s.isPrefixOf (x :: xs) = true := by simpa using hp
      rw [if_neg this]
      rcases hm : memmem s xs with _ | k
      · rw [hm] at ih
        simp only [Option.map_none]
        intro j
        cases j with
        | zero => simpa using hp
        | succ j => simpa using ih j
      · rw [hm] at ih
        simp only [Option.map_some]
        refine ⟨by simpa using ih.1, ?_⟩
        intro j hj
        cases j with
        | zero => simpa using hp
        | succ j => simpa using ih.2 j (by omega)

theorem step_find {b : Buf} (h : b.WF) (o : Nat) (s : Bytes) (mem : Bool) : StepOK b (.find o s) mem := by
  simp only [StepOK, SpecStep]
  by_cases h1 : o > SIZE_MAX_BUF ∨ s.length > SIZE_MAX_BUF ∨ s = []
  · have h1' : o > SIZE_MAX_BUF ∨ s.length > SIZE_MAX_BUF ∨ s.length = 0 := by
      rwa [List.length_eq_zero_iff]
    refine ⟨.err .invalidArg, b, ?_, h, by simp, by simp, rfl, ?_⟩
    · simp only [exec, find, bind_apply, ptr_ok h, ite_apply', if_pos h1', fail_apply]
    · rw [if_pos h1]
  · have h1' : ¬ (o > SIZE_MAX_BUF ∨ s.length > SIZE_MAX_BUF ∨ s.length = 0) := by
      rwa [List.length_eq_zero_iff]
    have hne : s ≠ [] := fun hh => h1 (.inr (.inr hh))
    by_cases h2 : o + s.length > b.contents.length
    · refine ⟨.err .incomplete, b, ?_, h, by simp, by simp, rfl, ?_⟩
      · simp only [exec, find, bind_apply, ptr_ok h, ite_apply', if_neg h1', len_ok h,
          if_pos (show o > b.contents.length ∨ o + s.length > b.contents.length from .inr h2), fail_apply]
      · rw [if_neg h1, if_pos (show _ > b.queue.data.length from h2)]
    · have hr := memRead_at (b := b) h rfl (show o + (b.contents.length - o) ≤ b.contents.length by omega)
      rw [List.take_of_length_le (by simp)] at hr
      have hm := memmem_spec s (b.contents.drop o) hne
      rcases hk : memmem s (b.contents.drop o) with _ | k
      · rw [hk] at hm
        refine ⟨.err .invalidFormat, b, ?_, h, by simp, by simp, rfl, ?_⟩
        · simp only [exec, find, bind_apply, ptr_ok h, ite_apply', if_neg h1', len_ok h,
            if_neg (show ¬ (o > b.contents.length ∨ o + s.length > b.contents.length) by omega), hr, hk, fail_apply]
        · rw [if_neg h1, if_neg (show ¬ _ > b.queue.data.length from h2)]
          refine .inr ⟨rfl, fun j hj => ?_⟩
          have := hm (j - o)
          rwa [List.drop_drop, show o + (j - o) = j by omega] at this
      · rw [hk] at hm
        refine ⟨.ok (.num (o + k)), b, ?_, h, by simp, by simp, rfl, ?_⟩
        · simp only [exec, find, bind_apply, ptr_ok h, ite_apply', if_neg h1', len_ok h,
            if_neg (show ¬ (o > b.contents.length ∨ o + s.length > b.contents.length) by omega), hr, hk, pure_apply]
        · rw [if_neg h1, if_neg (show ¬ _ > b.queue.data.length from h2)]
          refine .inl ⟨o + k, rfl, by omega, ?_, fun j hj hj2 => ?_⟩
          · have := hm.1; rwa [List.drop_drop] at this
          · have := hm.2 (j - o) (by omega)
            rwa [List.drop_drop, show o + (j - o) = j by omega] at this

theorem step_readFd {b : Buf} (h : b.WF) (rd : ReadRes) (n : Nat)
    (hv : match rd with | .error => True | .data v => v.length ≤ n) (mem : Bool) : StepOK b (.readFd rd n) mem := by
  simp only [StepOK, SpecStep]
  rcases reserve_cases h n mem with ⟨hw, he⟩ | ⟨hw, hs, he⟩ |
    ⟨hw, hs, b1, hwf, hm, hr, hrc, ⟨hmem, hcont, he⟩ | ⟨p, junk, he, hcont, hj, hp, hp2⟩⟩
  · refine ⟨.err .readOnly, b, by simp [exec, readFd, he], h, by simp, by simp, ?_⟩
    simp [Buf.queue, hw]
  · refine ⟨.err .noSpace, b, by simp [exec, readFd, he], h, by simp, by simp, ?_⟩
    have hs' : b.contents.length + n > b.maxSize := hs
    simp [Buf.queue, hw, hs']
  · refine ⟨.err .allocFail, b1, by simp [exec, readFd, he], hwf, by simp, by simp, ?_⟩
    have hs' : ¬ b.contents.length + n > b.maxSize := by omega
    simp [Buf.queue, hw, hs', NoMem, hmem, hcont, hm, writable_eq hr hrc]
  · have hs' : ¬ b.contents.length + n > b.maxSize := by omega
    have hc1 : b1.contents.length = b.contents.length + n := by rw [hcont]; simp [hj]
    have hwq : b1.writable = true := (writable_eq hr hrc).trans hw
    have hend : ∀ (b2 : Buf), b2.WF → ∀ k, k ≤ b2.contents.length →
        giveBack k b2 = (.ok (), { b2 with size := b2.size - k }) := by
      intro b2 hb2 k hk
      simp only [giveBack, ite_apply', pure_apply, consumeEnd_eq hb2, if_pos hk]
      by_cases h0 : k = 0
      · simp [h0]
      · simp [h0]
    cases rd with
    | error =>
      refine ⟨.err .systemError, { b1 with size := b1.size - n }, ?_, consumedEnd_wf hwf (by omega), by simp, by simp, ?_⟩
      · simp only [exec, readFd, bind_apply, he, hend b1 hwf n (by omega), fail_apply]
      · have hcc := consumedEnd_contents hwf (n := n) (by omega)
        rw [hc1, hcont, Nat.add_sub_cancel, List.take_left' rfl] at hcc
        have hww : Buf.writable { b1 with size := b1.size - n } = true := hwq
        rw [if_neg (by simp [Buf.queue, hw]), if_neg (by simpa [Buf.queue] using hs')]
        right
        simp only [Buf.queue, hcc, hww, hw]
        simp [hm]
    | data v =>
      simp only at hv
      have hsize : p + n = b1.size := by omega
      obtain ⟨b2, hwr, hwf2, ho2, hs2, hm2, hr2, hrc2, hcont2⟩ :=
        memWrite_ok hwf (v := v) (p := p) (by omega) (by omega)
      have hlen1 := contents_length hwf
      have hpo : p - b1.off = b.contents.length := by omega
      rw [hpo, hcont, List.take_left' rfl] at hcont2
      have hlen2 : b2.contents.length = b.contents.length + n := by
        rw [contents_length hwf2, hs2, ho2, ← hlen1, hc1]
      have hcc := consumedEnd_contents hwf2 (n := n - v.length) (by omega)
      rw [hlen2, hcont2, List.take_left' (by simp; omega)] at hcc
      have hww : Buf.writable { b2 with size := b2.size - (n - v.length) } = true := (writable_eq hr2 hrc2).trans hwq
      simp only [if_neg (show ¬ b.queue.writable = false by simp [Buf.queue, hw]),
        if_neg (show ¬ b.queue.data.length + n > b.queue.max from hs')]
      by_cases hv0 : v = []
      · subst hv0
        refine ⟨.err .systemError, { b2 with size := b2.size - n }, ?_, consumedEnd_wf hwf2 (by omega), by simp, by simp, ?_⟩
        · simp only [exec, readFd, bind_apply, he, ite_apply', if_neg (show ¬ ([] : Bytes).length > n by simp), pure_apply, hwr,
            hend b2 hwf2 (n - ([] : Bytes).length) (by simp; omega)]
          simp
        · right
          simp only [List.length_nil, Nat.sub_zero, List.append_nil] at hcc hww
          simp only [Buf.queue, hcc, hww, hw]
          simp [hm2, hm]
      · have hv0' : v.length ≠ 0 := by simpa using hv0
        refine ⟨.ok (.num v.length), { b2 with size := b2.size - (n - v.length) }, ?_, consumedEnd_wf hwf2 (by omega), by simp, by simp, ?_⟩
        · simp only [exec, readFd, bind_apply, he, ite_apply', if_neg (show ¬ v.length > n by omega), pure_apply, hwr,
            hend b2 hwf2 (n - v.length) (by omega), if_neg hv0']
        · right
          simp only [if_neg hv0]
          simp only [Buf.queue, hcc, hww, hw]
          simp [hm2, hm]

/-! ### all calls -/

/-- The one call whose precondition is not syntactic: resetting a writable buffer whose maximum size is
below the initial allocation breaks the buffer (see `reset_small_max_breaks`). -/
def resetOK (q : Queue) (op : Op) : Prop := op = .reset → q.writable = true → SIZE_INIT ≤ q.max

theorem step_all {b : Buf} (h : b.WF) (op : Op) (hv : op.valid) (hr : resetOK b.queue op) (mem : Bool) :
    StepOK b op mem := by
  cases op with
  | put v => exact step_put h v mem
  | putf v => exact step_putf h v mem
  | putU8 v => exact step_putU8 h v mem
  | putU16 v => exact step_putU16 h v mem
  | putU32 v => exact step_putU32 h v mem
  | putU64 v => exact step_putU64 h v mem
  | putString v => exact step_putString h v mem
  | putBignum v => exact step_putBignum h v mem
  | reserve n => exact step_reserve h n mem
  | consume n => exact step_consume h n mem
  | consumeEnd n => exact step_consumeEnd h n mem
  | reset => exact step_reset h mem (hr rfl)
  | setMax n => exact step_setMax h n mem
  | get n => exact step_get h n mem
  | getU8 => exact step_getU8 h mem
  | getU16 => exact step_getU16 h mem
  | getU32 => exact step_getU32 h mem
  | getU64 => exact step_getU64 h mem
  | getString => exact step_getString h mem
  | getCString => exact step_getCString h mem
  | getBignum => exact step_getBignum h mem
  | peekU8 o => exact step_peekU8 h o hv mem
  | peekU16 o => exact step_peekU16 h o hv mem
  | peekU32 o => exact step_peekU32 h o hv mem
  | peekU64 o => exact step_peekU64 h o hv mem
  | poke o v => exact step_poke h o v hv.1 hv.2 mem
  | len => exact step_len h mem
  | avail => exact step_avail h mem
  | dupString => exact step_dupString h mem
  | cmp o s => exact step_cmp h o s mem
  | find o s => exact step_find h o s mem
  | readFd r n => exact step_readFd h r n hv.2 mem

end Verif.SshBuf
