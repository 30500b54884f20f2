/-
The macros of the filter, one by one, and what they amount to together.
-/
import Verif.Sandbox.Spec

namespace Verif.Sandbox

/-! ### Words -/

theorem word_ext (a b : BitVec 64) : a = b ↔ lo a = lo b ∧ hi a = hi b := by
  constructor
  · rintro rfl; exact ⟨rfl, rfl⟩
  · rintro ⟨h1, h2⟩
    apply BitVec.eq_of_getLsbD_eq
    intro i hi'
    by_cases h : i < 32
    · have := congrArg (fun x => x.getLsbD i) h1
      simpa [lo, BitVec.getLsbD_setWidth, h] using this
    · have := congrArg (fun x => x.getLsbD (i - 32)) h2
      have hlt : i - 32 < 32 := by omega
      have he : 32 + (i - 32) = i := by omega
      simpa [hi, BitVec.getLsbD_setWidth, BitVec.getLsbD_ushiftRight, hlt, he] using this

theorem lo_and_not (a m : BitVec 64) : lo (a &&& ~~~m) = lo a &&& ~~~(lo m) := by
  apply BitVec.eq_of_getLsbD_eq
  intro i hi'
  have : i < 64 := by omega
  simp [lo, BitVec.getLsbD_setWidth, hi', this]

theorem hi_and_not (a m : BitVec 64) : hi (a &&& ~~~m) = hi a &&& ~~~(hi m) := by
  apply BitVec.eq_of_getLsbD_eq
  intro i hi'
  have : 32 + i < 64 := by omega
  simp [hi, BitVec.getLsbD_setWidth, BitVec.getLsbD_ushiftRight, hi', this]

theorem masked (a m v : BitVec 64) : (lo a &&& ~~~(lo m) = lo v ∧ hi a &&& ~~~(hi m) = hi v) ↔ a &&& ~~~m = v := by
  rw [word_ext (a &&& ~~~m) v, lo_and_not, hi_and_not]

theorem only_bits (a m : BitVec 64) : a &&& ~~~m = 0 ↔ ∀ i, a.getLsbD i = true → m.getLsbD i = true := by
  constructor
  · intro h i hi'
    have := congrArg (fun x => x.getLsbD i) h
    have hlt : i < 64 := by
      refine Decidable.byContradiction fun hc => ?_
      rw [BitVec.getLsbD_of_ge _ _ (by omega)] at hi'
      cases hi'
    simpa [hi', hlt] using this
  · intro h
    apply BitVec.eq_of_getLsbD_eq
    intro i hi'
    cases ha : a.getLsbD i with
    | false => simp [ha]
    | true => simp [ha, h i ha]

theorem mmapFlags_bit (P : Platform) (i : Nat) : (mmapFlags P).getLsbD i = true ↔ MapBit P i := by
  unfold mmapFlags MapBit
  cases h : P.mapNoReplace with
  | none => simp [BitVec.getLsbD_or, or_assoc]
  | some x => simp [BitVec.getLsbD_or, or_assoc]

theorem mapFlags_iff (P : Platform) (a : BitVec 64) : a &&& ~~~(mmapFlags P) = 0 ↔ MapFlags P a := by
  rw [only_bits]
  exact forall_congr' fun i => by rw [mmapFlags_bit]

theorem protRW_bit (i : Nat) : protRW.getLsbD i = true ↔ i < 2 := by
  have h : protRW = 3#64 := rfl
  rw [h]
  match i with
  | 0 => decide
  | 1 => decide
  | n + 2 =>
    simp only [BitVec.getLsbD_ofNat, Bool.and_eq_true, decide_eq_true_eq]
    have : Nat.testBit 3 (n + 2) = false := by
      apply Nat.testBit_lt_two_pow
      calc 3 < 2 ^ 2 := by decide
        _ ≤ 2 ^ (n + 2) := Nat.pow_le_pow_right (by decide) (by omega)
    rw [this]
    simp

theorem readWrite_iff (a : BitVec 64) : a &&& ~~~protRW = 0 ↔ ReadWrite a := by
  rw [only_bits]
  unfold ReadWrite
  constructor
  · intro h
    have : a.toNat < 2 ^ 2 := by
      apply Nat.lt_pow_two_of_testBit
      intro i hi
      cases hb : a.toNat.testBit i with
      | false => rfl
      | true =>
        have := (protRW_bit i).1 (h i (by rw [← BitVec.testBit_toNat]; exact hb))
        omega
    exact this
  · intro h i hi
    rw [protRW_bit]
    refine Decidable.byContradiction fun hc => ?_
    rw [← BitVec.testBit_toNat] at hi
    have : a.toNat < 2 ^ i := Nat.lt_of_lt_of_le h (by
      calc 4 = 2 ^ 2 := rfl
        _ ≤ 2 ^ i := Nat.pow_le_pow_right (by decide) (by omega))
    rw [Nat.testBit_lt_two_pow this] at hi
    cases hi

theorem futexMask_bit (i : Nat) : futexMask.getLsbD i = true ↔ i = 7 ∨ i = 8 := by
  by_cases h : i < 64
  · have : ∀ i : Fin 64, futexMask.getLsbD i.1 = true ↔ i.1 = 7 ∨ i.1 = 8 := by decide +kernel
    exact this ⟨i, h⟩
  · rw [BitVec.getLsbD_of_ge _ _ (by omega)]
    simp; omega

theorem futex_op_iff (v : BitVec 64) (op : Nat) (ho : op < 16) :
    v &&& ~~~futexMask = BitVec.ofNat 64 op ↔ ∀ i, v.getLsbD i = (if i = 7 ∨ i = 8 then v.getLsbD i else Nat.testBit op i) := by
  have hop : ∀ i, 4 ≤ i → Nat.testBit op i = false := fun i hi => Nat.testBit_lt_two_pow (Nat.lt_of_lt_of_le ho (by
    calc 16 = 2 ^ 4 := rfl
      _ ≤ 2 ^ i := Nat.pow_le_pow_right (by decide) hi))
  constructor
  · intro h i
    by_cases h7 : i = 7 ∨ i = 8
    · rw [if_pos h7]
    · rw [if_neg h7]
      have hm : futexMask.getLsbD i = false := by
        cases hb : futexMask.getLsbD i with
        | false => rfl
        | true => exact absurd ((futexMask_bit i).1 hb) h7
      have := congrArg (fun x => x.getLsbD i) h
      by_cases hi : i < 64
      · simpa only [BitVec.getLsbD_and, BitVec.getLsbD_not, BitVec.getLsbD_ofNat, hm, hi, decide_true, Bool.not_false, Bool.true_and,
          Bool.and_true] using this
      · rw [BitVec.getLsbD_of_ge _ _ (by omega), hop i (by omega)]
  · intro h
    apply BitVec.eq_of_getLsbD_eq
    intro i hi
    by_cases h7 : i = 7 ∨ i = 8
    · have hm := (futexMask_bit i).2 h7
      have h4 := hop i (by omega)
      simp only [BitVec.getLsbD_and, BitVec.getLsbD_not, BitVec.getLsbD_ofNat, hm, h4, Bool.not_true, Bool.and_false]
    · have hm : futexMask.getLsbD i = false := by
        cases hb : futexMask.getLsbD i with
        | false => rfl
        | true => exact absurd ((futexMask_bit i).1 hb) h7
      have := h i
      rw [if_neg h7] at this
      simp only [BitVec.getLsbD_and, BitVec.getLsbD_not, BitVec.getLsbD_ofNat, hm, hi, this, decide_true, Bool.not_false,
        Bool.true_and, Bool.and_true]

/-! ### Blocks of instructions -/

/-- With the number in the accumulator, the instructions return or leave it there. -/
def Block (P : Platform) (d : Call) (b : List Insn) (v : Option Verdict) : Prop :=
  ∀ rest, exec P d (b ++ rest) 0 d.nr = (v.elim (exec P d rest 0 d.nr) Outcome.verdict)

theorem Block.append {P : Platform} {d : Call} {a b : List Insn} {v w : Option Verdict} (h1 : Block P d a v) (h2 : Block P d b w) :
    Block P d (a ++ b) (v.or w) := by
  intro rest
  rw [List.append_assoc, h1]
  cases v with
  | some v => rfl
  | none => exact h2 rest

theorem Block.nil {P : Platform} {d : Call} : Block P d [] none := fun _ => rfl

theorem load_lo (P : Platform) (d : Call) {i : Nat} (hi : i < 6) : load P d (argOffset i + loOffset P) = some (lo (d.arg i)) := by
  unfold load argOffset loOffset word
  cases P.big with
  | true =>
    simp only [if_true]
    have h1 : (16 + 8 * i + 4) % 8 = 4 := by omega
    have h2 : (16 + 8 * i + 4 - 16) / 8 = i := by omega
    rw [if_neg (by omega), if_neg (by omega), if_neg (by omega), if_neg (by omega), if_pos (by omega), h2]
    simp [h1]
  | false =>
    simp only [Bool.false_eq_true, if_false]
    have h1 : ¬ (16 + 8 * i + 0) % 8 = 4 := by omega
    have h2 : (16 + 8 * i + 0 - 16) / 8 = i := by omega
    rw [if_neg (by omega), if_neg (by omega), if_neg (by omega), if_neg (by omega), if_pos (by omega), h2]
    simp only [h1, decide_false, if_true]

theorem load_hi (P : Platform) (d : Call) {i : Nat} (hi' : i < 6) : load P d (argOffset i + hiOffset P) = some (hi (d.arg i)) := by
  unfold load argOffset hiOffset word
  cases P.big with
  | true =>
    simp only [if_true]
    have h1 : ¬ (16 + 8 * i + 0) % 8 = 4 := by omega
    have h2 : (16 + 8 * i + 0 - 16) / 8 = i := by omega
    rw [if_neg (by omega), if_neg (by omega), if_neg (by omega), if_neg (by omega), if_pos (by omega), h2]
    simp [h1]
  | false =>
    simp only [Bool.false_eq_true, if_false]
    have h1 : (16 + 8 * i + 4) % 8 = 4 := by omega
    have h2 : (16 + 8 * i + 4 - 16) / 8 = i := by omega
    rw [if_neg (by omega), if_neg (by omega), if_neg (by omega), if_neg (by omega), if_pos (by omega), h2]
    simp [h1]

theorem load_nr (P : Platform) (d : Call) : load P d 0 = some d.nr := rfl

theorem deny_block (P : Platform) (d : Call) (n : BitVec 32) (e : Errno) :
    Block P d (deny n e) (if d.nr = n then some (.errno e) else none) := by
  intro rest
  by_cases h : d.nr = n <;> simp [deny, exec, h]

theorem allow_block (P : Platform) (d : Call) (n : BitVec 32) : Block P d (allow n) (if d.nr = n then some .allow else none) := by
  intro rest
  by_cases h : d.nr = n <;> simp [allow, exec, h]

theorem allowArg_block (P : Platform) (d : Call) (n : BitVec 32) {i : Nat} (hi' : i < 6) (v : BitVec 64) :
    Block P d (allowArg P n i v) (if d.nr = n ∧ d.arg i = v then some .allow else none) := by
  intro rest
  simp only [word_ext (d.arg i) v]
  by_cases h : d.nr = n
  · by_cases h1 : lo (d.arg i) = lo v
    · by_cases h2 : hi (d.arg i) = hi v
      · simp [allowArg, exec, load_lo, load_hi, hi', h, h1, h2]
      · simp [allowArg, exec, load_lo, load_hi, load_nr, hi', h, h1, h2]
    · simp [allowArg, exec, load_lo, load_nr, hi', h, h1]
  · simp [allowArg, exec, h]

theorem allowMask_block (P : Platform) (d : Call) (n : BitVec 32) {i : Nat} (hi' : i < 6) (m : BitVec 64) :
    Block P d (allowMask P n i m) (if d.nr = n ∧ d.arg i &&& ~~~m = 0 then some .allow else none) := by
  intro rest
  have hm := masked (d.arg i) m 0
  have h0 : lo 0 = 0 ∧ hi 0 = 0 := by decide
  rw [h0.1, h0.2] at hm
  simp only [← hm]
  by_cases h : d.nr = n
  · by_cases h1 : lo (d.arg i) &&& ~~~(lo m) = 0
    · by_cases h2 : hi (d.arg i) &&& ~~~(hi m) = 0
      · simp only [allowMask, List.cons_append, exec, load_lo, load_hi, hi', h, h1, h2, if_true]; simp [exec, h1, h2, load_hi, hi']
      · simp only [allowMask, List.cons_append, exec, load_lo, load_hi, hi', h, h1, h2, if_true]
        simp [exec, h1, h2, load_hi, load_nr, hi', h]
    · simp only [allowMask, List.cons_append, exec, load_lo, load_hi, hi', h, h1, if_true]; simp [exec, h1, load_nr, h]
  · simp [allowMask, exec, h]

theorem denyUnless_block (P : Platform) (d : Call) (n : BitVec 32) {i : Nat} (hi' : i < 6) (m : BitVec 64) (e : Errno) :
    Block P d (denyUnless P n i m e) (if d.nr = n ∧ ¬ d.arg i &&& ~~~m = 0 then some (.errno e) else none) := by
  intro rest
  have hm := masked (d.arg i) m 0
  have h0 : lo 0 = 0 ∧ hi 0 = 0 := by decide
  rw [h0.1, h0.2] at hm
  simp only [← hm]
  by_cases h : d.nr = n
  · by_cases h1 : lo (d.arg i) &&& ~~~(lo m) = 0
    · by_cases h2 : hi (d.arg i) &&& ~~~(hi m) = 0
      · simp only [denyUnless, List.cons_append, exec, load_lo, load_hi, hi', h, h1, h2, if_true]
        simp [exec, h1, h2, load_hi, load_nr, hi', h]
      · simp only [denyUnless, List.cons_append, exec, load_lo, load_hi, hi', h, h1, h2, if_true]
        simp [exec, h1, h2, load_hi, load_nr, hi', h]
    · simp only [denyUnless, List.cons_append, exec, load_lo, load_hi, hi', h, h1, if_true]; simp [exec, h1, load_nr, h]
  · simp [denyUnless, exec, h]

theorem futexOp_block (P : Platform) (d : Call) (n : BitVec 32) (op : BitVec 64) :
    Block P d (futexOp P n op) (if d.nr = n ∧ d.arg 1 &&& ~~~futexMask = op then some .allow else none) := by
  intro rest
  simp only [← masked (d.arg 1) futexMask op]
  have hi' : 1 < 6 := by decide
  unfold futexOp
  generalize futexMask = m
  by_cases h : d.nr = n
  · by_cases h1 : lo (d.arg 1) &&& ~~~(lo m) = lo op
    · by_cases h2 : hi (d.arg 1) &&& ~~~(hi m) = hi op
      · simp only [List.cons_append, exec, load_lo, load_hi, hi', h, h1, h2, if_true]; simp [exec, h1, h2, load_hi, hi']
      · simp only [List.cons_append, exec, load_lo, load_hi, hi', h, h1, h2, if_true]
        simp [exec, h1, h2, load_hi, load_nr, hi', h]
    · simp only [List.cons_append, exec, load_lo, load_hi, hi', h, h1, if_true]; simp [exec, h1, load_nr, h]
  · simp [exec, h]

end Verif.Sandbox
