/-
The ladder on limbs is the ladder of RFC 7748.
-/
import Verif.Curve25519.Square

namespace Verif.Curve25519
open Verif

/-- Four elements of a ring. -/
structure Quad (R : Type) where
  x2 : R
  z2 : R
  x3 : R
  z3 : R

def Quad.swap {R : Type} (b : Bool) (s : Quad R) : Quad R := if b then ⟨s.x3, s.z3, s.x2, s.z2⟩ else s

/-- One round. -/
def Quad.step {R : Type} [CommRing R] (x1 : R) (s : Quad R) : Quad R :=
  { x2 := (s.x2 + s.z2) ^ 2 * (s.x2 - s.z2) ^ 2
    z2 := ((s.x2 + s.z2) ^ 2 - (s.x2 - s.z2) ^ 2) *
      ((s.x2 + s.z2) ^ 2 + 121665 * ((s.x2 + s.z2) ^ 2 - (s.x2 - s.z2) ^ 2))
    x3 := ((s.x3 - s.z3) * (s.x2 + s.z2) + (s.x3 + s.z3) * (s.x2 - s.z2)) ^ 2
    z3 := x1 * ((s.x3 - s.z3) * (s.x2 + s.z2) - (s.x3 + s.z3) * (s.x2 - s.z2)) ^ 2 }

/-- The whole ladder. -/
def Quad.loop {R : Type} [CommRing R] (k : Nat) (x1 : R) : Nat → Quad R → Quad R
  | 0, s => s
  | n + 1, s => Quad.loop k x1 n (((s.swap (k.testBit n)).step x1).swap (k.testBit n))

/-! ### The specification -/

def Ladder.q (s : Ladder) : Quad F := ⟨s.x2, s.z2, s.x3, s.z3⟩

theorem cast_mod (a : Nat) : ((a % P : Nat) : F) = (a : F) := ZMod.natCast_mod a P

theorem cast_fadd (a b : Nat) : ((fadd a b : Nat) : F) = a + b := by
  unfold fadd
  rw [cast_mod, Nat.cast_add]

theorem cast_fmul (a b : Nat) : ((fmul a b : Nat) : F) = a * b := by
  unfold fmul
  rw [cast_mod, Nat.cast_mul]

theorem P_pos : 0 < P := by rw [P_eq]; omega

theorem cast_fsub (a b : Nat) : ((fsub a b : Nat) : F) = a - b := by
  unfold fsub
  rw [cast_mod, Nat.cast_add, Nat.cast_sub (Nat.le_of_lt (Nat.mod_lt _ P_pos)), P_zero, cast_mod]
  ring

theorem q_cswap (b : Bool) (s : Ladder) : (cswap b s).q = s.q.swap b := by
  cases b <;> rfl

theorem q_step (x1 : Nat) (s : Ladder) : (ladderStep x1 s).q = s.q.step (x1 : F) := by
  unfold Ladder.q ladderStep Quad.step
  simp only [cast_fadd, cast_fsub, cast_fmul, Nat.cast_ofNat, Quad.mk.injEq]
  refine ⟨?_, ?_, ?_, ?_⟩ <;> ring

theorem swap_swap {R : Type} (a b : Bool) (s : Quad R) : (s.swap a).swap b = s.swap (a ^^ b) := by
  cases a <;> cases b <;> rfl

theorem q_loop (k x1 n : Nat) (swap : Bool) (s : Ladder) :
    (ladderLoop k x1 n swap s).q = Quad.loop k (x1 : F) n (s.q.swap swap) := by
  induction n generalizing swap s with
  | zero => simp only [ladderLoop, Quad.loop, q_cswap]
  | succ n ih =>
    rw [ladderLoop, ih, q_step, q_cswap, Quad.loop, swap_swap]

/-- The specification in the field. -/
theorem cast_x25519 (k u : Nat) : ((x25519 k u : Nat) : F) =
    (Quad.loop k (u : F) 255 ⟨1, 0, u, 1⟩).x2 * (Quad.loop k (u : F) 255 ⟨1, 0, u, 1⟩).z2 ^ (P - 2) := by
  have h := q_loop k u 255 false { x2 := 1, z2 := 0, x3 := u, z3 := 1 }
  have hs : Ladder.q { x2 := 1, z2 := 0, x3 := u, z3 := 1 } = (⟨1, 0, u, 1⟩ : Quad F) := by
    unfold Ladder.q
    simp
  rw [hs] at h
  change _ = Quad.loop k (u : F) 255 ⟨1, 0, u, 1⟩ at h
  unfold x25519
  rw [cast_fmul, cast_mod, Nat.cast_pow, ← h]
  rfl

theorem x25519_lt (k u : Nat) : x25519 k u < P := Nat.mod_lt _ P_pos

/-! ### The model -/

/-- The field elements of the working state. -/
def Work.q (w : Work) : Quad F := ⟨fv w.xm, fv w.zm, fv w.xm1, fv w.zm1⟩

structure Work.Ok (w : Work) : Prop where
  xm : Bnd 255 w.xm
  zm : Bnd 128 w.zm
  xm1 : Bnd 255 w.xm1
  zm1 : Bnd 128 w.zm1

theorem select_ok {w : Work} (h : w.Ok) (b : Bool) : (select w (bit32 b)).Ok ∧ (select w (bit32 b)).q = w.q.swap b := by
  have hx : w.xm.length = w.xm1.length := by rw [h.xm.len, h.xm1.len]
  have hz : w.zm.length = w.zm1.length := by rw [h.zm.len, h.zm1.len]
  unfold select
  rw [selectP_eq b hx, selectP_eq b hz, selectQ_eq b hx, selectQ_eq b hz]
  cases b
  · exact ⟨⟨h.xm, h.zm, h.xm1, h.zm1⟩, rfl⟩
  · exact ⟨⟨h.xm1, h.zm1, h.xm, h.zm⟩, rfl⟩

theorem select_bnd {w : Work} (h : w.Ok) (h1 : Bnd 128 w.xm) (h2 : Bnd 128 w.xm1) (b : Bool) :
    Bnd 128 (select w (bit32 b)).xm ∧ Bnd 128 (select w (bit32 b)).zm := by
  have hx : w.xm.length = w.xm1.length := by rw [h.xm.len, h.xm1.len]
  have hz : w.zm.length = w.zm1.length := by rw [h.zm.len, h.zm1.len]
  unfold select
  rw [selectP_eq b hx, selectP_eq b hz]
  cases b
  · exact ⟨h1, h.zm⟩
  · exact ⟨h2, h.zm1⟩

theorem rung_ok {work : Limbs} {w : Work} (hw : Bnd 255 work) (h : w.Ok) :
    (rung work w).Ok ∧ (rung work w).q = w.q.step (fv work) ∧ Bnd 128 (rung work w).xm ∧ Bnd 128 (rung work w).xm1 := by
  have a0 := (add_ok h.xm h.zm (by decide)).1.mono (m := 512) (by decide)
  have a0v := fv_add h.xm h.zm (by decide)
  have a0' := (sub_ok h.xm h.zm (by decide) (by decide)).1.mono (m := 512) (by decide)
  have a0v' := fv_sub h.xm h.zm (by decide) (by decide)
  have a1 := (add_ok h.xm1 h.zm1 (by decide)).1.mono (m := 512) (by decide)
  have a1v := fv_add h.xm1 h.zm1 (by decide)
  have a1' := (sub_ok h.xm1 h.zm1 (by decide) (by decide)).1.mono (m := 512) (by decide)
  have a1v' := fv_sub h.xm1 h.zm1 (by decide) (by decide)
  unfold rung
  simp only [square_eq]
  generalize add w.xm w.zm = A0 at *
  generalize sub w.xm w.zm = A0' at *
  generalize add w.xm1 w.zm1 = A1 at *
  generalize sub w.xm1 w.zm1 = A1' at *
  obtain ⟨b0, b0v⟩ := mult_ok a0 a0
  obtain ⟨b0', b0v'⟩ := mult_ok a0' a0'
  obtain ⟨b1, b1v⟩ := mult_ok a1 a0'
  obtain ⟨b1', b1v'⟩ := mult_ok a1' a0
  generalize mult A0 A0 = B0 at *
  generalize mult A0' A0' = B0' at *
  generalize mult A1 A0' = B1 at *
  generalize mult A1' A0 = B1' at *
  have c1 := (add_ok b1 b1' (by decide)).1.mono (m := 512) (by decide)
  have c1v := fv_add b1 b1' (by decide)
  have c1' := (sub_ok b1 b1' (by decide) (by decide)).1.mono (m := 512) (by decide)
  have c1v' := fv_sub b1 b1' (by decide) (by decide)
  have s := (sub_ok b0 b0' (by decide) (by decide)).1.mono (m := 512) (by decide)
  have sv := fv_sub b0 b0' (by decide) (by decide)
  generalize add B1 B1' = C1 at *
  generalize sub B1 B1' = C1' at *
  generalize sub B0 B0' = S at *
  have t := (mult121665_ok s (by decide)).1
  have tv := fv_121665 s (by decide)
  obtain ⟨r, rv⟩ := mult_ok c1' c1'
  generalize mult121665 S = T at *
  generalize mult C1' C1' = R at *
  have u := (add_ok t b0 (by decide)).1.mono (m := 512) (by decide)
  have uv := fv_add t b0 (by decide)
  generalize add T B0 = U at *
  obtain ⟨p1, p1v⟩ := mult_ok (b0.mono (by decide : 128 ≤ 512)) (b0'.mono (by decide : 128 ≤ 512))
  obtain ⟨p2, p2v⟩ := mult_ok s u
  obtain ⟨p3, p3v⟩ := mult_ok c1 c1
  obtain ⟨p4, p4v⟩ := mult_ok (r.mono (by decide : 128 ≤ 512)) (hw.mono (by decide : 255 ≤ 512))
  refine ⟨⟨p1.mono (by decide), p2, p3.mono (by decide), p4⟩, ?_, p1, p3⟩
  unfold Work.q Quad.step
  simp only [p1v, p2v, p3v, p4v, Quad.mk.injEq]
  rw [uv, tv, rv, sv, c1v, c1v', b0v, b0v', b1v, b1v', a0v, a0v', a1v, a1v']
  refine ⟨?_, ?_, ?_, ?_⟩ <;> ring

/-! ### Bits of the scalar -/

theorem ofLE_testBit (e : Bytes) (n : Nat) : (ofLE e).testBit n = (e.getD (n / 8) 0).toNat.testBit (n % 8) := by
  induction e generalizing n with
  | nil => simp [ofLE]
  | cons b e ih =>
    have h := Nat.testBit_two_pow_mul_add (ofLE e) (i := 8) (b := b.toNat) (UInt8.toNat_lt b) n
    rw [ofLE, Nat.add_comm, show 256 = 2 ^ 8 from rfl, h]
    by_cases hn : n < 8
    · rw [if_pos hn, Nat.div_eq_of_lt hn, Nat.mod_eq_of_lt hn]; rfl
    · rw [if_neg hn, ih, show n / 8 = (n - 8) / 8 + 1 from by omega, show (n - 8) % 8 = n % 8 from by omega,
        List.getD_cons_succ]

theorem bitAt_eq (e : Bytes) (n : Nat) : bitAt e n = bit32 ((ofLE e).testBit n) := by
  rw [ofLE_testBit]
  unfold bitAt
  generalize e.getD (n / 8) 0 = b
  apply UInt32.toNat.inj
  have h8 : n % 8 < 8 := Nat.mod_lt _ (by decide)
  rw [UInt32.toNat_and, UInt32.toNat_shiftRight, UInt32.toNat_ofNat', UInt8.toNat_toUInt32]
  have e1 : n % 8 % 2 ^ 32 % 32 = n % 8 := by omega
  rw [e1]
  have e2 : (1 : UInt32).toNat = 2 ^ 1 - 1 := rfl
  rw [e2, Nat.and_two_pow_sub_one_eq_mod, Nat.testBit_eq_decide_div_mod_eq, Nat.shiftRight_eq_div_pow]
  unfold bit32
  by_cases h : b.toNat / 2 ^ (n % 8) % 2 = 1
  · simp [h]
  · have : b.toNat / 2 ^ (n % 8) % 2 = 0 := by omega
    simp [this]

/-! ### The loop -/

theorem loop_ok {work : Limbs} (hw : Bnd 255 work) (e : Bytes) (n : Nat) {w : Work} (h : w.Ok) :
    (loop work e n w).Ok ∧ (loop work e n w).q = Quad.loop (ofLE e) (fv work) n w.q := by
  induction n generalizing w with
  | zero => exact ⟨h, rfl⟩
  | succ n ih =>
    rw [loop, Quad.loop, bitAt_eq]
    obtain ⟨s1, s2⟩ := select_ok h ((ofLE e).testBit n)
    obtain ⟨r1, r2, _, _⟩ := rung_ok hw s1
    obtain ⟨t1, t2⟩ := select_ok r1 ((ofLE e).testBit n)
    rw [← s2, ← r2, ← t2]
    exact ih t1

theorem loop_bnd {work : Limbs} (hw : Bnd 255 work) (e : Bytes) (n : Nat) {w : Work} (h : w.Ok)
    (h1 : Bnd 128 w.xm) (h2 : Bnd 255 w.xm1) (hn : n ≠ 0) :
    Bnd 128 (loop work e n w).xm ∧ Bnd 128 (loop work e n w).zm := by
  induction n generalizing w with
  | zero => exact absurd rfl hn
  | succ n ih =>
    rw [loop, bitAt_eq]
    obtain ⟨s1, s2⟩ := select_ok h ((ofLE e).testBit n)
    obtain ⟨r1, r2, r3, r4⟩ := rung_ok hw s1
    obtain ⟨t1, t2⟩ := select_ok r1 ((ofLE e).testBit n)
    have t3 := select_bnd r1 r3 r4 ((ofLE e).testBit n)
    by_cases h0 : n = 0
    · subst h0; exact t3
    · exact ih t1 t3.1 t1.xm1 h0

/-! ### The inverse -/

theorem mult_pow {z : F} {a b : Limbs} {i j : Nat} (ha : Bnd 128 a ∧ fv a = z ^ i) (hb : Bnd 128 b ∧ fv b = z ^ j) :
    Bnd 128 (mult a b) ∧ fv (mult a b) = z ^ (i + j) := by
  obtain ⟨m1, m2⟩ := mult_ok (ha.1.mono (by decide : 128 ≤ 512)) (hb.1.mono (by decide : 128 ≤ 512))
  exact ⟨m1, by rw [m2, ha.2, hb.2, pow_add]⟩

theorem square_pow {z : F} {a : Limbs} {i : Nat} (ha : Bnd 128 a ∧ fv a = z ^ i) :
    Bnd 128 (square a) ∧ fv (square a) = z ^ (2 * i) := by
  rw [square_eq, Nat.two_mul]
  exact mult_pow ha ha

theorem squares_pow {z : F} {a : Limbs} {i : Nat} (n : Nat) (ha : Bnd 128 a ∧ fv a = z ^ i) :
    Bnd 128 (squares n a) ∧ fv (squares n a) = z ^ (2 ^ n * i) := by
  induction n generalizing a i with
  | zero => simpa [squares] using ha
  | succ n ih =>
    have h := ih (square_pow ha)
    rw [squares, pow_succ, Nat.mul_assoc]
    exact h

theorem recip_ok {a : Limbs} (ha : Bnd 128 a) : Bnd 128 (recip a) ∧ fv (recip a) = fv a ^ (P - 2) := by
  have h1 : Bnd 128 a ∧ fv a = fv a ^ 1 := ⟨ha, by rw [pow_one]⟩
  have z2 := square_pow h1
  have z9 := mult_pow (square_pow (square_pow z2)) h1
  have z11 := mult_pow z9 z2
  have z5 := mult_pow (square_pow z11) z9
  have z10 := mult_pow (squares_pow 5 z5) z5
  have z20 := mult_pow (squares_pow 10 z10) z10
  have z40 := mult_pow (squares_pow 20 z20) z20
  have z50 := mult_pow (squares_pow 10 z40) z10
  have z100 := mult_pow (squares_pow 50 z50) z50
  have z200 := mult_pow (squares_pow 100 z100) z100
  have z250 := mult_pow (squares_pow 50 z200) z50
  have z255 := mult_pow (squares_pow 5 z250) z11
  exact ⟨z255.1, z255.2.trans (congrArg (fun i => fv a ^ i) (by decide +kernel))⟩

/-! ### The whole function -/

theorem val_bytes (p : Bytes) : val (p.map UInt8.toUInt32) = ofLE p := by
  induction p with
  | nil => rfl
  | cons b p ih => simp only [List.map_cons, val, ofLE, ih, UInt8.toNat_toUInt32]

theorem bytes_bnd {p : Bytes} (h : p.length = 32) : Bnd 255 (p.map UInt8.toUInt32) := by
  have hb : ∀ x ∈ p.map UInt8.toUInt32, x.toNat < 256 := by
    intro x hx
    obtain ⟨b, _, rfl⟩ := List.mem_map.mp hx
    rw [UInt8.toNat_toUInt32]; exact UInt8.toNat_lt b
  have hl : (p.map UInt8.toUInt32).length = 32 := by rw [List.length_map, h]
  refine ⟨hl, fun x hx => hb x (List.mem_of_mem_take hx), ?_⟩
  have := hb (top (p.map UInt8.toUInt32)) (by
    have := take_top hl
    rw [this]; simp only [List.mem_append, List.mem_singleton]; right
    rw [← this])
  omega

theorem one_ok : Bnd 128 (1 :: List.replicate 31 0) ∧ fv (1 :: List.replicate 31 0) = 1 := by
  refine ⟨⟨by decide, by decide, by decide⟩, ?_⟩
  have : val (1 :: List.replicate 31 0) = 1 := by simp [val, List.replicate]
  unfold fv
  rw [this, Nat.cast_one]

theorem zero_ok : Bnd 128 (List.replicate 32 0) ∧ fv (List.replicate 32 0) = 0 := by
  refine ⟨⟨by decide, by decide, by decide⟩, ?_⟩
  have : val (List.replicate 32 0) = 0 := by simp [val, List.replicate]
  unfold fv
  rw [this, Nat.cast_zero]

/-- The function computes X25519, of the point with its most significant bit. -/
theorem scalarmult_eq {n p : Bytes} (hn : n.length = 32) (hp : p.length = 32) :
    scalarmult n p = toLE 32 (x25519 (decodeScalar n) (ofLE p)) := by
  unfold scalarmult mainloop
  have hw := bytes_bnd hp
  rw [List.take_of_length_le (Nat.le_of_eq hp), List.take_of_length_le (Nat.le_of_eq hw.len)]
  have hk : ofLE (clamp n) = decodeScalar n := by
    unfold clamp decodeScalar
    rw [List.take_of_length_le (Nat.le_of_eq hn)]
  have hok : Work.Ok { xm := 1 :: List.replicate 31 0, zm := List.replicate 32 0, xm1 := p.map UInt8.toUInt32, zm1 := 1 :: List.replicate 31 0 } :=
    ⟨one_ok.1.mono (by decide), zero_ok.1, hw, one_ok.1⟩
  obtain ⟨l1, l2⟩ := loop_ok hw (clamp n) 255 hok
  obtain ⟨b1, b2⟩ := loop_bnd hw (clamp n) 255 hok one_ok.1 hw (by decide)
  generalize loop (p.map UInt8.toUInt32) (clamp n) 255 _ = w at *
  have hq : Work.q { xm := 1 :: List.replicate 31 0, zm := List.replicate 32 0, xm1 := p.map UInt8.toUInt32, zm1 := 1 :: List.replicate 31 0 } =
      ⟨1, 0, (ofLE p : F), 1⟩ := by
    unfold Work.q
    simp only [one_ok.2, zero_ok.2]
    unfold fv
    rw [val_bytes]
  have hfw : fv (p.map UInt8.toUInt32) = (ofLE p : F) := by unfold fv; rw [val_bytes]
  rw [hq, hk, hfw] at l2
  obtain ⟨r1, r2⟩ := recip_ok b2
  obtain ⟨m1, m2⟩ := mult_ok (b1.mono (by decide : 128 ≤ 512)) (r1.mono (by decide : 128 ≤ 512))
  simp only []
  rw [freeze_ok m1]
  refine congrArg (toLE 32) ?_
  have hc : (val (mult w.xm (recip w.zm)) : F) = (x25519 (decodeScalar n) (ofLE p) : F) := by
    rw [cast_x25519, ← l2, show (val (mult w.xm (recip w.zm)) : F) = fv (mult w.xm (recip w.zm)) from rfl, m2, r2]
    rfl
  have := (ZMod.natCast_eq_natCast_iff' _ _ _).mp hc
  rw [this, Nat.mod_eq_of_lt (x25519_lt _ _)]

end Verif.Curve25519
