/-
The order of the base point is a prime number.
-/
import Verif.Curve25519.Point

namespace Verif.Curve25519
open Verif

theorem prime_409477 : Nat.Prime 409477 :=
  pratt (f := 256) (a := 2) (l := [2, 2, 3, 34123]) (by decide +kernel) (by
    simp only [List.mem_cons, List.not_mem_nil, or_false, forall_eq_or_imp, forall_eq]
    exact ⟨by norm_num, by norm_num, by norm_num, by norm_num⟩)

theorem prime_14741173 : Nat.Prime 14741173 :=
  pratt (f := 256) (a := 2) (l := [2, 2, 3, 3, 409477]) (by decide +kernel) (by
    simp only [List.mem_cons, List.not_mem_nil, or_false, forall_eq_or_imp, forall_eq]
    exact ⟨by norm_num, by norm_num, by norm_num, by norm_num, prime_409477⟩)

theorem prime_58964693 : Nat.Prime 58964693 :=
  pratt (f := 256) (a := 2) (l := [2, 2, 14741173]) (by decide +kernel) (by
    simp only [List.mem_cons, List.not_mem_nil, or_false, forall_eq_or_imp, forall_eq]
    exact ⟨by norm_num, by norm_num, prime_14741173⟩)

theorem prime_132667 : Nat.Prime 132667 :=
  pratt (f := 256) (a := 5) (l := [2, 3, 22111]) (by decide +kernel) (by
    simp only [List.mem_cons, List.not_mem_nil, or_false, forall_eq_or_imp, forall_eq]
    exact ⟨by norm_num, by norm_num, by norm_num⟩)

theorem prime_137849 : Nat.Prime 137849 :=
  pratt (f := 256) (a := 3) (l := [2, 2, 2, 17231]) (by decide +kernel) (by
    simp only [List.mem_cons, List.not_mem_nil, or_false, forall_eq_or_imp, forall_eq]
    exact ⟨by norm_num, by norm_num, by norm_num, by norm_num⟩)

theorem prime_3044861653679985063343 : Nat.Prime 3044861653679985063343 :=
  pratt (f := 256) (a := 5) (l := [2, 3, 11, 30703, 82163, 132667, 137849]) (by decide +kernel) (by
    simp only [List.mem_cons, List.not_mem_nil, or_false, forall_eq_or_imp, forall_eq]
    exact ⟨by norm_num, by norm_num, by norm_num, by norm_num, by norm_num, prime_132667, prime_137849⟩)

theorem prime_198211423230930754013084525763697 : Nat.Prime 198211423230930754013084525763697 :=
  pratt (f := 256) (a := 5) (l := [2, 2, 2, 2, 3, 23, 58964693, 3044861653679985063343]) (by decide +kernel) (by
    simp only [List.mem_cons, List.not_mem_nil, or_false, forall_eq_or_imp, forall_eq]
    exact ⟨by norm_num, by norm_num, by norm_num, by norm_num, by norm_num, by norm_num, prime_58964693, prime_3044861653679985063343⟩)

theorem prime_292386187 : Nat.Prime 292386187 :=
  pratt (f := 256) (a := 2) (l := [2, 3, 3, 3, 3, 307, 5879]) (by decide +kernel) (by
    simp only [List.mem_cons, List.not_mem_nil, or_false, forall_eq_or_imp, forall_eq]
    exact ⟨by norm_num, by norm_num, by norm_num, by norm_num, by norm_num, by norm_num, by norm_num⟩)

theorem prime_213441916511 : Nat.Prime 213441916511 :=
  pratt (f := 256) (a := 13) (l := [2, 5, 73, 292386187]) (by decide +kernel) (by
    simp only [List.mem_cons, List.not_mem_nil, or_false, forall_eq_or_imp, forall_eq]
    exact ⟨by norm_num, by norm_num, by norm_num, prime_292386187⟩)

theorem prime_531581 : Nat.Prime 531581 :=
  pratt (f := 256) (a := 2) (l := [2, 2, 5, 7, 3797]) (by decide +kernel) (by
    simp only [List.mem_cons, List.not_mem_nil, or_false, forall_eq_or_imp, forall_eq]
    exact ⟨by norm_num, by norm_num, by norm_num, by norm_num, by norm_num⟩)

theorem prime_1224481 : Nat.Prime 1224481 :=
  pratt (f := 256) (a := 13) (l := [2, 2, 2, 2, 2, 3, 5, 2551]) (by decide +kernel) (by
    simp only [List.mem_cons, List.not_mem_nil, or_false, forall_eq_or_imp, forall_eq]
    exact ⟨by norm_num, by norm_num, by norm_num, by norm_num, by norm_num, by norm_num, by norm_num, by norm_num⟩)

theorem prime_1257559732178653 : Nat.Prime 1257559732178653 :=
  pratt (f := 256) (a := 2) (l := [2, 2, 3, 7, 23, 531581, 1224481]) (by decide +kernel) (by
    simp only [List.mem_cons, List.not_mem_nil, or_false, forall_eq_or_imp, forall_eq]
    exact ⟨by norm_num, by norm_num, by norm_num, by norm_num, by norm_num, prime_531581, prime_1224481⟩)

theorem prime_4434155615661930479 : Nat.Prime 4434155615661930479 :=
  pratt (f := 256) (a := 17) (l := [2, 41, 43, 1257559732178653]) (by decide +kernel) (by
    simp only [List.mem_cons, List.not_mem_nil, or_false, forall_eq_or_imp, forall_eq]
    exact ⟨by norm_num, by norm_num, by norm_num, prime_1257559732178653⟩)

theorem prime_172054593956031949258510691 : Nat.Prime 172054593956031949258510691 :=
  pratt (f := 256) (a := 2) (l := [2, 5, 1361, 2851, 4434155615661930479]) (by decide +kernel) (by
    simp only [List.mem_cons, List.not_mem_nil, or_false, forall_eq_or_imp, forall_eq]
    exact ⟨by norm_num, by norm_num, by norm_num, by norm_num, prime_4434155615661930479⟩)

theorem prime_19757330305831588566944191468367130476339 : Nat.Prime 19757330305831588566944191468367130476339 :=
  pratt (f := 256) (a := 2) (l := [2, 269, 213441916511, 172054593956031949258510691]) (by decide +kernel) (by
    simp only [List.mem_cons, List.not_mem_nil, or_false, forall_eq_or_imp, forall_eq]
    exact ⟨by norm_num, by norm_num, prime_213441916511, prime_172054593956031949258510691⟩)

theorem prime_276602624281642239937218680557139826668747 : Nat.Prime 276602624281642239937218680557139826668747 :=
  pratt (f := 256) (a := 2) (l := [2, 7, 19757330305831588566944191468367130476339]) (by decide +kernel) (by
    simp only [List.mem_cons, List.not_mem_nil, or_false, forall_eq_or_imp, forall_eq]
    exact ⟨by norm_num, by norm_num, prime_19757330305831588566944191468367130476339⟩)

theorem prime_ell : Nat.Prime 7237005577332262213973186563042994240857116359379907606001950938285454250989 :=
  pratt (f := 256) (a := 2) (l := [2, 2, 3, 11, 198211423230930754013084525763697, 276602624281642239937218680557139826668747]) (by decide +kernel) (by
    simp only [List.mem_cons, List.not_mem_nil, or_false, forall_eq_or_imp, forall_eq]
    exact ⟨by norm_num, by norm_num, by norm_num, by norm_num, prime_198211423230930754013084525763697, prime_276602624281642239937218680557139826668747⟩)

/-- The order of the base point, RFC 7748 section 4.1. -/
def ell : Nat := 2 ^ 252 + 0x14def9dea2f79cd65812631a5cf5d3ed

theorem ell_eq : ell = 7237005577332262213973186563042994240857116359379907606001950938285454250989 := by decide +kernel

theorem ell_prime : ell.Prime := by
  rw [ell_eq]
  exact prime_ell

theorem ladder_ell : (ladderLoop ell 9 255 false { x2 := 1, z2 := 0, x3 := 9, z3 := 1 }).z2 = 0 := by decide +kernel

section
variable {K : Type} [Field K] [Algebra F K] [DecidableEq K]

theorem rep_inf {A X : K} {Q : (curve A).Point} (h : Rep Q X 0) : Q = 0 := by
  cases Q with
  | zero => rfl
  | some x' y' h' => exact absurd rfl h.1

theorem ladder_inf {k : Nat} (hk : k < 2 ^ 255) {y : K} (hn : (curve (486662 : K)).Nonsingular (9 : K) y)
    (h : (ladderLoop k 9 255 false { x2 := 1, z2 := 0, x3 := 9, z3 := 1 }).z2 = 0) :
    k • WeierstrassCurve.Affine.Point.some (9 : K) y hn = 0 := by
  have h9 : (9 : K) ≠ 0 := by
    have := natCast_ne (K := K) (n := 9) (by decide) (by rw [P_eq]; decide)
    simpa using this
  have hg := good_loop two_ne A_sq a24 hn h9 k 255 (good_start hn)
  rw [Nat.zero_mul, Nat.zero_add, Nat.mod_eq_of_lt hk] at hg
  have hm := map_loop (algebraMap F K) k (9 : F) 255 ⟨1, 0, 9, 1⟩
  have hu : algebraMap F K (9 : F) = 9 := map_ofNat _ 9
  have hs : Quad.map (algebraMap F K) ⟨1, 0, (9 : F), 1⟩ = ⟨1, 0, 9, 1⟩ := by simp [Quad.map, hu]
  rw [hs, hu] at hm
  have hq := q_loop k 9 255 false { x2 := 1, z2 := 0, x3 := 9, z3 := 1 }
  have hs' : Ladder.q { x2 := 1, z2 := 0, x3 := 9, z3 := 1 } = (⟨1, 0, 9, 1⟩ : Quad F) := by
    unfold Ladder.q
    simp
  rw [hs'] at hq
  change _ = Quad.loop k ((9 : Nat) : F) 255 ⟨1, 0, 9, 1⟩ at hq
  have hz : (Quad.loop k ((9 : Nat) : F) 255 ⟨1, 0, 9, 1⟩).z2 = 0 := by
    rw [← hq]
    show ((ladderLoop k 9 255 false { x2 := 1, z2 := 0, x3 := 9, z3 := 1 }).z2 : F) = 0
    rw [h, Nat.cast_zero]
  have hz2 : (Quad.loop k (9 : K) 255 ⟨1, 0, 9, 1⟩).z2 = 0 := by
    rw [← hm]
    show algebraMap F K (Quad.loop k (9 : F) 255 ⟨1, 0, 9, 1⟩).z2 = 0
    have h9' : ((9 : Nat) : F) = 9 := Nat.cast_ofNat
    rw [h9'] at hz
    rw [hz, map_zero]
  have hr := hg.fst
  rw [hz2] at hr
  exact rep_inf hr

theorem ell_smul {y : K} (hn : (curve (486662 : K)).Nonsingular (9 : K) y) :
    ell • WeierstrassCurve.Affine.Point.some (9 : K) y hn = 0 :=
  ladder_inf (by rw [ell_eq]; decide) hn ladder_ell

theorem base_order {y : K} (hn : (curve (486662 : K)).Nonsingular (9 : K) y) :
    addOrderOf (WeierstrassCurve.Affine.Point.some (9 : K) y hn) = ell := by
  haveI : Fact ell.Prime := ⟨ell_prime⟩
  exact addOrderOf_eq_prime (ell_smul hn) (WeierstrassCurve.Affine.Point.some_ne_zero hn)

end

end Verif.Curve25519
