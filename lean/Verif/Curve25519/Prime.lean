/-
2^255 - 19 is a prime number: Pratt certificates, checked by the kernel.
-/
import Verif.Curve25519.Spec
import Mathlib.NumberTheory.LucasPrimality
import Mathlib.Tactic.NormNum.Prime
import Mathlib.Tactic.Ring

namespace Verif.Curve25519
open Verif

/-- `a ^ e` modulo `m` by repeated squaring, if `e` has at most `f` bits. -/
def powMod (m : Nat) : Nat → Nat → Nat → Nat
  | 0, _, _ => 1 % m
  | f + 1, a, e =>
    if e = 0 then 1 % m else if e % 2 = 1 then a * powMod m f (a * a % m) (e / 2) % m else powMod m f (a * a % m) (e / 2)

theorem powMod_eq (m f a e : Nat) (h : e < 2 ^ f) : powMod m f a e = a ^ e % m := by
  induction f generalizing a e with
  | zero =>
    have : e = 0 := by simpa using h
    subst this; rfl
  | succ f ih =>
    have h2 : e / 2 < 2 ^ f := by rw [pow_succ] at h; omega
    have hh : (a * a % m) ^ (e / 2) % m = a ^ (2 * (e / 2)) % m := by
      rw [pow_mul, pow_two, ← Nat.pow_mod]
    unfold powMod
    split
    · rename_i h0; subst h0; rfl
    · rw [ih _ _ h2, hh]
      split
      · rename_i h1
        rw [Nat.mul_mod_mod, ← pow_succ', show 2 * (e / 2) + 1 = e from by omega]
      · rw [show 2 * (e / 2) = e from by omega]

theorem mem_of_dvd_prod {q : Nat} (hq : q.Prime) {l : List Nat} (hl : ∀ r ∈ l, r.Prime) (h : q ∣ l.prod) : q ∈ l := by
  induction l with
  | nil => exact absurd (Nat.dvd_one.mp h) hq.one_lt.ne'
  | cons r l ih =>
    rw [List.prod_cons] at h
    rcases (Nat.Prime.dvd_mul hq).mp h with h | h
    · have := (Nat.prime_dvd_prime_iff_eq hq (hl r (by simp))).mp h
      simp [this]
    · exact List.mem_cons_of_mem _ (ih (fun r hr => hl r (by simp [hr])) h)

/-- What a certificate says besides that the numbers in `l` are prime. -/
def certOk (p f a : Nat) (l : List Nat) : Bool :=
  decide (1 < p) && decide (p < 2 ^ f) && decide (l.foldr (· * ·) 1 = p - 1) && decide (powMod p f a (p - 1) = 1) &&
    l.all fun q => decide (powMod p f a ((p - 1) / q) ≠ 1)

theorem pratt {p f a : Nat} {l : List Nat} (hc : certOk p f a l = true) (hl : ∀ q ∈ l, q.Prime) : p.Prime := by
  unfold certOk at hc
  simp only [Bool.and_eq_true, decide_eq_true_eq, List.all_eq_true] at hc
  obtain ⟨⟨⟨⟨h1, hf⟩, hprod⟩, hone⟩, hne⟩ := hc
  have hprod : l.prod = p - 1 := hprod
  apply lucas_primality p (a : ZMod p)
  · rw [powMod_eq _ _ _ _ (by omega)] at hone
    have : ((a ^ (p - 1) : Nat) : ZMod p) = ((1 : Nat) : ZMod p) := by
      rw [ZMod.natCast_eq_natCast_iff', hone, Nat.mod_eq_of_lt h1]
    simpa using this
  · intro q hq hd he
    have hm := mem_of_dvd_prod hq hl (hprod ▸ hd)
    apply hne q hm
    have hle := Nat.div_le_self (p - 1) q
    rw [powMod_eq _ _ _ _ (by omega)]
    have : ((a ^ ((p - 1) / q) : Nat) : ZMod p) = ((1 : Nat) : ZMod p) := by simpa using he
    rw [ZMod.natCast_eq_natCast_iff', Nat.mod_eq_of_lt h1] at this
    exact this

theorem prime_132049 : Nat.Prime 132049 :=
  pratt (f := 256) (a := 26) (l := [2, 2, 2, 2, 3, 3, 7, 131]) (by decide +kernel) (by
    simp only [List.mem_cons, List.not_mem_nil, or_false, forall_eq_or_imp, forall_eq]
    exact ⟨by norm_num, by norm_num, by norm_num, by norm_num, by norm_num, by norm_num, by norm_num, by norm_num⟩)

theorem prime_1923133 : Nat.Prime 1923133 :=
  pratt (f := 256) (a := 2) (l := [2, 2, 3, 43, 3727]) (by decide +kernel) (by
    simp only [List.mem_cons, List.not_mem_nil, or_false, forall_eq_or_imp, forall_eq]
    exact ⟨by norm_num, by norm_num, by norm_num, by norm_num, by norm_num⟩)

theorem prime_430751 : Nat.Prime 430751 :=
  pratt (f := 256) (a := 17) (l := [2, 5, 5, 5, 1723]) (by decide +kernel) (by
    simp only [List.mem_cons, List.not_mem_nil, or_false, forall_eq_or_imp, forall_eq]
    exact ⟨by norm_num, by norm_num, by norm_num, by norm_num, by norm_num⟩)

theorem prime_31757755568855353 : Nat.Prime 31757755568855353 :=
  pratt (f := 256) (a := 10) (l := [2, 2, 2, 3, 31, 107, 223, 4153, 430751]) (by decide +kernel) (by
    simp only [List.mem_cons, List.not_mem_nil, or_false, forall_eq_or_imp, forall_eq]
    exact ⟨by norm_num, by norm_num, by norm_num, by norm_num, by norm_num, by norm_num, by norm_num, by norm_num, prime_430751⟩)

theorem prime_569003 : Nat.Prime 569003 :=
  pratt (f := 256) (a := 2) (l := [2, 7, 97, 419]) (by decide +kernel) (by
    simp only [List.mem_cons, List.not_mem_nil, or_false, forall_eq_or_imp, forall_eq]
    exact ⟨by norm_num, by norm_num, by norm_num, by norm_num⟩)

theorem prime_2773320623 : Nat.Prime 2773320623 :=
  pratt (f := 256) (a := 5) (l := [2, 2437, 569003]) (by decide +kernel) (by
    simp only [List.mem_cons, List.not_mem_nil, or_false, forall_eq_or_imp, forall_eq]
    exact ⟨by norm_num, by norm_num, prime_569003⟩)

theorem prime_72106336199 : Nat.Prime 72106336199 :=
  pratt (f := 256) (a := 7) (l := [2, 13, 2773320623]) (by decide +kernel) (by
    simp only [List.mem_cons, List.not_mem_nil, or_false, forall_eq_or_imp, forall_eq]
    exact ⟨by norm_num, by norm_num, prime_2773320623⟩)

theorem prime_8574133 : Nat.Prime 8574133 :=
  pratt (f := 256) (a := 2) (l := [2, 2, 3, 7, 103, 991]) (by decide +kernel) (by
    simp only [List.mem_cons, List.not_mem_nil, or_false, forall_eq_or_imp, forall_eq]
    exact ⟨by norm_num, by norm_num, by norm_num, by norm_num, by norm_num, by norm_num⟩)

theorem prime_1919519569386763 : Nat.Prime 1919519569386763 :=
  pratt (f := 256) (a := 2) (l := [2, 3, 7, 19, 47, 47, 127, 8574133]) (by decide +kernel) (by
    simp only [List.mem_cons, List.not_mem_nil, or_false, forall_eq_or_imp, forall_eq]
    exact ⟨by norm_num, by norm_num, by norm_num, by norm_num, by norm_num, by norm_num, by norm_num, prime_8574133⟩)

theorem prime_75445702479781427272750846543864801 : Nat.Prime 75445702479781427272750846543864801 :=
  pratt (f := 256) (a := 7) (l := [2, 2, 2, 2, 2, 3, 3, 5, 5, 75707, 72106336199, 1919519569386763]) (by decide +kernel) (by
    simp only [List.mem_cons, List.not_mem_nil, or_false, forall_eq_or_imp, forall_eq]
    exact ⟨by norm_num, by norm_num, by norm_num, by norm_num, by norm_num, by norm_num, by norm_num, by norm_num, by norm_num, by norm_num, prime_72106336199, prime_1919519569386763⟩)

theorem prime_74058212732561358302231226437062788676166966415465897661863160754340907 : Nat.Prime 74058212732561358302231226437062788676166966415465897661863160754340907 :=
  pratt (f := 256) (a := 2) (l := [2, 3, 353, 57467, 132049, 1923133, 31757755568855353, 75445702479781427272750846543864801]) (by decide +kernel) (by
    simp only [List.mem_cons, List.not_mem_nil, or_false, forall_eq_or_imp, forall_eq]
    exact ⟨by norm_num, by norm_num, by norm_num, by norm_num, prime_132049, prime_1923133, prime_31757755568855353, prime_75445702479781427272750846543864801⟩)

theorem prime_last : Nat.Prime 57896044618658097711785492504343953926634992332820282019728792003956564819949 :=
  pratt (f := 256) (a := 2) (l := [2, 2, 3, 65147, 74058212732561358302231226437062788676166966415465897661863160754340907]) (by decide +kernel) (by
    simp only [List.mem_cons, List.not_mem_nil, or_false, forall_eq_or_imp, forall_eq]
    exact ⟨by norm_num, by norm_num, by norm_num, by norm_num, prime_74058212732561358302231226437062788676166966415465897661863160754340907⟩)

theorem P_prime : P.Prime := by
  have : P = 57896044618658097711785492504343953926634992332820282019728792003956564819949 := by decide +kernel
  rw [this]
  exact prime_last

end Verif.Curve25519
