/-
ssh-keyscan's expansion of an address range, and what it comes to.
-/
import Verif.Addr.Props

namespace Verif.Addr
open Verif Text

/-! ### The code -/

/-- How the work on one argument ends: all done, an address that cannot be printed, or still going on after the rounds
that were allowed. -/
inductive ScanEnd | done | bad | running
  deriving DecidableEq, Repr

/-- ssh-keyscan.c:642-653: the loop over a range; the texts are what `do_one_host` is called with -/
def scanLoop (ntop : XAddr → Option Bytes) (last : XAddr) : Nat → XAddr → List Bytes × ScanEnd
  | 0, _ => ([], .running)
  | n + 1, a =>
    match ntop a with
    | none => ([], .bad)
    | some t => if cmp a last = 0 then ([t], .done) else
      (t :: (scanLoop ntop last n (increment a)).1, (scanLoop ntop last n (increment a)).2)

/-- ssh-keyscan.c:621-655 `do_host`; `pton` and `ntop` are `addr_pton` and `addr_ntop` -/
def doHost (pton : Bytes → Option XAddr) (ntop : XAddr → Option Bytes) (n : Nat) (host : Bytes) : List Bytes × ScanEnd :=
  match ptonCidr pton host with
  | .ok a l =>
    match hostToAll1s a l with
    | none => ([], .bad)
    | some last => scanLoop ntop last n a
  | _ => ([host], .done)

/-! ### What is expected -/

/-- Two addresses that differ at most in the bits of the address itself. -/
def SameKind (a b : XAddr) : Prop := a.af = b.af ∧ a.scope = b.scope ∧ (a.af = .inet → a.w1 = b.w1 ∧ a.w2 = b.w2 ∧ a.w3 = b.w3)

/-! ### Addresses as numbers -/

theorem value_lt (a : XAddr) : value a < 2 ^ width a.af := by
  have h0 := a.w0.toNat_lt; have h1 := a.w1.toNat_lt; have h2 := a.w2.toNat_lt; have h3 := a.w3.toNat_lt
  unfold value width
  cases a.af with
  | inet => simpa using h0
  | inet6 => simp only; omega
  | other n => simp

theorem u32_testBit (x : UInt32) (j : Nat) : x.toNat.testBit j = x.toBitVec.getLsbD j := rfl

theorem u32_testBit_ge (x : UInt32) (j : Nat) (h : 32 ≤ j) : x.toNat.testBit j = false :=
  Nat.testBit_lt_two_pow (Nat.lt_of_lt_of_le x.toNat_lt (Nat.pow_le_pow_right (by decide) h))

theorem value_testBit (a : XAddr) (i : Nat) (hi : i < width a.af) : (value a).testBit (width a.af - 1 - i) = bit a i := by
  unfold value
  cases ha : a.af with
  | inet =>
    rw [ha] at hi
    simp only [width] at hi ⊢
    rw [u32_testBit, bit, show i / 32 = 0 by omega, show 31 - i % 32 = 32 - 1 - i by omega]
    rfl
  | inet6 =>
    rw [ha] at hi
    simp only [width] at hi ⊢
    have e : (4294967296 : Nat) = 2 ^ 32 := by decide
    rw [e, Nat.mul_comm _ (2 ^ 32), Nat.testBit_two_pow_mul_add _ a.w3.toNat_lt, Nat.mul_comm _ (2 ^ 32),
      Nat.testBit_two_pow_mul_add _ a.w2.toNat_lt, Nat.mul_comm _ (2 ^ 32), Nat.testBit_two_pow_mul_add _ a.w1.toNat_lt]
    unfold bit
    split
    · rw [u32_testBit, show i / 32 = 3 by omega, show 31 - i % 32 = 128 - 1 - i by omega]; rfl
    · split
      · rw [u32_testBit, show i / 32 = 2 by omega, show 31 - i % 32 = 128 - 1 - i - 32 by omega]; rfl
      · split
        · rw [u32_testBit, show i / 32 = 1 by omega, show 31 - i % 32 = 128 - 1 - i - 32 - 32 by omega]; rfl
        · rw [u32_testBit, show i / 32 = 0 by omega, show 31 - i % 32 = 128 - 1 - i - 32 - 32 - 32 by omega]; rfl
  | other n => rw [ha] at hi; simp [width] at hi

theorem value_inj {a b : XAddr} (hk : Known a) (h : SameKind a b) (hv : value a = value b) : a = b := by
  obtain ⟨h1, h2, h3⟩ := h
  have a0 := a.w0.toNat_lt; have a1 := a.w1.toNat_lt; have a2 := a.w2.toNat_lt; have a3 := a.w3.toNat_lt
  have b0 := b.w0.toNat_lt; have b1 := b.w1.toNat_lt; have b2 := b.w2.toNat_lt; have b3 := b.w3.toNat_lt
  obtain ⟨af, w0, w1, w2, w3, s⟩ := a
  obtain ⟨af', w0', w1', w2', w3', s'⟩ := b
  simp only at h1 h2 h3 a0 a1 a2 a3 b0 b1 b2 b3
  subst h1 h2
  rcases hk with hk | hk <;> simp only at hk <;> subst hk
  · simp only [value] at hv
    obtain ⟨rfl, rfl, rfl⟩ := h3 rfl
    rw [UInt32.toNat_inj.1 hv]
  · simp only [value] at hv
    have e0 : w0.toNat = w0'.toNat := by omega
    have e1 : w1.toNat = w1'.toNat := by omega
    have e2 : w2.toNat = w2'.toNat := by omega
    have e3 : w3.toNat = w3'.toNat := by omega
    rw [UInt32.toNat_inj.1 e0, UInt32.toNat_inj.1 e1, UInt32.toNat_inj.1 e2, UInt32.toNat_inj.1 e3]

theorem u32_succ (x : UInt32) : (x + 1).toNat = if x.toNat + 1 = 4294967296 then 0 else x.toNat + 1 := by
  have := x.toNat_lt
  rw [UInt32.toNat_add]
  show (x.toNat + 1) % 2 ^ 32 = _
  split <;> omega

theorem increment_kind (a : XAddr) : SameKind (increment a) a := by
  unfold increment SameKind
  cases ha : a.af with
  | inet => simp [ha]
  | inet6 => dsimp only; split <;> (try split) <;> (try split) <;> simp [ha]
  | other n => simp [ha]

theorem increment_value (a : XAddr) (hk : Known a) (h : value a + 1 < 2 ^ width a.af) : value (increment a) = value a + 1 := by
  have a0 := a.w0.toNat_lt; have a1 := a.w1.toNat_lt; have a2 := a.w2.toNat_lt; have a3 := a.w3.toNat_lt
  obtain ⟨af, w0, w1, w2, w3, s⟩ := a
  have z : ∀ x : UInt32, x ≠ 0 ↔ x.toNat ≠ 0 := fun x => by
    rw [ne_eq, ne_eq, ← UInt32.toNat_inj]; rfl
  rcases hk with hk | hk <;> simp only at hk <;> subst hk
  · simp only [value, width, increment] at h ⊢
    rw [u32_succ, if_neg (by omega)]
  · simp only [value, width] at h a0 a1 a2 a3
    unfold increment
    dsimp only
    split
    · rename_i g
      rw [z, u32_succ] at g
      simp only [value]
      rw [u32_succ]
      split at g
      · exact absurd rfl g
      · rename_i g2; rw [if_neg g2]; omega
    · rename_i g
      rw [Decidable.not_not, ← UInt32.toNat_inj, u32_succ] at g
      have e3 : w3.toNat + 1 = 4294967296 := by
        split at g
        · assumption
        · rw [show UInt32.toNat 0 = 0 from rfl] at g; omega
      split
      · rename_i g2
        rw [z, u32_succ] at g2
        simp only [value]
        rw [u32_succ, u32_succ, if_pos e3]
        split at g2
        · exact absurd rfl g2
        · rename_i g3; rw [if_neg g3]; omega
      · rename_i g2
        rw [Decidable.not_not, ← UInt32.toNat_inj, u32_succ] at g2
        have e2 : w2.toNat + 1 = 4294967296 := by
          split at g2
          · assumption
          · rw [show UInt32.toNat 0 = 0 from rfl] at g2; omega
        split
        · rename_i g3
          rw [z, u32_succ] at g3
          simp only [value]
          rw [u32_succ, u32_succ, u32_succ, if_pos e3, if_pos e2]
          split at g3
          · exact absurd rfl g3
          · rename_i g4; rw [if_neg g4]; omega
        · rename_i g3
          rw [Decidable.not_not, ← UInt32.toNat_inj, u32_succ] at g3
          have e1 : w1.toNat + 1 = 4294967296 := by
            split at g3
            · assumption
            · rw [show UInt32.toNat 0 = 0 from rfl] at g3; omega
          simp only [value]
          rw [u32_succ, u32_succ, u32_succ, u32_succ, if_pos e3, if_pos e2, if_pos e1]
          rw [if_neg (by omega)]
          omega

theorem cmp_value {a b : XAddr} (hk : Known a) (h : SameKind a b) : cmp a b = 0 ↔ value a = value b := by
  constructor
  · intro hc
    rw [cmp_zero a b hk h.1] at hc
    refine Nat.eq_of_testBit_eq fun j => ?_
    by_cases hj : j < width a.af
    · have e1 := value_testBit a (width a.af - 1 - j) (by omega)
      have e2 := value_testBit b (width a.af - 1 - j) (by rw [← h.1]; omega)
      rw [← h.1] at e2
      rw [show width a.af - 1 - (width a.af - 1 - j) = j by omega] at e1 e2
      rw [e1, e2]
      exact hc.1 _ (by omega)
    · have l1 := value_lt a
      have l2 := value_lt b
      rw [← h.1] at l2
      rw [Nat.testBit_lt_two_pow (Nat.lt_of_lt_of_le l1 (Nat.pow_le_pow_right (by decide) (by omega))),
        Nat.testBit_lt_two_pow (Nat.lt_of_lt_of_le l2 (Nat.pow_le_pow_right (by decide) (by omega)))]
  · intro hv
    have := value_inj hk h hv
    subst this
    rw [cmp_zero a a hk rfl]
    exact ⟨fun _ _ => rfl, fun _ => rfl⟩

/-- The first address of a network is a multiple of its size. -/
theorem first_multiple {a : XAddr} {l : Nat} (hl : l ≤ width a.af) (hz : HostBitsZero a l) :
    ∃ q, value a = 2 ^ (width a.af - l) * q := by
  refine ⟨value a / 2 ^ (width a.af - l), ?_⟩
  refine (Nat.mul_div_cancel' (Nat.dvd_of_mod_eq_zero ?_)).symm
  refine Nat.eq_of_testBit_eq fun j => ?_
  rw [Nat.testBit_mod_two_pow, Nat.zero_testBit]
  by_cases hj : j < width a.af - l
  · have e := value_testBit a (width a.af - 1 - j) (by omega)
    rw [show width a.af - 1 - (width a.af - 1 - j) = j by omega] at e
    rw [e, hz _ (by omega) (by omega)]
    simp
  · simp [hj]

/-- Membership of a network is a condition on the number of an address. -/
theorem inNet_value {h a : XAddr} {l : Nat} (hl : l ≤ width a.af) (hz : HostBitsZero a l) (haf : h.af = a.af) :
    InNet h a l ↔ value a ≤ value h ∧ value h < value a + 2 ^ (width a.af - l) := by
  obtain ⟨q, hq⟩ := first_multiple hl hz
  have key : InNet h a l ↔ value h / 2 ^ (width a.af - l) = q := by
    constructor
    · intro hn
      refine Nat.eq_of_testBit_eq fun j => ?_
      rw [Nat.testBit_div_two_pow]
      have hqj : q.testBit j = (value a).testBit (j + (width a.af - l)) := by
        rw [hq, Nat.mul_comm, Nat.testBit_mul_two_pow]
        simp
      rw [hqj]
      by_cases hj : j < l
      · have e1 := value_testBit a (l - 1 - j) (by omega)
        have e2 := value_testBit h (l - 1 - j) (by rw [haf]; omega)
        rw [haf] at e2
        rw [show width a.af - 1 - (l - 1 - j) = j + (width a.af - l) by omega] at e1 e2
        rw [e1, e2]
        exact hn.2.2 _ (by omega)
      · have l1 := value_lt a
        have l2 := value_lt h
        rw [haf] at l2
        rw [Nat.testBit_lt_two_pow (Nat.lt_of_lt_of_le l1 (Nat.pow_le_pow_right (by decide) (by omega))),
          Nat.testBit_lt_two_pow (Nat.lt_of_lt_of_le l2 (Nat.pow_le_pow_right (by decide) (by omega)))]
    · intro hd
      refine ⟨haf, hl, fun i hi => ?_⟩
      have e1 := value_testBit a i (by omega)
      have e2 := value_testBit h i (by rw [haf]; omega)
      rw [haf] at e2
      rw [← e1, ← e2]
      have hqj : q.testBit (l - 1 - i) = (value a).testBit (width a.af - 1 - i) := by
        rw [hq, Nat.mul_comm, Nat.testBit_mul_two_pow]
        rw [show width a.af - 1 - i - (width a.af - l) = l - 1 - i by omega]
        simp; omega
      rw [← hqj, ← hd, Nat.testBit_div_two_pow]
      congr 1; omega
  rw [key, hq]
  have hp : 0 < 2 ^ (width a.af - l) := Nat.two_pow_pos _
  generalize 2 ^ (width a.af - l) = m at hp
  rw [range hp]
where
  range {n m q : Nat} (hp : 0 < m) : (n / m = q) ↔ (m * q ≤ n ∧ n < m * q + m) := by
    rw [Nat.div_eq_iff hp]
    rw [Nat.mul_comm q m]
    omega

/-- The last address of a network. -/
theorem last_value {a e : XAddr} {l : Nat} (hk : Known a) (hl : l ≤ width a.af) (hz : HostBitsZero a l) (he : hostToAll1s a l = some e) :
    SameKind e a ∧ value e = value a + (2 ^ (width a.af - l) - 1) := by
  obtain ⟨m, hm, hmaf, hmb⟩ := hostmask_bits a.af l hl hk
  unfold hostToAll1s at he
  rw [hm] at he
  dsimp only at he
  have hs : SameKind e a := by
    unfold or at he
    rw [if_neg (by rw [hmaf]; simp)] at he
    unfold SameKind
    rcases hk with hk | hk <;> rw [hk] at he <;> cases he <;> simp [hk]
  refine ⟨hs, ?_⟩
  obtain ⟨q, hq⟩ := first_multiple hl hz
  have hlt : 2 ^ (width a.af - l) - 1 < 2 ^ (width a.af - l) := by have := Nat.two_pow_pos (width a.af - l); omega
  refine Nat.eq_of_testBit_eq fun j => ?_
  rw [hq, Nat.testBit_two_pow_mul_add _ hlt, Nat.testBit_two_pow_sub_one]
  by_cases hj : j < width a.af
  · have e1 := value_testBit e (width a.af - 1 - j) (by rw [hs.1]; omega)
    rw [hs.1, show width a.af - 1 - (width a.af - 1 - j) = j by omega] at e1
    have e2 := value_testBit a (width a.af - 1 - j) (by omega)
    rw [show width a.af - 1 - (width a.af - 1 - j) = j by omega] at e2
    rw [e1, bit_or a m e he _ (by omega), ← e2, hmb _ (by omega)]
    by_cases hjl : j < width a.af - l
    · simp only [hjl, if_true]
      have : l ≤ width a.af - 1 - j := by omega
      simp [this]
    · simp only [hjl, if_false]
      have : ¬ l ≤ width a.af - 1 - j := by omega
      simp only [this, decide_false, Bool.or_false]
      rw [hq, Nat.mul_comm, Nat.testBit_mul_two_pow]
      have h1 : width a.af - l ≤ j := by omega
      simp [h1]
  · have l1 := value_lt e
    have l2 := value_lt a
    rw [hs.1] at l1
    rw [Nat.testBit_lt_two_pow (Nat.lt_of_lt_of_le l1 (Nat.pow_le_pow_right (by decide) (by omega)))]
    rw [if_neg (by omega)]
    have hql : q < 2 ^ l := by
      rw [hq] at l2
      have : 2 ^ width a.af = 2 ^ (width a.af - l) * 2 ^ l := by rw [← Nat.pow_add]; congr 1; omega
      rw [this] at l2
      exact Nat.lt_of_mul_lt_mul_left l2
    exact (Nat.testBit_lt_two_pow (Nat.lt_of_lt_of_le hql (Nat.pow_le_pow_right (by decide) (by omega)))).symm

theorem scanLoop_run (ntop : XAddr → Option Bytes) (f : XAddr → Bytes) (hn : ∀ x, ntop x = some (f x)) (last : XAddr) (hk : Known last) :
    ∀ (k n : Nat) (a : XAddr), SameKind a last → value a + k = value last → k < n →
      ∃ l : List XAddr, scanLoop ntop last n a = (l.map f, .done) ∧ (∀ x ∈ l, SameKind x last) ∧
        l.map value = (List.range (k + 1)).map (value a + ·) := by
  intro k
  induction k with
  | zero =>
    intro n a hs hv hkn
    cases n with
    | zero => omega
    | succ n =>
      refine ⟨[a], ?_, ?_, ?_⟩
      · have : cmp a last = 0 := (cmp_value (by unfold Known at *; rw [hs.1]; exact hk) hs).2 (by omega)
        simp [scanLoop, hn, this]
      · intro x hx; simp only [List.mem_singleton] at hx; rw [hx]; exact hs
      · simp
  | succ k ih =>
    intro n a hs hv hkn
    cases n with
    | zero => omega
    | succ n =>
      have hka : Known a := by unfold Known at *; rw [hs.1]; exact hk
      have hlt : value a + 1 < 2 ^ width a.af := by
        have := value_lt last
        rw [← hs.1] at this; omega
      have hi := increment_value a hka hlt
      have hsk : SameKind (increment a) last := by
        obtain ⟨g1, g2, g3⟩ := increment_kind a
        obtain ⟨k1, k2, k3⟩ := hs
        refine ⟨g1.trans k1, g2.trans k2, fun h => ?_⟩
        have h' : a.af = .inet := by rw [← g1]; exact h
        obtain ⟨x1, x2, x3⟩ := g3 h
        obtain ⟨y1, y2, y3⟩ := k3 h'
        exact ⟨x1.trans y1, x2.trans y2, x3.trans y3⟩
      obtain ⟨l, h1, h2, h3⟩ := ih n (increment a) hsk (by omega) (by omega)
      refine ⟨a :: l, ?_, ?_, ?_⟩
      · have : cmp a last ≠ 0 := fun hc => by
          have := (cmp_value hka hs).1 hc
          omega
        rw [scanLoop, hn]
        simp only [this, if_false, h1, List.map_cons]
      · intro x hx
        rcases List.mem_cons.1 hx with rfl | hx
        · exact hs
        · exact h2 x hx
      · rw [List.map_cons, h3, hi, List.range_succ_eq_map (n := k + 1), List.map_cons, List.map_map]
        simp only [Nat.add_zero, List.cons.injEq, true_and]
        apply List.map_congr_left
        intro i _
        simp only [Function.comp]
        omega

/-- An argument that is a network stands for each of its addresses, the first and the last included, once and in
increasing order, and for nothing else; given enough rounds the work ends. -/
theorem C52_range (pton : Bytes → Option XAddr) (hp : ∀ s a, pton s = some a → Known a) (ntop : XAddr → Option Bytes)
    (f : XAddr → Bytes) (hn : ∀ x, ntop x = some (f x)) (host : Bytes) (a : XAddr) (l n : Nat)
    (h : ptonCidr pton host = .ok a l) (hf : 2 ^ (width a.af - l) ≤ n) :
    ∃ as : List XAddr, doHost pton ntop n host = (as.map f, .done) ∧ as.length = 2 ^ (width a.af - l) ∧
      as.Pairwise (fun x y => value x < value y) ∧
      ∀ x, x ∈ as ↔ InNet x a l ∧ SameKind x a := by
  obtain ⟨hk, hl, hz⟩ := ptonCidr_ok pton hp h
  have hp2 : 0 < 2 ^ (width a.af - l) := Nat.two_pow_pos _
  obtain ⟨m, hm, hmaf, -⟩ := hostmask_bits a.af l hl hk
  obtain ⟨e, he, -, -⟩ := or_ok a m hk hmaf.symm
  have he' : hostToAll1s a l = some e := by simp [hostToAll1s, hm, he]
  obtain ⟨hs, hv⟩ := last_value hk hl hz he'
  have hsy : ∀ {x y : XAddr}, SameKind x y → SameKind y x := fun {x y} g =>
    ⟨g.1.symm, g.2.1.symm, fun i => by
      obtain ⟨p, q, r⟩ := g.2.2 (g.1.trans i); exact ⟨p.symm, q.symm, r.symm⟩⟩
  have htr : ∀ {x y z : XAddr}, SameKind x y → SameKind y z → SameKind x z := fun {x y z} g g' =>
    ⟨g.1.trans g'.1, g.2.1.trans g'.2.1, fun i => by
      obtain ⟨p, q, r⟩ := g.2.2 i
      obtain ⟨p', q', r'⟩ := g'.2.2 (g.1 ▸ i)
      exact ⟨p.trans p', q.trans q', r.trans r'⟩⟩
  have hke : Known e := by unfold Known at *; rw [hs.1]; exact hk
  obtain ⟨as, h1, h2, h3⟩ := scanLoop_run ntop f hn e hke (2 ^ (width a.af - l) - 1) n a (hsy hs) hv.symm (by omega)
  rw [show 2 ^ (width a.af - l) - 1 + 1 = 2 ^ (width a.af - l) by omega] at h3
  refine ⟨as, ?_, ?_, ?_, ?_⟩
  · simp only [doHost, h, he', h1]
  · have := congrArg List.length h3
    simpa using this
  · have : (as.map value).Pairwise (· < ·) := by
      rw [h3, List.pairwise_map]
      refine List.Pairwise.imp ?_ List.pairwise_lt_range
      intro x y hxy; omega
    rwa [List.pairwise_map] at this
  · intro x
    have hmem : ∀ v, v ∈ as.map value ↔ value a ≤ v ∧ v < value a + 2 ^ (width a.af - l) := by
      intro v
      rw [h3, List.mem_map]
      constructor
      · rintro ⟨i, hi, rfl⟩
        rw [List.mem_range] at hi; omega
      · intro hv
        exact ⟨v - value a, by rw [List.mem_range]; omega, by omega⟩
    constructor
    · intro hx
      have hsx := htr (h2 x hx) hs
      exact ⟨(inNet_value hl hz hsx.1).2 ((hmem _).1 (List.mem_map_of_mem hx)), hsx⟩
    · rintro ⟨hin, hsx⟩
      have := (hmem (value x)).2 ((inNet_value hl hz hsx.1).1 hin)
      obtain ⟨y, hy, hyv⟩ := List.mem_map.1 this
      have hyx : y = x := value_inj (by unfold Known at *; rw [(h2 y hy).1]; exact hke) (htr (htr (h2 y hy) hs) (hsy hsx)) hyv
      rw [← hyx]; exact hy

/-- An argument that is not a network is taken as a host name. -/
theorem C52_name (pton : Bytes → Option XAddr) (ntop : XAddr → Option Bytes) (n : Nat) (host : Bytes)
    (h : ∀ a l, ptonCidr pton host ≠ .ok a l) : doHost pton ntop n host = ([host], .done) := by
  unfold doHost
  split
  · rename_i a l hc; exact absurd hc (h a l)
  · rfl

/-! ### A case: a network of four addresses that crosses a word, and one at the very end -/

def scanPton : Bytes → Option XAddr
  | [49] => some ⟨.inet6, 1, 2, 3, 0xfffffffc, 7⟩
  | [50] => some ⟨.inet, 0xfffffffe, 0, 0, 0, 0⟩
  | _ => none

example : doHost scanPton (fun a => some [a.w3.toUInt8]) 4 b!"1/126" = ([[0xfc], [0xfd], [0xfe], [0xff]], .done) := by decide +kernel
example : doHost scanPton (fun a => some [a.w0.toUInt8]) 2 b!"2/31" = ([[0xfe], [0xff]], .done) := by decide +kernel
example : doHost scanPton (fun a => some [a.w0.toUInt8]) 9 b!"2/30" = ([b!"2/30"], .done) := by decide +kernel
example : increment ⟨.inet6, 1, 2, 0xffffffff, 0xffffffff, 7⟩ = ⟨.inet6, 1, 3, 0, 0, 7⟩ := by decide

end Verif.Addr
