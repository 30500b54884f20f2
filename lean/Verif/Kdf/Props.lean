/-
C148: every byte of a key comes from the passphrase, each from a place of its own.
-/
import Verif.Kdf.Model

namespace Verif.Kdf
open Verif

/-! ### What is meant -/

/-- The chain of hashes for a block, as in PBKDF2 -/
def chain (H : Hashes) (pw salt : Bytes) (c : UInt8) : Nat → Bytes
  | 0 => H.bcrypt pw (H.sha512 (salt ++ [0, 0, 0, c]))
  | n + 1 => H.bcrypt pw (H.sha512 (chain H pw salt c n))

/-- Byte `j` of a block: that of all hashes in the chain, added up -/
def blockByte (H : Hashes) (pw salt : Bytes) (rounds : Nat) (c : UInt8) (j : Nat) : UInt8 :=
  (List.range rounds).foldl (fun x i => x ^^^ (chain H pw salt c i).getD j 0) 0

/-- The number of blocks for a key of `n` bytes: the least that have as many. -/
def Blocks (n s : Nat) : Prop := n ≤ 32 * s ∧ ∀ t, n ≤ 32 * t → s ≤ t

/-! ### A block -/

theorem zip_getD {a b : Bytes} (h : a.length = b.length) (j : Nat) : (a.zipWith (· ^^^ ·) b).getD j 0 = a.getD j 0 ^^^ b.getD j 0 := by
  simp only [List.getD_eq_getElem?_getD, List.getElem?_zipWith]
  by_cases hj : j < a.length
  · rw [List.getElem?_eq_getElem hj, List.getElem?_eq_getElem (h ▸ hj)]
    rfl
  · rw [List.getElem?_eq_none (by omega), List.getElem?_eq_none (by omega)]
    rfl

theorem mix_getD {H : Hashes} (hl : ∀ a b, (H.bcrypt a b).length = 32) (pw salt : Bytes) (c : UInt8) (j : Nat) : ∀ (m i : Nat) (out : Bytes), out.length = 32 →
    (mix H pw m (chain H pw salt c i) out).getD j 0 = (List.range' (i + 1) m).foldl (fun x t => x ^^^ (chain H pw salt c t).getD j 0) (out.getD j 0) := by
  intro m
  induction m with
  | zero => intro i out _; rfl
  | succ m ih =>
    intro i out ho
    have hz := zip_getD (a := out) (b := chain H pw salt c (i + 1)) (by rw [ho]; exact (hl _ _).symm) j
    have e := ih (i + 1) (out.zipWith (· ^^^ ·) (chain H pw salt c (i + 1))) (by
      rw [List.length_zipWith, ho]
      exact (congrArg (min 32) (hl _ _)).trans (by simp))
    rw [mix, List.range'_succ, List.foldl_cons, ← hz]
    exact e

theorem be32_small {c : Nat} (h : c < 256) : be32 c = [0, 0, 0, UInt8.ofNat c] := by
  have h1 : c >>> 24 = 0 := by rw [Nat.shiftRight_eq_div_pow]; exact Nat.div_eq_of_lt (by omega)
  have h2 : c >>> 16 = 0 := by rw [Nat.shiftRight_eq_div_pow]; exact Nat.div_eq_of_lt (by omega)
  have h3 : c >>> 8 = 0 := by rw [Nat.shiftRight_eq_div_pow]; exact Nat.div_eq_of_lt (by omega)
  rw [be32, h1, h2, h3]
  rfl

theorem block_getD {H : Hashes} (hl : ∀ a b, (H.bcrypt a b).length = 32) (pw salt : Bytes) {rounds c : Nat} (hr : 1 ≤ rounds) (hc : c < 256) (j : Nat) :
    (block H pw salt rounds c).getD j 0 = blockByte H pw salt rounds (UInt8.ofNat c) j := by
  have hf : first H pw salt c = chain H pw salt (UInt8.ofNat c) 0 := by rw [first, be32_small hc]; rfl
  obtain ⟨m, rfl⟩ : ∃ m, rounds = m + 1 := ⟨rounds - 1, by omega⟩
  rw [block, hf, Nat.add_sub_cancel, mix_getD hl pw salt (UInt8.ofNat c) j m 0 (chain H pw salt (UInt8.ofNat c) 0) (hl _ _), blockByte, List.range_eq_range', List.range'_succ, List.foldl_cons]
  simp

/-! ### Places -/

/-- bytes that come from block `k`, of `q * s + r` in all -/
def own (q r k : Nat) : Nat := q + if k < r then 1 else 0

theorem lt_own {q r s k i : Nat} (hr : r < s) (hk : k < s) : i * s + k < q * s + r ↔ i < own q r k := by
  unfold own
  rcases Nat.lt_trichotomy i q with h | h | h
  · have : (i + 1) * s ≤ q * s := Nat.mul_le_mul_right _ h
    rw [Nat.succ_mul] at this
    constructor
    · intro _; omega
    · intro _; omega
  · subst h
    split <;> omega
  · have : (q + 1) * s ≤ i * s := Nat.mul_le_mul_right _ h
    rw [Nat.succ_mul] at this
    constructor
    · intro _; omega
    · intro h'; split at h' <;> omega

theorem column_spec {s n k o : Nat} (out : Bytes) (hk : k < s) (ho : ∀ i, i * s + k < n ↔ i < o) : ∀ (f i : Nat) (key : Bytes), key.length = n → i ≤ o → o ≤ i + f →
    (column s n k out f i key).2 = o ∧ (column s n k out f i key).1.length = n ∧
    ∀ d, d < n → (column s n k out f i key).1[d]? = if d % s = k ∧ i ≤ d / s then some (out.getD (d / s) 0) else key[d]? := by
  have ho' : ∀ d, d < n → d % s = k → d / s < o := by
    intro d hd hm
    rw [← ho, ← hm, Nat.mul_comm, Nat.div_add_mod]
    exact hd
  intro f
  induction f with
  | zero =>
    intro i key hkey h1 h2
    have : i = o := by omega
    subst this
    refine ⟨rfl, hkey, fun d hd => ?_⟩
    rw [if_neg]
    · rfl
    · rintro ⟨hm, hi⟩
      have := ho' d hd hm
      omega
  | succ f ih =>
    intro i key hkey h1 h2
    rw [column]
    split
    · rename_i hge
      have : i = o := by
        have := mt (ho i).2 (by omega)
        omega
      subst this
      refine ⟨rfl, hkey, fun d hd => ?_⟩
      rw [if_neg]
      rintro ⟨hm, hi⟩
      have := ho' d hd hm
      omega
    · rename_i hlt
      have hio := (ho i).1 (by omega)
      obtain ⟨e1, e2, e3⟩ := ih (i + 1) (key.set (i * s + k) (out.getD i 0)) (by simpa using hkey) hio (by omega)
      refine ⟨e1, e2, fun d hd => ?_⟩
      rw [e3 d hd]
      by_cases hm : d % s = k
      · have hdm := Nat.div_add_mod d s
        rw [hm, Nat.mul_comm] at hdm
        rcases Nat.lt_trichotomy i (d / s) with h | h | h
        · rw [if_pos ⟨hm, h⟩, if_pos ⟨hm, by omega⟩]
        · rw [if_neg (by omega), if_pos ⟨hm, by omega⟩, ← h] 
          rw [← h] at hdm
          rw [hdm, List.getElem?_set_self (by omega)]
        · rw [if_neg (by omega), if_neg (by omega), List.getElem?_set_ne]
          intro he
          have : d / s * s < i * s := Nat.mul_lt_mul_of_pos_right h (by omega)
          omega
      · rw [if_neg (fun h => hm h.1), if_neg (fun h => hm h.1), List.getElem?_set_ne]
        intro he
        apply hm
        rw [← he, Nat.mul_comm, Nat.mul_add_mod, Nat.mod_eq_of_lt hk]

theorem columns_spec {blk : Nat → Bytes} {s n q r : Nat} (hn : n = q * s + r) (hr : r < s) (hq : 1 ≤ q) : ∀ (f k amt : Nat) (key : Bytes), k ≤ s → s - k < f →
    key.length = n → (∀ j, k ≤ j → own q r j ≤ amt) → (∀ d, d < n → d % s < k → key[d]? = some ((blk (d % s + 1)).getD (d / s) 0)) →
    ∃ key', columns blk s n f (k + 1) (n - (k * q + min k r)) amt key = some key' ∧ key'.length = n ∧
      ∀ d, d < n → key'[d]? = some ((blk (d % s + 1)).getD (d / s) 0) := by
  intro f
  induction f with
  | zero => intro k amt key _ h; omega
  | succ f ih =>
    intro k amt key hk hf hkey hamt hd
    rw [columns]
    by_cases hks : k = s
    · subst hks
      rw [if_pos (by rw [hn, Nat.mul_comm q k]; omega)]
      exact ⟨key, rfl, hkey, fun d h => hd d h (Nat.mod_lt _ (by omega))⟩
    · have hlt : k < s := by omega
      have hmul : (k + 1) * q ≤ s * q := Nat.mul_le_mul_right _ hlt
      rw [Nat.succ_mul, Nat.mul_comm s q] at hmul
      have hrem : own q r k ≤ n - (k * q + min k r) := by
        unfold own
        split <;> omega
      have hpos : 1 ≤ own q r k := by unfold own; omega
      have hown : ∀ j, k ≤ j → own q r j ≤ min amt (n - (k * q + min k r)) := by
        intro j hj
        have h1 := hamt j hj
        have h2 : own q r j ≤ own q r k := by
          unfold own
          split <;> split <;> omega
        omega
      obtain ⟨e1, e2, e3⟩ := column_spec (blk (k + 1)) hlt (fun i => by rw [hn]; exact lt_own hr hlt) (min amt (n - (k * q + min k r))) 0 key hkey (by omega)
        (by have := hown k (Nat.le_refl _); omega)
      rw [if_neg (by omega), Nat.add_sub_cancel, e1]
      have hnext : n - (k * q + min k r) - own q r k = n - ((k + 1) * q + min (k + 1) r) := by
        rw [Nat.succ_mul]
        unfold own
        split <;> omega
      rw [hnext]
      refine ih (k + 1) _ _ hlt (by omega) e2 (fun j hj => hown j (by omega)) (fun d hdn hdk => ?_)
      rw [e3 d hdn]
      by_cases hm : d % s = k
      · rw [if_pos ⟨hm, Nat.zero_le _⟩, hm]
      · rw [if_neg (fun h => hm h.1), hd d hdn (by omega)]

theorem stride_blocks (n : Nat) : Blocks n (strideOf n) := by
  unfold Blocks strideOf
  exact ⟨by omega, fun t h => by omega⟩

/-- C148: the key has the length asked for, and each of its bytes comes from the passphrase, from a place of its own: byte `d` is byte `d / s` of block
`d % s + 1`, with as few blocks as there can be. What was in the buffer does not matter. -/
theorem C148_key {H : Hashes} (hl : ∀ a b, (H.bcrypt a b).length = 32) {pass salt key : Bytes} {rounds : Nat} (hr : 1 ≤ rounds) (hp : pass ≠ []) (hs : salt ≠ [])
    (hs' : salt.length ≤ 1048576) (hk : key ≠ []) (hk' : key.length ≤ 1024) :
    ∃ k s, pbkdf H pass salt key rounds = .key k ∧ k.length = key.length ∧ Blocks key.length s ∧
      ∀ d, d < key.length → d / s < 32 ∧ k[d]? = some (blockByte H (H.sha512 pass) salt rounds (UInt8.ofNat (d % s + 1)) (d / s)) := by
  have hn : 0 < key.length := List.length_pos_iff.2 hk
  have hsp : 0 < strideOf key.length := by unfold strideOf; omega
  have hsn : strideOf key.length ≤ key.length := by unfold strideOf; omega
  have hs32 : strideOf key.length ≤ 32 := by unfold strideOf; omega
  have hb := stride_blocks key.length
  have hdm : key.length = key.length / strideOf key.length * strideOf key.length + key.length % strideOf key.length := by
    rw [Nat.mul_comm]
    exact (Nat.div_add_mod _ _).symm
  obtain ⟨k, e, e1, e2⟩ := columns_spec (blk := block H (H.sha512 pass) salt rounds) hdm (Nat.mod_lt _ hsp) (Nat.div_pos hsn hsp) (key.length + 1) 0
    ((key.length + strideOf key.length - 1) / strideOf key.length) key (Nat.zero_le _) (by omega) rfl (by
      intro j _
      rw [Nat.le_div_iff_mul_le hsp]
      unfold own
      split
      · rw [Nat.succ_mul]
        omega
      · rw [Nat.add_zero]
        omega) (by intro d _ h; omega)
  refine ⟨k, strideOf key.length, ?_, e1, hb, fun d hd => ?_⟩
  · rw [pbkdf, if_neg (by omega), if_neg]
    · simp only [Nat.zero_add, Nat.zero_mul, Nat.zero_min, Nat.sub_zero] at e
      rw [e]
    · simp only [List.length_eq_zero_iff, hp, hs, hk, false_or]
      omega
  · have hmod := Nat.mod_lt d hsp
    refine ⟨Nat.div_lt_of_lt_mul (by have := hb.1; rw [Nat.mul_comm]; omega), ?_⟩
    rw [e2 d hd, block_getD hl _ _ hr (by omega)]

/-- C148: nothing is derived from nothing: an empty passphrase or salt, no rounds, and keys or salts that are too long are refused. -/
theorem C148_refused (H : Hashes) {pass salt key : Bytes} {rounds : Nat}
    (h : rounds = 0 ∨ pass = [] ∨ salt = [] ∨ key = [] ∨ 1024 < key.length ∨ 1048576 < salt.length) : pbkdf H pass salt key rounds = .bad := by
  unfold pbkdf
  split
  · rfl
  · rename_i hr
    rw [if_pos]
    simp only [List.length_eq_zero_iff]
    rcases h with h | h | h | h | h | h
    · omega
    · exact .inl h
    · exact .inr (.inl h)
    · exact .inr (.inr (.inl h))
    · exact .inr (.inr (.inr (.inl h)))
    · exact .inr (.inr (.inr (.inr h)))

end Verif.Kdf
