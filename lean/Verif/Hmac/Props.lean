/-
C150: authentication codes are those of RFC 2104, whatever was authenticated before.
-/
import Verif.Hmac.Model

namespace Verif.Hmac
open Verif Verif.Wire

/-- RFC 2104, 2: the key, hashed if it is longer than a block, filled up with zeros to a block, each byte added to `p` -/
def keyed (H : Hash) (key : Bytes) (p : UInt8) : Bytes :=
  (List.range H.block).map fun i => (((if H.block < key.length then H.f key else key)[i]?).getD 0) ^^^ p

/-- RFC 2104, 2 -/
def hmac (H : Hash) (key m : Bytes) : Bytes := H.f (keyed H key 0x5c ++ H.f (keyed H key 0x36 ++ m))

/-- hashes have their length, which is at most a block, and fits in 64 bytes -/
structure Good (H : Hash) : Prop where
  length : ∀ x, (H.f x).length = H.len
  block : H.len ≤ H.block
  fits : H.len ≤ 64

/-- what has been added since the last time it was begun anew; none if that is finished -/
def since (H : Hash) : Option Bytes → List Op → Option Bytes
  | d, [] => d
  | _, .restart :: l => since H (some []) l
  | d, .update m :: l => since H (d.map (· ++ m)) l
  | d, .final n :: l => since H (if n < H.len then d else none) l

/-- the codes asked for: for what has been added since the last time it was begun anew, if there is room for them -/
def codes (H : Hash) (key : Bytes) : Option Bytes → List Op → List Bytes
  | _, [] => []
  | _, .restart :: l => codes H key (some []) l
  | d, .update m :: l => codes H key (d.map (· ++ m)) l
  | d, .final n :: l => if n < H.len then codes H key d l else (d.map (hmac H key)).toList ++ codes H key none l

theorem overlay_zeros {n : Nat} {k : Bytes} (h : k.length ≤ n) : overlay k (List.replicate n 0) = (List.range n).map fun i => (k[i]?).getD 0 := by
  apply List.ext_getElem?
  intro i
  by_cases hk : i < k.length
  · rw [overlay, List.getElem?_append_left hk]
    simp [List.getElem?_eq_getElem hk, List.getElem?_range (Nat.lt_of_lt_of_le hk h)]
  · rw [overlay, List.getElem?_append_right (by omega)]
    by_cases hi : i < n
    · rw [List.getElem?_map, List.getElem?_range hi, List.drop_replicate, List.getElem?_replicate, if_pos (by omega)]
      simp [List.getElem?_eq_none (Nat.le_of_not_lt hk)]
    · rw [List.getElem?_eq_none (by simp; omega), List.getElem?_eq_none (by simp; omega)]

theorem pads (x : UInt8) : x ^^^ 0x36 ^^^ (0x36 ^^^ 0x5c) = x ^^^ 0x5c := by
  rw [UInt8.xor_assoc]
  rfl

/-- what is kept after the key has been given -/
def Keyed (H : Hash) (key : Bytes) (d : Option Bytes) (c : Ctx) : Prop :=
  c.ictx = keyed H key 0x36 ∧ c.octx = keyed H key 0x5c ∧ c.digest = d.map (keyed H key 0x36 ++ ·)

theorem init_keyed {H : Hash} (hH : Good H) (key : Bytes) : ∃ c, init H (start H) key = some c ∧ Keyed H key (some []) c := by
  have hb : (if key.length ≤ H.block then overlay key (start H).buf else overlay (H.f key) (start H).buf) =
      (List.range H.block).map fun i => ((if H.block < key.length then H.f key else key)[i]?).getD 0 := by
    by_cases hl : key.length ≤ H.block
    · rw [if_pos hl, if_neg (by omega)]
      exact overlay_zeros hl
    · rw [if_neg hl, if_pos (by omega)]
      exact overlay_zeros (by rw [hH.length]; exact hH.block)
  have := hH.block
  unfold init
  rw [if_neg (by omega)]
  refine ⟨_, rfl, ?_, ?_, ?_⟩
  · simp only [restart, start] at hb ⊢
    rw [hb, List.nil_append, keyed, List.map_map]
    rfl
  · simp only [restart, start] at hb ⊢
    rw [hb, List.nil_append, keyed, List.map_map, List.map_map]
    exact List.map_congr_left fun i _ => pads _
  · simp only [restart, start] at hb ⊢
    rw [hb, List.nil_append, Option.map_some, List.append_nil, keyed, List.map_map]
    rfl

theorem step_keyed {H : Hash} {key : Bytes} {d : Option Bytes} {c : Ctx} (hc : Keyed H key d c) (o : Op) :
    Keyed H key (since H d [o]) (step H c o).1 ∧ (step H c o).2.toList = codes H key d [o] := by
  obtain ⟨h1, h2, h3⟩ := hc
  cases o with
  | restart => exact ⟨⟨h1, h2, by simp [step, restart, h1, since]⟩, rfl⟩
  | update m =>
    cases d with
    | none =>
      have e : update c m = none := by rw [update, h3]; rfl
      exact ⟨by rw [step, e]; exact ⟨h1, h2, h3⟩, rfl⟩
    | some d =>
      have e : update c m = some { c with digest := some (keyed H key 0x36 ++ d ++ m) } := by rw [update, h3]; rfl
      exact ⟨by rw [step, e]; exact ⟨h1, h2, by simp [since]⟩, rfl⟩
  | final n =>
    by_cases hn : n < H.len
    · have e : final H c n = none := by rw [final, if_pos hn]
      simp only [step, e, since, codes, if_pos hn]
      exact ⟨⟨h1, h2, h3⟩, rfl⟩
    · cases d with
      | none =>
        have e : final H c n = none := by rw [final, if_neg hn, h3]; rfl
        simp only [step, e, since, codes, if_neg hn]
        exact ⟨⟨h1, h2, h3⟩, rfl⟩
      | some d =>
        have e : ∃ b, final H c n = some ({ c with digest := none, buf := b }, hmac H key d) := by
          rw [final, if_neg hn, h3]
          exact ⟨_, by rw [hmac, ← h2]; rfl⟩
        obtain ⟨b, e⟩ := e
        simp only [step, e, since, codes, if_neg hn]
        exact ⟨⟨h1, h2, rfl⟩, rfl⟩

theorem run_keyed {H : Hash} {key : Bytes} (ops : List Op) : ∀ {d : Option Bytes} {c : Ctx}, Keyed H key d c →
    Keyed H key (since H d ops) (run H c ops).1 ∧ (run H c ops).2 = codes H key d ops := by
  induction ops with
  | nil => intro d c h; exact ⟨h, rfl⟩
  | cons o ops ih =>
    intro d c h
    obtain ⟨h1, h2⟩ := step_keyed h o
    obtain ⟨i1, i2⟩ := ih h1
    rw [run, h2, i2]
    cases o with
    | restart => exact ⟨i1, rfl⟩
    | update m => exact ⟨i1, rfl⟩
    | final n =>
      refine ⟨i1, ?_⟩
      by_cases hn : n < H.len
      · simp [codes, since, hn]
      · simp [codes, since, hn]

/-- C150: after a key has been given, whatever is called, each code is the one of RFC 2104 of what has been added since the last time it was begun anew, and
there are no other codes. -/
theorem C150_codes {H : Hash} (hH : Good H) (key : Bytes) (ops : List Op) :
    ∃ c, init H (start H) key = some c ∧ (run H c ops).2 = codes H key (some []) ops := by
  obtain ⟨c, h, hc⟩ := init_keyed hH key
  exact ⟨c, h, (run_keyed ops hc).2⟩

/-- C150: the code of a packet is that of RFC 2104 of its number and contents, cut to the length agreed upon, whatever was called before; and one that came
with a packet is accepted exactly if it begins with that. -/
theorem C150_packet {H : Hash} (hH : Good H) (key : Bytes) (ops : List Op) {macLen : Nat} (hm : macLen ≤ 64) (seqno : Nat) (data : Bytes) :
    ∃ c, init H (start H) key = some c ∧
      (∀ dlen, ∃ c', macCompute H macLen (run H c ops).1 seqno data dlen = some (c', (hmac H key (be 4 seqno ++ data)).take (min dlen macLen))) ∧
      (∀ theirs, macLen ≤ theirs.length → ∃ c' ok, macCheck H macLen (run H c ops).1 seqno data theirs = some (c', ok) ∧
        (ok = true ↔ (hmac H key (be 4 seqno ++ data)).take macLen = theirs.take macLen)) ∧
      (∀ theirs, theirs.length < macLen → macCheck H macLen (run H c ops).1 seqno data theirs = none) := by
  obtain ⟨c, h, hc⟩ := init_keyed hH key
  have hk := (run_keyed ops hc).1
  refine ⟨c, h, ?_⟩
  generalize (run H c ops).1 = c1 at hk
  obtain ⟨k1, k2, -⟩ := hk
  have hf := hH.fits
  have comp : ∀ dlen, ∃ c', macCompute H macLen c1 seqno data dlen = some (c', (hmac H key (be 4 seqno ++ data)).take (min dlen macLen)) := by
    intro dlen
    have e : (if dlen > macLen then macLen else dlen) = min dlen macLen := by
      by_cases hd : dlen > macLen
      · rw [if_pos hd]; omega
      · rw [if_neg hd]; omega
    unfold macCompute
    rw [if_neg (by omega), e]
    simp only [update, restart, final, if_neg (show ¬ 64 < H.len by omega), k1, k2]
    exact ⟨_, by rw [hmac, List.append_assoc]⟩
  refine ⟨comp, ?_, ?_⟩
  · intro theirs ht
    obtain ⟨c', e⟩ := comp 64
    rw [Nat.min_eq_right hm] at e
    refine ⟨c', _, by rw [macCheck, if_neg (by omega), e], ?_⟩
    rw [List.take_take, Nat.min_self, beq_iff_eq]
  · intro theirs ht
    rw [macCheck, if_pos ht]

end Verif.Hmac
