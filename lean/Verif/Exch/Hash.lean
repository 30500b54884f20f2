/-
C84: what the exchange hash covers.
-/
import Verif.Exch.Spec

namespace Verif.Exch
open Verif Wire Text

theorem str_inj {a b x y : Bytes} (ha : a.length < 4294967296) (hb : b.length < 4294967296)
    (h : str a ++ x = str b ++ y) : a = b ∧ x = y := by
  unfold str at h
  rw [List.append_assoc, List.append_assoc] at h
  have h1 := List.append_inj h (by simp [be_length])
  have hl := be_inj (n := 4) (by simpa using ha) (by simpa using hb) h1.1
  exact List.append_inj h1.2 hl

theorem be4_inj {a b : Nat} {x y : Bytes} (ha : a < 4294967296) (hb : b < 4294967296)
    (h : be 4 a ++ x = be 4 b ++ y) : a = b ∧ x = y := by
  have h1 := List.append_inj h (by simp [be_length])
  exact ⟨be_inj (n := 4) (by simpa using ha) (by simpa using hb) h1.1, h1.2⟩

theorem lt_pow_numBits (n : Nat) : n < 2 ^ numBits n := by
  unfold numBits
  by_cases h : n = 0
  · subst h; decide
  · rw [if_neg h]; exact Nat.lt_log2_self

theorem ofBE_magnitude (n : Nat) : ofBE (magnitude n) = n := by
  unfold magnitude
  apply ofBE_be_of_lt
  have h1 := lt_pow_numBits n
  have h2 : 2 ^ numBits n ≤ 2 ^ (8 * ((numBits n + 7) / 8)) := Nat.pow_le_pow_right (by decide) (by omega)
  have h3 : 2 ^ (8 * ((numBits n + 7) / 8)) = 256 ^ ((numBits n + 7) / 8) := by rw [Nat.pow_mul]
  omega

/-- The bytes of an encoded number. -/
def mpintBytes (n : Nat) : Bytes :=
  match magnitude n with
  | [] => []
  | x :: l => if 128 ≤ x.toNat then 0 :: x :: l else x :: l

theorem mpint_str (n : Nat) : mpint n = str (mpintBytes n) := rfl

theorem ofBE_mpintBytes (n : Nat) : ofBE (mpintBytes n) = n := by
  have h := ofBE_magnitude n
  unfold mpintBytes
  split
  · rename_i e; rw [e] at h; exact h
  · rename_i x l e
    rw [e] at h
    split
    · rw [ofBE_cons, h]; simp
    · exact h

theorem mpintBytes_length (n : Nat) (h : Small n) : (mpintBytes n).length < 4294967296 := by
  unfold Small at h
  have hl : (magnitude n).length = (numBits n + 7) / 8 := by unfold magnitude; rw [be_length]
  unfold mpintBytes
  split
  · decide
  · rename_i x l e
    rw [e] at hl
    simp only [List.length_cons] at hl
    split
    · simp only [List.length_cons]; omega
    · simp only [List.length_cons]; omega

theorem mpint_inj {a b : Nat} {x y : Bytes} (ha : Small a) (hb : Small b) (h : mpint a ++ x = mpint b ++ y) :
    a = b ∧ x = y := by
  rw [mpint_str, mpint_str] at h
  obtain ⟨h1, h2⟩ := str_inj (mpintBytes_length a ha) (mpintBytes_length b hb) h
  refine ⟨?_, h2⟩
  rw [← ofBE_mpintBytes a, h1, ofBE_mpintBytes]

theorem hashHead_eq (vc vs ic is k : Bytes) : hashHead vc vs ic is k = [vc, vs, 20 :: ic, 20 :: is, k].flatMap str := by
  simp [hashHead, str]

/-- **C84** The buffer hashed by the methods of kexgen.c is the RFCs' concatenation. -/
theorem C84_gen_rfc (vc vs ic is k qc qs secret : Bytes) :
    genHash vc vs ic is k qc qs secret = rfcGen vc vs ic is k qc qs secret := by
  unfold genHash rfcGen
  rw [hashHead_eq]
  simp [List.append_assoc]

/-- **C84** The buffer hashed by group exchange is the concatenation of RFC 4419, unless a bound is 2^32-1. -/
theorem C84_gex_rfc (vc vs ic is k : Bytes) (min nbits max p g e f : Nat) (secret : Bytes)
    (h1 : min ≠ 4294967295) (h2 : max ≠ 4294967295) :
    gexHash vc vs ic is k min nbits max p g e f secret = rfcGex vc vs ic is k min nbits max p g e f secret := by
  unfold gexHash rfcGex optU32
  rw [hashHead_eq, if_neg h1, if_neg h2]
  simp [List.append_assoc]

/-- The parts of the head fit their length fields. -/
structure Fits (vc vs ic is k : Bytes) : Prop where
  vc : vc.length < 4294967296
  vs : vs.length < 4294967296
  ic : ic.length + 1 < 4294967296
  is : is.length + 1 < 4294967296
  k : k.length < 4294967296

/-- Whatever follows, equal buffers have equal heads. -/
theorem head_inj {vc vs ic is k vc' vs' ic' is' k' x y : Bytes} (hf : Fits vc vs ic is k)
    (hf' : Fits vc' vs' ic' is' k') (h : hashHead vc vs ic is k ++ x = hashHead vc' vs' ic' is' k' ++ y) :
    vc = vc' ∧ vs = vs' ∧ ic = ic' ∧ is = is' ∧ k = k' ∧ x = y := by
  rw [hashHead_eq, hashHead_eq] at h
  simp only [List.flatMap_cons, List.flatMap_nil, List.append_nil, List.append_assoc] at h
  obtain ⟨e1, h⟩ := str_inj hf.vc hf'.vc h
  obtain ⟨e2, h⟩ := str_inj hf.vs hf'.vs h
  obtain ⟨e3, h⟩ := str_inj (by simpa using hf.ic) (by simpa using hf'.ic) h
  obtain ⟨e4, h⟩ := str_inj (by simpa using hf.is) (by simpa using hf'.is) h
  obtain ⟨e5, h⟩ := str_inj hf.k hf'.k h
  injection e3 with _ e3
  injection e4 with _ e4
  exact ⟨e1, e2, e3, e4, e5, h⟩

/-- **C84** For the methods of kexgen.c every part of the exchange is determined by the buffer that is hashed:
the identification strings, both KEXINIT messages, the host key, both public parts and the secret. -/
theorem C84_gen_injective (vc vs ic is k qc qs z vc' vs' ic' is' k' qc' qs' z' : Bytes)
    (hf : Fits vc vs ic is k) (hf' : Fits vc' vs' ic' is' k')
    (h1 : qc.length < 4294967296) (h1' : qc'.length < 4294967296)
    (h2 : qs.length < 4294967296) (h2' : qs'.length < 4294967296)
    (h : genHash vc vs ic is k qc qs z = genHash vc' vs' ic' is' k' qc' qs' z') :
    vc = vc' ∧ vs = vs' ∧ ic = ic' ∧ is = is' ∧ k = k' ∧ qc = qc' ∧ qs = qs' ∧ z = z' := by
  unfold genHash at h
  simp only [List.append_assoc] at h
  obtain ⟨e1, e2, e3, e4, e5, h⟩ := head_inj hf hf' h
  obtain ⟨e6, h⟩ := str_inj h1 h1' h
  obtain ⟨e7, h⟩ := str_inj h2 h2' h
  exact ⟨e1, e2, e3, e4, e5, e6, e7, h⟩

/-- **C84** The same for group exchange, which also fixes the bounds asked for and the group. -/
theorem C84_gex_injective (vc vs ic is k z vc' vs' ic' is' k' z' : Bytes)
    (min nbits max p g e f min' nbits' max' p' g' e' f' : Nat)
    (hf : Fits vc vs ic is k) (hf' : Fits vc' vs' ic' is' k')
    (hn : min < 4294967295 ∧ nbits < 4294967296 ∧ max < 4294967295)
    (hn' : min' < 4294967295 ∧ nbits' < 4294967296 ∧ max' < 4294967295)
    (hs : Small p ∧ Small g ∧ Small e ∧ Small f) (hs' : Small p' ∧ Small g' ∧ Small e' ∧ Small f')
    (h : gexHash vc vs ic is k min nbits max p g e f z = gexHash vc' vs' ic' is' k' min' nbits' max' p' g' e' f' z') :
    vc = vc' ∧ vs = vs' ∧ ic = ic' ∧ is = is' ∧ k = k' ∧
    min = min' ∧ nbits = nbits' ∧ max = max' ∧ p = p' ∧ g = g' ∧ e = e' ∧ f = f' ∧ z = z' := by
  unfold gexHash optU32 at h
  rw [if_neg (by omega), if_neg (by omega), if_neg (by omega), if_neg (by omega)] at h
  simp only [List.append_assoc] at h
  obtain ⟨e1, e2, e3, e4, e5, h⟩ := head_inj hf hf' h
  obtain ⟨e6, h⟩ := be4_inj (by omega) (by omega) h
  obtain ⟨e7, h⟩ := be4_inj (by omega) (by omega) h
  obtain ⟨e8, h⟩ := be4_inj (by omega) (by omega) h
  obtain ⟨e9, h⟩ := mpint_inj hs.1 hs'.1 h
  obtain ⟨e10, h⟩ := mpint_inj hs.2.1 hs'.2.1 h
  obtain ⟨e11, h⟩ := mpint_inj hs.2.2.1 hs'.2.2.1 h
  obtain ⟨e12, h⟩ := mpint_inj hs.2.2.2 hs'.2.2.2 h
  exact ⟨e1, e2, e3, e4, e5, e6, e7, e8, e9, e10, e11, e12, h⟩

/-- A big number received is never negative, is the one RFC 4251 gives to the bytes and has at most 16384 bits. -/
theorem C84_numbers {l rest : Bytes} {n : Nat} (h : getMpint l = some (n, rest)) :
    ∃ d, getStr l = some (d, rest) ∧ twos d = (n : Int) ∧ n < 256 ^ 2048 := by
  unfold getMpint at h
  split at h
  · cases h
  · rename_i d r hd
    split at h
    · cases h
    · rename_i h1
      split at h
      · cases h
      · rename_i h2
        cases h
        refine ⟨d, hd, ?_, ?_⟩
        · cases d with
          | nil => rfl
          | cons x t =>
            have hx : x.toNat < 128 := by simpa using h1
            rw [twos, if_pos hx, ofBE_cons, Int.natCast_add, Int.natCast_mul, Int.natCast_pow]
            rfl
        · have hlen : d.length ≤ 2048 ∨ (d.length = 2049 ∧ d.headD 0 = 0) := by
            by_cases hz : d.headD 0 = 0
            · by_cases hl : d.length ≤ 2048
              · exact .inl hl
              · have h4 : ¬ d.length > 2049 := fun e => h2 (.inl e)
                exact .inr ⟨by omega, hz⟩
            · left
              have h3 : ¬ d.length = 2049 := fun e => h2 (.inr ⟨e, hz⟩)
              have h4 : ¬ d.length > 2049 := fun e => h2 (.inl e)
              omega
          rcases hlen with hl | ⟨hl, hz⟩
          · exact Nat.lt_of_lt_of_le (ofBE_lt d) (Nat.pow_le_pow_right (by decide) hl)
          · cases d with
            | nil => simp at hl
            | cons x t =>
              have hx : x = 0 := hz
              have ht : t.length = 2048 := by simpa using hl
              rw [ofBE_cons, hx, ← ht]
              have := ofBE_lt t
              simpa using this

end Verif.Exch
