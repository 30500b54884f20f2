/-
Specification-level wire format (RFC 4251 section 5) on plain byte lists: big-endian integers and
length-prefixed strings.  `Verif.SshBuf.Props` proves that the buffer code of /repo implements exactly these
readers and writers; the models of the protocol layers are written on top of them.
-/
import Verif.Base

namespace Verif.Wire
open Verif

/-- `n`-byte big-endian encoding of `v` (modulo `256^n`). -/
def be : Nat → Nat → Bytes
  | 0, _ => []
  | n + 1, v => UInt8.ofNat (v / 256 ^ n % 256) :: be n v

/-- Value of a big-endian byte string. -/
def ofBE (l : Bytes) : Nat := l.foldl (fun a x => a * 256 + x.toNat) 0

@[simp] theorem be_length (n v : Nat) : (be n v).length = n := by
  induction n with
  | zero => rfl
  | succ n ih => simp [be, ih]

theorem foldl_acc (l : Bytes) (a : Nat) :
    l.foldl (fun a x => a * 256 + x.toNat) a = a * 256 ^ l.length + ofBE l := by
  induction l generalizing a with
  | nil => simp [ofBE]
  | cons x l ih =>
    simp only [List.foldl_cons, List.length_cons, ofBE]
    rw [ih, ih (0 * 256 + x.toNat)]
    simp [Nat.pow_succ, Nat.add_mul, Nat.mul_assoc, Nat.mul_comm 256, Nat.add_assoc]

theorem ofBE_cons (x : UInt8) (l : Bytes) : ofBE (x :: l) = x.toNat * 256 ^ l.length + ofBE l := by
  unfold ofBE
  simp only [List.foldl_cons]
  rw [foldl_acc]; simp [ofBE]

@[simp] theorem ofBE_nil : ofBE [] = 0 := rfl

theorem ofBE_lt (l : Bytes) : ofBE l < 256 ^ l.length := by
  induction l with
  | nil => simp
  | cons x l ih =>
    rw [ofBE_cons]
    have : x.toNat ≤ 255 := by have := x.toNat_lt; omega
    calc x.toNat * 256 ^ l.length + ofBE l < 255 * 256 ^ l.length + 256 ^ l.length := by
          have := Nat.mul_le_mul_right (256 ^ l.length) this; omega
      _ = 256 ^ (x :: l).length := by simp [Nat.pow_succ]; omega

theorem ofBE_be (n v : Nat) : ofBE (be n v) = v % 256 ^ n := by
  induction n with
  | zero => simp [be, Nat.mod_one]
  | succ n ih =>
    rw [be, ofBE_cons, ih, be_length]
    have : (UInt8.ofNat (v / 256 ^ n % 256)).toNat = v / 256 ^ n % 256 := by
      simp
    rw [this, Nat.pow_succ, Nat.mod_mul (a := 256 ^ n) (b := 256) (x := v)]
    rw [Nat.mul_comm]; omega

theorem ofBE_be_of_lt {n v : Nat} (h : v < 256 ^ n) : ofBE (be n v) = v := by
  rw [ofBE_be, Nat.mod_eq_of_lt h]

theorem be_mod (n v k : Nat) (h : n ≤ k) : be n (v % 256 ^ k) = be n v := by
  induction n with
  | zero => rfl
  | succ n ih =>
    simp only [be]
    rw [ih (by omega)]
    congr 2
    have h2 : 256 ^ k = 256 ^ n * (256 * 256 ^ (k - n - 1)) := by
      rw [← Nat.pow_succ', ← Nat.pow_add]; congr 1; omega
    rw [h2, Nat.mod_mul_right_div_self, Nat.mod_mul_right_mod]

theorem be_ofBE (l : Bytes) : be l.length (ofBE l) = l := by
  induction l with
  | nil => rfl
  | cons x l ih =>
    rw [List.length_cons, be]
    have hlt := ofBE_lt l
    have hpos : 0 < 256 ^ l.length := Nat.pow_pos (by omega)
    congr 1
    · rw [ofBE_cons, Nat.mul_comm, Nat.mul_add_div hpos, Nat.div_eq_of_lt hlt]
      apply UInt8.toNat_inj.1
      simp
    · conv => rhs; rw [← ih]
      rw [← be_mod l.length (ofBE (x :: l)) l.length (Nat.le_refl _), ofBE_cons,
        Nat.mul_add_mod_self_right, Nat.mod_eq_of_lt hlt]

theorem be_inj {n v w : Nat} (hv : v < 256 ^ n) (hw : w < 256 ^ n) (h : be n v = be n w) : v = w := by
  have := congrArg ofBE h
  rwa [ofBE_be_of_lt hv, ofBE_be_of_lt hw] at this

/-- RFC 4251 `string`. -/
def str (v : Bytes) : Bytes := be 4 v.length ++ v

/-! ### Readers -/

/-- Read an `n`-byte integer. -/
def getInt (n : Nat) (l : Bytes) : Option (Nat × Bytes) :=
  if l.length < n then none else some (ofBE (l.take n), l.drop n)

/-- Largest string accepted by `sshbuf_get_string*` (sshbuf-getput-basic.c:254). -/
notation "maxString" => (134217724 : Nat)

/-- Read a length-prefixed string (at most `maxString` bytes). -/
def getStr (l : Bytes) : Option (Bytes × Bytes) :=
  match getInt 4 l with
  | none => none
  | some (n, rest) => if n > maxString ∨ rest.length < n then none else some (rest.take n, rest.drop n)

theorem getInt_append (n v : Nat) (rest : Bytes) (h : v < 256 ^ n) :
    getInt n (be n v ++ rest) = some (v, rest) := by
  simp [getInt, ofBE_be_of_lt h]

theorem getInt_some {n : Nat} {l : Bytes} {v : Nat} {rest : Bytes} (h : getInt n l = some (v, rest)) :
    l = be n v ++ rest ∧ v < 256 ^ n := by
  unfold getInt at h
  split at h
  · simp at h
  · rename_i hl
    simp only [Option.some.injEq, Prod.mk.injEq] at h
    obtain ⟨rfl, rfl⟩ := h
    have hlen : (l.take n).length = n := by simp; omega
    constructor
    · conv => lhs; rw [← List.take_append_drop n l]
      congr 1
      have h2 := be_ofBE (l.take n)
      rw [hlen] at h2
      exact h2.symm
    · have := ofBE_lt (l.take n); rwa [hlen] at this

theorem getStr_append (v rest : Bytes) (h : v.length ≤ maxString) :
    getStr (str v ++ rest) = some (v, rest) := by
  unfold getStr str
  rw [List.append_assoc, getInt_append _ _ _ (by omega)]
  simp; omega

theorem getStr_some {l v rest : Bytes} (h : getStr l = some (v, rest)) :
    l = str v ++ rest ∧ v.length ≤ maxString := by
  unfold getStr at h
  split at h
  · simp at h
  · rename_i n r hn
    split at h
    · simp at h
    · rename_i hc
      simp only [Option.some.injEq, Prod.mk.injEq] at h
      obtain ⟨rfl, rfl⟩ := h
      have := getInt_some hn
      have hl : (r.take n).length = n := by simp; omega
      constructor
      · rw [str, hl, List.append_assoc, List.take_append_drop]; exact this.1
      · omega

/-! ### C strings -/

/-- The C string held in a byte array: a NUL may only be the last byte (and ends the string). -/
def cstr (v : Bytes) : Option Bytes :=
  if (0 : UInt8) ∈ v.dropLast then none
  else if v.getLast? = some 0 then some v.dropLast
  else some v

/-- `sshbuf_get_cstring` (sshbuf-getput-basic.c:270-303), as a C string. -/
def getCstr (l : Bytes) : Option (Bytes × Bytes) :=
  match getStr l with
  | none => none
  | some (v, rest) =>
    match cstr v with
    | none => none
    | some s => some (s, rest)

theorem cstr_of_no_nul {v : Bytes} (h : (0 : UInt8) ∉ v) : cstr v = some v := by
  unfold cstr
  rw [if_neg (fun hm => h (List.dropLast_subset _ hm)), if_neg]
  intro hl
  exact h (List.mem_of_getLast? hl)

theorem getCstr_append (v rest : Bytes) (h : (0 : UInt8) ∉ v) (hl : v.length ≤ maxString) :
    getCstr (str v ++ rest) = some (v, rest) := by
  unfold getCstr
  rw [getStr_append v rest hl]
  simp [cstr_of_no_nul h]

end Verif.Wire
