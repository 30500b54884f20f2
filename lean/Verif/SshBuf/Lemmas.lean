/- Proof work for `Verif.SshBuf.Props`. -/
import Verif.SshBuf.Spec

namespace Verif.SshBuf
open Verif Wire

/-- The readable contents of a buffer. -/
def Buf.contents (b : Buf) : Bytes := (b.d.take b.size).drop b.off

/-- Representation invariant (what `sshbuf_check_sanity` checks, plus: the storage has `alloc` bytes). -/
structure Buf.WF (b : Buf) : Prop where
  dlen : b.d.length = b.alloc
  ref1 : 1 ≤ b.refcount
  refmax : b.refcount ≤ REFS_MAX
  max : b.maxSize ≤ SIZE_MAX_BUF
  alloc : b.alloc ≤ b.maxSize
  size : b.size ≤ b.alloc
  off : b.off ≤ b.size

/-- May the buffer be written to? -/
def Buf.writable (b : Buf) : Bool := !b.readonly && decide (b.refcount = 1)

@[simp] theorem bind_apply (x : SB α) (f : α → SB β) (b : Buf) :
    (x >>= f) b = match x b with
      | (.ok a, b') => f a b'
      | (.err e, b') => (.err e, b')
      | (.abort, b') => (.abort, b')
      | (.ub, b') => (.ub, b') := rfl
@[simp] theorem pure_apply (a : α) (b : Buf) : (pure a : SB α) b = (.ok a, b) := rfl
@[simp] theorem getB_apply (b : Buf) : getB b = (.ok b, b) := rfl
@[simp] theorem setB_apply (b b' : Buf) : setB b' b = (.ok (), b') := rfl
@[simp] theorem fail_apply (e : Err) (b : Buf) : (fail e : SB α) b = (.err e, b) := rfl
@[simp] theorem ite_apply' (c : Prop) [Decidable c] (x y : SB α) (b : Buf) :
    (if c then x else y) b = if c then x b else y b := by split <;> rfl

theorem WF.sane {b : Buf} (h : b.WF) : insane b = false := by
  obtain ⟨h1, h2, h3, h4, h5, h6, h7⟩ := h
  simp [insane]
  omega

theorem checkSanity_ok {b : Buf} (h : b.WF) : checkSanity b = (.ok (), b) := by
  simp [checkSanity, WF.sane h]

theorem contents_length {b : Buf} (h : b.WF) : b.contents.length = b.size - b.off := by
  have := h.size; have := h.dlen
  simp [Buf.contents]; omega

theorem len_ok {b : Buf} (h : b.WF) : len b = (.ok b.contents.length, b) := by
  simp [len, checkSanity_ok h, contents_length h]

theorem ptr_ok {b : Buf} (h : b.WF) : ptr b = (.ok b.off, b) := by
  simp [ptr, checkSanity_ok h]

theorem writable_iff {b : Buf} (h : b.WF) : (b.readonly = true ∨ b.refcount > 1) ↔ b.writable = false := by
  have := h.ref1
  simp [Buf.writable]
  constructor
  · rintro (h | h)
    · simp [h]
    · intro _; omega
  · intro h'; cases hr : b.readonly <;> simp_all; omega

/-- What stays the same across housekeeping (packing, growing). -/
structure Same (b b' : Buf) : Prop where
  contents : b'.contents = b.contents
  maxSize : b'.maxSize = b.maxSize
  readonly : b'.readonly = b.readonly
  refcount : b'.refcount = b.refcount

theorem Same.refl (b : Buf) : Same b b := ⟨rfl, rfl, rfl, rfl⟩
theorem Same.trans {a b c : Buf} (h : Same a b) (h' : Same b c) : Same a c :=
  ⟨h'.1.trans h.1, h'.2.trans h.2, h'.3.trans h.3, h'.4.trans h.4⟩
theorem Same.writable {a b : Buf} (h : Same a b) : b.writable = a.writable := by
  simp [Buf.writable, h.readonly, h.refcount]

theorem maybePack_ok {b : Buf} (h : b.WF) (force : Bool) :
    ∃ b', maybePack force b = (.ok (), b') ∧ b'.WF ∧ Same b b' ∧ b'.alloc = b.alloc ∧
      (force = true → b.writable = true → b'.off = 0) ∧ (b' = b ∨ b'.off = 0) := by
  have hwr := writable_iff h
  unfold maybePack
  by_cases h0 : b.off = 0 ∨ b.readonly ∨ b.refcount > 1
  · refine ⟨b, ?_, h, Same.refl b, rfl, ?_, .inl rfl⟩
    · simp [h0]
    · intro _ hw
      rcases h0 with h0 | h0
      · exact h0
      · rw [hwr.1 h0] at hw; exact absurd hw (by simp)
  · by_cases h1 : force = true ∨ (b.off ≥ PACK_MIN ∧ b.off ≥ b.size / 2)
    · obtain ⟨h11, h2, h3, h4, h5, h6, h7⟩ := h
      have hread : b.off + (b.size - b.off) ≤ b.d.length := by omega
      have hl : ((b.d.drop b.off).take (b.size - b.off)).length = b.size - b.off := by simp; omega
      have hw : 0 + ((b.d.drop b.off).take (b.size - b.off)).length ≤ b.d.length := by rw [hl]; omega
      simp only [not_or] at h0
      refine ⟨{ b with
          d := b.d.take 0 ++ ((b.d.drop b.off).take (b.size - b.off)) ++
            b.d.drop (0 + ((b.d.drop b.off).take (b.size - b.off)).length),
          size := b.size - b.off, off := 0 }, ?_, ?_, ?_, rfl, fun _ _ => rfl, .inr rfl⟩
      · simp only [bind_apply, getB_apply, ite_apply', if_neg (not_or.2 ⟨h0.1, not_or.2 h0.2⟩), if_pos h1,
          memRead, if_pos hread, memWrite, if_pos hw, setB_apply]
      · constructor <;> simp <;> omega
      · constructor <;> simp [Buf.contents]
        rw [List.take_append_of_le_length (by simp; omega)]
        rw [List.take_of_length_le (by simp; omega), List.drop_take]
    · refine ⟨b, ?_, h, Same.refl b, rfl, ?_, .inl rfl⟩
      · simp only [bind_apply, getB_apply, ite_apply', if_neg h0, if_neg h1, pure_apply]
      · intro hf; exact absurd (.inl hf) h1

theorem recalloc_length (d : Bytes) (n : Nat) : (recalloc d n).length = n := by
  simp [recalloc]; omega

theorem recalloc_take (d : Bytes) (n k : Nat) (h : k ≤ n) (hk : k ≤ d.length) :
    (recalloc d n).take k = d.take k := by
  unfold recalloc
  rw [List.take_append_of_le_length (by simp; omega), List.take_take, Nat.min_eq_left h]

/-- Growing or shrinking the storage keeps contents. -/
theorem resize_ok {b : Buf} (h : b.WF) {n : Nat} (h1 : b.size ≤ n) (h2 : n ≤ b.maxSize) :
    ({ b with d := recalloc b.d n, alloc := n } : Buf).WF ∧
    Same b { b with d := recalloc b.d n, alloc := n } := by
  obtain ⟨h11, h22, h3, h4, h5, h6, h7⟩ := h
  constructor
  · constructor <;> simp [recalloc_length] <;> omega
  · constructor <;> simp [Buf.contents]
    rw [recalloc_take _ _ _ h1 (by omega)]

theorem roundup_ge (x : Nat) : x ≤ roundup x SIZE_INC := by
  unfold roundup; omega

theorem checkReserve_eq {b : Buf} (h : b.WF) (n : Nat) :
    checkReserve n b = (if b.writable = false then .err .readOnly
      else if b.contents.length + n > b.maxSize then .err .noSpace else .ok (), b) := by
  have hwr := writable_iff h
  have hc := contents_length h
  obtain ⟨h11, h22, h3, h4, h5, h6, h7⟩ := id h
  simp only [checkReserve, bind_apply, checkSanity_ok h, getB_apply, ite_apply', hwr, fail_apply, pure_apply, hc]
  split
  · simp
  · split <;> split <;> first | rfl | omega

/-- Outcome of `sshbuf_allocate`. -/
theorem allocate_cases {b : Buf} (h : b.WF) (n : Nat) (mem : Bool) :
    (b.writable = false ∧ allocate n mem b = (.err .readOnly, b)) ∨
    (b.writable = true ∧ b.contents.length + n > b.maxSize ∧ allocate n mem b = (.err .noSpace, b)) ∨
    (b.writable = true ∧ b.contents.length + n ≤ b.maxSize ∧
      ∃ b', b'.WF ∧ Same b b' ∧ ((mem = false ∧ allocate n mem b = (.err .allocFail, b')) ∨
        (allocate n mem b = (.ok (), b') ∧ b'.size + n ≤ b'.alloc))) := by
  have hc := contents_length h
  cases hw : b.writable with
  | false => left; simp [allocate, checkReserve_eq h, hw]
  | true =>
    by_cases hs : b.contents.length + n > b.maxSize
    · right; left; simp [allocate, checkReserve_eq h, hw, hs]
    · right; right
      refine ⟨rfl, by omega, ?_⟩
      obtain ⟨b1, he, hwf, hsame, halloc, hforce, hor⟩ :=
        maybePack_ok h (decide (szAdd b.size n > b.maxSize))
      have hb := h
      obtain ⟨h11, h22, h3, h4, h5, h6, h7⟩ := h
      have hc1 := contents_length hwf
      have hcl : b1.contents.length = b.contents.length := by rw [hsame.contents]
      have hfit : b1.size + n ≤ b1.maxSize := by
        rw [hsame.maxSize]
        rcases hor with rfl | h0
        · by_cases hgt : szAdd b1.size n > b1.maxSize
          · have := hforce (by simpa using hgt) hw
            omega
          · unfold szAdd at hgt
            have hlt : b1.size + n < sizeMod := by omega
            rw [Nat.mod_eq_of_lt hlt] at hgt; omega
        · omega
      have hmax1 : b1.maxSize ≤ SIZE_MAX_BUF := hwf.max
      have hadd : szAdd n b1.size = n + b1.size := by
        unfold szAdd; apply Nat.mod_eq_of_lt; omega
      by_cases hle : n + b1.size ≤ b1.alloc
      · refine ⟨b1, hwf, hsame, .inr ⟨?_, by omega⟩⟩
        simp [allocate, checkReserve_eq hb, hw, hs, he, hadd, hle]
      · have hneed : szAdd b1.alloc (n + b1.size - b1.alloc) = n + b1.size := by
          unfold szAdd; rw [Nat.mod_eq_of_lt]; omega
          omega
        cases mem with
        | false =>
          refine ⟨b1, hwf, hsame, .inl ⟨rfl, ?_⟩⟩
          simp [allocate, checkReserve_eq hb, hw, hs, he, hadd, hle]
        | true =>
          have hge : n + b1.size ≤ (if roundup (n + b1.size) SIZE_INC > b1.maxSize then n + b1.size
              else roundup (n + b1.size) SIZE_INC) := by
            split
            · omega
            · exact roundup_ge _
          have hlem : (if roundup (n + b1.size) SIZE_INC > b1.maxSize then n + b1.size
              else roundup (n + b1.size) SIZE_INC) ≤ b1.maxSize := by
            split <;> omega
          generalize hr : (if roundup (n + b1.size) SIZE_INC > b1.maxSize then n + b1.size
              else roundup (n + b1.size) SIZE_INC) = rlen at hge hlem
          obtain ⟨hwf2, hsame2⟩ := resize_ok hwf (n := rlen) (by omega) hlem
          refine ⟨_, hwf2, hsame.trans hsame2, .inr ⟨?_, by simp; omega⟩⟩
          have hcond : ¬ (Buf.contents { b1 with d := recalloc b1.d rlen, alloc := rlen }).length + n >
              b1.maxSize := by
            rw [hsame2.contents, hcl, hsame.maxSize]; exact hs
          have hw2 : (Buf.writable { b1 with d := recalloc b1.d rlen, alloc := rlen }) = true := by
            rw [hsame2.writable, hsame.writable, hw]
          simp only [gt_iff_lt] at he hr hcond hs
          simp [allocate, checkReserve_eq hb, hw, hs, he, hadd, hle, hneed, hr, checkReserve_eq hwf2, hw2, hcond]


/-! ### consume -/

/-- State after a successful `sshbuf_consume`. -/
def Buf.consumed (b : Buf) (n : Nat) : Buf :=
  if n = 0 then b else if b.off + n = b.size then { b with off := 0, size := 0 } else { b with off := b.off + n }

theorem consume_eq {b : Buf} (h : b.WF) (n : Nat) :
    consume n b = if n ≤ b.contents.length then (.ok (), b.consumed n) else (.err .incomplete, b) := by
  have hc := contents_length h
  obtain ⟨h11, h22, h3, h4, h5, h6, h7⟩ := id h
  simp only [consume, bind_apply, checkSanity_ok h, ite_apply', pure_apply, len_ok h, fail_apply, getB_apply,
    setB_apply, Buf.consumed, hc]
  by_cases h0 : n = 0
  · simp [h0]
  · by_cases hn : n ≤ b.size - b.off
    · have : szAdd b.off n = b.off + n := by unfold szAdd; apply Nat.mod_eq_of_lt; omega
      simp only [h0, hn, this, if_false, if_true, if_neg (show ¬ n > b.size - b.off by omega)]
      split <;> rfl
    · simp only [h0, hn, if_false, if_pos (show n > b.size - b.off by omega)]

theorem consumed_wf {b : Buf} (h : b.WF) {n : Nat} (hn : n ≤ b.contents.length) : (b.consumed n).WF := by
  have hc := contents_length h
  obtain ⟨h11, h22, h3, h4, h5, h6, h7⟩ := id h
  unfold Buf.consumed
  split
  · exact h
  · split <;> constructor <;> simp <;> omega

theorem consumed_contents {b : Buf} (h : b.WF) {n : Nat} (_hn : n ≤ b.contents.length) :
    (b.consumed n).contents = b.contents.drop n := by
  have hc := contents_length h
  obtain ⟨h11, h22, h3, h4, h5, h6, h7⟩ := id h
  unfold Buf.consumed
  split
  · simp [*]
  · split
    · rw [List.drop_of_length_le (by omega)]; simp [Buf.contents]
    · simp [Buf.contents, List.drop_drop]

@[simp] theorem consumed_d (b : Buf) (n : Nat) : (b.consumed n).d = b.d := by
  unfold Buf.consumed; split <;> (try split) <;> rfl
@[simp] theorem consumed_max (b : Buf) (n : Nat) : (b.consumed n).maxSize = b.maxSize := by
  unfold Buf.consumed; split <;> (try split) <;> rfl
@[simp] theorem consumed_ro (b : Buf) (n : Nat) : (b.consumed n).readonly = b.readonly := by
  unfold Buf.consumed; split <;> (try split) <;> rfl
@[simp] theorem consumed_ref (b : Buf) (n : Nat) : (b.consumed n).refcount = b.refcount := by
  unfold Buf.consumed; split <;> (try split) <;> rfl
@[simp] theorem consumed_writable (b : Buf) (n : Nat) : (b.consumed n).writable = b.writable := by
  simp [Buf.writable]

/-- Reading storage inside the readable region. -/
theorem memRead_at {b b0 : Buf} (h : b0.WF) (hd : b.d = b0.d) {o n : Nat} (hn : o + n ≤ b0.contents.length) :
    memRead (b0.off + o) n b = (.ok ((b0.contents.drop o).take n), b) := by
  have hc := contents_length h
  obtain ⟨h11, h22, h3, h4, h5, h6, h7⟩ := id h
  unfold memRead
  rw [if_pos (by rw [hd]; omega), hd]
  congr 2
  simp only [Buf.contents, List.drop_take, List.drop_drop, List.take_take]
  congr 1; omega

theorem memRead_front {b b0 : Buf} (h : b0.WF) (hd : b.d = b0.d) {n : Nat} (hn : n ≤ b0.contents.length) :
    memRead b0.off n b = (.ok (b0.contents.take n), b) := by
  have := memRead_at h hd (o := 0) (n := n) (by omega)
  simpa using this

/-! ### writes -/

theorem splice_sub (d v : Bytes) (p off size : Nat) (h1 : off ≤ p) (h2 : p + v.length ≤ size)
    (h3 : size ≤ d.length) :
    ((d.take p ++ v ++ d.drop (p + v.length)).take size).drop off =
      ((d.take size).drop off).take (p - off) ++ v ++ ((d.take size).drop off).drop (p - off + v.length) := by
  apply List.ext_getElem?
  intro i
  simp only [List.getElem?_append, List.getElem?_take, List.getElem?_drop, List.length_append,
    List.length_take, List.length_drop]
  have e1 : min p d.length = p := by omega
  grind

/-- Writing inside the valid region. -/
theorem memWrite_ok {b : Buf} (h : b.WF) {p : Nat} {v : Bytes} (h1 : b.off ≤ p) (h2 : p + v.length ≤ b.size) :
    ∃ b', memWrite p v b = (.ok (), b') ∧ b'.WF ∧ b'.off = b.off ∧ b'.size = b.size ∧
      b'.maxSize = b.maxSize ∧ b'.readonly = b.readonly ∧ b'.refcount = b.refcount ∧
      b'.contents = b.contents.take (p - b.off) ++ v ++ b.contents.drop (p - b.off + v.length) := by
  obtain ⟨h11, h22, h3, h4, h5, h6, h7⟩ := id h
  unfold memWrite
  rw [if_pos (by omega)]
  refine ⟨_, rfl, ?_, rfl, rfl, rfl, rfl, rfl, ?_⟩
  · constructor <;> simp <;> omega
  · simp only [Buf.contents]
    exact splice_sub _ _ _ _ _ h1 h2 (by omega)

/-- Outcome of `sshbuf_reserve`. -/
theorem reserve_cases {b : Buf} (h : b.WF) (n : Nat) (mem : Bool) :
    (b.writable = false ∧ reserve n mem b = (.err .readOnly, b)) ∨
    (b.writable = true ∧ b.contents.length + n > b.maxSize ∧ reserve n mem b = (.err .noSpace, b)) ∨
    (b.writable = true ∧ b.contents.length + n ≤ b.maxSize ∧
      ∃ b', b'.WF ∧ b'.maxSize = b.maxSize ∧ b'.readonly = b.readonly ∧ b'.refcount = b.refcount ∧
      ((mem = false ∧ b'.contents = b.contents ∧ reserve n mem b = (.err .allocFail, b')) ∨
        (∃ p junk, reserve n mem b = (.ok p, b') ∧ b'.contents = b.contents ++ junk ∧ junk.length = n ∧
          p + n = b'.size ∧ p = b'.off + b.contents.length))) := by
  rcases allocate_cases h n mem with ⟨hw, he⟩ | ⟨hw, hs, he⟩ | ⟨hw, hs, b1, hwf, hsame, hor⟩
  · left; simp [reserve, he, hw]
  · right; left; simp [reserve, he, hw, hs]
  · right; right
    refine ⟨hw, hs, ?_⟩
    rcases hor with ⟨hm, he⟩ | ⟨he, hfit⟩
    · exact ⟨b1, hwf, hsame.maxSize, hsame.readonly, hsame.refcount, .inl ⟨hm, hsame.contents, by simp [reserve, he]⟩⟩
    · have hc1 := contents_length hwf
      have hc0 : b1.contents.length = b.contents.length := by rw [hsame.contents]
      obtain ⟨h11, h22, h3, h4, h5, h6, h7⟩ := id hwf
      have hadd : szAdd b1.size n = b1.size + n := by unfold szAdd; apply Nat.mod_eq_of_lt; omega
      refine ⟨{ b1 with size := b1.size + n }, ?_, hsame.maxSize, hsame.readonly, hsame.refcount,
        .inr ⟨b1.size, (b1.d.drop b1.size).take n, ?_, ?_, ?_, rfl, ?_⟩⟩
      · constructor <;> simp <;> omega
      · simp [reserve, he, hadd]
      · rw [← hsame.contents]
        simp only [Buf.contents]
        rw [List.take_add, List.drop_append_of_le_length (by simp; omega)]
      · simp; omega
      · simp; omega

/-- Reserve followed by filling the reserved space with the bytes `v`, for every way of filling
(`fill`) that is made of writes covering exactly the reserved region. -/
theorem reserve_fill {b : Buf} (h : b.WF) (v : Bytes) (mem : Bool) (fill : Nat → SB Unit)
    (hfill : ∀ (b1 : Buf) (p : Nat), b1.WF → b1.off ≤ p → p + v.length = b1.size →
      ∃ b2, fill p b1 = (.ok (), b2) ∧ b2.WF ∧ b2.maxSize = b1.maxSize ∧ b2.readonly = b1.readonly ∧
        b2.refcount = b1.refcount ∧ b2.contents = b1.contents.take (p - b1.off) ++ v) :
    (b.writable = false ∧ (reserve v.length mem >>= fill) b = (.err .readOnly, b)) ∨
    (b.writable = true ∧ b.contents.length + v.length > b.maxSize ∧
      (reserve v.length mem >>= fill) b = (.err .noSpace, b)) ∨
    (b.writable = true ∧ b.contents.length + v.length ≤ b.maxSize ∧
      ∃ b', b'.WF ∧ b'.maxSize = b.maxSize ∧ b'.readonly = b.readonly ∧ b'.refcount = b.refcount ∧
      ((mem = false ∧ b'.contents = b.contents ∧ (reserve v.length mem >>= fill) b = (.err .allocFail, b')) ∨
        ((reserve v.length mem >>= fill) b = (.ok (), b') ∧ b'.contents = b.contents ++ v))) := by
  rcases reserve_cases h v.length mem with ⟨hw, he⟩ | ⟨hw, hs, he⟩ |
    ⟨hw, hs, b1, hwf, hm, hr, hrc, ⟨hmem, hcont, he⟩ | ⟨p, junk, he, hcont, hj, hp, hp2⟩⟩
  · left; simp [he, hw]
  · right; left; simp [he, hw, hs]
  · right; right
    exact ⟨hw, hs, b1, hwf, hm, hr, hrc, .inl ⟨hmem, hcont, by simp [he]⟩⟩
  · right; right
    obtain ⟨b2, he2, hwf2, hm2, hr2, hrc2, hcont2⟩ := hfill b1 p hwf (by omega) hp
    refine ⟨hw, hs, b2, hwf2, hm2.trans hm, hr2.trans hr, hrc2.trans hrc, .inr ⟨by simp [he, he2], ?_⟩⟩
    rw [hcont2, hcont, hp2, Nat.add_sub_cancel_left, List.take_left]

/-- A single write of the whole region. -/
theorem fill_write (v : Bytes) (b1 : Buf) (p : Nat) (hwf : b1.WF) (h1 : b1.off ≤ p) (h2 : p + v.length = b1.size) :
    ∃ b2, memWrite p v b1 = (.ok (), b2) ∧ b2.WF ∧ b2.maxSize = b1.maxSize ∧ b2.readonly = b1.readonly ∧
        b2.refcount = b1.refcount ∧ b2.contents = b1.contents.take (p - b1.off) ++ v := by
  obtain ⟨b2, he, hwf2, ho, hs, hm, hr, hrc, hcont⟩ := memWrite_ok hwf (v := v) h1 (by omega)
  refine ⟨b2, he, hwf2, hm, hr, hrc, ?_⟩
  rw [hcont, List.drop_of_length_le, List.append_nil]
  rw [contents_length hwf]; omega

/-- Two writes, one after the other. -/
theorem fill_write2 (u v : Bytes) (b1 : Buf) (p : Nat) (hwf : b1.WF) (h1 : b1.off ≤ p)
    (h2 : p + (u ++ v).length = b1.size) :
    ∃ b2, (do memWrite p u; memWrite (p + u.length) v : SB Unit) b1 = (.ok (), b2) ∧ b2.WF ∧
        b2.maxSize = b1.maxSize ∧ b2.readonly = b1.readonly ∧
        b2.refcount = b1.refcount ∧ b2.contents = b1.contents.take (p - b1.off) ++ (u ++ v) := by
  simp only [List.length_append] at h2
  have hc := contents_length hwf
  obtain ⟨b2, he, hwf2, ho, hs, hm, hr, hrc, hcont⟩ := memWrite_ok hwf (v := u) h1 (by omega)
  obtain ⟨b3, he3, hwf3, hm3, hr3, hrc3, hcont3⟩ := fill_write v b2 (p + u.length) hwf2 (by omega) (by omega)
  refine ⟨b3, by simp [he, he3], hwf3, hm3.trans hm, hr3.trans hr, hrc3.trans hrc, ?_⟩
  rw [hcont3, hcont, ho]
  have e : p + u.length - b1.off = (b1.contents.take (p - b1.off) ++ u).length := by
    simp; omega
  rw [e, List.take_left, List.append_assoc]

end Verif.SshBuf
