/-
What no call changes: the reference count and the read-only flag; and, while the buffer is read-only or has
children, its storage.
-/
import Verif.SshBuf.Refine

namespace Verif.SshBuf
open Verif Wire

/-- Read-only, or with derived buffers. -/
def Buf.frozen (b : Buf) : Prop := b.readonly = true ∨ b.refcount > 1

instance (b : Buf) : Decidable b.frozen := by unfold Buf.frozen; infer_instance

/-- What may not change when the call takes a buffer from `b` to `b'`. -/
structure Kept (b b' : Buf) : Prop where
  readonly : b'.readonly = b.readonly
  refcount : b'.refcount = b.refcount
  frozen : b.frozen → b'.d = b.d ∧ b'.alloc = b.alloc ∧ b'.maxSize = b.maxSize

/-- The weaker property of code that runs only when the buffer may be written. -/
structure Kept' (b b' : Buf) : Prop where
  readonly : b'.readonly = b.readonly
  refcount : b'.refcount = b.refcount

def F (x : SB α) : Prop := ∀ b, Kept b (x b).2
def K (x : SB α) : Prop := ∀ b, Kept' b (x b).2
/-- Fails on a frozen buffer. -/
def Stops (x : SB α) : Prop := ∀ b, b.frozen → ∀ a, (x b).1 ≠ .ok a

theorem Kept.weak {b b' : Buf} (h : Kept b b') : Kept' b b' := ⟨h.1, h.2⟩
theorem F.weak {x : SB α} (h : F x) : K x := fun b => (h b).weak
theorem Kept.refl (b : Buf) : Kept b b := ⟨rfl, rfl, fun _ => ⟨rfl, rfl, rfl⟩⟩

theorem Kept.trans {a b c : Buf} (h : Kept a b) (h' : Kept b c) : Kept a c := by
  refine ⟨h'.1.trans h.1, h'.2.trans h.2, fun hf => ?_⟩
  have hb : b.frozen := by
    rcases hf with hf | hf
    · exact .inl (h.1.trans hf)
    · exact .inr (by rw [h.2]; exact hf)
  obtain ⟨a1, a2, a3⟩ := h.3 hf
  obtain ⟨b1, b2, b3⟩ := h'.3 hb
  exact ⟨b1.trans a1, b2.trans a2, b3.trans a3⟩

theorem Kept'.trans {a b c : Buf} (h : Kept' a b) (h' : Kept' b c) : Kept' a c :=
  ⟨h'.1.trans h.1, h'.2.trans h.2⟩

theorem kept_bind {x : SB α} {f : α → SB β} {b : Buf} (h : Kept b (x b).2)
    (hf : ∀ a, (x b).1 = .ok a → Kept (x b).2 (f a (x b).2).2) : Kept b ((x >>= f) b).2 := by
  show Kept b (SB.bind x f b).2
  unfold SB.bind
  rcases hx : x b with ⟨r, b'⟩
  rw [hx] at h hf
  cases r with
  | ok a => exact h.trans (hf a rfl)
  | err e => exact h
  | abort => exact h
  | ub => exact h

theorem kept'_bind {x : SB α} {f : α → SB β} {b : Buf} (h : Kept' b (x b).2)
    (hf : ∀ a, (x b).1 = .ok a → Kept' (x b).2 (f a (x b).2).2) : Kept' b ((x >>= f) b).2 := by
  show Kept' b (SB.bind x f b).2
  unfold SB.bind
  rcases hx : x b with ⟨r, b'⟩
  rw [hx] at h hf
  cases r with
  | ok a => exact h.trans (hf a rfl)
  | err e => exact h
  | abort => exact h
  | ub => exact h

theorem F.bind {x : SB α} {f : α → SB β} (h : F x) (hf : ∀ a, F (f a)) : F (x >>= f) :=
  fun b => kept_bind (h b) (fun a _ => hf a _)

theorem K.bind {x : SB α} {f : α → SB β} (h : K x) (hf : ∀ a, K (f a)) : K (x >>= f) :=
  fun b => kept'_bind (h b) (fun a _ => hf a _)

/-- After something that fails on frozen buffers, anything goes. -/
theorem F.stop {x : SB α} {f : α → SB β} (h : F x) (hs : Stops x) (hf : ∀ a, K (f a)) : F (x >>= f) := by
  intro b
  have hk : Kept' b ((x >>= f) b).2 := (K.bind h.weak hf) b
  refine ⟨hk.1, hk.2, fun hfz => ?_⟩
  have := (h b).3 hfz
  have hno := hs b hfz
  show (SB.bind x f b).2.d = _ ∧ (SB.bind x f b).2.alloc = _ ∧ (SB.bind x f b).2.maxSize = _
  unfold SB.bind
  rcases hx : x b with ⟨r, b'⟩
  rw [hx] at this hno
  cases r with
  | ok a => exact absurd rfl (hno a)
  | err e => exact this
  | abort => exact this
  | ub => exact this

theorem Stops.bind {x : SB α} {f : α → SB β} (hs : Stops x) : Stops (x >>= f) := by
  intro b hb a
  show (SB.bind x f b).1 ≠ _
  unfold SB.bind
  have := hs b hb
  rcases hx : x b with ⟨r, b'⟩
  rw [hx] at this
  cases r with
  | ok a => exact absurd rfl (this a)
  | err e => simp
  | abort => simp
  | ub => simp

theorem F_pure (a : α) : F (pure a : SB α) := fun b => Kept.refl b
theorem F_fail (e : Err) : F (fail e : SB α) := fun b => Kept.refl b
theorem F_getB : F getB := fun b => Kept.refl b
theorem F_memRead (i n : Nat) : F (memRead i n) := by
  intro b; unfold memRead; split <;> exact Kept.refl b
theorem F_sanity : F checkSanity := by
  intro b; unfold checkSanity; split <;> exact Kept.refl b
theorem F_undef : F (undefinedB : SB α) := fun b => Kept.refl b
theorem K_memWrite (i : Nat) (v : Bytes) : K (memWrite i v) := by
  intro b; unfold memWrite; split <;> exact ⟨rfl, rfl⟩
theorem F_ite {c : Prop} [Decidable c] {x y : SB α} (hx : F x) (hy : F y) : F (if c then x else y) := by
  split
  · exact hx
  · exact hy
theorem K_ite {c : Prop} [Decidable c] {x y : SB α} (hx : K x) (hy : K y) : K (if c then x else y) := by
  split
  · exact hx
  · exact hy

/-- Reading the structure first. -/
theorem F_with {f : Buf → SB β} (h : ∀ b, Kept b (f b b).2) : F (getB >>= f) := fun b => h b
theorem K_with {f : Buf → SB β} (h : ∀ b, Kept' b (f b b).2) : K (getB >>= f) := fun b => h b

theorem kept_of_weak {b b' : Buf} (h : ¬ b.frozen) (hk : Kept' b b') : Kept b b' :=
  ⟨hk.1, hk.2, fun hfz => absurd hfz h⟩

theorem F_maybePack (force : Bool) : F (maybePack force) := by
  unfold maybePack
  refine F_with fun b => ?_
  split
  · exact Kept.refl b
  rename_i h
  have hk : Kept' b ((if force = true ∨ b.off ≥ PACK_MIN ∧ b.off ≥ b.size / 2 then do
      let v ← memRead b.off (b.size - b.off)
      memWrite 0 v
      let b' ← getB
      setB { b' with size := b.size - b.off, off := 0 }
    else pure ()) b).2 := by
    refine K_ite ?_ (F_pure ()).weak b
    exact (F_memRead _ _).weak.bind fun v => (K_memWrite _ _).bind fun _ => K_with fun b' => ⟨rfl, rfl⟩
  refine ⟨hk.1, hk.2, fun hfz => ?_⟩
  exfalso
  rcases hfz with hf | hf
  · exact h (.inr (.inl hf))
  · exact h (.inr (.inr hf))

theorem F_reset (m : Bool) : F (reset m) := by
  unfold reset
  refine F_with fun b => ?_
  split
  · exact ⟨rfl, rfl, fun _ => ⟨rfl, rfl, rfl⟩⟩
  rename_i h
  refine kept_bind (F_sanity b) fun _ _ => ?_
  have hb : (checkSanity b).2 = b := by unfold checkSanity; split <;> rfl
  rw [hb]
  refine ⟨?_, ?_, fun hfz => absurd hfz (by rintro (hf | hf) <;> simp [hf] at h)⟩
  · show (if _ then _ else _ : Buf).readonly = _
    split <;> rfl
  · show (if _ then _ else _ : Buf).refcount = _
    split <;> rfl

theorem F_setMaxSize (n : Nat) (m : Bool) : F (setMaxSize n m) := by
  unfold setMaxSize
  refine F_sanity.bind fun _ => F_with fun b => ?_
  split
  · exact Kept.refl b
  split
  · exact Kept.refl b
  rename_i h
  have hnf : ¬ b.frozen := by rintro (hf | hf) <;> simp [hf] at h
  split
  · exact Kept.refl b
  refine kept_of_weak hnf (K.bind (F_maybePack _).weak (fun _ => K_with fun b => ?_) b)
  have tail : K (do
      let b ← getB
      if n < b.alloc then fail .noSpace
      else setB { b with maxSize := n }) := K_with fun b => by split <;> exact ⟨rfl, rfl⟩
  simp only
  split
  · split
    · exact kept'_bind (x := setB _) (b := b) ⟨rfl, rfl⟩ fun _ _ => tail _
    · exact kept'_bind (x := fail _) (b := b) ⟨rfl, rfl⟩ fun _ _ => tail _
  · exact tail b

theorem F_len : F len := F_sanity.bind fun _ => F_getB.bind fun _ => F_pure _
theorem F_avail : F avail := F_sanity.bind fun _ => F_getB.bind fun _ => F_ite (F_pure _) (F_pure _)
theorem F_ptr : F ptr := F_sanity.bind fun _ => F_getB.bind fun _ => F_pure _
theorem F_mutablePtr : F mutablePtr := F_sanity.bind fun _ => F_getB.bind fun _ => F_ite (F_pure _) (F_pure _)
theorem F_checkReserve (n : Nat) : F (checkReserve n) :=
  F_sanity.bind fun _ => F_getB.bind fun _ => F_ite (F_fail _) (F_ite (F_fail _) (F_pure _))

theorem sanity_state (b : Buf) : (checkSanity b).2 = b := by unfold checkSanity; split <;> rfl

theorem stops_checkReserve (n : Nat) : Stops (checkReserve n) := by
  intro b hb a
  have h : b.readonly = true ∨ b.refcount > 1 := hb
  show (SB.bind checkSanity _ b).1 ≠ _
  unfold SB.bind
  have hst := sanity_state b
  rcases hx : checkSanity b with ⟨r, b'⟩
  rw [hx] at hst
  simp only at hst
  subst hst
  cases r with
  | ok _ =>
    show (SB.bind getB _ _).1 ≠ _
    unfold SB.bind getB
    simp only
    rw [if_pos h]
    simp [fail]
  | err e => simp
  | abort => simp
  | ub => simp

/-- Stopping later. -/
theorem Stops.after {x : SB α} {f : α → SB β} (hx : F x) (hf : ∀ a, Stops (f a)) : Stops (x >>= f) := by
  intro b hb a
  show (SB.bind x f b).1 ≠ _
  unfold SB.bind
  have hk := hx b
  rcases h : x b with ⟨r, b'⟩
  rw [h] at hk
  have hb' : b'.frozen := by
    rcases hb with hb | hb
    · exact .inl (hk.1.trans hb)
    · exact .inr (by rw [hk.2]; exact hb)
  cases r with
  | ok c => exact hf c b' hb' a
  | err e => simp
  | abort => simp
  | ub => simp

theorem stops_mutable {f : Nat → SB β} (e : Err) : Stops (mutablePtr >>= fun r =>
    match r with
    | none => fail e
    | some p => f p) := by
  intro b hb a
  have h : b.readonly = true ∨ b.refcount > 1 := hb
  show (SB.bind (SB.bind checkSanity _) _ b).1 ≠ _
  unfold SB.bind
  simp only
  have hst := sanity_state b
  rcases hx : checkSanity b with ⟨r, b'⟩
  rw [hx] at hst
  simp only at hst
  subst hst
  cases r with
  | ok _ =>
    have : (getB >>= fun b => if b.readonly = true ∨ b.refcount > 1 then pure none else pure (some b.off) : SB (Option Nat)) b' = (.ok none, b') := by
      show SB.bind getB _ _ = _
      unfold SB.bind getB
      simp only
      rw [if_pos h]
      rfl
    simp only
    rw [this]
    simp [fail]
  | err e => simp
  | abort => simp
  | ub => simp

theorem F_allocate (n : Nat) (m : Bool) : F (allocate n m) := by
  unfold allocate
  refine (F_checkReserve n).stop (stops_checkReserve n) fun _ => ?_
  refine F_getB.weak.bind fun _ => (F_maybePack _).weak.bind fun _ => K_with fun b => ?_
  split
  · exact ⟨rfl, rfl⟩
  split
  · exact kept'_bind (x := setB _) (b := b) ⟨rfl, rfl⟩ fun _ _ => (F_checkReserve n _).weak
  · exact ⟨rfl, rfl⟩

theorem F_reserve (n : Nat) (m : Bool) : F (reserve n m) := by
  unfold reserve
  refine (F_allocate n m).stop ((stops_checkReserve n).bind) fun _ => K_with fun b => ?_
  exact kept'_bind (x := setB _) (b := b) ⟨rfl, rfl⟩ fun _ _ => (F_pure _ _).weak

theorem stops_reserve (n : Nat) (m : Bool) : Stops (reserve n m) := (stops_checkReserve n).bind.bind

theorem F_consume (n : Nat) : F (consume n) := by
  unfold consume
  refine F_sanity.bind fun _ => F_ite (F_pure _) (F_len.bind fun _ => F_ite (F_fail _) (F_with fun b => ?_))
  show Kept b ((if _ then _ else _ : SB Unit) b).2
  split
  · exact ⟨rfl, rfl, fun _ => ⟨rfl, rfl, rfl⟩⟩
  · exact ⟨rfl, rfl, fun _ => ⟨rfl, rfl, rfl⟩⟩

theorem F_consumeEnd (n : Nat) : F (consumeEnd n) := by
  unfold consumeEnd
  refine F_sanity.bind fun _ => F_ite (F_pure _) (F_len.bind fun _ => F_ite (F_fail _) (F_with fun b => ?_))
  exact ⟨rfl, rfl, fun _ => ⟨rfl, rfl, rfl⟩⟩

theorem F_get (n : Nat) : F (get n) := by
  unfold get
  refine F_ptr.bind fun _ => ?_
  first
    | exact (F_consume n).bind fun _ => F_memRead _ _
    | exact (F_consume n).bind fun _ => F_ite (F_memRead _ _) (F_pure _)

theorem F_checkOffset (w : Bool) (o n : Nat) : F (checkOffset w o n) :=
  F_ptr.bind fun _ => F_ite (F_fail _) (F_len.bind fun _ => F_ite (F_fail _) (F_pure _))

theorem F_checkROffset (o n : Nat) : F (checkROffset o n) :=
  (F_checkOffset _ _ _).bind fun _ => F_ptr.bind fun _ => F_pure _

theorem F_peekStringDirect : F peekStringDirect := by
  unfold peekStringDirect
  exact F_ptr.bind fun _ => F_len.bind fun _ => F_ite (F_fail _) ((F_memRead _ _).bind fun _ =>
    F_ite (F_fail _) (F_len.bind fun _ => F_ite (F_fail _) (F_pure _)))

theorem F_getStringDirect : F getStringDirect := by
  intro b
  unfold getStringDirect
  have h1 := F_peekStringDirect b
  rcases hx : peekStringDirect b with ⟨r, b'⟩
  rw [hx] at h1
  cases r with
  | ok a =>
    obtain ⟨p, n⟩ := a
    simp only
    have h2 := F_consume (szAdd n 4) b'
    rcases hy : consume (szAdd n 4) b' with ⟨r2, b2⟩
    rw [hy] at h2
    cases r2 <;> exact h1.trans h2
  | err e => exact h1
  | abort => exact h1
  | ub => exact h1

theorem F_orInternal {x : SB α} (h : F x) : F (orInternal x) := by
  intro b
  unfold orInternal
  have h1 := h b
  rcases hx : x b with ⟨r, b'⟩
  rw [hx] at h1
  cases r <;> exact h1

theorem F_giveBack (k : Nat) : F (giveBack k) := F_ite (F_consumeEnd k) (F_pure _)

/-- No call changes the reference count or the read-only flag, or the storage of a frozen buffer. -/
theorem F_exec (op : Op) (m : Bool) : F (exec op m) := by
  cases op with
  | put v =>
    refine F.bind ?_ fun _ => F_pure _
    exact (F_reserve _ _).stop (stops_reserve _ _) fun _ => K_ite (K_memWrite _ _) (F_pure _).weak
  | putf v =>
    refine F.bind ?_ fun _ => F_pure _
    exact F_ite (F_pure _) ((F_reserve _ _).stop (stops_reserve _ _) fun _ => (K_memWrite _ _).bind fun _ => (F_consumeEnd 1).weak)
  | putU8 v =>
    exact F.bind ((F_reserve _ _).stop (stops_reserve _ _) fun _ => K_memWrite _ _) fun _ => F_pure _
  | putU16 v =>
    exact F.bind ((F_reserve _ _).stop (stops_reserve _ _) fun _ => K_memWrite _ _) fun _ => F_pure _
  | putU32 v =>
    exact F.bind ((F_reserve _ _).stop (stops_reserve _ _) fun _ => K_memWrite _ _) fun _ => F_pure _
  | putU64 v =>
    exact F.bind ((F_reserve _ _).stop (stops_reserve _ _) fun _ => K_memWrite _ _) fun _ => F_pure _
  | putString v =>
    refine F.bind ?_ fun _ => F_pure _
    exact F_ite (F_fail _) ((F_reserve _ _).stop (stops_reserve _ _) fun _ => (K_memWrite _ _).bind fun _ =>
      K_ite (K_memWrite _ _) (F_pure _).weak)
  | putBignum v =>
    refine F.bind ?_ fun _ => F_pure _
    exact F_ite (F_fail _) ((F_reserve _ _).stop (stops_reserve _ _) fun _ => (K_memWrite _ _).bind fun _ =>
      K_ite ((K_memWrite _ _).bind fun _ => K_ite (K_memWrite _ _) (F_pure _).weak)
        (K_ite (K_memWrite _ _) (F_pure _).weak))
  | reserve n => exact (F_reserve _ _).bind fun _ => F_pure _
  | consume n => exact (F_consume _).bind fun _ => F_pure _
  | consumeEnd n => exact (F_consumeEnd _).bind fun _ => F_pure _
  | reset => exact (F_reset _).bind fun _ => F_pure _
  | setMax n => exact (F_setMaxSize _ _).bind fun _ => F_pure _
  | get n => exact (F_get _).bind fun _ => F_pure _
  | getU8 =>
    refine F.bind ?_ fun _ => F_pure _
    unfold getU8
    exact F_ptr.bind fun _ => (F_consume _).bind fun _ => (F_memRead _ _).bind fun _ => F_pure _
  | getU16 =>
    refine F.bind ?_ fun _ => F_pure _
    unfold getU16
    exact F_ptr.bind fun _ => (F_consume _).bind fun _ => (F_memRead _ _).bind fun _ => F_pure _
  | getU32 =>
    refine F.bind ?_ fun _ => F_pure _
    unfold getU32
    exact F_ptr.bind fun _ => (F_consume _).bind fun _ => (F_memRead _ _).bind fun _ => F_pure _
  | getU64 =>
    refine F.bind ?_ fun _ => F_pure _
    unfold getU64
    exact F_ptr.bind fun _ => (F_consume _).bind fun _ => (F_memRead _ _).bind fun _ => F_pure _
  | getString =>
    refine F.bind ?_ fun _ => F_pure _
    exact F_getStringDirect.bind fun _ => F_ite (F_memRead _ _) (F_fail _)
  | getCString =>
    refine F.bind ?_ fun _ => F_pure _
    exact F_peekStringDirect.bind fun _ => (F_memRead _ _).bind fun _ => F_ite (F_fail _)
      ((F_orInternal F_getStringDirect).bind fun _ => F_ite (F_memRead _ _) (F_fail _))
  | getBignum =>
    refine F.bind ?_ fun _ => F_pure _
    exact F_peekStringDirect.bind fun _ => (F_memRead _ _).bind fun _ => F_ite (F_fail _) (F_ite (F_fail _)
      ((F_orInternal (F_consume _)).bind fun _ => F_pure _))
  | peekU8 o => exact ((F_checkROffset _ _).bind fun _ => (F_memRead _ _).bind fun _ => F_pure _).bind fun _ => F_pure _
  | peekU16 o => exact ((F_checkROffset _ _).bind fun _ => (F_memRead _ _).bind fun _ => F_pure _).bind fun _ => F_pure _
  | peekU32 o => exact ((F_checkROffset _ _).bind fun _ => (F_memRead _ _).bind fun _ => F_pure _).bind fun _ => F_pure _
  | peekU64 o => exact ((F_checkROffset _ _).bind fun _ => (F_memRead _ _).bind fun _ => F_pure _).bind fun _ => F_pure _
  | poke o v =>
    refine F.bind ?_ fun _ => F_pure _
    have hF : F (checkWOffset o v.length) := by
      refine (F_checkOffset _ _ _).bind fun _ => F_mutablePtr.bind fun r => ?_
      cases r with
      | none => exact F_fail _
      | some p => exact F_pure _
    refine hF.stop ?_ fun _ => K_memWrite _ _
    exact Stops.after (F_checkOffset _ _ _) fun _ => stops_mutable _
  | len => exact F_len.bind fun _ => F_pure _
  | avail => exact F_avail.bind fun _ => F_pure _
  | dupString =>
    refine F.bind ?_ fun _ => F_pure _
    refine F_ptr.bind fun _ => F_len.bind fun _ => (F_memRead _ _).bind fun v => ?_
    split
    · exact F_ite (F_pure _) (F_ite (F_pure _) (F_pure _))
    · exact F_ite (F_pure _) (F_pure _)
  | cmp o s =>
    refine F.bind ?_ fun _ => F_pure _
    exact F_ptr.bind fun _ => F_ite (F_fail _) (F_len.bind fun _ => F_ite (F_fail _) ((F_memRead _ _).bind fun _ =>
      F_ite (F_pure _) (F_fail _)))
  | find o s =>
    refine F.bind ?_ fun _ => F_pure _
    refine F_ptr.bind fun _ => F_ite (F_fail _) (F_len.bind fun _ => F_ite (F_fail _) ((F_memRead _ _).bind fun _ => ?_))
    split
    · exact F_fail _
    · exact F_pure _
  | readFd r n =>
    refine F.bind ?_ fun _ => F_pure _
    refine (F_reserve _ _).stop (stops_reserve _ _) fun _ => ?_
    split
    · exact (F_giveBack _).weak.bind fun _ => (F_fail _).weak
    · exact K_ite F_undef.weak ((K_memWrite _ _).bind fun _ => (F_giveBack _).weak.bind fun _ =>
        K_ite (F_fail _).weak (F_pure _).weak)

end Verif.SshBuf
