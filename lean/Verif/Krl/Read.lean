/-
Reading back what was written.
-/
import Verif.Krl.Write

namespace Verif.Krl
open Verif Wire RB

variable {K : Type} [DecidableEq K]

/-- The calls read record exactly `P`; reading succeeds under `ok`. -/
def Dec (o : Option (List (Cmd K))) (P : Atom K → Prop) (ok : Prop) : Prop :=
  (∀ cmds, o = some cmds → (∀ c ∈ cmds, c.valid ∧ c.good) ∧ ∀ a, (∃ c ∈ cmds, Adds c a) ↔ P a) ∧ (ok → o.isSome)

omit [DecidableEq K] in
theorem Dec.both {a b : Option (List (Cmd K))} {P Q : Atom K → Prop} {p q : Prop} (ha : Dec a P p) (hb : Dec b Q q) :
    Dec (both a b) (fun x => P x ∨ Q x) (p ∧ q) := by
  constructor
  · intro cmds h
    cases a with
    | none => simp [Krl.both] at h
    | some a =>
      cases b with
      | none => simp [Krl.both] at h
      | some b =>
        simp only [Krl.both, Option.some.injEq] at h
        subst h
        obtain ⟨a1, a2⟩ := ha.1 a rfl
        obtain ⟨b1, b2⟩ := hb.1 b rfl
        constructor
        · intro c hc
          rcases List.mem_append.1 hc with hc | hc
          · exact a1 c hc
          · exact b1 c hc
        · intro x
          show _ ↔ P x ∨ Q x
          rw [← a2, ← b2]
          simp only [List.mem_append]
          constructor
          · rintro ⟨c, h | h, h2⟩
            · exact .inl ⟨c, h, h2⟩
            · exact .inr ⟨c, h, h2⟩
          · rintro (⟨c, h, h2⟩ | ⟨c, h, h2⟩)
            · exact ⟨c, .inl h, h2⟩
            · exact ⟨c, .inr h, h2⟩
  · rintro ⟨hp, hq⟩
    have h1 := ha.2 hp
    have h2 := hb.2 hq
    cases a with
    | none => simp at h1
    | some a =>
      cases b with
      | none => simp at h2
      | some b => rfl

omit [DecidableEq K] in
theorem Dec.nil : Dec (some ([] : List (Cmd K))) (fun _ => False) True :=
  ⟨fun cmds h => by cases h; simp, fun _ => rfl⟩

omit [DecidableEq K] in
theorem Dec.single (c : Cmd K) (h : c.valid ∧ c.good) : Dec (some [c]) (Adds c) True :=
  ⟨fun cmds hc => by cases hc; simp [h], fun _ => rfl⟩

omit [DecidableEq K] in
theorem Dec.mono {o : Option (List (Cmd K))} {P Q : Atom K → Prop} {p q : Prop} (h : Dec o P p) (h1 : ∀ a, P a ↔ Q a)
    (h2 : q → p) : Dec o Q q :=
  ⟨fun cmds hc => ⟨(h.1 cmds hc).1, fun a => by rw [(h.1 cmds hc).2, h1]⟩, fun hq => h.2 (h2 hq)⟩

omit [DecidableEq K] in
theorem map_cons_both (c : Cmd K) (o : Option (List (Cmd K))) : o.map (c :: ·) = both (some [c]) o := by
  cases o <;> rfl

theorem be8_ne (v : Nat) (rest : Bytes) : be 8 v ++ rest ≠ [] := by
  intro h
  have := congrArg List.length h
  simp at this

omit [DecidableEq K] in
theorem readList_serials (ca : Option K) (ns : List Nat) : ∀ fuel, ns.length ≤ fuel → (∀ n ∈ ns, 1 ≤ n ∧ n < U64) →
    Dec (readList ca fuel (ns.flatMap (be 8))) (fun a => ∃ n ∈ ns, a = .serial ca n) True := by
  induction ns with
  | nil =>
    intro fuel _ _
    have : readList ca fuel ([].flatMap (be 8)) = some [] := by cases fuel <;> rfl
    rw [this]
    exact Dec.nil.mono (by simp) id
  | cons n ns ih =>
    intro fuel hf hn
    obtain ⟨fuel, rfl⟩ : ∃ f, fuel = f + 1 := ⟨fuel - 1, by simp at hf; omega⟩
    have h1 := hn n (by simp)
    rw [List.flatMap_cons]
    have : readList ca (fuel + 1) (be 8 n ++ ns.flatMap (be 8)) =
        both (some [Cmd.range ca n n]) (readList ca fuel (ns.flatMap (be 8))) := by
      rw [readList]
      · rw [getInt_append _ _ _ (by omega)]
        simp only [map_cons_both]
      · exact be8_ne _ _
    rw [this]
    refine ((Dec.single (Cmd.range ca n n) ⟨by simp [Cmd.valid]; omega, by simp [Cmd.good]; omega⟩).both
      (ih fuel (by simp at hf; omega) (fun m hm => hn m (by simp [hm])))).mono ?_ (by simp)
    intro a
    cases a with
    | serial ca' m =>
      simp only [Adds, List.mem_cons, Atom.serial.injEq]
      constructor
      · rintro (⟨rfl, h2, h3, h4⟩ | ⟨x, hx, rfl, rfl⟩)
        · exact ⟨n, .inl rfl, rfl, by omega⟩
        · exact ⟨_, .inr hx, rfl, rfl⟩
      · rintro ⟨x, rfl | hx, rfl, rfl⟩
        · exact .inl ⟨rfl, by omega, by omega, by omega⟩
        · exact .inr ⟨_, hx, rfl, rfl⟩
    | _ => simp [Adds]

theorem flatMap_congr' {α β : Type} {l : List α} {f g : α → List β} (h : ∀ x ∈ l, f x = g x) :
    l.flatMap f = l.flatMap g := by
  induction l with
  | nil => rfl
  | cons x l ih => rw [List.flatMap_cons, List.flatMap_cons, h x (by simp), ih (fun y hy => h y (by simp [hy]))]

theorem listEnc_eq {r : Range} (h : r.lo ≤ r.hi) (h1 : 1 ≤ r.lo) (h2 : r.hi < U64) :
    listEnc r = ((List.range (1 + (r.hi - r.lo))).map (r.lo + ·)).flatMap (be 8) := by
  unfold listEnc listBytes
  rw [Nat.mod_eq_of_lt (by omega), List.flatMap_map]
  apply flatMap_congr'
  intro i hi
  rw [List.mem_range] at hi
  rw [Nat.mod_eq_of_lt (by omega)]

/-- The serials of a list of ranges, in order. -/
def serials (rs : List Range) : List Nat := rs.flatMap (fun r => (List.range (1 + (r.hi - r.lo))).map (r.lo + ·))

theorem mem_serials (rs : List Range) (h : ∀ r ∈ rs, r.lo ≤ r.hi) (n : Nat) : n ∈ serials rs ↔ Cov rs n := by
  simp only [serials, List.mem_flatMap, List.mem_map, List.mem_range, Cov]
  constructor
  · rintro ⟨r, hr, i, hi, rfl⟩
    have := h r hr
    exact ⟨r, hr, by omega, by omega⟩
  · rintro ⟨r, hr, h1, h2⟩
    exact ⟨r, hr, n - r.lo, by omega, by omega⟩

theorem flatMap_listEnc (rs : List Range) (h : ∀ r ∈ rs, 1 ≤ r.lo ∧ r.lo ≤ r.hi ∧ r.hi < U64) :
    rs.flatMap listEnc = (serials rs).flatMap (be 8) := by
  rw [serials, List.flatMap_assoc]
  apply flatMap_congr'
  intro r hr
  have := h r hr
  exact listEnc_eq this.2.1 this.1 this.2.2

theorem flatMap_be8_length (ns : List Nat) : ns.length ≤ (ns.flatMap (be 8)).length := by
  induction ns with
  | nil => simp
  | cons n ns ih => simp only [List.flatMap_cons, List.length_append, be_length, List.length_cons]; omega

omit [DecidableEq K] in
theorem readBits_dec (ca : Option K) {b : Bitmap.Bitmap} (hb : Bitmap.Inv b) (lo : Nat) (n : Nat) : ∀ serial,
    (∀ i, serial ≤ i → i < serial + n → 1 ≤ lo + i ∧ lo + i < U64) →
    Dec (readBits ca b lo n serial)
      (fun a => ∃ i, serial ≤ i ∧ i < serial + n ∧ Bitmap.wt b.d i = true ∧ a = .serial ca (lo + i)) True := by
  induction n with
  | zero =>
    intro serial _
    refine Dec.nil.mono ?_ id
    intro a
    simp only [false_iff]
    rintro ⟨i, h1, h2, _⟩
    omega
  | succ n ih =>
    intro serial hr
    have hs := hr serial (Nat.le_refl _) (by omega)
    have ih := ih (serial + 1) (fun i h1 h2 => hr i (by omega) (by omega))
    unfold readBits
    rw [if_neg (by rw [Nat.mod_eq_of_lt hs.2]; omega), Bitmap.testBit_eq hb, Nat.mod_eq_of_lt hs.2]
    by_cases hw : Bitmap.wt b.d serial = true
    · rw [if_neg (by simp [hw]), map_cons_both]
      refine ((Dec.single (Cmd.range ca (lo + serial) (lo + serial)) ⟨by simp [Cmd.valid]; omega,
        by simp [Cmd.good]; omega⟩).both ih).mono ?_ (by simp)
      intro a
      cases a with
      | serial ca' m =>
        simp only [Adds, Atom.serial.injEq]
        constructor
        · rintro (⟨rfl, h2, h3, h4⟩ | ⟨i, h1, h2, h3, rfl, rfl⟩)
          · exact ⟨serial, Nat.le_refl _, by omega, hw, rfl, by omega⟩
          · exact ⟨i, by omega, by omega, h3, rfl, rfl⟩
        · rintro ⟨i, h1, h2, h3, rfl, rfl⟩
          by_cases hi : i = serial
          · subst hi; exact .inl ⟨rfl, by omega, by omega, by omega⟩
          · exact .inr ⟨i, by omega, by omega, h3, rfl, rfl⟩
      | _ => simp [Adds]
    · have hw' : Bitmap.wt b.d serial = false := by simpa using hw
      rw [if_pos hw']
      refine ih.mono ?_ id
      intro a
      constructor
      · rintro ⟨i, h1, h2, h3, h4⟩
        exact ⟨i, by omega, by omega, h3, h4⟩
      · rintro ⟨i, h1, h2, h3, h4⟩
        by_cases hi : i = serial
        · subst hi; exact absurd h3 hw
        · exact ⟨i, by omega, by omega, h3, h4⟩

theorem skipZeros_head (v : Bytes) : ∀ x t, SshBuf.skipZeros v = x :: t → x ≠ 0 := by
  induction v with
  | nil => simp [SshBuf.skipZeros]
  | cons y v ih =>
    intro x t h
    unfold SshBuf.skipZeros at h
    split at h
    · exact ih x t h
    · simp only [List.cons.injEq] at h
      rw [← h.1]; assumption

theorem skipZeros_length (v : Bytes) : (SshBuf.skipZeros v).length ≤ v.length := by
  induction v with
  | nil => simp [SshBuf.skipZeros]
  | cons y v ih =>
    unfold SshBuf.skipZeros
    split
    · simp only [List.length_cons]; omega
    · simp

theorem skipZeros_ofBE (v : Bytes) : ofBE (SshBuf.skipZeros v) = ofBE v := by
  induction v with
  | nil => rfl
  | cons y v ih =>
    unfold SshBuf.skipZeros
    split
    · rename_i h; rw [ih, ofBE_cons, h]; simp
    · rfl

theorem skipZeros_idem (x : UInt8) (t : Bytes) (h : x ≠ 0) : SshBuf.skipZeros (x :: t) = x :: t := by
  simp [SshBuf.skipZeros, h]

theorem getBignum_ok {l v rest : Bytes} (h : getStr l = some (v, rest)) (h1 : v.length ≠ 0 → v.headD 0 &&& 0x80 = 0)
    (h2 : v.length ≤ 2049 ∧ (v.length = 2049 → v.headD 0 = 0)) : getBignum l = some (SshBuf.skipZeros v, rest) := by
  simp only [getBignum, h]
  rw [if_neg (fun hc => hc.2 (h1 hc.1)), if_neg]
  rintro (hc | hc)
  · omega
  · exact hc.2 (h2.2 hc.1)

theorem getBignum_big {l v rest : Bytes} (h : getStr l = some (v, rest))
    (h2 : 2049 < v.length ∨ (v.length = 2049 ∧ v.headD 0 ≠ 0)) : getBignum l = none := by
  simp only [getBignum, h]
  split
  · rfl
  · rfl

theorem getBignum_put (v : Bytes) (hl : v.length < 134217000) : getBignum (putBignum v) =
    if (SshBuf.skipZeros v).length > 2048 then none else some (SshBuf.skipZeros v, []) := by
  have hlen := skipZeros_length v
  have hstr : ∀ w : Bytes, w.length ≤ maxString → getStr (str w) = some (w, []) := fun w hw => by
    have := getStr_append w [] hw
    simpa using this
  unfold putBignum
  simp only
  cases hs : SshBuf.skipZeros v with
  | nil => exact getBignum_ok (hstr [] (by simp)) (by simp) (by simp)
  | cons x t =>
    rw [hs] at hlen
    simp only [List.length_cons] at hlen
    have hx := skipZeros_head v x t hs
    have h0 : SshBuf.skipZeros (0 :: x :: t) = x :: t := by simp [SshBuf.skipZeros, hx]
    simp only
    by_cases h8 : x &&& 0x80 ≠ 0
    · rw [if_pos h8]
      by_cases h : (x :: t).length > 2048
      · rw [if_pos h]
        exact getBignum_big (hstr _ (by simp; omega)) (.inl (by simp at h ⊢; omega))
      · rw [if_neg h, getBignum_ok (hstr _ (by simp; omega)) (by simp) ⟨by simp at h ⊢; omega, by simp⟩, h0]
    · rw [if_neg h8]
      by_cases h : (x :: t).length > 2048
      · rw [if_pos h]
        refine getBignum_big (hstr _ (by simp; omega)) ?_
        by_cases h' : t.length + 1 = 2049
        · exact .inr ⟨h', hx⟩
        · exact .inl (by simp at h ⊢; omega)
      · rw [if_neg h, getBignum_ok (hstr _ (by simp; omega)) (fun _ => by simpa using h8)
          ⟨by simp at h ⊢; omega, by simp at h ⊢; omega⟩, skipZeros_idem x t hx]

/-- The spread of a list of ranges is small enough for any bitmap of it to be read back. -/
def Narrow (rs : List Range) : Prop := ∀ a b, Cov rs a → Cov rs b → a < b + 16384

omit [DecidableEq K] in
/-- Reading one serial section. -/
theorem readSub_dec (ca : Option K) {t : Nat} {body : Bytes} {rs : List Range} (h : IsSec t body rs)
    (hw : WFS rs) :
    Dec (readSub ca t body) (fun a => ∃ n, Cov rs n ∧ a = .serial ca n) (Narrow rs) := by
  have hr := hw.each
  have hcov : ∀ n, Cov rs n → 1 ≤ n ∧ n < U64 := by
    rintro n ⟨r, h1, h2, h3⟩
    have := hr r h1
    omega
  obtain ⟨hlen, ⟨rfl, rfl⟩ | ⟨rfl, r, rfl, rfl⟩ | ⟨rfl, r0, rest, bm, s, hrs, hbm, hs, rfl, hbits⟩⟩ := h
  · have e : readSub ca 0x20 (rs.flatMap listEnc) = readList ca (rs.flatMap listEnc).length (rs.flatMap listEnc) := by
      simp [readSub]
    rw [e, flatMap_listEnc rs hr]
    refine (readList_serials ca (serials rs) _ (flatMap_be8_length _) ?_).mono ?_ (fun _ => trivial)
    · intro n hn
      exact hcov n ((mem_serials rs (fun r h => (hr r h).2.1) n).1 hn)
    · intro a
      simp only [mem_serials rs (fun r h => (hr r h).2.1)]
  · have h1 := hr r (by simp)
    have e : readSub ca 0x21 (be 8 r.lo ++ be 8 r.hi) = some [Cmd.range ca r.lo r.hi] := by
      have h2 : getInt 8 (be 8 r.lo ++ be 8 r.hi) = some (r.lo, be 8 r.hi) := getInt_append _ _ _ (by omega)
      have h3 : getInt 8 (be 8 r.hi) = some (r.hi, []) := by
        have := getInt_append 8 r.hi [] (by omega)
        simpa using this
      simp [readSub, h2, h3]
    rw [e]
    refine (Dec.single _ ⟨by simp [Cmd.valid]; omega, by simp [Cmd.good]; omega⟩).mono ?_ (fun _ => trivial)
    intro a
    cases a with
    | serial ca' n =>
      simp only [Adds, Cov_cons, Cov_nil, or_false, Atom.serial.injEq]
      constructor
      · rintro ⟨rfl, h2, h3, h4⟩
        exact ⟨n, ⟨h3, h4⟩, rfl, rfl⟩
      · rintro ⟨m, ⟨h3, h4⟩, rfl, rfl⟩
        exact ⟨rfl, by omega, h3, h4⟩
    | _ => simp [Adds]
  · have h0 := hr r0 (by simp [hrs])
    have hcov0 : Cov rs r0.lo := ⟨r0, by simp [hrs], by omega, by omega⟩
    obtain ⟨s', hs', hsl, hsb⟩ := Bitmap.toString_some hbm (Bitmap.nbytes bm) (Nat.le_refl _)
    rw [hs] at hs'
    simp only [Option.some.injEq] at hs'
    subst hs'
    have hnb := Bitmap.nbits_spec hbm
    have hnbits : ∀ i, i < Bitmap.nbits bm → r0.lo + i < U64 := by
      intro i hi
      have := (hbits _).1 (hnb.2 (by omega))
      have := hcov _ this
      omega
    have hsmall : s.length < 134217000 := by
      rw [hsl]
      by_cases h : Bitmap.nbits bm = 0
      · simp [Bitmap.nbytes, h]
      · have := hbm.max _ (hnb.2 h)
        unfold Bitmap.nbytes
        omega
    have h2 : getInt 8 (be 8 r0.lo ++ putBignum s) = some (r0.lo, putBignum s) := getInt_append _ _ _ (by omega)
    by_cases hbig : (SshBuf.skipZeros s).length > 2048
    · have e : readSub ca 0x22 (be 8 r0.lo ++ putBignum s) = none := by
        simp [readSub, h2, getBignum_put s hsmall, if_pos hbig]
      rw [e]
      refine ⟨by simp, fun hn => ?_⟩
      exfalso
      have hl := skipZeros_length s
      have hne : Bitmap.nbits bm ≠ 0 := by
        intro hz
        have : Bitmap.nbytes bm = 0 := by simp [Bitmap.nbytes, hz]
        omega
      have := hn _ _ ((hbits _).1 (hnb.2 hne)) hcov0
      unfold Bitmap.nbytes at hsl
      omega
    · have hf : (Bitmap.fromString Bitmap.new (SshBuf.skipZeros s) true).isSome :=
        (Bitmap.C10_accepts Bitmap.new ⟨[], rfl⟩ 0 _).2.2 (by omega)
      obtain ⟨b, hb⟩ := Option.isSome_iff_exists.1 hf
      obtain ⟨hbi, -, hbw⟩ := Bitmap.fromString_some Bitmap.new_inv hb
      have hbw' : ∀ n, Bitmap.wt b.d n = Bitmap.wt bm.d n := by
        intro n; rw [hbw, skipZeros_ofBE, hsb]
      have e : readSub ca 0x22 (be 8 r0.lo ++ putBignum s) = readBits ca b r0.lo (Bitmap.nbits b) 0 := by
        simp [readSub, h2, getBignum_put s hsmall, if_neg hbig, hb]
      rw [e]
      have hb2 := Bitmap.nbits_spec hbi
      refine (readBits_dec ca hbi r0.lo (Bitmap.nbits b) 0 ?_).mono ?_ (fun _ => trivial)
      · intro i _ hi
        have := hb2.2 (by omega)
        rw [hbw'] at this
        have := hcov _ ((hbits _).1 this)
        omega
      · intro a
        constructor
        · rintro ⟨i, _, h3, h4, rfl⟩
          rw [hbw', hbits] at h4
          exact ⟨_, h4, rfl⟩
        · rintro ⟨n, h4, rfl⟩
          have hle : r0.lo ≤ n ∨ n < r0.lo := by omega
          rcases hle with hle | hlt
          · have h5 : n = r0.lo + (n - r0.lo) := by omega
            rw [h5] at h4
            have h6 := (hbits _).2 h4
            rw [← hbw'] at h6
            exact ⟨n - r0.lo, by omega, by simpa using hb2.1 _ h6, h6, by rw [← h5]⟩
          · exfalso
            obtain ⟨r, hm, h5, h6⟩ := h4
            have hg := hw.gap
            rw [hrs, List.pairwise_cons] at hg
            rw [hrs] at hm
            rcases List.mem_cons.1 hm with rfl | hm
            · omega
            · have := hg.1 r hm
              omega

/-! ### Sequences of sections -/

theorem getInt_one (t : Nat) (rest : Bytes) (h : t < 256) : getInt 1 (UInt8.ofNat t :: rest) = some (t, rest) := by
  have := getInt_append 1 t rest (by omega)
  simpa [be, Nat.mod_eq_of_lt h] using this

omit [DecidableEq K] in
/-- Reading a sequence of sections reads each. -/
theorem readSubs_dec (ca : Option K) (secs : List ((Nat × Bytes) × (Atom K → Prop) × Prop)) :
    ∀ fuel, (encs (secs.map Prod.fst)).length ≤ fuel →
    (∀ s ∈ secs, s.1.1 < 256 ∧ s.1.2.length ≤ maxString ∧ Dec (readSub ca s.1.1 s.1.2) s.2.1 s.2.2) →
    Dec (readSubs ca fuel (encs (secs.map Prod.fst))) (fun a => ∃ s ∈ secs, s.2.1 a) (∀ s ∈ secs, s.2.2) := by
  induction secs with
  | nil =>
    intro fuel _ _
    have : readSubs ca fuel (encs []) = some [] := by cases fuel <;> rfl
    rw [List.map_nil, this]
    exact Dec.nil.mono (by simp) (fun _ => trivial)
  | cons s secs ih =>
    intro fuel hf hs
    obtain ⟨fuel, rfl⟩ : ∃ f, fuel = f + 1 := ⟨fuel - 1, by simp [encs] at hf; omega⟩
    obtain ⟨h1, h2, h3⟩ := hs s (by simp)
    have e : readSubs ca (fuel + 1) (encs ((s :: secs).map Prod.fst)) =
        both (readSub ca s.1.1 s.1.2) (readSubs ca fuel (encs (secs.map Prod.fst))) := by
      rw [List.map_cons, encs, List.cons_append, readSubs]
      · rw [getInt_one _ _ h1]
        simp only
        rw [getStr_append _ _ h2]
      · simp
    rw [e]
    refine (h3.both (ih fuel (by simp [encs] at hf; omega) (fun x hx => hs x (by simp [hx])))).mono ?_ ?_
    · intro a; simp
    · intro h; exact ⟨h s (by simp), fun x hx => h x (by simp [hx])⟩

omit [DecidableEq K] in
theorem readSections_dec (E : Env K) (secs : List ((Nat × Bytes) × (Atom K → Prop) × Prop)) :
    ∀ fuel, (encs (secs.map Prod.fst)).length ≤ fuel →
    (∀ s ∈ secs, s.1.1 < 256 ∧ s.1.1 ≠ 4 ∧ s.1.2.length ≤ maxString ∧ Dec (readSection E s.1.1 s.1.2) s.2.1 s.2.2) →
    Dec (readSections E fuel (encs (secs.map Prod.fst))) (fun a => ∃ s ∈ secs, s.2.1 a) (∀ s ∈ secs, s.2.2) := by
  induction secs with
  | nil =>
    intro fuel _ _
    have : readSections E fuel (encs []) = some [] := by cases fuel <;> rfl
    rw [List.map_nil, this]
    exact Dec.nil.mono (by simp) (fun _ => trivial)
  | cons s secs ih =>
    intro fuel hf hs
    obtain ⟨fuel, rfl⟩ : ∃ f, fuel = f + 1 := ⟨fuel - 1, by simp [encs] at hf; omega⟩
    obtain ⟨h1, h4, h2, h3⟩ := hs s (by simp)
    have e : readSections E (fuel + 1) (encs ((s :: secs).map Prod.fst)) =
        both (readSection E s.1.1 s.1.2) (readSections E fuel (encs (secs.map Prod.fst))) := by
      rw [List.map_cons, encs, List.cons_append, readSections]
      · rw [getInt_one _ _ h1]
        simp only
        rw [getStr_append _ _ h2]
        simp only
        rw [if_neg h4]
      · simp
    rw [e]
    refine (h3.both (ih fuel (by simp [encs] at hf; omega) (fun x hx => hs x (by simp [hx])))).mono ?_ ?_
    · intro a; simp
    · intro h; exact ⟨h s (by simp), fun x hx => h x (by simp [hx])⟩

theorem putStr_some {v b : Bytes} (h : putStr v = some b) : b = str v ∧ v.length ≤ maxString := by
  unfold putStr at h
  split at h
  · simp at h
  · simp only [Option.some.injEq] at h; exact ⟨h.symm, by omega⟩

theorem putStrs_some (vs : List Bytes) : ∀ {b : Bytes}, putStrs vs = some b →
    b = vs.flatMap str ∧ ∀ v ∈ vs, v.length ≤ maxString := by
  induction vs with
  | nil => intro b h; simp [putStrs] at h; subst h; simp
  | cons v vs ih =>
    intro b h
    unfold putStrs at h
    split at h
    · rename_i a c ha hc
      simp only [Option.some.injEq] at h
      obtain ⟨rfl, h1⟩ := putStr_some ha
      obtain ⟨rfl, h2⟩ := ih hc
      subst h
      refine ⟨by simp, fun x hx => ?_⟩
      rcases List.mem_cons.1 hx with rfl | hx
      · exact h1
      · exact h2 x hx
    · simp at h

theorem str_ne (v rest : Bytes) : str v ++ rest ≠ [] := by
  intro h
  have := congrArg List.length h
  simp [str] at this

theorem flatMap_str_length (vs : List Bytes) : vs.length ≤ (vs.flatMap str).length := by
  induction vs with
  | nil => simp
  | cons n ns ih => simp only [List.flatMap_cons, List.length_append, List.length_cons, str, be_length]; omega

theorem getCStr_append (v rest : Bytes) (h : v.length ≤ maxString) (h0 : 0 ∉ v) :
    getCStr (str v ++ rest) = some (v, rest) := by
  unfold getCStr
  rw [getStr_append _ _ h]
  have hn : ∀ l : Bytes, 0 ∉ l → SshBuf.firstNul l = none := by
    intro l hl
    induction l with
    | nil => rfl
    | cons x l ih =>
      simp only [List.mem_cons, not_or] at hl
      simp [SshBuf.firstNul, Ne.symm hl.1, ih hl.2]
  have ht : ∀ l : Bytes, 0 ∉ l → l.takeWhile (· ≠ 0) = l := by
    intro l hl
    induction l with
    | nil => rfl
    | cons x l ih =>
      simp only [List.mem_cons, not_or] at hl
      rw [List.takeWhile_cons]
      simp only [ne_eq, Ne.symm hl.1, not_false_eq_true, decide_true, if_true]
      congr 1
      exact ih hl.2
  simp only [SshBuf.nulEarly, hn v h0, Bool.false_eq_true, and_false, if_false]
  rw [ht v h0]

omit [DecidableEq K] in
theorem readIds_dec (ca : Option K) (vs : List Bytes) : ∀ fuel, vs.length ≤ fuel →
    (∀ v ∈ vs, v.length ≤ maxString ∧ 0 ∉ v) →
    Dec (readIds ca fuel (vs.flatMap str)) (fun a => ∃ v ∈ vs, a = .id ca v) True := by
  induction vs with
  | nil =>
    intro fuel _ _
    have : readIds ca fuel ([].flatMap str) = some [] := by cases fuel <;> rfl
    rw [this]
    exact Dec.nil.mono (by simp) id
  | cons v vs ih =>
    intro fuel hf hv
    obtain ⟨fuel, rfl⟩ : ∃ f, fuel = f + 1 := ⟨fuel - 1, by simp at hf; omega⟩
    have h1 := hv v (by simp)
    rw [List.flatMap_cons]
    have e : readIds ca (fuel + 1) (str v ++ vs.flatMap str) =
        both (some [Cmd.id ca v]) (readIds ca fuel (vs.flatMap str)) := by
      rw [readIds]
      · rw [getCStr_append _ _ h1.1 h1.2]
        simp only [map_cons_both]
      · exact str_ne _ _
    rw [e]
    refine ((Dec.single (Cmd.id ca v) ⟨h1.2, trivial⟩).both
      (ih fuel (by simp at hf; omega) (fun m hm => hv m (by simp [hm])))).mono ?_ (by simp)
    intro a
    cases a <;> simp [Adds]

omit [DecidableEq K] in
theorem readBlobs_dec (mk : Bytes → Cmd K) (at' : Bytes → Atom K) (expected : Nat)
    (hmk : ∀ v, (expected = 0 ∨ v.length = expected) → (mk v).valid ∧ (mk v).good ∧ ∀ a, Adds (mk v) a ↔ a = at' v)
    (vs : List Bytes) : ∀ fuel, vs.length ≤ fuel →
    (∀ v ∈ vs, v.length ≤ maxString ∧ (expected = 0 ∨ v.length = expected)) →
    Dec (readBlobs mk expected fuel (vs.flatMap str)) (fun a => ∃ v ∈ vs, a = at' v) True := by
  induction vs with
  | nil =>
    intro fuel _ _
    have : readBlobs mk expected fuel ([].flatMap str) = some [] := by cases fuel <;> rfl
    rw [this]
    exact Dec.nil.mono (by simp) id
  | cons v vs ih =>
    intro fuel hf hv
    obtain ⟨fuel, rfl⟩ : ∃ f, fuel = f + 1 := ⟨fuel - 1, by simp at hf; omega⟩
    have h1 := hv v (by simp)
    rw [List.flatMap_cons]
    have e : readBlobs mk expected (fuel + 1) (str v ++ vs.flatMap str) =
        both (some [mk v]) (readBlobs mk expected fuel (vs.flatMap str)) := by
      rw [readBlobs]
      · rw [getStr_append _ _ h1.1]
        simp only [map_cons_both]
        rw [if_neg]
        rintro ⟨h2, h3⟩
        rcases h1.2 with h4 | h4
        · exact h2 h4
        · exact h3 h4
      · exact str_ne _ _
    rw [e]
    obtain ⟨m1, m2, m3⟩ := hmk v h1.2
    refine ((Dec.single (mk v) ⟨m1, m2⟩).both
      (ih fuel (by simp at hf; omega) (fun m hm => hv m (by simp [hm])))).mono ?_ (by simp)
    intro a
    rw [m3]
    simp

/-- A section that is left out when empty, as a list of at most one section. -/
theorem optSection_some {t : Nat} (ht : t < 256) {o : Option Bytes} {b : Bytes} (h : optSection (UInt8.ofNat t) o = some b) :
    ∃ v, o = some v ∧ b = encs (if v = [] then [] else [(t, v)]) ∧ v.length ≤ maxString := by
  unfold optSection at h
  split at h
  · simp at h
  · rename_i v
    refine ⟨v, rfl, ?_⟩
    by_cases hv : v = []
    · rw [if_pos hv] at h ⊢
      simp only [Option.some.injEq] at h
      subst hv
      exact ⟨by rw [← h]; rfl, by simp⟩
    · rw [if_neg hv] at h ⊢
      cases hp : putStr v with
      | none => simp [hp] at h
      | some s =>
        obtain ⟨rfl, h1⟩ := putStr_some hp
        simp only [hp, Option.map_some, Option.some.injEq] at h
        exact ⟨by rw [← h]; simp [encs], h1⟩

theorem WFS.sub {a b c : List Range} (h : WFS (a ++ b ++ c)) : WFS b := by
  have h1 := List.pairwise_append.1 h.gap
  exact ⟨(List.pairwise_append.1 h1.1).2.1, fun r hr => h.each r (by simp [hr])⟩

theorem mem_flatMap_split {α β : Type} (f : α → List β) (l : List α) (x : α) (h : x ∈ l) :
    ∃ a c, l.flatMap f = a ++ f x ++ c := by
  obtain ⟨a, c, rfl⟩ := List.append_of_mem h
  exact ⟨a.flatMap f, c.flatMap f, by simp⟩

/-- Reading back one CA's section. -/
theorem readCerts_dec (E : Env K) (hE : ∀ k, E.deser (E.ser k) = some k ∧ E.ser k ≠ []) {rc : Certs K} (hw : WFC rc)
    {b : Bytes} (h : genCerts E rc = some b) :
    Dec (readCerts E b) (fun a => (∃ n, Cov rc.serials n ∧ a = .serial rc.ca n) ∨ ∃ i ∈ rc.ids, a = .id rc.ca i)
      (Narrow rc.serials) := by
  unfold genCerts at h
  split at h
  · rename_i hd s i hhd hser hids
    simp only [Option.some.injEq] at h
    obtain ⟨rfl, hl⟩ := putStr_some hhd
    obtain ⟨secs, rfl, hrs, hsecs⟩ := genSerials_spec hw.serials hser
    obtain ⟨v, hv, rfl, hvl⟩ := optSection_some (t := 0x23) (by omega) hids
    obtain ⟨rfl, hidl⟩ := putStrs_some _ hv
    have e : readCerts E b = readSubs rc.ca (encs (secs.map Prod.fst) ++
        encs (if rc.ids.flatMap str = [] then [] else [(0x23, rc.ids.flatMap str)])).length
        (encs (secs.map Prod.fst) ++ encs (if rc.ids.flatMap str = [] then [] else [(0x23, rc.ids.flatMap str)])) := by
      rw [← h]
      simp only [List.append_assoc]
      unfold readCerts
      rw [getStr_append _ _ hl]
      simp only
      rw [getStr_append [] _ (by simp)]
      simp only
      cases hca : rc.ca with
      | none => simp
      | some k => simp [(hE k).1, (hE k).2]
    rw [e, ← encs_append]
    have hsub : ∀ q ∈ secs, WFS q.2 := by
      intro q hq
      obtain ⟨x, y, hxy⟩ := mem_flatMap_split Prod.snd secs q hq
      have := hw.serials
      rw [hrs, hxy] at this
      exact this.sub
    have hcov : ∀ n, Cov rc.serials n ↔ ∃ q ∈ secs, Cov q.2 n := by
      intro n
      rw [hrs]
      simp only [Cov, List.mem_flatMap]
      constructor
      · rintro ⟨r, ⟨q, hq, hr⟩, h1⟩; exact ⟨q, hq, r, hr, h1⟩
      · rintro ⟨q, hq, r, hr, h1⟩; exact ⟨r, ⟨q, hq, hr⟩, h1⟩
    have htype : ∀ q ∈ secs, q.1.1 < 0x23 := by
      intro q hq
      rcases (hsecs q hq).2 with h | h | h <;> omega
    let T : List ((Nat × Bytes) × (Atom K → Prop) × Prop) :=
      secs.map (fun q => (q.1, (fun a => ∃ n, Cov q.2 n ∧ a = Atom.serial rc.ca n), Narrow q.2)) ++
      (if rc.ids.flatMap str = [] then [] else
        [((0x23, rc.ids.flatMap str), (fun a => ∃ i ∈ rc.ids, a = Atom.id rc.ca i), True)])
    have hT : T.map Prod.fst = secs.map Prod.fst ++
        (if rc.ids.flatMap str = [] then [] else [(0x23, rc.ids.flatMap str)]) := by
      simp only [T, List.map_append, List.map_map]
      congr 1
      split <;> rfl
    rw [← hT]
    refine (readSubs_dec rc.ca T _ (Nat.le_refl _) ?_).mono ?_ ?_
    · intro s hs
      rcases List.mem_append.1 hs with hs | hs
      · obtain ⟨q, hq, rfl⟩ := List.mem_map.1 hs
        have := htype q hq
        exact ⟨by simp only; omega, (hsecs q hq).1, readSub_dec rc.ca (hsecs q hq) (hsub q hq)⟩
      · split at hs
        · simp at hs
        · simp only [List.mem_singleton] at hs
          subst hs
          refine ⟨by simp, hvl, ?_⟩
          have e : readSub rc.ca 0x23 (rc.ids.flatMap str) = readIds rc.ca (rc.ids.flatMap str).length (rc.ids.flatMap str) := by
            simp [readSub]
          simp only
          rw [e]
          exact readIds_dec rc.ca rc.ids _ (flatMap_str_length _) (fun v hv => ⟨hidl v hv, hw.nul v hv⟩)
    · intro a
      constructor
      · rintro ⟨s, hs, ha⟩
        rcases List.mem_append.1 hs with hs | hs
        · obtain ⟨q, hq, rfl⟩ := List.mem_map.1 hs
          obtain ⟨n, hn, rfl⟩ := ha
          exact .inl ⟨n, (hcov n).2 ⟨q, hq, hn⟩, rfl⟩
        · split at hs
          · simp at hs
          · simp only [List.mem_singleton] at hs
            subst hs
            exact .inr ha
      · rintro (⟨n, hn, rfl⟩ | ⟨i, hi, rfl⟩)
        · obtain ⟨q, hq, hc⟩ := (hcov n).1 hn
          exact ⟨_, List.mem_append.2 (.inl (List.mem_map.2 ⟨q, hq, rfl⟩)), n, hc, rfl⟩
        · have hne : rc.ids.flatMap str ≠ [] := by
            obtain ⟨x, y, hxy⟩ := List.append_of_mem hi
            rw [hxy]
            simp [str, be]
          refine ⟨((0x23, rc.ids.flatMap str), (fun a => ∃ i ∈ rc.ids, a = Atom.id rc.ca i), True),
            List.mem_append.2 (.inr ?_), i, hi, rfl⟩
          rw [if_neg hne]; simp
    · intro hn s hs
      rcases List.mem_append.1 hs with hs | hs
      · obtain ⟨q, hq, rfl⟩ := List.mem_map.1 hs
        exact fun a b ha hb => hn a b ((hcov a).2 ⟨q, hq, ha⟩) ((hcov b).2 ⟨q, hq, hb⟩)
      · split at hs
        · simp at hs
        · simp only [List.mem_singleton] at hs
          subst hs
          trivial
  · simp at h

/-- Sections for all CAs. -/
theorem genAllCerts_spec (E : Env K) (hE : ∀ k, E.deser (E.ser k) = some k ∧ E.ser k ≠ []) (l : List (Certs K)) :
    ∀ {b : Bytes}, (∀ rc ∈ l, WFC rc) → genAllCerts E l = some b →
    ∃ T : List ((Nat × Bytes) × (Atom K → Prop) × Prop), b = encs (T.map Prod.fst) ∧
      (∀ s ∈ T, s.1.1 < 256 ∧ s.1.1 ≠ 4 ∧ s.1.2.length ≤ maxString ∧ Dec (readSection E s.1.1 s.1.2) s.2.1 s.2.2) ∧
      (∀ a, (∃ s ∈ T, s.2.1 a) ↔ ∃ rc ∈ l, (∃ n, Cov rc.serials n ∧ a = .serial rc.ca n) ∨ ∃ i ∈ rc.ids, a = .id rc.ca i) ∧
      ((∀ rc ∈ l, Narrow rc.serials) → ∀ s ∈ T, s.2.2) := by
  induction l with
  | nil =>
    intro b _ h
    simp only [genAllCerts, Option.some.injEq] at h
    subst h
    exact ⟨[], rfl, by simp, by simp, by simp⟩
  | cons rc l ih =>
    intro b hw h
    unfold genAllCerts at h
    split at h
    · rename_i c rest hc hrest
      obtain ⟨T, t1, t2, t3, t4⟩ := ih (fun rc h => hw rc (by simp [h])) hrest
      cases hp : putStr c with
      | none => simp [hp] at h
      | some s =>
        obtain ⟨rfl, hl⟩ := putStr_some hp
        simp only [hp, Option.map_some, Option.some.injEq] at h
        refine ⟨((1, c), (fun a => (∃ n, Cov rc.serials n ∧ a = .serial rc.ca n) ∨ ∃ i ∈ rc.ids, a = .id rc.ca i),
          Narrow rc.serials) :: T, ?_, ?_, ?_, ?_⟩
        · rw [← h, t1]; simp [encs]
        · intro s hs
          rcases List.mem_cons.1 hs with rfl | hs
          · refine ⟨by simp, by simp, hl, ?_⟩
            have e : readSection E 1 c = readCerts E c := by simp [readSection]
            simp only
            rw [e]
            exact readCerts_dec E hE (hw rc (by simp)) hc
          · exact t2 s hs
        · intro a
          have := t3 a
          simp only [List.mem_cons, exists_eq_or_imp]
          rw [this]
        · intro hn s hs
          rcases List.mem_cons.1 hs with rfl | hs
          · exact hn rc (by simp)
          · exact t4 (fun rc h => hn rc (by simp [h])) s hs
    · simp at h

/-- One of the plain sections. -/
theorem blobSection_spec (E : Env K) (t : Nat) (ht : t < 256 ∧ t ≠ 4) (mk : Bytes → Cmd K) (at' : Bytes → Atom K) (expected : Nat)
    (hmk : ∀ v, (expected = 0 ∨ v.length = expected) → (mk v).valid ∧ (mk v).good ∧ ∀ a, Adds (mk v) a ↔ a = at' v)
    (hsec : ∀ v, readSection E t v = readBlobs mk expected v.length v)
    (vs : List Bytes) (hvs : ∀ v ∈ vs, expected = 0 ∨ v.length = expected) {b : Bytes}
    (h : optSection (UInt8.ofNat t) (putStrs vs) = some b) :
    ∃ T : List ((Nat × Bytes) × (Atom K → Prop) × Prop), b = encs (T.map Prod.fst) ∧
      (∀ s ∈ T, s.1.1 < 256 ∧ s.1.1 ≠ 4 ∧ s.1.2.length ≤ maxString ∧ Dec (readSection E s.1.1 s.1.2) s.2.1 s.2.2) ∧
      (∀ a, (∃ s ∈ T, s.2.1 a) ↔ ∃ v ∈ vs, a = at' v) ∧ (∀ s ∈ T, s.2.2) := by
  obtain ⟨v, hv, rfl, hvl⟩ := optSection_some ht.1 h
  obtain ⟨rfl, hl⟩ := putStrs_some _ hv
  by_cases hne : vs.flatMap str = []
  · have : vs = [] := by
      cases vs with
      | nil => rfl
      | cons x vs => simp [str, be] at hne
    subst this
    exact ⟨[], by simp, by simp, by simp, by simp⟩
  · refine ⟨[((t, vs.flatMap str), (fun a => ∃ v ∈ vs, a = at' v), True)], by rw [if_neg hne]; rfl, ?_, by simp, by simp⟩
    intro s hs
    simp only [List.mem_singleton] at hs
    subst hs
    refine ⟨ht.1, ht.2, hvl, ?_⟩
    simp only
    rw [hsec]
    exact readBlobs_dec mk at' expected hmk vs _ (flatMap_str_length _) (fun v hv => ⟨hl v hv, hvs v hv⟩)

theorem apply1_header (E : Env K) {k k' : Krl K} {c : Cmd K} (h : apply1 E k c = some k') :
    k'.version = k.version ∧ k'.date = k.date ∧ k'.flags = k.flags ∧ k'.comment = k.comment := by
  cases c <;> simp only [apply1] at h
  case range => split at h <;> simp at h; subst h; exact ⟨rfl, rfl, rfl, rfl⟩
  case sha1 => split at h <;> simp at h; subst h; exact ⟨rfl, rfl, rfl, rfl⟩
  case sha256 => split at h <;> simp at h; subst h; exact ⟨rfl, rfl, rfl, rfl⟩
  case id => simp at h; subst h; exact ⟨rfl, rfl, rfl, rfl⟩
  case key => simp at h; subst h; exact ⟨rfl, rfl, rfl, rfl⟩

theorem applyAll_header (E : Env K) (cs : List (Cmd K)) : ∀ {k k' : Krl K}, applyAll E k cs = some k' →
    k'.version = k.version ∧ k'.date = k.date ∧ k'.flags = k.flags ∧ k'.comment = k.comment := by
  induction cs with
  | nil => intro k k' h; simp [applyAll] at h; subst h; exact ⟨rfl, rfl, rfl, rfl⟩
  | cons c cs ih =>
    intro k k' h
    unfold applyAll at h
    cases hc : apply1 E k c with
    | none => simp [hc] at h
    | some k1 =>
      rw [hc] at h
      have h1 := ih h
      have h2 := apply1_header E hc
      exact ⟨h1.1.trans h2.1, h1.2.1.trans h2.2.1, h1.2.2.1.trans h2.2.2.1, h1.2.2.2.trans h2.2.2.2⟩

/-- The header fields are representable. -/
structure HeaderOK (k : Krl K) : Prop where
  version : k.version < U64
  date : k.date < U64
  flags : k.flags < U64
  comment : 0 ∉ k.comment

/-- Writing then reading: whenever reading succeeds the same facts are recorded, and it does succeed for narrow lists. -/
theorem blob_roundtrip (E : Env K) (hE : ∀ k, E.deser (E.ser k) = some k ∧ E.ser k ≠ []) {k : Krl K} (hk : WF k)
    (hh : HeaderOK k) {b : Bytes} (h : toBlob E k = some b) :
    (∀ k', fromBlob E b = some k' → WF k' ∧ (∀ a, Holds k' a ↔ Holds k a) ∧
      k'.version = k.version ∧ k'.date = k.date ∧ k'.flags = k.flags ∧ k'.comment = k.comment) ∧
    ((∀ rc ∈ k.certs, Narrow rc.serials) → (fromBlob E b).isSome) := by
  unfold toBlob at h
  split at h
  · rename_i c certs keys s1 s2 hc hcerts hkeys hs1 hs2
    obtain ⟨rfl, hcl⟩ := putStr_some hc
    obtain ⟨T0, o0, d0, m0, n0⟩ := genAllCerts_spec E hE k.certs hk.each hcerts
    obtain ⟨T1, o1, d1, m1, n1⟩ := blobSection_spec E 2 (by omega) Cmd.key Atom.key 0
      (fun v _ => ⟨trivial, trivial, fun a => by cases a <;> simp [Adds]⟩) (fun v => by simp [readSection]) k.keys
      (fun _ _ => .inl rfl) hkeys
    obtain ⟨T2, o2, d2, m2, n2⟩ := blobSection_spec E 3 (by omega) Cmd.sha1 Atom.sha1 20
      (fun v hv => ⟨trivial, by simpa [Cmd.good] using hv, fun a => by
        have : v.length = 20 := by simpa using hv
        cases a <;> simp [Adds, this]⟩)
      (fun v => by simp [readSection]) k.sha1s
      (fun v hv => .inr (hk.len1 v hv)) hs1
    obtain ⟨T3, o3, d3, m3, n3⟩ := blobSection_spec E 5 (by omega) Cmd.sha256 Atom.sha256 32
      (fun v hv => ⟨trivial, by simpa [Cmd.good] using hv, fun a => by
        have : v.length = 32 := by simpa using hv
        cases a <;> simp [Adds, this]⟩)
      (fun v => by simp [readSection]) k.sha256s
      (fun v hv => .inr (hk.len2 v hv)) hs2
    let T := T0 ++ (T1 ++ (T2 ++ T3))
    have hbody : certs ++ (keys ++ (s1 ++ s2)) = encs (T.map Prod.fst) := by
      simp only [T, List.map_append, encs_append, ← o0, ← o1, ← o2, ← o3]
    have hdec := readSections_dec E T _ (Nat.le_refl _) (by
      intro s hs
      simp only [T, List.mem_append] at hs
      rcases hs with hs | hs | hs | hs
      · exact d0 s hs
      · exact d1 s hs
      · exact d2 s hs
      · exact d3 s hs)
    have hP : ∀ a, (∃ s ∈ T, s.2.1 a) ↔ Holds k a := by
      intro a
      have : (∃ s ∈ T, s.2.1 a) ↔ (∃ s ∈ T0, s.2.1 a) ∨ (∃ s ∈ T1, s.2.1 a) ∨ (∃ s ∈ T2, s.2.1 a) ∨ (∃ s ∈ T3, s.2.1 a) := by
        simp only [T, List.mem_append, or_and_right, exists_or]
      rw [this, m0, m1, m2, m3]
      cases a with
      | serial ca n =>
        simp only [Holds, Atom.serial.injEq, reduceCtorEq, and_false, exists_false, or_false]
        constructor
        · rintro ⟨rc, h1, m, h2, rfl, rfl⟩; exact ⟨rc, h1, rfl, h2⟩
        · rintro ⟨rc, h1, rfl, h2⟩; exact ⟨rc, h1, n, h2, rfl, rfl⟩
      | id ca i =>
        simp only [Holds, Atom.id.injEq, reduceCtorEq, and_false, exists_false, or_false, false_or]
        constructor
        · rintro ⟨rc, h1, m, h2, rfl, rfl⟩; exact ⟨rc, h1, rfl, h2⟩
        · rintro ⟨rc, h1, rfl, h2⟩; exact ⟨rc, h1, i, h2, rfl, rfl⟩
      | key b => simp [Holds]
      | sha1 b => simp [Holds]
      | sha256 b => simp [Holds]
    have e : fromBlob E b = match readSections E (encs (T.map Prod.fst)).length (encs (T.map Prod.fst)) with
        | none => none
        | some cmds => applyAll E ⟨k.version, k.date, k.flags, k.comment, [], [], [], []⟩ cmds := by
      simp only [Option.some.injEq] at h
      rw [← h]
      simp only [List.append_assoc]
      rw [hbody]
      unfold fromBlob
      rw [if_neg (by simp [magic])]
      have hd : ∀ x : Bytes, (magic ++ x).drop 8 = x := fun x => by simp [magic]
      rw [hd, getInt_append _ _ _ (by omega)]
      simp only
      rw [if_neg (by simp), getInt_append _ _ _ (by have := hh.version; omega)]
      simp only
      rw [getInt_append _ _ _ (by have := hh.date; omega)]
      simp only
      rw [getInt_append _ _ _ (by have := hh.flags; omega)]
      simp only
      rw [getStr_append [] _ (by simp)]
      simp only
      rw [getCStr_append _ _ hcl hh.comment]
      rfl
    have hw0 : WF (⟨k.version, k.date, k.flags, k.comment, [], [], [], []⟩ : Krl K) := by
      constructor <;> simp [Sorted]
    have hh0 : ∀ a, ¬ Holds (⟨k.version, k.date, k.flags, k.comment, [], [], [], []⟩ : Krl K) a := by
      intro a; cases a <;> simp [Holds]
    cases hr : readSections E (encs (T.map Prod.fst)).length (encs (T.map Prod.fst)) with
    | none =>
      rw [hr] at e hdec
      refine ⟨fun k' hk' => by rw [e] at hk'; simp at hk', fun hn => ?_⟩
      have := hdec.2 (by
        intro s hs
        simp only [T, List.mem_append] at hs
        rcases hs with hs | hs | hs | hs
        · exact n0 hn s hs
        · exact n1 s hs
        · exact n2 s hs
        · exact n3 s hs)
      simp at this
    | some cmds =>
      rw [hr] at e
      simp only at e
      obtain ⟨g1, g2⟩ := hdec.1 cmds hr
      refine ⟨fun k' hk' => ?_, fun _ => ?_⟩
      · rw [e] at hk'
        obtain ⟨a1, a2⟩ := applyAll_some E cmds _ k' hw0 (fun c hc => (g1 c hc).1) hk'
        have a3 := applyAll_header E cmds hk'
        refine ⟨a1, fun a => ?_, a3⟩
        rw [a2, g2]
        show _ ∨ (∃ s ∈ T, s.2.1 a) ↔ _
        rw [hP]
        simp [hh0 a]
      · rw [e]
        exact applyAll_isSome E cmds _ (fun c hc => (g1 c hc).2)
  · simp at h

end Verif.Krl
