import Verif.Scp.TripSpec
import Verif.Scp.Confine
import Verif.Misc.TimeProps

namespace Verif.Scp
open Verif Verif.Num

/-! ### Lines -/

theorem lineRest_line : ∀ (n : Nat) (b rest : Bytes), 10 ∉ b → b.length < n →
    lineRest n (b ++ 10 :: rest) = some (b ++ [10], rest) := by
  intro n
  induction n with
  | zero => intro b rest _ h; omega
  | succ n ih =>
    intro b rest hb hl
    cases b with
    | nil => simp [lineRest]
    | cons c b =>
      have hc : c ≠ 10 := fun e => hb (by simp [e])
      rw [List.cons_append, lineRest, if_neg hc, ih b rest (fun h => hb (by simp [h])) (by simp at hl; omega)]
      rfl

theorem textOf_line {b : Bytes} (h : 0 ∉ b) : textOf (b ++ [10]) = b := by
  unfold textOf
  rw [if_pos (by simp), List.dropLast_concat]
  induction b with
  | nil => rfl
  | cons c b ih =>
    rw [List.takeWhile_cons, if_pos (by simpa using fun e : c = 0 => h (by simp [e])), ih (fun h' => h (by simp [h']))]

/-! ### Numbers -/

theorem decF_spec : ∀ (f n : Nat), n < f →
    decF f n ≠ [] ∧ (∀ c ∈ decF f n, isDigit c = true) ∧ digitsVal 0 (decF f n) = n := by
  intro f
  induction f with
  | zero => intro n h; omega
  | succ f ih =>
    intro n h
    rw [decF]
    split
    · rename_i h10
      refine ⟨by simp, fun c hc => ?_, ?_⟩
      · rw [List.mem_singleton.1 hc]; exact (Misc.Time.digit_of h10).1
      · show 0 * 10 + ((UInt8.ofNat (48 + n)).toNat - 48) = n
        rw [(Misc.Time.digit_of h10).2]; omega
    · obtain ⟨h1, h2, h3⟩ := ih (n / 10) (by omega)
      refine ⟨by simp, fun c hc => ?_, ?_⟩
      · rcases List.mem_append.1 hc with hc | hc
        · exact h2 c hc
        · rw [List.mem_singleton.1 hc]; exact (Misc.Time.digit_of (Nat.mod_lt _ (by omega))).1
      · rw [Misc.Time.digitsVal_append, h3, (Misc.Time.digit_of (Nat.mod_lt _ (by omega))).2]; omega

theorem decF_length : ∀ (k f n : Nat), n < 10 ^ (k + 1) → (decF f n).length ≤ k + 1 := by
  intro k
  induction k with
  | zero =>
    intro f n h
    cases f with
    | zero => simp [decF]
    | succ f => rw [decF, if_pos (by simpa using h)]; simp
  | succ k ih =>
    intro f n h
    cases f with
    | zero => simp [decF]
    | succ f =>
      rw [decF]
      split
      · simp
      · have := ih f (n / 10) (by rw [Nat.pow_succ] at h; omega)
        simp only [List.length_append, List.length_singleton]
        omega

theorem dec_length {n : Nat} (h : n < 2 ^ 63) : (dec n).length ≤ 20 :=
  decF_length 19 _ n (Nat.lt_trans h (by decide))

theorem digits_dec (n : Nat) (r : Bytes) : digits (dec n ++ 32 :: r) = some (n, 32 :: r) := by
  obtain ⟨h1, h2, h3⟩ := decF_spec (n + 1) n (by omega)
  have h := Misc.Time.span_append (s := 32 :: r) h2 (by intro c hc; cases hc; decide)
  have h' : spanDigits (dec n ++ 32 :: r) = (decF (n + 1) n, 32 :: r) := h
  unfold digits
  rw [h']
  split
  · rename_i he; exact absurd (congrArg Prod.fst he) h1
  · rename_i ds r' _ he
    have e1 := congrArg Prod.fst he
    have e2 := congrArg Prod.snd he
    dsimp only at e1 e2
    rw [← e1, ← e2, h3]

theorem dec_plain (n : Nat) (c : UInt8) (h : isDigit c = false) : c ∉ dec n :=
  fun hc => by rw [(decF_spec (n + 1) n (by omega)).2.1 c hc] at h; cases h

theorem octal_digit {d : Nat} (h : d < 8) :
    (UInt8.ofNat (48 + d) < 48 || UInt8.ofNat (48 + d) > 55) = false ∧ (UInt8.ofNat (48 + d)).toNat - 48 = d ∧
    isDigit (UInt8.ofNat (48 + d)) = true := by
  have : d = 0 ∨ d = 1 ∨ d = 2 ∨ d = 3 ∨ d = 4 ∨ d = 5 ∨ d = 6 ∨ d = 7 := by omega
  rcases this with rfl | rfl | rfl | rfl | rfl | rfl | rfl | rfl <;> decide

theorem parseMode_oct {mode : Nat} (h : mode < 4096) (r : Bytes) : parseMode 4 0 (oct mode ++ r) = some (mode, r) := by
  have e : ∀ (n acc d : Nat) (r : Bytes), d < 8 →
      parseMode (n + 1) acc (UInt8.ofNat (48 + d) :: r) = parseMode n (acc * 8 + d) r := by
    intro n acc d r hd
    obtain ⟨h1, h2, _⟩ := octal_digit hd
    rw [parseMode, h1, h2]
    rfl
  show parseMode 4 0 (_ :: _ :: _ :: _ :: r) = _
  rw [e _ _ _ _ (by omega), e _ _ _ _ (by omega), e _ _ _ _ (by omega), e _ _ _ _ (by omega), parseMode]
  congr 2
  omega

theorem oct_plain (mode : Nat) (c : UInt8) (h : isDigit c = false) : c ∉ oct mode := by
  intro hc
  have hd : ∀ d, d < 8 → c = UInt8.ofNat (48 + d) → False := fun d hd e => by
    rw [e, (octal_digit hd).2.2] at h; cases h
  simp only [oct, List.mem_cons, List.not_mem_nil, or_false] at hc
  rcases hc with h | h | h | h
  · exact hd _ (by omega) h
  · exact hd _ (by omega) h
  · exact hd _ (by omega) h
  · exact hd _ (by omega) h

/-! ### Records -/

theorem badName_safe {n : Bytes} (h : Safe n) : badName n = false := by
  simp [badName, h.nonempty, h.slash, h.dot, h.dotdot]

theorem parse_entry {d : Bool} {mode size : Nat} {name : Bytes} (hm : mode < 4096) (hs : size < 2 ^ 63) (hn : Safe name) :
    parseEntry d (oct mode ++ 32 :: (dec size ++ 32 :: name)) = .entry d mode size name := by
  unfold parseEntry
  rw [parseMode_oct hm]
  dsimp only [blank]
  rw [if_pos rfl]
  dsimp only
  rw [digits_dec]
  dsimp only [blank]
  rw [if_pos rfl]
  dsimp only
  rw [if_neg (by omega), badName_safe hn]
  rfl

theorem strtol_zero_blank (r : Bytes) : strtol (48 :: 32 :: r) = (0, 32 :: r) := rfl
theorem strtol_zero : strtol [48] = (0, []) := rfl

theorem parse_times {m a : Nat} (hm : m < 2 ^ 63) (ha : a < 2 ^ 63) :
    parseTimes (dec m ++ 32 :: 48 :: 32 :: (dec a ++ [32, 48])) = .times (some ⟨(m, 0), (a, 0)⟩) := by
  unfold parseTimes
  rw [digits_dec]
  dsimp only [blank]
  rw [if_pos rfl]
  dsimp only
  rw [strtol_zero_blank]
  dsimp only [blank]
  rw [if_pos rfl]
  dsimp only
  rw [if_neg (by decide), digits_dec]
  dsimp only [blank]
  rw [if_pos rfl]
  dsimp only
  rw [strtol_zero, if_neg (by simp), if_neg (by decide), if_neg (by omega)]

/-- The loop at a line. -/
theorem loop_times {C : Conf} {E : Env} {fuel : Nat} {f : Frame} {s : St} {c : UInt8} {b rest : Bytes} {t : Option Times}
    (hc : c ≠ 10 ∧ c ≠ 1 ∧ c ≠ 2 ∧ c ≠ 69 ∧ c ≠ 0) (hb : 10 ∉ b) (h0 : 0 ∉ b) (hl : b.length < 2046)
    (hi : s.inp = c :: (b ++ 10 :: rest)) (hp : parseRec (c :: b) = .times t) :
    loop C E (fuel + 1) f s = loop C E fuel { f with times := t } ({ s with inp := rest }.emit .ack) := by
  rw [loop, hi]
  dsimp only
  rw [if_neg hc.1, lineRest_line _ _ _ hb hl]
  dsimp only
  rw [if_neg hc.2.1, if_neg hc.2.2.1, if_neg hc.2.2.2.1, show textOf (c :: (b ++ [10])) = c :: b from
    textOf_line (b := c :: b) (by simp only [List.mem_cons, not_or]; exact ⟨fun e => hc.2.2.2.2 e.symm, h0⟩), hp]

theorem loop_file {C : Conf} {E : Env} {fuel : Nat} {f : Frame} {s s' : St} {c : UInt8} {b rest name : Bytes} {mode size : Nat}
    {t' : Option Times}
    (hc : c ≠ 10 ∧ c ≠ 1 ∧ c ≠ 2 ∧ c ≠ 69 ∧ c ≠ 0) (hb : 10 ∉ b) (h0 : 0 ∉ b) (hl : b.length < 2046)
    (hi : s.inp = c :: (b ++ 10 :: rest)) (hp : parseRec (c :: b) = .entry false mode size name)
    (hw : wanted C E name = true)
    (hf : file C E (pathOf f name) (modeOf C mode) size (E.stat s.tr (pathOf f name)) f.times { s with inp := rest } = (.ret s', t')) :
    loop C E (fuel + 1) f s = loop C E fuel { f with times := t' } s' := by
  rw [loop, hi]
  dsimp only
  rw [if_neg hc.1, lineRest_line _ _ _ hb hl]
  dsimp only
  rw [if_neg hc.2.1, if_neg hc.2.2.1, if_neg hc.2.2.2.1, show textOf (c :: (b ++ [10])) = c :: b from
    textOf_line (b := c :: b) (by simp only [List.mem_cons, not_or]; exact ⟨fun e => hc.2.2.2.2 e.symm, h0⟩), hp]
  dsimp only
  rw [hw, if_neg (by decide), if_neg (by decide), hf]

theorem loop_dir {C : Conf} {E : Env} {fuel : Nat} {f f' : Frame} {s s1 s2 s3 : St} {c : UInt8} {b rest name : Bytes} {mode size : Nat}
    {mf : Bool}
    (hc : c ≠ 10 ∧ c ≠ 1 ∧ c ≠ 2 ∧ c ≠ 69 ∧ c ≠ 0) (hb : 10 ∉ b) (h0 : 0 ∉ b) (hl : b.length < 2046)
    (hi : s.inp = c :: (b ++ 10 :: rest)) (hp : parseRec (c :: b) = .entry true mode size name)
    (hw : wanted C E name = true) (hr : C.recursive = true)
    (hm : makeDir C E (pathOf f name) (modeOf C mode) { s with inp := rest } = (s1, some mf))
    (he : enter C E (pathOf f name) s1 = some (f', s2)) (hl' : loop C E fuel f' s2 = .ret s3) :
    loop C E (fuel + 1) f s = loop C E fuel { f with times := none } (leaveDir (pathOf f name) (modeOf C mode) f.times mf s3) := by
  rw [loop, hi]
  dsimp only
  rw [if_neg hc.1, lineRest_line _ _ _ hb hl]
  dsimp only
  rw [if_neg hc.2.1, if_neg hc.2.2.1, if_neg hc.2.2.2.1, show textOf (c :: (b ++ [10])) = c :: b from
    textOf_line (b := c :: b) (by simp only [List.mem_cons, not_or]; exact ⟨fun e => hc.2.2.2.2 e.symm, h0⟩), hp]
  dsimp only
  rw [hw, hr, if_neg (by decide), if_pos rfl, if_neg (by decide), hm]
  dsimp only
  rw [he]
  dsimp only
  rw [hl']

/-! ### The file system -/

theorem FS.set_set (fs : FS) (p : Bytes) (a b : Node) : (fs.set p a).set p b = fs.set p b := by
  funext q; unfold FS.set; split <;> rfl
theorem FS.set_at (fs : FS) (p : Bytes) (a : Node) : (fs.set p a) p = some a := by simp [FS.set]
theorem FS.set_self {fs : FS} {p : Bytes} {a : Node} (h : fs p = some a) : fs.set p a = fs := by
  funext q; unfold FS.set; split
  · rename_i e; rw [e, h]
  · rfl
theorem FS.change_set (fs : FS) (p : Bytes) (a : Node) (g : Node → Node) : (fs.set p a).change p g = fs.set p (g a) := by
  funext q; unfold FS.change FS.set; split <;> simp [*]
theorem FS.change_some {fs : FS} {p : Bytes} {a : Node} (h : fs p = some a) (g : Node → Node) :
    fs.change p g = fs.set p (g a) := by
  funext q; unfold FS.change FS.set; split <;> simp [*]
theorem FS.change_change (fs : FS) (p : Bytes) (g g' : Node → Node) :
    (fs.change p g).change p g' = fs.change p (g' ∘ g) := by
  funext q; unfold FS.change; split <;> simp [*]

theorem replay_snoc (u : Nat) (fs : FS) (tr : List Event) (e : Event) :
    replay u fs (tr ++ [e]) = apply u (replay u fs tr) e := by simp [replay]

theorem writeAt_append {c a b : Bytes} {off : Nat} (h : off ≤ c.length) :
    writeAt (writeAt c off a) (off + a.length) b = writeAt c off (a ++ b) := by
  unfold writeAt
  have hl : (c.take off).length = off := by simp; omega
  have e1 : (c.take off ++ a ++ c.drop (off + a.length)).take (off + a.length) = c.take off ++ a := by
    rw [List.take_append_of_le_length (by simp; omega), List.take_of_length_le (by simp; omega)]
  have e2 : (c.take off ++ a ++ c.drop (off + a.length)).drop (off + a.length + b.length) =
      c.drop (off + (a ++ b).length) := by
    rw [List.drop_append, List.drop_eq_nil_of_le (by simp; omega), List.nil_append, List.drop_drop]
    congr 1
    simp [hl]
    omega
  rw [e1, e2]
  simp

theorem writeAt_length {c a : Bytes} {off : Nat} (h : off ≤ c.length) : off + a.length ≤ (writeAt c off a).length := by
  simp [writeAt]; omega

theorem writeAt_nil (c : Bytes) (off : Nat) : writeAt c off [] = c := by simp [writeAt]

theorem copy_honest {C : Conf} {E : Env} {fs0 F : FS} (H : Honest C E fs0) {cnt : Nat} (hcnt : 0 < cnt) {p : Bytes}
    {m : Nat} {ot : Option Times} : ∀ (fuel : Nat) (d : Bytes) (s : St) (rest c : Bytes) (off : Nat),
    d.length ≤ fuel → s.inp = d ++ rest → off ≤ c.length →
    replay (umaskOf C) fs0 s.tr = ⟨F.set p (.file m ot c), some (p, off)⟩ →
    ∃ tr', copy E cnt fuel d.length s false = .done ⟨rest, tr', s.errs⟩ false ∧
      replay (umaskOf C) fs0 tr' = ⟨F.set p (.file m ot (writeAt c off d)), some (p, off + d.length)⟩ := by
  intro fuel
  induction fuel with
  | zero =>
    intro d s rest c off hd hi hoff hr
    have : d = [] := List.eq_nil_of_length_eq_zero (by omega)
    subst this
    refine ⟨s.tr, ?_, by rw [writeAt_nil, hr]; rfl⟩
    rw [copy, ← show s.inp = rest from hi]
  | succ fuel ih =>
    intro d s rest c off hd hi hoff hr
    rw [copy]
    by_cases hz : d.length = 0
    · have : d = [] := List.eq_nil_of_length_eq_zero hz
      subst this
      refine ⟨s.tr, ?_, by rw [writeAt_nil, hr]; rfl⟩
      rw [if_pos (by rfl), ← show s.inp = rest from hi]
    · rw [if_neg hz, if_neg (by rw [hi, List.length_append]; omega)]
      have hk : min cnt d.length ≤ d.length := by omega
      have hk0 : 0 < min cnt d.length := by omega
      generalize min cnt d.length = k at hk hk0 ⊢
      have ht : s.inp.take k = d.take k := by rw [hi, List.take_append_of_le_length hk]
      have hdr : s.inp.drop k = d.drop k ++ rest := by rw [hi, List.drop_append_of_le_length hk]
      have hput : put E (d.take k) s false = (s.emit (.write (d.take k)), false) := by
        unfold put
        rw [if_neg (by simp), if_pos (H.ok _)]
      rw [ht, hdr, hput]
      have hlt : (d.take k).length = k := by simp; omega
      obtain ⟨tr', h1, h2⟩ := ih (d.drop k) { s.emit (.write (d.take k)) with inp := d.drop k ++ rest } rest
        (writeAt c off (d.take k)) (off + k) (by simp; omega) rfl
        (by have := writeAt_length (a := d.take k) hoff; omega)
        (by
          show replay _ _ (s.tr ++ [_]) = _
          rw [replay_snoc, hr]
          show FState.mk _ _ = _
          rw [FS.change_set, hlt]
          rfl)
      refine ⟨tr', ?_, ?_⟩
      · rw [List.length_drop] at h1
        exact h1
      · rw [h2]
        have : writeAt (writeAt c off (d.take k)) (off + k) (d.drop k) = writeAt c off d := by
          have := writeAt_append (a := d.take k) (b := d.drop k) hoff
          rw [hlt, List.take_append_drop] at this
          exact this
        rw [this]
        simp only [List.length_drop]
        congr 3
        omega

theorem attempt_honest {C : Conf} {E : Env} {fs0 : FS} (H : Honest C E fs0) (e : Event) (x : St × Bool) :
    attempt E e x = (x.1.emit e, x.2) := by
  unfold attempt; rw [if_pos (H.ok _)]

theorem mask_mask (m k : Nat) : (m ^^^ (m &&& k)) ^^^ ((m ^^^ (m &&& k)) &&& k) = m ^^^ (m &&& k) := by
  apply Nat.eq_of_testBit_eq
  intro i
  simp only [Nat.testBit_xor, Nat.testBit_and]
  cases m.testBit i <;> cases k.testBit i <;> rfl

theorem mask_zero (m : Nat) : m ^^^ (m &&& 0) = m := by simp

theorem modeOf_new (C : Conf) (m : Nat) : modeOf C m = newMode C m := rfl

/-- What the mode of the open file becomes. -/
def finalMode (C : Conf) (mode : Nat) (k : Kind) (m0 : Nat) : Nat :=
  if C.pflag then if k ≠ .missing || mode ≠ mode ||| 0o200 then mode else m0
  else if k = .missing && mode ≠ mode ||| 0o200 then masked C mode else m0

theorem setMode_honest {C : Conf} {E : Env} {fs0 F : FS} (H : Honest C E fs0) {mode : Nat} {k : Kind} {s : St} {w : Bool}
    {p : Bytes} {m : Nat} {ot : Option Times} {c : Bytes} {off : Nat}
    (hr : replay (umaskOf C) fs0 s.tr = ⟨F.set p (.file m ot c), some (p, off)⟩) :
    ∃ tr', setMode C E mode k (s, w) = (⟨s.inp, tr', s.errs⟩, w) ∧
      replay (umaskOf C) fs0 tr' = ⟨F.set p (.file (finalMode C mode k m) ot c), some (p, off)⟩ := by
  have hyes : ∀ m', ∃ tr', attempt E (.fchmod m') (s, w) = (⟨s.inp, tr', s.errs⟩, w) ∧
      replay (umaskOf C) fs0 tr' = ⟨F.set p (.file m' ot c), some (p, off)⟩ := by
    intro m'
    rw [attempt_honest H]
    refine ⟨s.tr ++ [.fchmod m'], rfl, ?_⟩
    rw [replay_snoc, hr]
    show FState.mk _ _ = _
    rw [FS.change_set]
    rfl
  unfold setMode finalMode
  split
  · split
    · exact hyes _
    · exact ⟨s.tr, rfl, hr⟩
  · split
    · exact hyes _
    · exact ⟨s.tr, rfl, hr⟩

theorem response_zero {s : St} {rest : Bytes} (h : s.inp = 0 :: rest) : response s = .ret { s with inp := rest } := by
  unfold response
  rw [h]
  rfl

theorem fileEnd_honest {C : Conf} {E : Env} {fs0 F : FS} (H : Honest C E fs0) {np : Bytes} {mode : Nat} {k : Kind}
    {times : Option Times} {s : St} {m : Nat} {ot : Option Times} {c content rest : Bytes} {off : Nat}
    (hk : k = .missing ∨ k = .reg) (hi : s.inp = 0 :: rest)
    (hr : replay (umaskOf C) fs0 s.tr = ⟨F.set np (.file m ot (writeAt c 0 content)), some (np, off)⟩) :
    ∃ tr', fileEnd C E np mode content.length k times s false = .ret ⟨rest, tr', s.errs⟩ ∧
      replay (umaskOf C) fs0 tr' = ⟨F.set np (.file (finalMode C mode k m) (times.or ot) content), none⟩ := by
  have h1 : truncate E content.length k false (s, false) = (s.emit (.truncate content.length), false) := by
    unfold truncate
    rw [if_pos (by rcases hk with rfl | rfl <;> rfl), attempt_honest H]
  have r1 : replay (umaskOf C) fs0 (s.emit (.truncate content.length)).tr =
      ⟨F.set np (.file m ot content), some (np, off)⟩ := by
    show replay _ _ (s.tr ++ [_]) = _
    rw [replay_snoc, hr]
    show FState.mk _ _ = _
    rw [FS.change_set]
    simp [Node.withContent, Node.content, writeAt]
  obtain ⟨tr2, h2, r2⟩ := setMode_honest H (mode := mode) (k := k) (w := false) r1
  unfold fileEnd
  rw [h1, h2, attempt_honest H]
  have r3 : replay (umaskOf C) fs0 (tr2 ++ [.close]) =
      ⟨F.set np (.file (finalMode C mode k m) ot content), none⟩ := by
    rw [replay_snoc, r2]; rfl
  rw [response_zero (s := (⟨(s.emit (.truncate content.length)).inp, tr2, (s.emit (.truncate content.length)).errs⟩ : St).emit .close)
    (rest := rest) hi]
  cases times with
  | none =>
    refine ⟨tr2 ++ [.close] ++ [.ack], rfl, ?_⟩
    rw [replay_snoc, r3]; rfl
  | some t =>
    dsimp only [setTimes]
    rw [if_neg (by simp), attempt_honest H]
    refine ⟨tr2 ++ [.close] ++ [.utimes np t] ++ [.ack], rfl, ?_⟩
    rw [replay_snoc, replay_snoc, r3]
    show FState.mk _ _ = _
    rw [FS.change_set]
    rfl

theorem file_honest {C : Conf} {E : Env} {fs0 F : FS} (H : Honest C E fs0) {np : Bytes} {mode : Nat}
    {t : Option (Nat × Nat)} {s : St} {content rest : Bytes} {fd : Option (Bytes × Nat)}
    (hi : s.inp = content ++ 0 :: rest) (hr : replay (umaskOf C) fs0 s.tr = ⟨F, fd⟩) (hF : IsFile (F np)) :
    ∃ tr', file C E np (modeOf C mode) content.length (E.stat s.tr np) (sentTimes t) s = (.ret ⟨rest, tr', s.errs⟩, none) ∧
      replay (umaskOf C) fs0 tr' = ⟨F.set np (placedFile C (F np) mode t content), none⟩ := by
  unfold file
  rw [if_pos (H.ok _)]
  obtain ⟨cnt, hcnt, ha⟩ := H.alloc ((s.emit (.open_ np (modeOf C mode ||| 0o200))).emit .ack).tr
  rw [ha]
  have hst : E.stat s.tr np = kindOf (F np) := by rw [H.stat, hr]
  rw [hst]
  have ropen : replay (umaskOf C) fs0 ((s.emit (.open_ np (modeOf C mode ||| 0o200))).emit .ack).tr =
      ⟨if (F np).isSome then F else F.set np (.file ((modeOf C mode ||| 0o200) ^^^ ((modeOf C mode ||| 0o200) &&& umaskOf C)) none []),
        some (np, 0)⟩ := by
    show replay _ _ (s.tr ++ [_] ++ [_]) = _
    rw [replay_snoc, replay_snoc, hr]
    rfl
  have hcopy : ∀ m ot c, replay (umaskOf C) fs0 ((s.emit (.open_ np (modeOf C mode ||| 0o200))).emit .ack).tr =
      ⟨F.set np (.file m ot c), some (np, 0)⟩ → (kindOf (F np) = .missing ∨ kindOf (F np) = .reg) →
      ∃ tr', (match copy E cnt content.length content.length ((s.emit (.open_ np (modeOf C mode ||| 0o200))).emit .ack) false with
          | .lost s => (.exit s.complain, sentTimes t)
          | .done s w => (fileEnd C E np (modeOf C mode) content.length (kindOf (F np)) (sentTimes t) s w,
              if w then sentTimes t else none) : Res × Option Times) = (.ret ⟨rest, tr', s.errs⟩, none) ∧
        replay (umaskOf C) fs0 tr' =
          ⟨F.set np (.file (finalMode C (modeOf C mode) (kindOf (F np)) m) ((sentTimes t).or ot) content), none⟩ := by
    intro m ot c h hk
    obtain ⟨tr1, h1, r1⟩ := copy_honest H hcnt content.length content
      ((s.emit (.open_ np (modeOf C mode ||| 0o200))).emit .ack) (0 :: rest) c 0 (Nat.le_refl _) hi (by omega) h
    obtain ⟨tr2, h2, r2⟩ := fileEnd_honest H (mode := modeOf C mode) (times := sentTimes t)
      (s := ⟨0 :: rest, tr1, s.errs⟩) hk rfl r1
    refine ⟨tr2, ?_, r2⟩
    rw [h1]
    dsimp only [St.emit] at h2 ⊢
    rw [h2]
    rfl
  dsimp only
  cases hn : F np with
  | none =>
    rw [hn] at ropen hcopy
    obtain ⟨tr', h1, h2⟩ := hcopy _ _ _ ropen (Or.inl rfl)
    refine ⟨tr', h1, ?_⟩
    rw [h2]
    dsimp only [placedFile]
    congr 3
    · unfold finalMode umaskOf modeOf newMode masked
      cases hp : C.pflag with
      | true =>
        simp only [if_pos]
        rw [mask_zero]
        by_cases he : mode = mode ||| 0o200
        · simp [kindOf, ← he]
        · simp [kindOf, he]
      | false =>
        simp only [Bool.false_eq_true, if_false]
        generalize hg : mode ^^^ (mode &&& C.mask) = g
        have hgg : g ^^^ (g &&& C.mask) = g := by rw [← hg]; exact mask_mask _ _
        by_cases he : g = g ||| 0o200
        · rw [if_neg (by simp [kindOf, ← he]), ← he, hgg]
        · rw [if_pos (by simp [kindOf, he]), hgg]
    · cases sentTimes t <;> rfl
  | some nd =>
    cases nd with
    | dir m ot => rw [hn] at hF; exact hF.elim
    | file m ot c =>
      have e := ropen
      rw [hn] at e hcopy
      rw [if_pos (by rfl)] at e
      rw [← FS.set_self hn] at e
      obtain ⟨tr', h1, h2⟩ := hcopy _ _ _ e (Or.inr rfl)
      refine ⟨tr', h1, ?_⟩
      rw [h2]
      dsimp only [placedFile]
      congr 3
      unfold finalMode modeOf
      cases hp : C.pflag <;> simp [kindOf]

/-! ### Directories -/

theorem makeDir_honest {C : Conf} {E : Env} {fs0 F : FS} (H : Honest C E fs0) {np : Bytes} {mode : Nat} {s : St}
    {fd : Option (Bytes × Nat)} (hr : replay (umaskOf C) fs0 s.tr = ⟨F, fd⟩) (hF : IsDir (F np)) :
    ∃ tr', makeDir C E np (modeOf C mode) s = (⟨s.inp, tr', s.errs⟩, some (C.pflag || !(F np).isSome)) ∧
      replay (umaskOf C) fs0 tr' = ⟨F.set np (openedDir C (F np) mode), fd⟩ := by
  have hst : E.stat s.tr np = kindOf (F np) := by rw [H.stat, hr]
  unfold makeDir
  rw [hst]
  cases hn : F np with
  | none =>
    refine ⟨s.tr ++ [.mkdir np (modeOf C mode ||| 0o700)], ?_, ?_⟩
    · dsimp only [kindOf]
      rw [if_pos (H.ok _)]
      simp [St.emit]
    · rw [replay_snoc, hr]
      rfl
  | some nd =>
    cases nd with
    | file m ot c => rw [hn] at hF; exact hF.elim
    | dir m ot =>
      dsimp only [kindOf, openedDir]
      cases hp : C.pflag with
      | true =>
        refine ⟨s.tr ++ [.chmod np (modeOf C mode)], rfl, ?_⟩
        rw [replay_snoc, hr]
        show FState.mk _ _ = _
        rw [FS.change_some hn]
        simp [modeOf, hp, Node.chmod]
      | false =>
        refine ⟨s.tr, rfl, ?_⟩
        rw [hr]
        simp only [Bool.false_eq_true, if_false]
        rw [FS.set_self hn]

theorem openedDir_dir (C : Conf) (o : Option Node) (mode : Nat) : kindOf (some (openedDir C o mode)) = .dir := by
  unfold openedDir
  split <;> rfl

theorem leaveDir_honest {C : Conf} {fs0 F : FS} {np : Bytes} {mode : Nat} {t : Option (Nat × Nat)} {s : St}
    {ex : Bool} {fd : Option (Bytes × Nat)} (hr : replay (umaskOf C) fs0 s.tr = ⟨F, fd⟩) (hF : kindOf (F np) = .dir) :
    ∃ tr', leaveDir np (modeOf C mode) (sentTimes t) (C.pflag || !ex) s = ⟨s.inp, tr', s.errs⟩ ∧
      replay (umaskOf C) fs0 tr' = ⟨F.change np (closedDir C ex mode t), fd⟩ := by
  obtain ⟨m, ot, hn⟩ : ∃ m ot, F np = some (.dir m ot) := by
    cases h : F np with
    | none => rw [h] at hF; cases hF
    | some nd => cases nd with
      | dir m ot => exact ⟨m, ot, rfl⟩
      | file m ot c => rw [h] at hF; cases hF
  have h1 : ∃ tr1, ((sentTimes t).elim s fun t => s.emit (.utimes np t)) = ⟨s.inp, tr1, s.errs⟩ ∧
      replay (umaskOf C) fs0 tr1 = ⟨F.set np (.dir m ((sentTimes t).or ot)), fd⟩ := by
    cases sentTimes t with
    | none =>
      refine ⟨s.tr, rfl, ?_⟩
      rw [hr]
      simp only [Option.none_or]
      rw [FS.set_self hn]
    | some t =>
      refine ⟨s.tr ++ [.utimes np t], rfl, ?_⟩
      rw [replay_snoc, hr]
      show FState.mk _ _ = _
      rw [FS.change_some hn]
      rfl
  obtain ⟨tr1, h1, r1⟩ := h1
  rw [FS.change_some hn]
  unfold leaveDir
  rw [h1]
  cases hb : (C.pflag || !ex) with
  | true =>
    refine ⟨tr1 ++ [.chmod np (modeOf C mode)], rfl, ?_⟩
    rw [replay_snoc, r1]
    show FState.mk _ _ = _
    rw [FS.change_set]
    simp [closedDir, hb, Node.chmod, modeOf_new]
  | false =>
    refine ⟨tr1, rfl, ?_⟩
    rw [r1]
    simp [closedDir, hb]

/-! ### Whole forests -/

theorem below_one (d name : Bytes) : below d [name] = d ++ (if d = [47] then [] else [47]) ++ name := by
  exact below_snoc (targ := d) (ns := []) (n := name) (by simp)

theorem below_longer {d name : Bytes} (h : Safe name) : d.length < (below d [name]).length := by
  have : name.length ≠ 0 := fun e => h.nonempty (List.eq_nil_of_length_eq_zero e)
  rw [below_one]
  split <;> simp <;> omega

/-- Laying out a forest changes nothing at or above its directory. -/
theorem place_above {C : Conf} {E : Env} {q : Bytes} : ∀ (fo : Forest) (d : Bytes) (fs : FS), Sendable C E fo →
    q.length ≤ d.length → place C d fo fs q = fs q := by
  intro fo
  induction fo with
  | nil => intro d fs _ _; rfl
  | file name mode t content rest ih =>
    intro d fs hs hq
    have hne : q ≠ below d [name] := fun e => by have := below_longer (d := d) hs.1; rw [← e] at this; omega
    rw [place, ih d _ hs.2.2.2.2.2.2.2.2 hq]
    simp [FS.set, hne]
  | dir name mode t sub rest ih1 ih2 =>
    intro d fs hs hq
    have hlt := below_longer (d := d) hs.1
    have hne : q ≠ below d [name] := fun e => by rw [← e] at hlt; omega
    rw [place, ih2 d _ hs.2.2.2.2.2.2.2.2 hq]
    simp only [FS.change, hne, if_false]
    rw [ih1 _ _ hs.2.2.2.2.2.2.2.1 (by omega)]
    simp [FS.set, hne]

theorem asked_wanted {C : Conf} {E : Env} {n : Bytes} (h : Asked C E n) : wanted C E n = true := by
  simpa [wanted, Asked] using h

theorem replay_ack {u : Nat} {fs0 : FS} {tr : List Event} {x : FState} (h : replay u fs0 tr = x) :
    replay u fs0 (tr ++ [.ack]) = x := by rw [replay_snoc, h]; rfl

/-- The times record, if any. -/
theorem loop_timesPart {C : Conf} {E : Env} {fs0 : FS} {x : FState} {fuel : Nat} {f : Frame} {s : St}
    {t : Option (Nat × Nat)} {rest : Bytes} (ht : ∀ y, t = some y → y.1 < 2 ^ 63 ∧ y.2 < 2 ^ 63)
    (hi : s.inp = timesPart t ++ rest) (hf : f.times = none) (hl : s.inp.length < fuel)
    (hr : replay (umaskOf C) fs0 s.tr = x) :
    ∃ fuel' tr', rest.length < fuel' ∧
      loop C E fuel f s = loop C E fuel' { f with times := sentTimes t } ⟨rest, tr', s.errs⟩ ∧
      replay (umaskOf C) fs0 tr' = x := by
  cases t with
  | none =>
    refine ⟨fuel, s.tr, ?_, ?_, hr⟩
    · rw [hi] at hl; exact hl
    · have : s.inp = rest := hi
      rw [← this]
      cases f
      cases hf
      rfl
  | some y =>
    obtain ⟨hm, ha⟩ := ht y rfl
    have hi' : s.inp = 84 :: ((dec y.1 ++ 32 :: 48 :: 32 :: (dec y.2 ++ [32, 48])) ++ 10 :: rest) := by
      rw [hi]; simp [timesPart, timesLine]
    cases fuel with
    | zero => omega
    | succ fuel =>
      have hnd : ∀ c : UInt8, isDigit c = false → c ≠ 32 → c ≠ 48 →
          c ∉ (dec y.1 ++ 32 :: 48 :: 32 :: (dec y.2 ++ [32, 48])) := by
        intro c hc h1 h2
        simp only [List.mem_append, List.mem_cons, List.not_mem_nil, or_false, not_or]
        exact ⟨dec_plain _ _ hc, h1, h2, h1, dec_plain _ _ hc, h1, h2⟩
      refine ⟨fuel, s.tr ++ [.ack], ?_, ?_, replay_ack hr⟩
      · rw [hi'] at hl
        simp at hl
        omega
      · rw [loop_times (c := 84) (by decide) (hnd 10 (by decide) (by decide) (by decide))
          (hnd 0 (by decide) (by decide) (by decide)) ?_ hi'
          (show parseRec (84 :: _) = _ by rw [parseRec, if_pos rfl]; exact parse_times hm ha)]
        · rfl
        · have h1 := dec_length hm
          have h2 := dec_length ha
          simp only [List.length_append, List.length_cons, List.length_nil]
          omega

theorem entry_body {mode size : Nat} {name : Bytes} (h10 : 10 ∉ name) (h0 : 0 ∉ name) (hn : name.length ≤ 1024)
    (hs : size < 2 ^ 63) : 10 ∉ (oct mode ++ 32 :: (dec size ++ 32 :: name)) ∧
      0 ∉ (oct mode ++ 32 :: (dec size ++ 32 :: name)) ∧ (oct mode ++ 32 :: (dec size ++ 32 :: name)).length < 2046 := by
  have hnd : ∀ c : UInt8, isDigit c = false → c ≠ 32 → c ∉ name → c ∉ (oct mode ++ 32 :: (dec size ++ 32 :: name)) := by
    intro c hc h1 h2
    simp only [List.mem_append, List.mem_cons, not_or]
    exact ⟨oct_plain _ _ hc, h1, dec_plain _ _ hc, h1, h2⟩
  refine ⟨hnd 10 (by decide) (by decide) h10, hnd 0 (by decide) (by decide) h0, ?_⟩
  have := dec_length hs
  simp only [List.length_append, List.length_cons, show (oct mode).length = 4 from rfl]
  omega

theorem dec_zero : dec 0 = [48] := rfl

theorem loop_forest {C : Conf} {E : Env} {fs0 : FS} (H : Honest C E fs0) : ∀ (fo : Forest) (fuel : Nat) (f : Frame) (s : St)
    (rest : Bytes) (F : FS) (fd : Option (Bytes × Nat)),
    f.isDir = true → f.times = none → s.inp = send fo ++ rest → s.inp.length < fuel →
    replay (umaskOf C) fs0 s.tr = ⟨F, fd⟩ → kindOf (F f.targ) = .dir →
    Sendable C E fo → Fits C f.targ fo F → (C.recursive = true ∨ Flat fo) →
    ∃ fuel' tr' fd', rest.length < fuel' ∧ loop C E fuel f s = loop C E fuel' f ⟨rest, tr', s.errs⟩ ∧
      replay (umaskOf C) fs0 tr' = ⟨place C f.targ fo F, fd'⟩ := by
  intro fo
  induction fo with
  | nil =>
    intro fuel f s rest F fd _ _ hi hl hr _ _ _ _
    have hi : s.inp = rest := hi
    exact ⟨fuel, s.tr, fd, by rw [← hi]; exact hl, by rw [← hi], hr⟩
  | file name mode t content more ih =>
    intro fuel f s rest F fd hd hft hi hl hr hF hs hfit hrec
    obtain ⟨hsafe, h10, h0, hn, hask, hm, hc, ht, hs'⟩ := hs
    have hnp : pathOf f name = below f.targ [name] := by rw [below_one]; unfold pathOf; rw [if_pos hd]
    have hi1 : s.inp = timesPart t ++ (67 :: ((oct mode ++ 32 :: (dec content.length ++ 32 :: name)) ++
        10 :: (content ++ 0 :: (send more ++ rest)))) := by rw [hi]; simp [send, fileLine]
    obtain ⟨fuel1, tr1, hl1, e1, r1⟩ := loop_timesPart (E := E) ht hi1 hft hl hr
    cases fuel1 with
    | zero => omega
    | succ fuel1 =>
      obtain ⟨b10, b0, bl⟩ := entry_body (mode := mode) h10 h0 hn hc
      obtain ⟨tr2, hfile, r2⟩ := file_honest H (np := below f.targ [name]) (mode := mode) (t := t)
        (s := ⟨content ++ 0 :: (send more ++ rest), tr1, s.errs⟩) (content := content) rfl r1 hfit.1
      have e2 := loop_file (C := C) (E := E) (fuel := fuel1) (f := { f with times := sentTimes t }) (s := ⟨_, tr1, s.errs⟩)
        (c := 67) (by decide) b10 b0 bl rfl
        (show parseRec (67 :: _) = _ by rw [parseRec, if_neg (by decide), if_pos rfl]; exact parse_entry hm hc hsafe)
        (asked_wanted hask) (by
          rw [show pathOf { f with times := sentTimes t } name = below f.targ [name] from hnp]
          exact hfile)
      obtain ⟨fuel3, tr3, fd3, hl3, e3, r3⟩ := ih fuel1 { f with times := none } ⟨send more ++ rest, tr2, s.errs⟩ rest _ _
        hd rfl rfl (by simp at hl1 ⊢; omega) r2 (by
          have hne : f.targ ≠ below f.targ [name] := fun e => by
            have := below_longer (d := f.targ) hsafe; rw [← e] at this; omega
          simpa [FS.set, hne] using hF) hs' hfit.2 hrec
      refine ⟨fuel3, tr3, fd3, hl3, ?_, r3⟩
      rw [e1, e2]
      refine e3.trans ?_
      cases f
      cases hft
      rfl
  | dir name mode t sub more ih1 ih2 =>
    intro fuel f s rest F fd hd hft hi hl hr hF hs hfit hrec
    obtain ⟨hsafe, h10, h0, hn, hask, hm, ht, hsub, hs'⟩ := hs
    have hrec : C.recursive = true := hrec.elim id (fun h => h.elim)
    have hnp : pathOf f name = below f.targ [name] := by rw [below_one]; unfold pathOf; rw [if_pos hd]
    have hlong := below_longer (d := f.targ) hsafe
    have hne : f.targ ≠ below f.targ [name] := fun e => by rw [← e] at hlong; omega
    have hi1 : s.inp = timesPart t ++ (68 :: ((oct mode ++ 32 :: (dec 0 ++ 32 :: name)) ++
        10 :: (send sub ++ 69 :: 10 :: (send more ++ rest)))) := by rw [hi]; simp [send, dirLine, dec_zero]
    obtain ⟨fuel1, tr1, hl1, e1, r1⟩ := loop_timesPart (E := E) ht hi1 hft hl hr
    cases fuel1 with
    | zero => omega
    | succ fuel1 =>
      obtain ⟨b10, b0, bl⟩ := entry_body (mode := mode) (size := 0) h10 h0 hn (by omega)
      obtain ⟨tr2, hmk, r2⟩ := makeDir_honest H (np := below f.targ [name]) (mode := mode)
        (s := ⟨send sub ++ 69 :: 10 :: (send more ++ rest), tr1, s.errs⟩) r1 hfit.1
      generalize hF2 : F.set (below f.targ [name]) (openedDir C (F (below f.targ [name])) mode) = F2 at r2
      have hF2d : kindOf (F2 (below f.targ [name])) = .dir := by rw [← hF2, FS.set_at]; exact openedDir_dir _ _ _
      have hF2t : F2 f.targ = F f.targ := by rw [← hF2]; simp [FS.set, hne]
      have hst : ∀ tr, replay (umaskOf C) fs0 tr = ⟨F2, fd⟩ → E.stat tr (below f.targ [name]) = .dir := by
        intro tr h; rw [H.stat, h]; exact hF2d
      have hent : enter C E (below f.targ [name]) ⟨send sub ++ 69 :: 10 :: (send more ++ rest), tr2, s.errs⟩ =
          some (⟨below f.targ [name], true, none⟩, ⟨send sub ++ 69 :: 10 :: (send more ++ rest), tr2 ++ [.ack], s.errs⟩) := by
        unfold enter
        rw [hst _ r2, hst _ (replay_ack r2), if_neg (by simp)]
        rfl
      obtain ⟨fuel3, tr3, fd3, hl3, e3, r3⟩ := ih1 fuel1 ⟨below f.targ [name], true, none⟩
        ⟨send sub ++ 69 :: 10 :: (send more ++ rest), tr2 ++ [.ack], s.errs⟩ (69 :: 10 :: (send more ++ rest)) F2 fd
        rfl rfl rfl (by simp at hl1 ⊢; omega) (replay_ack r2) hF2d hsub (by rw [← hF2]; exact hfit.2.1) (Or.inl hrec)
      have e4 : loop C E fuel3 ⟨below f.targ [name], true, none⟩ ⟨69 :: 10 :: (send more ++ rest), tr3, s.errs⟩ =
          .ret ⟨send more ++ rest, tr3 ++ [.ack], s.errs⟩ := by
        cases fuel3 with
        | zero => omega
        | succ k => rw [loop]; rfl
      have hF3d : kindOf (place C (below f.targ [name]) sub F2 (below f.targ [name])) = .dir := by
        rw [place_above sub _ _ hsub (Nat.le_refl _)]; exact hF2d
      have hF3t : place C (below f.targ [name]) sub F2 f.targ = F2 f.targ := place_above sub _ _ hsub (by omega)
      obtain ⟨tr5, e5, r5⟩ := leaveDir_honest (C := C) (fs0 := fs0) (np := below f.targ [name]) (mode := mode) (t := t)
        (s := ⟨send more ++ rest, tr3 ++ [.ack], s.errs⟩) (ex := (F (below f.targ [name])).isSome) (replay_ack r3) hF3d
      have e2 := loop_dir (C := C) (E := E) (fuel := fuel1) (f := { f with times := sentTimes t }) (s := ⟨_, tr1, s.errs⟩)
        (c := 68) (by decide) b10 b0 bl rfl
        (show parseRec (68 :: _) = _ by
          rw [parseRec, if_neg (by decide), if_neg (by decide), if_pos rfl]; exact parse_entry hm (by omega) hsafe)
        (asked_wanted hask) hrec (by
          rw [show pathOf { f with times := sentTimes t } name = below f.targ [name] from hnp]
          exact hmk) (by
          rw [show pathOf { f with times := sentTimes t } name = below f.targ [name] from hnp]
          exact hent) (e3.trans e4)
      rw [show pathOf { f with times := sentTimes t } name = below f.targ [name] from hnp] at e2
      dsimp only at e2 e5
      rw [e5] at e2
      obtain ⟨fuel6, tr6, fd6, hl6, e6, r6⟩ := ih2 fuel1 { f with times := none } ⟨send more ++ rest, tr5, s.errs⟩ rest _ _
        hd rfl rfl (by simp at hl1 ⊢; omega) r5 (by
          simp only [FS.change, hne, if_false]
          rw [hF3t, hF2t]; exact hF) hs' (by rw [← hF2]; exact hfit.2.2) (Or.inl hrec)
      refine ⟨fuel6, tr6, fd6, hl6, ?_, ?_⟩
      · rw [e1, e2]
        refine e6.trans ?_
        cases f
        cases hft
        rfl
      · rw [r6, ← hF2]; rfl

end Verif.Scp
