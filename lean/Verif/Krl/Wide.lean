/-
Widely scattered serials: the writer emits a bitmap that the reader refuses.
-/
import Verif.Krl.Read

namespace Verif.Krl
open Verif Wire RB

variable {K : Type} [DecidableEq K]

/-- Canonical lists are determined by what they cover. -/
theorem WFS.unique (l : List Range) : ∀ {m : List Range}, WFS l → WFS m → (∀ n, Cov l n ↔ Cov m n) → l = m := by
  induction l with
  | nil =>
    intro m _ hm h
    cases m with
    | nil => rfl
    | cons r m =>
      have := hm.each r (by simp)
      exact absurd ((h r.lo).2 ⟨r, by simp, by omega, by omega⟩) (Cov_nil _)
  | cons q l ih =>
    intro m hl hm h
    cases m with
    | nil =>
      have := hl.each q (by simp)
      exact absurd ((h q.lo).1 ⟨q, by simp, by omega, by omega⟩) (Cov_nil _)
    | cons r m =>
      have hq := hl.each q (by simp)
      have hr := hm.each r (by simp)
      have gq := List.pairwise_cons.1 hl.gap
      have gr := List.pairwise_cons.1 hm.gap
      have above : ∀ {x : Range} {t : List Range}, (∀ y ∈ t, x.hi + 1 < y.lo) → ∀ n, Cov t n → x.hi + 1 < n := by
        rintro x t ht n ⟨y, hy, h1, _⟩
        have := ht y hy
        omega
      have h1 : ∀ n, ((q.lo ≤ n ∧ n ≤ q.hi) ∨ Cov l n) ↔ ((r.lo ≤ n ∧ n ≤ r.hi) ∨ Cov m n) := by
        intro n; rw [← Cov_cons, ← Cov_cons]; exact h n
      have hlo : q.lo = r.lo := by
        have a := (h1 q.lo).1 (.inl (by omega))
        have b := (h1 r.lo).2 (.inl (by omega))
        rcases a with a | a
        · rcases b with b | b
          · omega
          · have := above gq.1 _ b; omega
        · have := above gr.1 _ a
          rcases b with b | b
          · omega
          · have := above gq.1 _ b; omega
      have hhi : q.hi = r.hi := by
        apply Classical.byContradiction
        intro hne
        have hcase : q.hi < r.hi ∨ r.hi < q.hi := by omega
        rcases hcase with hc | hc
        · rcases (h1 (q.hi + 1)).2 (.inl (by omega)) with a | a
          · omega
          · have := above gq.1 _ a; omega
        · rcases (h1 (r.hi + 1)).1 (.inl (by omega)) with a | a
          · omega
          · have := above gr.1 _ a; omega
      have hqr : q = r := by cases q; cases r; simp_all
      rw [hqr]
      congr 1
      refine ih ⟨gq.2, fun x hx => hl.each x (by simp [hx])⟩ ⟨gr.2, fun x hx => hm.each x (by simp [hx])⟩ (fun n => ?_)
      constructor
      · intro hc
        have := above gq.1 _ hc
        rcases (h1 n).1 (.inr hc) with a | a
        · omega
        · exact a
      · intro hc
        have := above gr.1 _ hc
        rcases (h1 n).2 (.inr hc) with a | a
        · omega
        · exact a

/-- The serials 1, 3, 5, … (`n` of them) starting with the `i`-th. -/
def odds (i : Nat) : Nat → List Range
  | 0 => []
  | n + 1 => ⟨2 * i + 1, 2 * i + 1⟩ :: odds (i + 1) n

theorem odds_mem (n : Nat) : ∀ {i : Nat} {r : Range}, r ∈ odds i n → r.lo = r.hi ∧ 2 * i + 1 ≤ r.lo ∧ r.lo < 2 * (i + n) := by
  induction n with
  | zero => intro i r h; simp [odds] at h
  | succ n ih =>
    intro i r h
    rcases List.mem_cons.1 h with rfl | h
    · show 2 * i + 1 = 2 * i + 1 ∧ 2 * i + 1 ≤ 2 * i + 1 ∧ 2 * i + 1 < 2 * (i + (n + 1))
      omega
    · have := ih h; omega

theorem odds_wfs (n : Nat) : ∀ {i : Nat}, 2 * (i + n) < U64 → WFS (odds i n) := by
  intro i hi
  refine ⟨?_, fun r hr => ?_⟩
  · induction n generalizing i with
    | zero => simp [odds]
    | succ n ih =>
      rw [odds, List.pairwise_cons]
      refine ⟨fun r hr => ?_, ih (by omega)⟩
      have := odds_mem n hr
      simp only; omega
  · have := odds_mem n hr; omega

theorem odds_cov (n : Nat) : ∀ (i m : Nat), Cov (odds i n) m ↔ ∃ j, j < n ∧ m = 2 * (i + j) + 1 := by
  induction n with
  | zero => intro i m; simp [odds, Cov]
  | succ n ih =>
    intro i m
    rw [odds, Cov_cons, ih]
    constructor
    · rintro (h | ⟨j, h1, h2⟩)
      · exact ⟨0, by omega, by simp only at h; omega⟩
      · exact ⟨j + 1, by omega, by omega⟩
    · rintro ⟨j, h1, h2⟩
      by_cases hj : j = 0
      · exact .inl (by simp only; omega)
      · exact .inr ⟨j - 1, by omega, by omega⟩

theorem setBit_isSome {b : Bitmap.Bitmap} (hb : Bitmap.Inv b) {n : Nat} (h : n ≤ 16777216) :
    (Bitmap.setBit b n true).isSome := by
  have ht := hb.top_lt
  have hr : (Bitmap.reserve b n true).isSome := by
    unfold Bitmap.reserve
    rw [if_neg (by omega)]
    split <;> simp
  unfold Bitmap.setBit
  cases hc : Bitmap.reserve b n true with
  | none => simp [hc] at hr
  | some b' => rfl

/-- The state choice for isolated serials two apart: carry on with the bitmap. -/
theorem choose_first : chooseNextState 0 1 false 0 2 = (0x22, false) := by decide

theorem choose_more (final : Bool) : chooseNextState 0x22 1 final 2 (if final then 0 else 2) = (0x22, false) := by
  cases final <;> decide

theorem next_gap (i n : Nat) : nextGap ⟨2 * i + 1, 2 * i + 1⟩ (odds (i + 1) n).head? =
      (if (odds (i + 1) n).head?.isNone then 0 else 2) := by
  cases n with
  | zero => rfl
  | succ n =>
    show 2 * (i + 1) + 1 - (2 * i + 1) = 2
    omega

theorem genLoop_odds (n : Nat) : ∀ {i : Nat} {g : Gen}, 0 < i → 2 * (i + n) ≤ 16777216 → g.out = [] → g.state = 0x22 →
    g.start = 1 → g.last = 2 * i - 1 → Bitmap.Inv g.bm →
    ∃ g', genLoop g (odds i n) = some g' ∧ g'.out = [] ∧ g'.state = 0x22 := by
  induction n with
  | zero => intro i g _ _ h1 h2 h3 h4 h5; exact ⟨g, rfl, h1, h2⟩
  | succ n ih =>
    intro i g hi hb h1 h2 h3 h4 h5
    have hgap := next_gap i n
    have hstep : ∃ g', genStep g ⟨2 * i + 1, 2 * i + 1⟩ (odds (i + 1) n).head? = some g' ∧ g'.out = [] ∧
        g'.state = 0x22 ∧ g'.start = 1 ∧ g'.last = 2 * i + 1 ∧ Bitmap.Inv g'.bm := by
      unfold genStep
      simp only
      rw [hgap, if_neg (show ¬ g.state = 0 by omega), h4, show 2 * i + 1 - (2 * i - 1) = 2 by omega,
        show (1 + (2 * i + 1 - (2 * i + 1))) % U64 = 1 by omega, h2, choose_more]
      simp only
      rw [if_neg (by simp)]
      simp only [startSect, h2]
      rw [if_neg (by simp)]
      unfold addRange
      rw [if_neg (by omega), if_neg (by omega), if_pos h2, h3]
      simp only
      rw [if_neg (by omega)]
      have hs := setBit_isSome h5 (n := 2 * i + 1 - 1) (by omega)
      obtain ⟨bm, hbm⟩ := Option.isSome_iff_exists.1 hs
      have : setBits g.bm (2 * i + 1 - 1) 1 = some bm := by
        unfold setBits
        rw [Nat.mod_eq_of_lt (by omega), hbm]
        rfl
      rw [this]
      exact ⟨_, rfl, h1, h2, rfl, rfl, (Bitmap.setBit_some h5 hbm).1⟩
    obtain ⟨g1, e, a1, a2, a3, a4, a5⟩ := hstep
    obtain ⟨g2, b1, b2⟩ := ih (i := i + 1) (g := g1) (by omega) (by omega) a1 a2 a3 (by omega) a5
    exact ⟨g2, by rw [odds, genLoop, e]; exact b1, b2⟩

theorem encs_nil {l : List (Nat × Bytes)} (h : encs l = []) : l = [] := by
  cases l with
  | nil => rfl
  | cons s l => simp [encs] at h

/-- All the odd serials go into a single bitmap section. -/
theorem genSerials_odds (n : Nat) (hn : 1 < n) (hb : 2 * n ≤ 16777216) :
    ∃ body, genSerials (odds 0 n) = some (encs [(0x22, body)]) ∧ IsSec 0x22 body (odds 0 n) := by
  obtain ⟨n, rfl⟩ : ∃ m, n = m + 1 := ⟨n - 1, by omega⟩
  have hgap : nextGap ⟨1, 1⟩ (odds 1 n).head? = 2 ∧ (odds 1 n).head?.isNone = false := by
    obtain ⟨m, rfl⟩ : ∃ m, n = m + 1 := ⟨n - 1, by omega⟩
    exact ⟨rfl, rfl⟩
  have hfirst : ∃ g', genStep ⟨[], [], 0, Bitmap.new, 0, 0⟩ ⟨1, 1⟩ (odds 1 n).head? = some g' ∧ g'.out = [] ∧
      g'.state = 0x22 ∧ g'.start = 1 ∧ g'.last = 1 ∧ Bitmap.Inv g'.bm := by
    unfold genStep
    simp only
    rw [hgap.1, hgap.2, if_pos trivial, show (1 + (1 - 1)) % U64 = 1 by omega, choose_first]
    simp only
    rw [if_neg (by simp)]
    simp only [startSect]
    rw [if_pos (by simp), if_pos trivial]
    unfold addRange
    rw [if_neg (by simp), if_neg (by simp), if_pos rfl]
    simp only
    rw [if_neg (by omega)]
    have hs := setBit_isSome Bitmap.new_inv (n := 0) (by omega)
    obtain ⟨bm, hbm⟩ := Option.isSome_iff_exists.1 hs
    have : setBits Bitmap.new (1 - 1) 1 = some bm := by
      unfold setBits
      rw [Nat.mod_eq_of_lt (by omega), hbm]
      rfl
    rw [this]
    exact ⟨_, rfl, rfl, rfl, rfl, rfl, (Bitmap.setBit_some Bitmap.new_inv hbm).1⟩
  obtain ⟨g1, e, a1, a2, a3, a4, a5⟩ := hfirst
  obtain ⟨g2, b1, b2, b3⟩ := genLoop_odds n (i := 1) (g := g1) (by omega) (by omega) a1 a2 a3 (by omega) a5
  have hloop : genLoop ⟨[], [], 0, Bitmap.new, 0, 0⟩ (odds 0 (n + 1)) = some g2 := by
    rw [odds, genLoop]
    simp only [Nat.mul_zero, Nat.zero_add]
    rw [e]
    exact b1
  obtain ⟨⟨secs, pend, o1, o2, o3, o4⟩, _⟩ := genLoop_spec (odds 0 (n + 1)) (done := [])
    (by simpa using odds_wfs (n + 1) (i := 0) (by omega)) ⟨[], [], rfl, rfl, by simp, .inl ⟨rfl, rfl⟩⟩ hloop
  rw [b2] at o1
  have hsecs : secs = [] := by simpa using encs_nil o1.symm
  subst hsecs
  simp only [List.flatMap_nil, List.nil_append] at o2
  rw [← o2] at o4
  -- the final flush succeeds
  have hfl : ∃ g3, flush g2 = some g3 := by
    rcases o4 with o4 | o4 | o4 | o4
    · omega
    · omega
    · omega
    · obtain ⟨_, r0, rest, p1, p2, p3, p4, p5⟩ := o4
      obtain ⟨s, s1, s2, s3⟩ := Bitmap.toString_some p4 _ (Nat.le_refl _)
      have hlen : s.length ≤ 2097153 := by
        rw [s2]
        by_cases h : Bitmap.nbits g2.bm = 0
        · simp [Bitmap.nbytes, h]
        · have := p4.max _ ((Bitmap.nbits_spec p4).2 h)
          unfold Bitmap.nbytes
          omega
      have hbig : (putBignum s).length ≤ 2097158 := by
        have := skipZeros_length s
        unfold putBignum
        simp only
        split
        · simp [str]
        · split <;> simp only [str, List.length_append, List.length_cons, be_length] at this ⊢ <;> omega
      unfold flush
      rw [if_pos b3]
      simp only [putBitmap, s1, Option.map_some]
      unfold putStr
      rw [if_neg (by rw [p3]; simp; omega)]
      exact ⟨_, rfl⟩
  obtain ⟨g3, hg3⟩ := hfl
  obtain ⟨body, f1, f2⟩ := flush_spec (by omega) o4 hg3
  rw [b3] at f1 f2
  refine ⟨body, ?_, f1⟩
  unfold genSerials
  rw [hloop]
  simp only
  rw [if_pos (by omega), hg3]
  simp [f2, b2]

omit [DecidableEq K] in
/-- A bitmap reaching 16384 or more beyond its start is refused. -/
theorem readSub_wide (ca : Option K) {body : Bytes} {rs : List Range} (h : IsSec 0x22 body rs) (hw : WFS rs) {m : Nat}
    (hm : Cov rs m) (hwide : ∀ r ∈ rs.head?, r.lo + 16384 ≤ m) : readSub ca 0x22 body = none := by
  obtain ⟨hlen, h | h | ⟨-, r0, rest, bm, s, hrs, hbm, hs, rfl, hbits⟩⟩ := h
  · omega
  · omega
  · have h0 := hw.each r0 (by simp [hrs])
    have hge := hwide r0 (by simp [hrs])
    obtain ⟨s', hs', hsl, hsb⟩ := Bitmap.toString_some hbm (Bitmap.nbytes bm) (Nat.le_refl _)
    rw [hs] at hs'
    simp only [Option.some.injEq] at hs'
    subst hs'
    have hnb := Bitmap.nbits_spec hbm
    have hsmall : s.length < 134217000 := by
      rw [hsl]
      by_cases h : Bitmap.nbits bm = 0
      · simp [Bitmap.nbytes, h]
      · have := hbm.max _ (hnb.2 h)
        unfold Bitmap.nbytes
        omega
    have hbit : Bitmap.wt bm.d (m - r0.lo) = true := (hbits _).2 (by rwa [show r0.lo + (m - r0.lo) = m by omega])
    have hbig : (SshBuf.skipZeros s).length > 2048 := by
      apply Classical.byContradiction
      intro hc
      have := Bitmap.ofBE_testBit_ge (SshBuf.skipZeros s) (m - r0.lo) (by omega)
      rw [skipZeros_ofBE, hsb, hbit] at this
      simp at this
    have h2 : getInt 8 (be 8 r0.lo ++ putBignum s) = some (r0.lo, putBignum s) := getInt_append _ _ _ (by omega)
    simp [readSub, h2, getBignum_put s hsmall, if_pos hbig]

end Verif.Krl
