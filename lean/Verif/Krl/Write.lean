/-
What the serial-number writer emits: a sequence of sections that partition the ranges.
-/
import Verif.Krl.Check
import Verif.Bitmap.Props

namespace Verif.Krl
open Verif Wire RB

/-- A sequence of typed sections. -/
def encs : List (Nat × Bytes) → Bytes
  | [] => []
  | s :: r => UInt8.ofNat s.1 :: str s.2 ++ encs r

theorem encs_append (a b : List (Nat × Bytes)) : encs (a ++ b) = encs a ++ encs b := by
  induction a with
  | nil => rfl
  | cons s a ih => simp [encs, ih]

def listEnc (r : Range) : Bytes := listBytes r.lo ((1 + (r.hi - r.lo)) % U64)

/-- `body` is the encoding of the ranges `rs` as a section of type `t`. -/
def IsSec (t : Nat) (body : Bytes) (rs : List Range) : Prop :=
  body.length ≤ maxString ∧
  ((t = 0x20 ∧ body = rs.flatMap listEnc) ∨
   (t = 0x21 ∧ ∃ r, rs = [r] ∧ body = be 8 r.lo ++ be 8 r.hi) ∨
   (t = 0x22 ∧ ∃ r0 rest bm s, rs = r0 :: rest ∧ Bitmap.Inv bm ∧ Bitmap.toString bm (Bitmap.nbytes bm) = some s ∧
      body = be 8 r0.lo ++ putBignum s ∧ ∀ i, Bitmap.wt bm.d i = true ↔ Cov rs (r0.lo + i)))

/-- The section being built holds exactly `rs`. -/
def Pend (g : Gen) (rs : List Range) : Prop :=
  (g.state = 0 ∧ rs = []) ∨
  (g.state = 0x20 ∧ g.sect = rs.flatMap listEnc) ∨
  (g.state = 0x21 ∧ ∃ r, rs = [r] ∧ g.sect = be 8 r.lo ++ be 8 r.hi) ∨
  (g.state = 0x22 ∧ ∃ r0 rest, rs = r0 :: rest ∧ g.start = r0.lo ∧ g.sect = be 8 r0.lo ∧ Bitmap.Inv g.bm ∧
      ∀ i, Bitmap.wt g.bm.d i = true ↔ Cov rs (r0.lo + i))

theorem flush_spec {g g' : Gen} {rs : List Range} (hs : g.state ≠ 0) (hp : Pend g rs) (h : flush g = some g') :
    ∃ body, IsSec g.state body rs ∧ g' = { g with out := g.out ++ encs [(g.state, body)], sect := [] } := by
  unfold flush at h
  split at h
  · simp at h
  · rename_i sect hsect
    split at h
    · simp at h
    · rename_i s hstr
      unfold putStr at hstr
      split at hstr
      · simp at hstr
      · rename_i hlen
        simp only [Option.some.injEq] at hstr h
        subst hstr h
        refine ⟨sect, ⟨by omega, ?_⟩, by simp [encs]⟩
        rcases hp with h1 | h1 | h1 | h1
        · exact absurd h1.1 hs
        · rw [if_neg (by omega)] at hsect
          simp only [Option.some.injEq] at hsect
          exact .inl ⟨h1.1, hsect ▸ h1.2⟩
        · rw [if_neg (by omega)] at hsect
          simp only [Option.some.injEq] at hsect
          exact .inr (.inl ⟨h1.1, hsect ▸ h1.2⟩)
        · rw [if_pos h1.1] at hsect
          obtain ⟨h2, r0, rest, h3, h4, h5, h6, h7⟩ := h1
          unfold putBitmap at hsect
          cases hb : Bitmap.toString g.bm (Bitmap.nbytes g.bm) with
          | none => simp [hb] at hsect
          | some v =>
            simp only [hb, Option.map_some, Option.some.injEq] at hsect
            exact .inr (.inr ⟨h2, r0, rest, g.bm, v, h3, h6, hb, by rw [← hsect, h5], h7⟩)

theorem setBits_some (n : Nat) : ∀ {b b' : Bitmap.Bitmap} {off : Nat}, Bitmap.Inv b → off < 4294967296 →
    setBits b off n = some b' →
    Bitmap.Inv b' ∧ ∀ m, Bitmap.wt b'.d m = true ↔ (off ≤ m ∧ m < off + n) ∨ Bitmap.wt b.d m = true := by
  induction n with
  | zero =>
    intro b b' off hb _ h
    simp only [setBits, Option.some.injEq] at h
    subst h
    refine ⟨hb, fun m => ?_⟩
    constructor
    · exact .inr
    · rintro (h | h)
      · omega
      · exact h
  | succ n ih =>
    intro b b' off hb ho h
    unfold setBits at h
    split at h
    · simp at h
    · rename_i b1 h1
      rw [Nat.mod_eq_of_lt ho] at h1
      obtain ⟨s1, s2, s3⟩ := Bitmap.setBit_some hb h1
      obtain ⟨i1, i2⟩ := ih s1 (by omega) h
      refine ⟨i1, fun m => ?_⟩
      rw [i2, s3]
      simp only [Bool.or_eq_true, decide_eq_true_eq]
      constructor
      · rintro (h | h | h)
        · exact .inl (by omega)
        · exact .inl (by omega)
        · exact .inr h
      · rintro (h | h)
        · by_cases hm : m = off
          · exact .inr (.inl hm)
          · exact .inl (by omega)
        · exact .inr (.inr h)

theorem wt_new (m : Nat) : Bitmap.wt Bitmap.new.d m = false := Bitmap.wt_zeros 1 m

/-- A section just started, or one in progress: adding a range extends it by exactly that range. -/
theorem addRange_spec {g g' : Gen} {rs : List Range} {r : Range} (h1 : 1 ≤ r.lo) (h2 : r.lo ≤ r.hi) (h3 : r.hi < U64)
    (hst : g.state = 0x20 ∨ g.state = 0x21 ∨ g.state = 0x22)
    (hp : (g.state ≠ 0x21 ∧ Pend g rs ∧ ∀ q ∈ rs, q.lo ≤ r.lo) ∨
      (rs = [] ∧ g.sect = (if g.state = 0x22 then be 8 r.lo else []) ∧
        (g.state = 0x22 → g.start = r.lo ∧ g.bm = Bitmap.new)))
    (h : addRange g r ((1 + (r.hi - r.lo)) % U64) = some g') :
    g'.out = g.out ∧ g'.state = g.state ∧ Pend g' (rs ++ [r]) := by
  have hcontig : (1 + (r.hi - r.lo)) % U64 = 1 + (r.hi - r.lo) := Nat.mod_eq_of_lt (by omega)
  unfold addRange at h
  rcases hst with hst | hst | hst
  · rw [if_pos hst] at h
    simp only [Option.some.injEq] at h
    subst h
    refine ⟨rfl, rfl, .inr (.inl ⟨hst, ?_⟩)⟩
    rw [List.flatMap_append]
    simp only [List.flatMap_cons, List.flatMap_nil, List.append_nil]
    show g.sect ++ listEnc r = _
    congr 1
    rcases hp with ⟨_, hp, _⟩ | ⟨rfl, hp, _⟩
    · rcases hp with hp | hp | hp | hp
      · omega
      · exact hp.2
      · omega
      · omega
    · rw [hp]; simp [hst]
  · rw [if_neg (by omega), if_pos hst] at h
    simp only [Option.some.injEq] at h
    subst h
    refine ⟨rfl, rfl, .inr (.inr (.inl ⟨hst, r, ?_⟩))⟩
    rcases hp with ⟨hp, _⟩ | ⟨rfl, hp, _⟩
    · exact absurd hst hp
    · simp [hp, hst]
  · rw [if_neg (by omega), if_neg (by omega), if_pos hst] at h
    split at h
    · simp at h
    · rename_i hoff
      split at h
      · simp at h
      · rename_i bm hbm
        simp only [Option.some.injEq] at h
        subst h
        refine ⟨rfl, rfl, .inr (.inr (.inr ⟨hst, ?_⟩))⟩
        rw [hcontig] at hbm
        rcases hp with ⟨_, hp, hle⟩ | ⟨rfl, hp, hp2⟩
        · rcases hp with hp | hp | hp | hp
          · omega
          · omega
          · omega
          · obtain ⟨_, r0, rest, rfl, e1, e2, e3, e4⟩ := hp
            have hle0 := hle r0 (by simp)
            obtain ⟨s1, s2⟩ := setBits_some _ e3 (by omega) hbm
            refine ⟨r0, rest ++ [r], rfl, e1, e2, s1, fun i => ?_⟩
            show Bitmap.wt bm.d i = true ↔ _
            rw [s2, e4, show r0 :: rest ++ [r] = (r0 :: rest) ++ [r] from rfl, Cov_append, Cov_cons r [], e1]
            simp only [Cov_nil, or_false]
            constructor
            · rintro (h | h)
              · exact .inr (by omega)
              · exact .inl h
            · rintro (h | h)
              · exact .inr h
              · exact .inl (by omega)
        · obtain ⟨e1, e2⟩ := hp2 hst
          rw [e2] at hbm
          obtain ⟨s1, s2⟩ := setBits_some _ Bitmap.new_inv (by omega) hbm
          refine ⟨r, [], rfl, e1, by rw [hp, if_pos hst], s1, fun i => ?_⟩
          show Bitmap.wt bm.d i = true ↔ _
          simp only [List.nil_append]
          rw [s2, wt_new, Cov_cons]
          simp only [Cov_nil, or_false, Bool.false_eq_true, e1]
          omega

theorem pickState_fst (a b c d : Nat) :
    ((pickState a b c d).1 = 0x20 ∨ (pickState a b c d).1 = 0x21 ∨ (pickState a b c d).1 = 0x22) ∧
    ((pickState a b c d).2 = true → (pickState a b c d).1 = 0x22) := by
  by_cases h1 : b < a
  · by_cases h2 : c < b
    · by_cases h3 : d < c <;> simp [pickState, h1, h2, h3]
    · by_cases h3 : d < b <;> simp [pickState, h1, h2, h3]
  · by_cases h2 : c < a
    · by_cases h3 : d < c <;> simp [pickState, h1, h2, h3]
    · by_cases h3 : d < a <;> simp [pickState, h1, h2, h3]

theorem chooseNextState_fst (state contig : Nat) (final : Bool) (lg ng : Nat) :
    ((chooseNextState state contig final lg ng).1 = 0x20 ∨ (chooseNextState state contig final lg ng).1 = 0x21 ∨
      (chooseNextState state contig final lg ng).1 = 0x22) ∧
    ((chooseNextState state contig final lg ng).2 = true → (chooseNextState state contig final lg ng).1 = 0x22) := by
  unfold chooseNextState
  exact pickState_fst _ _ _ _

/-- The whole output so far plus the pending section account for `done`. -/
def GInv (g : Gen) (done : List Range) : Prop :=
  ∃ secs : List ((Nat × Bytes) × List Range), ∃ pend, g.out = encs (secs.map Prod.fst) ∧
    done = secs.flatMap Prod.snd ++ pend ∧ (∀ s ∈ secs, IsSec s.1.1 s.1.2 s.2) ∧ Pend g pend

theorem genStep_spec {g g' : Gen} {done : List Range} {r : Range} (next : Option Range)
    (h1 : 1 ≤ r.lo) (h2 : r.lo ≤ r.hi) (h3 : r.hi < U64) (hdone : ∀ q ∈ done, q.lo ≤ r.lo)
    (hg : GInv g done) (h : genStep g r next = some g') : GInv g' (done ++ [r]) ∧ g'.state ≠ 0 := by
  unfold genStep at h
  simp only at h
  generalize hc : chooseNextState _ _ _ _ _ = c at h
  have hc1 : (c.1 = 0x20 ∨ c.1 = 0x21 ∨ c.1 = 0x22) ∧ (c.2 = true → c.1 = 0x22) := by
    rw [← hc]; exact chooseNextState_fst _ _ _ _ _
  obtain ⟨secs, pend, o1, o2, o3, o4⟩ := hg
  have main : ∀ (g1 : Gen) (secs : List ((Nat × Bytes) × List Range)) (pend : List Range),
      g1.out = encs (secs.map Prod.fst) → done = secs.flatMap Prod.snd ++ pend → (∀ s ∈ secs, IsSec s.1.1 s.1.2 s.2) →
      (((c.1 ≠ g1.state ∨ c.2 = true) ∧ pend = []) ∨ (pend = [] ∧ g1.state = 0x21 ∧ g1.sect = []) ∨
        (c.2 = false ∧ c.1 = g1.state ∧ g1.state ≠ 0x21 ∧ Pend g1 pend)) →
      addRange (startSect g1 c.1 c.2 r.lo) r ((1 + (r.hi - r.lo)) % U64) = some g' →
      GInv g' (done ++ [r]) ∧ g'.state ≠ 0 := by
    intro g1 secs pend o1 o2 o3 o4 h
    have hstate : (startSect g1 c.1 c.2 r.lo).state = c.1 := by
      unfold startSect
      split
      · split <;> rfl
      · rename_i hh
        simp only [ne_eq, not_or, Decidable.not_not] at hh
        exact hh.1.symm
    have hout : (startSect g1 c.1 c.2 r.lo).out = g1.out := by
      unfold startSect
      split
      · split <;> rfl
      · rfl
    have := addRange_spec (rs := pend) h1 h2 h3 (by rw [hstate]; exact hc1.1) ?_ h
    · obtain ⟨a1, a2, a3⟩ := this
      refine ⟨⟨secs, pend ++ [r], by rw [a1, hout, o1], by rw [o2, List.append_assoc], o3, a3⟩, ?_⟩
      rw [a2, hstate]
      omega
    · rw [hstate]
      by_cases hnew : c.1 ≠ g1.state ∨ c.2 = true
      · have hpe : pend = [] := by
          rcases o4 with o4 | o4 | o4
          · exact o4.2
          · exact o4.1
          · rcases hnew with hn | hn
            · exact absurd o4.2.1 hn
            · rw [o4.1] at hn; simp at hn
        refine .inr ⟨hpe, ?_, ?_⟩
        · unfold startSect
          rw [if_pos hnew]
          split <;> rfl
        · intro h22
          unfold startSect
          rw [if_pos hnew, if_pos h22]
          exact ⟨rfl, rfl⟩
      · have hs : startSect g1 c.1 c.2 r.lo = g1 := by unfold startSect; rw [if_neg hnew]
        rw [hs]
        rcases o4 with o4 | o4 | o4
        · exact absurd o4.1 hnew
        · have hc21 : c.1 = 0x21 := by
            apply Classical.byContradiction
            intro hh
            exact hnew (.inl (by rw [o4.2.1]; exact hh))
          refine .inr ⟨o4.1, by rw [o4.2.2, if_neg (by omega)], fun h => by omega⟩
        · refine .inl ⟨by rw [o4.2.1]; exact o4.2.2.1, o4.2.2.2, fun q hq => hdone q (by rw [o2]; simp [hq])⟩
  by_cases hf : g.state ≠ 0 ∧ (c.2 = true ∨ c.1 ≠ g.state ∨ g.state = 0x21)
  · rw [if_pos hf] at h
    split at h
    · simp at h
    · rename_i g1 hfl
      obtain ⟨body, f1, f2⟩ := flush_spec hf.1 o4 hfl
      apply main g1 (secs ++ [((g.state, body), pend)]) [] _ _ _ _ h
      · rw [f2]; simp [encs_append, o1]
      · simp [o2]
      · intro s hs
        rcases List.mem_append.1 hs with hs | hs
        · exact o3 s hs
        · simp only [List.mem_singleton] at hs
          subst hs; exact f1
      · rw [f2]
        simp only
        rcases hf.2 with h | h | h
        · exact .inl ⟨.inr h, trivial⟩
        · exact .inl ⟨.inl h, trivial⟩
        · exact .inr (.inl ⟨trivial, h, trivial⟩)
  · rw [if_neg hf] at h
    apply main g secs pend o1 o2 o3 _ h
    by_cases h0 : g.state = 0
    · refine .inl ⟨.inl (by omega), ?_⟩
      rcases o4 with o4 | o4 | o4 | o4
      · exact o4.2
      all_goals omega
    · refine .inr (.inr ⟨?_, ?_, ?_, o4⟩)
      · cases hh : c.2 with
        | false => rfl
        | true => exact absurd ⟨h0, .inl hh⟩ hf
      · apply Classical.byContradiction
        intro hh
        exact hf ⟨h0, .inr (.inl hh)⟩
      · intro hh
        exact hf ⟨h0, .inr (.inr hh)⟩

theorem genLoop_spec (l : List Range) : ∀ {g g' : Gen} {done : List Range}, WFS (done ++ l) → GInv g done →
    genLoop g l = some g' → GInv g' (done ++ l) ∧ (l ≠ [] → g'.state ≠ 0) := by
  induction l with
  | nil =>
    intro g g' done _ hg h
    simp only [genLoop, Option.some.injEq] at h
    subst h
    simpa using hg
  | cons r l ih =>
    intro g g' done hw hg h
    unfold genLoop at h
    split at h
    · simp at h
    · rename_i g1 h1
      have hr := hw.each r (by simp)
      have hgap := List.pairwise_append.1 hw.gap
      obtain ⟨s1, s2⟩ := genStep_spec l.head? hr.1 hr.2.1 hr.2.2 (fun q hq => by
        have := hgap.2.2 q hq r (by simp)
        have := hw.each q (by simp [hq])
        omega) hg h1
      have := ih (done := done ++ [r]) (by simpa using hw) s1 h
      refine ⟨by simpa using this.1, fun _ => ?_⟩
      by_cases hl : l = []
      · subst hl; simp only [genLoop, Option.some.injEq] at h; subst h; exact s2
      · exact this.2 hl

/-- The serials writer emits sections that partition the list of ranges. -/
theorem genSerials_spec {l : List Range} {b : Bytes} (hw : WFS l) (h : genSerials l = some b) :
    ∃ secs : List ((Nat × Bytes) × List Range), b = encs (secs.map Prod.fst) ∧ l = secs.flatMap Prod.snd ∧
      ∀ s ∈ secs, IsSec s.1.1 s.1.2 s.2 := by
  unfold genSerials at h
  split at h
  · simp at h
  · rename_i g hg
    obtain ⟨⟨secs, pend, o1, o2, o3, o4⟩, _⟩ := genLoop_spec l (done := []) (by simpa using hw)
      ⟨[], [], rfl, rfl, by simp, .inl ⟨rfl, rfl⟩⟩ hg
    simp only [List.nil_append] at o2
    split at h
    · rename_i hs
      cases hf : flush g with
      | none => simp [hf] at h
      | some g1 =>
        obtain ⟨body, f1, f2⟩ := flush_spec hs o4 hf
        simp only [hf, Option.map_some, Option.some.injEq] at h
        refine ⟨secs ++ [((g.state, body), pend)], ?_, ?_, ?_⟩
        · rw [← h, f2]; simp [encs_append, o1]
        · simp [o2]
        · intro s hs
          rcases List.mem_append.1 hs with hs | hs
          · exact o3 s hs
          · simp only [List.mem_singleton] at hs
            subst hs; exact f1
    · rename_i hs
      simp only [Option.some.injEq] at h
      rcases o4 with o4 | o4 | o4 | o4
      · exact ⟨secs, by rw [← h, o1], by rw [o2, o4.2, List.append_nil], o3⟩
      all_goals omega

end Verif.Krl
