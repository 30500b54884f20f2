/-
C11 and C12: what a KRL revokes, and whether writing and reading it back preserves that.
-/
import Verif.Krl.Wide

namespace Verif.Krl
open Verif Wire RB

variable {K : Type} [DecidableEq K]

/-- C11: after any sequence of revocation calls (whatever the shapes of the search trees), checking a key
or certificate reports it revoked exactly when some call covers it. -/
theorem C11_check (E : Env K) (cmds : List (Cmd K)) (hv : ∀ c ∈ cmds, c.valid) (key : Key K) :
    checkKey E (runCalls E init cmds) key = true ↔ ∃ c ∈ cmds, Hits E key c := by
  obtain ⟨h1, h2⟩ := runCalls_spec E cmds init init_wf hv
  rw [checkKey_iff E h1]
  simp only [h2, init_holds, false_or, hits_iff]
  constructor
  · rintro ⟨a, ⟨c, hc, ha⟩, hit⟩; exact ⟨c, hc, a, ha, hit⟩
  · rintro ⟨c, hc, a, ha, hit⟩; exact ⟨a, ⟨c, hc, ha⟩, hit⟩

/-- C11, serial ranges: a certificate of a CA is revoked by serial exactly when some range revoked for that
CA or for all CAs contains it; overlapping, adjacent and nested ranges in any order make no difference. -/
theorem C11_ranges (E : Env K) (rs : List (Option K × Nat × Nat))
    (hr : ∀ r ∈ rs, 1 ≤ r.2.1 ∧ r.2.1 < U64 ∧ r.2.2 < U64) (pub : K) (c : Cert K) (h0 : 0 < c.serial) :
    checkKey E (runCalls E init (rs.map (fun r => Cmd.range r.1 r.2.1 r.2.2))) ⟨pub, some c⟩ = true ↔
      ∃ r ∈ rs, (r.1 = none ∨ r.1 = some c.ca) ∧ r.2.1 ≤ c.serial ∧ c.serial ≤ r.2.2 := by
  rw [C11_check E _ (by
    intro x hx
    obtain ⟨r, hm, rfl⟩ := List.mem_map.1 hx
    have := hr r hm
    exact ⟨by omega, by omega⟩)]
  constructor
  · rintro ⟨x, hx, hit⟩
    obtain ⟨r, hm, rfl⟩ := List.mem_map.1 hx
    obtain ⟨c', hc', h1, h2, h3, h4, h5⟩ := hit
    cases hc'
    exact ⟨r, hm, h1, h4, h5⟩
  · rintro ⟨r, hm, h1, h2, h3⟩
    have := hr r hm
    exact ⟨_, List.mem_map.2 ⟨r, hm, rfl⟩, c, rfl, h1, by omega, h0, h2, h3⟩

/-- C11, order: any reordering of the calls gives the same verdicts. -/
theorem C11_order (E : Env K) (a b : List (Cmd K)) (h : ∀ c, c ∈ a ↔ c ∈ b) (hv : ∀ c ∈ a, c.valid) (key : Key K) :
    checkKey E (runCalls E init a) key = checkKey E (runCalls E init b) key := by
  rw [Bool.eq_iff_iff, C11_check E a hv, C11_check E b (fun c hc => hv c ((h c).2 hc))]
  simp only [h]

/-- A KRL as a caller can build it: header values set, then revocation calls. -/
def build (E : Env K) (version date flags : Nat) (comment : Bytes) (cmds : List (Cmd K)) : Krl K :=
  { runCalls E init cmds with version := version, date := date, flags := flags, comment := comment }

theorem build_wf (E : Env K) {v d f : Nat} {c : Bytes} {cmds : List (Cmd K)} (hv : ∀ c ∈ cmds, c.valid) :
    WF (build E v d f c cmds) ∧ ∀ a, Holds (build E v d f c cmds) a ↔ ∃ c ∈ cmds, Adds c a := by
  obtain ⟨h1, h2⟩ := runCalls_spec E cmds init init_wf hv
  refine ⟨⟨h1.keys, h1.sha1s, h1.sha256s, h1.len1, h1.len2, h1.distinct, h1.each⟩, fun a => ?_⟩
  have := h2 a
  simp only [init_holds, false_or] at this
  rw [← this]
  cases a <;> rfl

/-- C12, verdicts: a KRL that was written and read back has the same header and reports exactly the same keys
and certificates revoked.  (Missing from the full claim: that reading always succeeds, which is false,
see `C12_unreadable`; `C12_readable` gives a sufficient condition.) -/
theorem C12_verdicts_partial (E : Env K) (hE : ∀ k, E.deser (E.ser k) = some k ∧ E.ser k ≠ [])
    (v d f : Nat) (c : Bytes) (cmds : List (Cmd K)) (hv : ∀ c ∈ cmds, c.valid)
    (hh : v < U64 ∧ d < U64 ∧ f < U64 ∧ 0 ∉ c) (b : Bytes) (k' : Krl K)
    (hw : toBlob E (build E v d f c cmds) = some b) (hr : fromBlob E b = some k') :
    (k'.version = v ∧ k'.date = d ∧ k'.flags = f ∧ k'.comment = c) ∧
    ∀ key, checkKey E k' key = true ↔ ∃ c ∈ cmds, Hits E key c := by
  obtain ⟨h1, h2⟩ := build_wf E (v := v) (d := d) (f := f) (c := c) hv
  obtain ⟨g1, g2, g3⟩ := (blob_roundtrip E hE h1 ⟨hh.1, hh.2.1, hh.2.2.1, hh.2.2.2⟩ hw).1 k' hr
  refine ⟨g3, fun key => ?_⟩
  rw [checkKey_iff E g1]
  simp only [g2, h2, hits_iff]
  constructor
  · rintro ⟨a, ⟨c, hc, ha⟩, hit⟩; exact ⟨c, hc, a, ha, hit⟩
  · rintro ⟨c, hc, a, ha, hit⟩; exact ⟨a, ⟨c, hc, ha⟩, hit⟩

/-- Serials revoked by the calls for a CA. -/
def RevokedSerial (cmds : List (Cmd K)) (ca : Option K) (n : Nat) : Prop :=
  ∃ lo hi, Cmd.range ca lo hi ∈ cmds ∧ 0 < lo ∧ lo ≤ n ∧ n ≤ hi

/-- C12, readability: what was written can be read back whenever, for each CA, the revoked serials lie within
16384 of each other. -/
theorem C12_readable (E : Env K) (hE : ∀ k, E.deser (E.ser k) = some k ∧ E.ser k ≠ [])
    (v d f : Nat) (c : Bytes) (cmds : List (Cmd K)) (hv : ∀ c ∈ cmds, c.valid)
    (hh : v < U64 ∧ d < U64 ∧ f < U64 ∧ 0 ∉ c) (b : Bytes)
    (hn : ∀ ca m n, RevokedSerial cmds ca m → RevokedSerial cmds ca n → m < n + 16384)
    (hw : toBlob E (build E v d f c cmds) = some b) : (fromBlob E b).isSome := by
  obtain ⟨h1, h2⟩ := build_wf E (v := v) (d := d) (f := f) (c := c) hv
  refine (blob_roundtrip E hE h1 ⟨hh.1, hh.2.1, hh.2.2.1, hh.2.2.2⟩ hw).2 ?_
  have key : ∀ rc ∈ (build E v d f c cmds).certs, ∀ n, Cov rc.serials n → RevokedSerial cmds rc.ca n := by
    intro rc hrc n hc
    obtain ⟨x, hx, ha⟩ := (h2 (.serial rc.ca n)).1 ⟨rc, hrc, rfl, hc⟩
    cases x with
    | range ca lo hi => obtain ⟨h3, h4, h5, h6⟩ := ha; subst h3; exact ⟨lo, hi, hx, h4, h5, h6⟩
    | _ => exact ha.elim
  intro rc hrc m n hm hn'
  exact hn rc.ca m n (key rc hrc m hm) (key rc hrc n hn')

theorem runCalls_single (E : Env K) (k : Krl K) (rs : List (Nat × Nat)) : ∀ (l : List Range),
    ∃ l', runCalls E { k with certs := [⟨none, l, []⟩] } (rs.map (fun r => Cmd.range none r.1 r.2)) =
      { k with certs := [⟨none, l', []⟩] } := by
  induction rs with
  | nil => intro l; exact ⟨l, rfl⟩
  | cons r rs ih =>
    intro l
    rw [List.map_cons, runCalls, apply1]
    split
    · exact ih l
    · simp only [Option.getD_some, updateCerts, if_pos]
      exact ih _

/-- C12 is false as stated: revoking the serials 1, 3, 5, …, 2n-1 (for any CA) gives a KRL that is written
without error and then refused when read, for every 8193 ≤ n ≤ 2^23. -/
theorem C12_unreadable (E : Env K) (n : Nat) (h1 : 8193 ≤ n) (h2 : 2 * n ≤ 16777216) :
    ∃ b, toBlob E (build E 0 0 0 [] ((List.range n).map (fun i => Cmd.range none (2 * i + 1) (2 * i + 1)))) = some b ∧
      fromBlob E b = none := by
  have hcmds : (List.range n).map (fun i => Cmd.range (none : Option K) (2 * i + 1) (2 * i + 1)) =
      ((List.range n).map (fun i => (2 * i + 1, 2 * i + 1))).map (fun r => Cmd.range none r.1 r.2) := by
    rw [List.map_map]; rfl
  have hv : ∀ c ∈ (List.range n).map (fun i => Cmd.range (none : Option K) (2 * i + 1) (2 * i + 1)), c.valid := by
    intro c hc
    obtain ⟨i, hi, rfl⟩ := List.mem_map.1 hc
    rw [List.mem_range] at hi
    exact ⟨by omega, by omega⟩
  obtain ⟨l, hl⟩ : ∃ l, runCalls E (init : Krl K)
      ((List.range n).map (fun i => Cmd.range (none : Option K) (2 * i + 1) (2 * i + 1))) =
      { (init : Krl K) with certs := [⟨none, l, []⟩] } := by
    rw [hcmds]
    obtain ⟨m, rfl⟩ : ∃ m, n = m + 1 := ⟨n - 1, by omega⟩
    rw [List.range_succ_eq_map, List.map_cons, List.map_cons, runCalls, apply1]
    rw [if_neg (by simp)]
    simp only [Option.getD_some]
    exact runCalls_single E init _ _
  obtain ⟨w1, w2⟩ := runCalls_spec E _ init init_wf hv
  rw [hl] at w1 w2
  have hlo : l = odds 0 n := by
    refine WFS.unique l (w1.each ⟨none, l, []⟩ (by simp)).serials (odds_wfs n (by omega)) (fun m => ?_)
    have := w2 (.serial none m)
    simp only [Holds, init_holds, false_or, List.mem_singleton, exists_eq_left] at this
    simp only [true_and, List.mem_map, List.mem_range] at this
    rw [odds_cov]
    have hi : ¬ ∃ rc, rc ∈ (init : Krl K).certs ∧ rc.ca = none ∧ Cov rc.serials m := by simp [init]
    rw [this]
    constructor
    · rintro (h | ⟨c, ⟨i, hi, rfl⟩, ha⟩)
      · exact absurd h hi
      · obtain ⟨_, h3, h4, h5⟩ := ha
        exact ⟨i, hi, by omega⟩
    · rintro ⟨j, hj, rfl⟩
      exact .inr ⟨_, ⟨j, hj, rfl⟩, rfl, by omega, by omega, by omega⟩
  subst hlo
  obtain ⟨body, hgen, hsec⟩ := genSerials_odds n (by omega) h2
  have hwide : readSub (none : Option K) 0x22 body = none := by
    refine readSub_wide none hsec (odds_wfs n (by omega)) (m := 2 * (n - 1) + 1)
      ((odds_cov n 0 _).2 ⟨n - 1, by omega, by omega⟩) ?_
    intro r hr
    obtain ⟨m, rfl⟩ : ∃ m, n = m + 1 := ⟨n - 1, by omega⟩
    simp only [odds, List.head?_cons, Option.mem_def, Option.some.injEq] at hr
    subst hr
    show 2 * 0 + 1 + 16384 ≤ _
    omega
  have hlen := hsec.1
  have hsub : ∀ fuel, 0 < fuel → readSubs (none : Option K) fuel (encs [(0x22, body)]) = none := by
    intro fuel hf
    obtain ⟨fuel, rfl⟩ : ∃ f, fuel = f + 1 := ⟨fuel - 1, by omega⟩
    rw [encs, List.cons_append, readSubs]
    · rw [getInt_one _ _ (by omega)]
      simp only
      rw [getStr_append _ _ hlen]
      simp [hwide, both]
    · simp
  -- bound on the bitmap section
  have hbl : body.length ≤ 2097200 := by
    obtain ⟨_, h | h | ⟨-, r0, rest, bm, s, hrs, hbm, hs, hb, hbits⟩⟩ := hsec
    · omega
    · omega
    · obtain ⟨s', hs', hsl, hsb⟩ := Bitmap.toString_some hbm (Bitmap.nbytes bm) (Nat.le_refl _)
      rw [hs] at hs'
      simp only [Option.some.injEq] at hs'
      subst hs'
      have h3 : s.length ≤ 2097153 := by
        rw [hsl]
        by_cases h : Bitmap.nbits bm = 0
        · simp [Bitmap.nbytes, h]
        · have := hbm.max _ ((Bitmap.nbits_spec hbm).2 h)
          unfold Bitmap.nbytes
          omega
      have := skipZeros_length s
      rw [hb, List.length_append, be_length]
      unfold putBignum
      simp only
      split
      · simp [str]
      · split <;> simp only [str, List.length_append, List.length_cons, be_length] at this ⊢ <;> omega
  have hrc : readCerts E (str [] ++ (str [] ++ encs [(0x22, body)])) = none := by
    unfold readCerts
    rw [getStr_append [] _ (by simp)]
    simp only
    rw [getStr_append [] _ (by simp)]
    simp only [if_true]
    exact hsub _ (by simp [encs])
  let certs := str [] ++ (str [] ++ encs [(0x22, body)])
  have hcl : certs.length ≤ maxString := by
    simp only [certs, encs, str, List.length_append, List.length_cons, be_length, List.length_nil]
    omega
  have hgc : genCerts E ⟨none, odds 0 n, []⟩ = some certs := by
    simp [genCerts, putStr, hgen, optSection, putStrs, certs]
  refine ⟨magic ++ be 4 1 ++ be 8 0 ++ be 8 0 ++ be 8 0 ++ str [] ++ str [] ++ encs [(1, certs)], ?_, ?_⟩
  · unfold build
    rw [hl]
    simp [toBlob, genAllCerts, hgc, putStr, putStrs, optSection, init, encs, Nat.not_lt.2 hcl]
  · unfold fromBlob
    simp only [List.append_assoc]
    rw [if_neg (by simp [magic])]
    have hd : ∀ x : Bytes, (magic ++ x).drop 8 = x := fun x => by simp [magic]
    rw [hd, getInt_append _ _ _ (by omega)]
    simp only
    rw [if_neg (by simp), getInt_append _ _ _ (by omega)]
    simp only
    rw [getInt_append _ _ _ (by omega)]
    simp only
    rw [getInt_append _ _ _ (by omega)]
    simp only
    rw [getStr_append [] _ (by simp)]
    simp only
    rw [getCStr_append _ _ (by simp) (by simp)]
    simp only
    have : readSections E (encs [(1, certs)]).length (encs [(1, certs)]) = none := by
      obtain ⟨fuel, hf⟩ : ∃ f, (encs [(1, certs)]).length = f + 1 := ⟨(encs [(1, certs)]).length - 1, by simp [encs]⟩
      rw [hf, encs, List.cons_append, readSections]
      · rw [getInt_one _ _ (by omega)]
        simp only
        rw [getStr_append _ _ hcl]
        have : readSection E 1 certs = none := by simp [readSection, certs, hrc]
        simp [this, both]
      · simp
    rw [this]

/-! Non-trivial cases: keys are strings that serialise to themselves, hashes are dummies. -/

def exEnv : Env Bytes :=
  { ser := id, deser := some, sha1 := fun _ => List.replicate 20 7, sha256 := fun _ => List.replicate 32 9,
    ranges := RB.spine, strings := RB.spine }

/-- Overlapping and adjacent ranges, wildcard and specific CA, key id, plain key. -/
def exCmds : List (Cmd Bytes) :=
  [.range none 5 7, .range none 8 8, .range (some b!"ca") 3 9, .id (some b!"ca") b!"bob", .key b!"k1"]

example : (∀ c ∈ exCmds, c.valid) ∧
    checkKey exEnv (runCalls exEnv init exCmds) ⟨b!"x", some ⟨8, b!"al", b!"other"⟩⟩ = true ∧
    checkKey exEnv (runCalls exEnv init exCmds) ⟨b!"x", some ⟨9, b!"al", b!"other"⟩⟩ = false ∧
    checkKey exEnv (runCalls exEnv init exCmds) ⟨b!"x", some ⟨9, b!"al", b!"ca"⟩⟩ = true ∧
    checkKey exEnv (runCalls exEnv init exCmds) ⟨b!"x", some ⟨20, b!"bob", b!"ca"⟩⟩ = true ∧
    checkKey exEnv (runCalls exEnv init exCmds) ⟨b!"k1", none⟩ = true := by
  refine ⟨?_, ?_⟩
  · intro c hc
    simp only [exCmds, List.mem_cons, List.not_mem_nil, or_false] at hc
    rcases hc with rfl | rfl | rfl | rfl | rfl <;> simp [Cmd.valid]
  · decide

example : ((toBlob exEnv (build exEnv 3 4 0 b!"note" exCmds)).bind (fromBlob exEnv)).map
    (fun k => (k.version, k.comment, checkKey exEnv k ⟨b!"x", some ⟨8, b!"al", b!"other"⟩⟩,
      checkKey exEnv k ⟨b!"x", some ⟨9, b!"al", b!"other"⟩⟩)) = some (3, b!"note", true, false) := by
  decide +kernel

end Verif.Krl
