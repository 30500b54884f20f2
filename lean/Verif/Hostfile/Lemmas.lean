/-
Lemmas: the reading loop against the grammar of lines.
-/
import Verif.Hostfile.Spec
import Verif.Match.Props

namespace Verif.Hostfile
open Verif

theorem isBlank_iff (c : UInt8) : isBlank c = true ↔ (c = 32 ∨ c = 9) := by simp [isBlank]

theorem skip_blanks {w r : Bytes} (hw : Blanks w) (hr : ∀ c, r.head? = some c → c ≠ 32 ∧ c ≠ 9) :
    skipBlanks (w ++ r) = r := by
  unfold skipBlanks
  induction w with
  | nil =>
    cases r with
    | nil => rfl
    | cons c r =>
      have := hr c rfl
      have : isBlank c = false := Bool.eq_false_iff.2 fun h => by
        rcases (isBlank_iff c).1 h with h | h
        · exact this.1 h
        · exact this.2 h
      simp [this]
  | cons x xs ih =>
    rw [List.cons_append, List.dropWhile_cons, if_pos ((isBlank_iff x).2 (hw x (by simp)))]
    exact ih (fun c hc => hw c (by simp [hc]))

theorem skip_split (s : Bytes) : ∃ w, s = w ++ skipBlanks s ∧ Blanks w ∧
    (∀ c, (skipBlanks s).head? = some c → c ≠ 32 ∧ c ≠ 9) := by
  induction s with
  | nil => exact ⟨[], rfl, by simp [Blanks], by simp [skipBlanks]⟩
  | cons x xs ih =>
    by_cases h : isBlank x = true
    · obtain ⟨w, e, hw, hr⟩ := ih
      have hs : skipBlanks (x :: xs) = skipBlanks xs := by simp [skipBlanks, h]
      rw [hs]
      refine ⟨x :: w, by rw [List.cons_append, ← e], ?_, hr⟩
      intro c hc
      rcases List.mem_cons.1 hc with rfl | hc
      · exact (isBlank_iff c).1 h
      · exact hw c hc
    · have hs : skipBlanks (x :: xs) = x :: xs := by simp [skipBlanks, h]
      rw [hs]
      refine ⟨[], rfl, by simp [Blanks], ?_⟩
      intro c hc
      simp at hc; subst hc
      exact ⟨fun e => h ((isBlank_iff _).2 (.inl e)), fun e => h ((isBlank_iff _).2 (.inr e))⟩

theorem word_take {hosts r : Bytes} (hh : ∀ c ∈ hosts, c ≠ 32 ∧ c ≠ 9)
    (hr : ∀ c, r.head? = some c → c = 32 ∨ c = 9) :
    hostsOf (hosts ++ r) = hosts ∧ (hosts ++ r).dropWhile (fun c => !isBlank c) = r := by
  unfold hostsOf
  induction hosts with
  | nil =>
    cases r with
    | nil => exact ⟨rfl, rfl⟩
    | cons c r =>
      have := (isBlank_iff c).2 (hr c rfl)
      simp [this]
  | cons x xs ih =>
    have hx : isBlank x = false := Bool.eq_false_iff.2 fun h => by
      have := hh x (by simp)
      rcases (isBlank_iff x).1 h with h | h
      · exact this.1 h
      · exact this.2 h
    have := ih (fun c hc => hh c (by simp [hc]))
    simp only [List.cons_append, List.takeWhile_cons, List.dropWhile_cons, hx, Bool.not_false, if_true]
    exact ⟨by rw [this.1], this.2⟩

theorem word_split (cp : Bytes) : ∃ r, cp = hostsOf cp ++ r ∧ cp.dropWhile (fun c => !isBlank c) = r ∧
    (∀ c ∈ hostsOf cp, c ≠ 32 ∧ c ≠ 9) ∧ (∀ c, r.head? = some c → c = 32 ∨ c = 9) := by
  refine ⟨cp.dropWhile (fun c => !isBlank c), (List.takeWhile_append_dropWhile).symm, rfl, ?_, ?_⟩
  · unfold hostsOf
    induction cp with
    | nil => simp
    | cons x xs ih =>
      intro c hc
      rw [List.takeWhile_cons] at hc
      by_cases hx : isBlank x = true
      · simp [hx] at hc
      · simp only [hx, Bool.not_false, if_true] at hc
        rcases List.mem_cons.1 hc with rfl | hc
        · exact ⟨fun e => hx ((isBlank_iff c).2 (.inl e)), fun e => hx ((isBlank_iff c).2 (.inr e))⟩
        · exact ih c hc
  · intro c hc
    have := List.head?_dropWhile_not (fun c => !isBlank c) cp
    rw [hc] at this
    simp at this
    exact (isBlank_iff c).1 this

/-- The text after marker and blanks, for the two kinds of lines. -/
theorem head_append {a b : Bytes} (h : a ≠ []) : (a ++ b).head? = a.head? := by
  cases a with
  | nil => exact absurd rfl h
  | cons x xs => rfl

theorem take_no {s r : Bytes} {x : UInt8} (h : x ∉ s) : (s ++ x :: r).takeWhile (· ≠ x) = s := by
  induction s with
  | nil => simp
  | cons a s ih =>
    simp only [List.mem_cons, not_or] at h
    rw [List.cons_append, List.takeWhile_cons, if_pos (by simpa using Ne.symm h.1), ih h.2]

theorem take_split {s : Bytes} {x : UInt8} (h : x ∈ s) :
    ∃ r, s = s.takeWhile (· ≠ x) ++ x :: r ∧ x ∉ s.takeWhile (· ≠ x) := by
  induction s with
  | nil => cases h
  | cons a s ih =>
    by_cases ha : a = x
    · subst ha; exact ⟨s, by simp, by simp⟩
    · rcases List.mem_cons.1 h with h | h
      · exact absurd h.symm ha
      · obtain ⟨r, e, hn⟩ := ih h
        refine ⟨r, ?_, ?_⟩
        · rw [List.takeWhile_cons, if_pos (by simpa using ha), List.cons_append, ← e]
        · rw [List.takeWhile_cons, if_pos (by simpa using ha)]
          simp only [List.mem_cons, not_or]
          exact ⟨Ne.symm ha, hn⟩

theorem markerWord_facts {m : Bytes} {mk : Marker} (h : MarkerWord m mk) :
    m.head? = some 64 ∧ 1 < m.length ∧ m.length < 32 ∧ 32 ∉ m ∧ 9 ∉ m ∧ markerNamed m = some mk ∧ mk ≠ .none := by
  cases h <;> decide

theorem markerNamed_word {m : Bytes} {mk : Marker} (h : markerNamed m = some mk) : MarkerWord m mk := by
  unfold markerNamed at h
  by_cases h1 : m = b!"@cert-authority"
  · rw [if_pos h1] at h; cases h; rw [h1]; exact .ca
  · rw [if_neg h1] at h
    by_cases h2 : m = b!"@revoked"
    · rw [if_pos h2] at h; cases h; rw [h2]; exact .revoke
    · rw [if_neg h2] at h; cases h

/-- `checkMarkers` on a line that begins with a marker word. -/
theorem markers_marked {m b0 r : Bytes} {mk : Marker} (hm : MarkerWord m mk) (hb0 : Blanks b0) (hn : b0 ≠ [])
    (hs : b0.head? = some 32 ∨ 32 ∉ b0 ++ r) (hr : ∀ c, r.head? = some c → c ≠ 32 ∧ c ≠ 9)
    (h1 : r.head? ≠ some 64) : checkMarkers (m ++ (b0 ++ r)) = some (mk, r) := by
  obtain ⟨f1, f2, f3, f4, f5, f6, _⟩ := markerWord_facts hm
  have hne : m ≠ [] := by intro e; rw [e] at f2; exact absurd f2 (by decide)
  have hend : markerEnd (m ++ (b0 ++ r)) = some m := by
    unfold markerEnd
    cases b0 with
    | nil => exact absurd rfl hn
    | cons x xs =>
      rcases hs with hs | hs
      · simp only [List.head?_cons, Option.some.injEq] at hs
        subst hs
        rw [if_pos (by simp), List.cons_append, take_no f4]
      · have hx : x = 9 := by
          rcases hb0 x (by simp) with h | h
          · exact absurd (by rw [h]; simp) hs
          · exact h
        subst hx
        rw [if_neg (by simp only [List.mem_append, not_or] at hs ⊢; exact ⟨f4, hs⟩), if_pos (by simp),
          List.cons_append, take_no f5]
  unfold checkMarkers
  rw [if_neg (by rw [head_append hne, f1]; simp), hend]
  simp only
  rw [if_neg (by simp; omega), f6]
  simp only [List.drop_left]
  rw [skip_blanks hb0 hr, if_neg h1]

/-- ... and the converse. -/
theorem markers_some {cp r : Bytes} {mk : Marker} (h : checkMarkers cp = some (mk, r)) :
    (cp.head? ≠ some 64 ∧ mk = .none ∧ r = cp) ∨
    (∃ m b0, cp = m ++ (b0 ++ r) ∧ MarkerWord m mk ∧ Blanks b0 ∧ b0 ≠ [] ∧
      (b0.head? = some 32 ∨ 32 ∉ b0 ++ r) ∧ (∀ c, r.head? = some c → c ≠ 32 ∧ c ≠ 9) ∧ r.head? ≠ some 64) := by
  unfold checkMarkers at h
  by_cases h0 : cp.head? ≠ some 64
  · rw [if_pos h0] at h
    simp only [Option.some.injEq, Prod.mk.injEq] at h
    exact .inl ⟨h0, h.1.symm, h.2.symm⟩
  · rw [if_neg h0] at h
    cases he : markerEnd cp with
    | none => rw [he] at h; cases h
    | some m =>
      rw [he] at h
      simp only at h
      by_cases hl : (decide (m.length ≤ 1) || decide (m.length ≥ 32)) = true
      · rw [if_pos hl] at h; cases h
      · rw [if_neg hl] at h
        cases hm : markerNamed m with
        | none => rw [hm] at h; cases h
        | some mk' =>
          rw [hm] at h
          simp only at h
          by_cases h2 : (skipBlanks (cp.drop m.length)).head? = some 64
          · rw [if_pos h2] at h; cases h
          · rw [if_neg h2] at h
            simp only [Option.some.injEq, Prod.mk.injEq] at h
            obtain ⟨rfl, rfl⟩ := h
            obtain ⟨b0, e, hb0, hr⟩ := skip_split (cp.drop m.length)
            have hw := markerNamed_word hm
            have key : ∃ x r', cp = m ++ x :: r' ∧ (x = 32 ∨ (x = 9 ∧ 32 ∉ cp)) := by
              unfold markerEnd at he
              by_cases h32 : (32 : UInt8) ∈ cp
              · rw [if_pos h32] at he; injection he with he
                obtain ⟨r', e', _⟩ := take_split h32
                exact ⟨32, r', by rw [← he]; exact e', .inl rfl⟩
              · rw [if_neg h32] at he
                by_cases h9 : (9 : UInt8) ∈ cp
                · rw [if_pos h9] at he; injection he with he
                  obtain ⟨r', e', _⟩ := take_split h9
                  exact ⟨9, r', by rw [← he]; exact e', .inr ⟨rfl, h32⟩⟩
                · rw [if_neg h9] at he; cases he
            obtain ⟨x, r', ecp, hx⟩ := key
            have ed : cp.drop m.length = x :: r' := by rw [ecp, List.drop_left]
            have hbl : isBlank x = true := (isBlank_iff x).2 (by rcases hx with h | h; exact .inl h; exact .inr h.1)
            have hb0n : b0 ≠ [] := by
              intro e0
              rw [e0, List.nil_append] at e
              rw [← e, ed] at hr
              have := hr x rfl
              rcases (isBlank_iff x).1 hbl with h | h
              · exact this.1 h
              · exact this.2 h
            have hhd : b0.head? = some x := by
              rw [← head_append (b := skipBlanks (cp.drop m.length)) hb0n, ← e, ed]; rfl
            refine .inr ⟨m, b0, ?_, hw, hb0, hb0n, ?_, hr, h2⟩
            · rw [← e, ed]; exact ecp
            · rcases hx with hx | ⟨_, hx⟩
              · left; rw [hhd, hx]
              · right
                rw [← e, ed]
                intro hmem
                exact hx (by rw [ecp]; exact List.mem_append_right _ hmem)

/-- Host names, blanks, key. -/
theorem rest_some (cp after : Bytes) (hc : cString after = some []) (key : Bytes) (hk : KeyText key) :
    restOf cp after = some key ↔
      ∃ b, cp = hostsOf cp ++ (b ++ key) ∧ Blanks b ∧ b ≠ [] ∧ (∀ c ∈ hostsOf cp, c ≠ 32 ∧ c ≠ 9) := by
  obtain ⟨k0, kr, rfl, k1, k2, k3⟩ := hk
  obtain ⟨r, e, ed, h1, h2⟩ := word_split cp
  unfold restOf
  rw [ed]
  constructor
  · intro h
    cases r with
    | nil => rw [hc] at h; simp [skipBlanks] at h
    | cons x xs =>
      simp only [Option.some.injEq] at h
      obtain ⟨w, ew, hw, _⟩ := skip_split xs
      rw [h] at ew
      refine ⟨x :: w, ?_, ?_, by simp, h1⟩
      · rw [List.cons_append, ← ew]; exact e
      · intro c hcm
        rcases List.mem_cons.1 hcm with rfl | hcm
        · exact h2 c rfl
        · exact hw c hcm
  · rintro ⟨b, eb, hb, hbn, _⟩
    have er : r = b ++ k0 :: kr := by
      have := e.symm.trans eb
      exact List.append_cancel_left this
    cases b with
    | nil => exact absurd rfl hbn
    | cons x xs =>
      rw [er]
      simp only [List.cons_append, Option.some.injEq]
      exact skip_blanks (fun c hcm => hb c (by simp [hcm])) (by intro c hcm; simp at hcm; rw [← hcm]; exact ⟨k1, k2⟩)

theorem rest_terminated (cp : Bytes) (stale : Bytes) : restOf cp (0 :: stale) ≠ none := by
  unfold restOf cString
  cases cp.dropWhile (fun c => !isBlank c) <;> simp

theorem line_text {l r : Bytes} (h0 : 0 ∉ l) (h10 : 10 ∉ l) :
    lineText (l ++ 10 :: r) = l ∧ afterLine (l ++ 10 :: r) = r := by
  unfold lineText afterLine
  induction l with
  | nil => simp
  | cons x xs ih =>
    simp only [List.mem_cons, not_or] at h0 h10
    have hx : (decide (x ≠ 0) && decide (x ≠ 10)) = true := by
      simp [Ne.symm h0.1, Ne.symm h10.1]
    have := ih h0.2 h10.2
    simp only [List.cons_append, List.takeWhile_cons, List.dropWhile_cons, hx, if_true]
    exact ⟨by rw [this.1], this.2⟩

theorem names_iff {P : Prims} (hP : Base64Ok P) (host hosts : Bytes) :
    matchMaybeHashed P host hosts = some true ↔ Names P host hosts := by
  unfold matchMaybeHashed Names
  by_cases h : hosts.head? = some 124
  · rw [if_pos h]
    constructor
    · intro hm
      right
      cases he : extractSalt P hosts with
      | none => rw [he] at hm; cases hm
      | some salt =>
        rw [he] at hm
        simp only [Option.some.injEq, decide_eq_true_eq] at hm
        refine ⟨salt, ?_, hm⟩
        unfold extractSalt at he
        repeat' split at he
        all_goals (first | (cases he; done) | skip)
        rename_i h20
        injection he with he; subst he
        exact Decidable.not_not.1 h20
    · rintro (⟨h', _⟩ | ⟨salt, hlen, hh⟩)
      · exact absurd h h'
      · have hsz := hP.size salt hlen
        have hdrop : hosts.drop 3 = P.b64enc salt ++ 124 :: P.b64enc (P.hmac salt host) := by
          rw [hh]; simp
        have htw : (hosts.drop 3).takeWhile (· ≠ 124) = P.b64enc salt := by
          rw [hdrop, take_no (hP.sep salt)]
        have he : extractSalt P hosts = some salt := by
          unfold extractSalt
          rw [if_neg (by rw [hh]; simp), if_neg (by rw [hh]; simp), if_neg (by rw [hdrop]; simp), htw,
            if_neg, hP.back salt hlen]
          · simp [hlen]
          · simp only [Bool.or_eq_true, decide_eq_true_eq, not_or]
            refine ⟨fun e => hsz.1 (List.length_eq_zero_iff.1 e), by omega⟩
        rw [he]
        simp only [Option.some.injEq, decide_eq_true_eq]
        exact hh
  · rw [if_neg h]
    simp only [Option.some.injEq, decide_eq_true_eq]
    rw [Match.C06_hostname]
    constructor
    · intro hm; exact .inl ⟨h, hm⟩
    · rintro (⟨_, hm⟩ | ⟨salt, _, hh⟩)
      · exact hm
      · exact absurd (by rw [hh]; rfl) h

/-- What one terminated line contributes. -/
def contributes (P : Prims) (host : Bytes) (mem : Bytes) : Option Entry :=
  match round P host none true mem with
  | .line l => record l
  | _ => none

theorem head_word {hosts r : Bytes} (h : Word hosts) : (hosts ++ r).head? = hosts.head? := head_append h.1

theorem Word.no_blank_head {hosts r : Bytes} (h : Word hosts) :
    ∀ c, (hosts ++ r).head? = some c → c ≠ 32 ∧ c ≠ 9 := by
  intro c hc
  cases hosts with
  | nil => exact absurd rfl h.1
  | cons x xs => simp at hc; subst hc; exact h.2 x (by simp)

theorem round_terminated (P : Prims) (host : Bytes) (ip : Option Bytes) (want : Bool) (l stale : Bytes)
    (h0 : 0 ∉ l) (h10 : 10 ∉ l) : round P host ip want (l ++ 10 :: 0 :: stale) ≠ .overrun := by
  obtain ⟨e1, e2⟩ := line_text (r := 0 :: stale) h0 h10
  unfold round
  rw [e1, e2]
  have hk : ∀ ln cp, keyRound P ln (restOf cp (0 :: stale)) ≠ .overrun := by
    intro ln cp
    cases hr : restOf cp (0 :: stale) with
    | none => exact absurd hr (rest_terminated cp stale)
    | some s =>
      unfold keyRound
      cases s with
      | nil => simp
      | cons c r => simp only; split <;> (try split) <;> simp
  have hm : ∀ t mk h i cp, matchedRound P want t mk h i (restOf cp (0 :: stale)) ≠ .overrun := by
    intro t mk h i cp
    unfold matchedRound
    split
    · simp
    · exact hk _ _
  split
  · split <;> simp
  · split
    · split <;> simp
    · unfold namedRound
      split
      · simp
      · split
        · exact hm _ _ _ _ _
        · split
          · simp
          · exact hm _ _ _ _ _

/-- **The line reader against the grammar.** -/
theorem contributes_iff {P : Prims} (hP : Base64Ok P) (host l stale : Bytes) (h0 : 0 ∉ l) (h10 : 10 ∉ l)
    (e : Entry) : contributes P host (l ++ 10 :: 0 :: stale) = some e ↔
      ∃ hosts key, Says l e.marker hosts key ∧ Names P host hosts ∧ P.readKey key = some e.key := by
  obtain ⟨e1, e2⟩ := line_text (r := 0 :: stale) h0 h10
  have hcs : cString (0 :: stale) = some [] := by simp [cString]
  obtain ⟨w, ew, hw, hhead⟩ := skip_split l
  unfold contributes round
  rw [e1, e2]
  constructor
  · intro h
    by_cases hc : (decide ((skipBlanks l).head? = none) || decide ((skipBlanks l).head? = some 35)) = true
    · rw [if_pos hc] at h; simp at h
    · rw [if_neg hc] at h
      simp only [Bool.or_eq_true, decide_eq_true_eq, not_or] at hc
      cases hmk : checkMarkers (skipBlanks l) with
      | none => rw [hmk] at h; simp at h
      | some p =>
        obtain ⟨mk, cp⟩ := p
        rw [hmk] at h
        simp only [namedRound] at h
        cases hmm : matchMaybeHashed P host (hostsOf cp) with
        | none => rw [hmm] at h; simp [record] at h
        | some hb =>
          rw [hmm] at h
          simp only at h
          cases hb with
          | false => simp [matchedRound] at h
          | true =>
            have hn := (names_iff hP host (hostsOf cp)).1 hmm
            simp only [matchedRound, Bool.true_or, Bool.not_true, Bool.and_false, Bool.false_eq_true, if_false,
              if_true] at h
            cases hr : restOf cp (0 :: stale) with
            | none => exact absurd hr (rest_terminated cp stale)
            | some key =>
              rw [hr] at h
              cases key with
              | nil => simp [keyRound, record] at h
              | cons c r =>
                simp only [keyRound] at h
                by_cases h35 : c = 35
                · simp [h35, record] at h
                · rw [if_neg h35] at h
                  cases hk : P.readKey (c :: r) with
                  | none => rw [hk] at h; simp [record] at h
                  | some k =>
                    rw [hk] at h
                    simp [record] at h
                    subst h
                    simp only
                    have hkt : KeyText (c :: r) := by
                      refine ⟨c, r, rfl, ?_⟩
                      have : c ≠ 32 ∧ c ≠ 9 := by
                        unfold restOf at hr
                        split at hr
                        · rw [hcs] at hr; simp [skipBlanks] at hr
                        · rename_i r' _
                          injection hr with hr
                          obtain ⟨_, _, _, hh⟩ := skip_split r'
                          exact hh c (by rw [hr]; rfl)
                      exact ⟨this.1, this.2, h35⟩
                    obtain ⟨b, eb, hbb, hbn, hhw⟩ := (rest_some cp (0 :: stale) hcs (c :: r) hkt).1 hr
                    have hne : hostsOf cp ≠ [] := by
                      intro e0
                      have : (124 : UInt8) = 124 ∧ Names P host [] := ⟨rfl, e0 ▸ hn⟩
                      have hf : matchMaybeHashed P host [] = some false := by
                        simp [matchMaybeHashed, Match.matchHostname, Match.matchPatternList, Match.listGo]
                      rw [(names_iff hP host []).2 this.2] at hf; cases hf
                    refine ⟨hostsOf cp, c :: r, ?_, hn, hk⟩
                    rcases markers_some hmk with ⟨a1, rfl, rfl⟩ | ⟨m, b0, a1, a2, a3, a4, a5, a6, a7⟩
                    · have hhd : (skipBlanks l).head? = (hostsOf (skipBlanks l)).head? := by
                        conv => lhs; rw [eb]
                        exact head_append hne
                      have := Says.plain hw ⟨hne, hhw⟩ (by rw [← hhd]; exact a1) (by rw [← hhd]; exact hc.2) hbb hbn hkt
                      rw [← eb, ← ew] at this
                      exact this
                    · have hhd : cp.head? = (hostsOf cp).head? := by
                        conv => lhs; rw [eb]
                        exact head_append hne
                      have := Says.marked hw a2 a3 a4 (by rw [← eb]; exact a5) ⟨hne, hhw⟩ (by rw [← hhd]; exact a7)
                        hbb hbn hkt
                      rw [← eb, ← a1, ← ew] at this
                      exact this
  · rintro ⟨hosts, key, hsays, hn, hk⟩
    have hmm := (names_iff hP host hosts).2 hn
    have core : ∀ (cp b : Bytes), Word hosts → cp = hosts ++ (b ++ key) → Blanks b → b ≠ [] → KeyText key →
        hostsOf cp = hosts ∧ restOf cp (0 :: stale) = some key := by
      intro cp b hh ecp hb hbn hkt
      have hx : ∀ c, (b ++ key).head? = some c → c = 32 ∨ c = 9 := by
        intro c hc'; rw [head_append hbn] at hc'
        cases b with
        | nil => exact absurd rfl hbn
        | cons x xs => simp at hc'; subst hc'; exact hb x (by simp)
      obtain ⟨t1, t2⟩ := word_take hh.2 hx
      rw [← ecp] at t1
      refine ⟨t1, ?_⟩
      rw [rest_some cp (0 :: stale) hcs key hkt]
      exact ⟨b, by rw [t1]; exact ecp, hb, hbn, by rw [t1]; exact hh.2⟩
    have fin : ∀ (mk : Marker) (cp : Bytes), mk = e.marker → hostsOf cp = hosts →
        restOf cp (0 :: stale) = some key → KeyText key →
        (match namedRound P host none true l (0 :: stale) mk cp with
          | .line l => record l
          | _ => none) = some e := by
      intro mk cp hmk hho hre hkt
      obtain ⟨k0, kr, rfl, _, _, k3⟩ := hkt
      simp only [namedRound]
      rw [hho, hmm, hre]
      simp [matchedRound, keyRound, k3, hk, record, hmk]
    generalize hmke : e.marker = mke at hsays
    cases hsays with
    | @plain w hosts b key hw hh h1 h2 hb hbn hkt =>
      have hsk : skipBlanks (w ++ (hosts ++ (b ++ key))) = hosts ++ (b ++ key) := skip_blanks hw hh.no_blank_head
      rw [hsk]
      have hhd : (hosts ++ (b ++ key)).head? = hosts.head? := head_append hh.1
      rw [if_neg]
      · have hcm : checkMarkers (hosts ++ (b ++ key)) = some (.none, hosts ++ (b ++ key)) := by
          unfold checkMarkers; rw [if_pos (by rw [hhd]; exact h1)]
        rw [hcm]
        obtain ⟨t1, t2⟩ := core _ b hh rfl hb hbn hkt
        exact fin _ _ hmke.symm t1 t2 hkt
      · simp only [Bool.or_eq_true, decide_eq_true_eq, not_or]
        rw [hhd]
        refine ⟨?_, h2⟩
        cases hosts with
        | nil => exact absurd rfl hh.1
        | cons x xs => simp
    | @marked w m b0 hosts b key mk hw hm hb0 hb0n hs hh h1 hb hbn hkt =>
      obtain ⟨f1, f2, f3, f4, f5, f6, _⟩ := markerWord_facts hm
      have hmne : m ≠ [] := by intro e0; rw [e0] at f2; exact absurd f2 (by decide)
      have hhd : (m ++ (b0 ++ (hosts ++ (b ++ key)))).head? = some 64 := by rw [head_append hmne, f1]
      have hsk : skipBlanks (w ++ (m ++ (b0 ++ (hosts ++ (b ++ key))))) = m ++ (b0 ++ (hosts ++ (b ++ key))) :=
        skip_blanks hw (by intro c hc; rw [hhd] at hc; injection hc with hc; subst hc; decide)
      rw [hsk, if_neg (by rw [hhd]; decide)]
      rw [markers_marked hm hb0 hb0n hs hh.no_blank_head (by rw [head_append hh.1]; exact h1)]
      obtain ⟨t1, t2⟩ := core _ b hh rfl hb hbn hkt
      exact fin _ _ hmke.symm t1 t2 hkt

end Verif.Hostfile
