/-
C62: replacing a host's entries keeps every other line and leaves exactly the given keys.
-/
import Verif.Hostfile.Props

namespace Verif.Hostfile
open Verif

/-- Did the optional address match? -/
def ipMatch (P : Prims) (ip : Option Bytes) (hosts : Bytes) : Option Bool :=
  match ip with
  | none => some false
  | some ip => matchMaybeHashed P ip hosts

/-- A line that is handed over with a key. -/
theorem round_key {P : Prims} {host : Bytes} {ip : Option Bytes} {l stale : Bytes} {ln : Line} {k : Key}
    (h0 : 0 ∉ l) (h10 : 10 ∉ l) (h : round P host ip false (l ++ 10 :: 0 :: stale) = .line ln)
    (hkey : ln.key = some k) :
    ∃ hosts key, Says l ln.marker hosts key ∧ P.readKey key = some k ∧
      matchMaybeHashed P host hosts = some ln.matchHost ∧ ipMatch P ip hosts = some ln.matchIp ∧
      ln.status = (if ln.matchHost || ln.matchIp then .matched else .ok) := by
  obtain ⟨e1, e2⟩ := line_text (r := 0 :: stale) h0 h10
  have hcs : cString (0 :: stale) = some [] := by simp [cString]
  obtain ⟨w, ew, hw, hhead⟩ := skip_split l
  unfold round at h
  rw [e1, e2] at h
  by_cases hc : (decide ((skipBlanks l).head? = none) || decide ((skipBlanks l).head? = some 35)) = true
  · rw [if_pos hc] at h; simp at h; subst h; cases hkey
  · rw [if_neg hc] at h
    simp only [Bool.or_eq_true, decide_eq_true_eq, not_or] at hc
    cases hmk : checkMarkers (skipBlanks l) with
    | none => rw [hmk] at h; simp at h; subst h; cases hkey
    | some p =>
      obtain ⟨mk, cp⟩ := p
      rw [hmk] at h
      simp only [namedRound] at h
      cases hmm : matchMaybeHashed P host (hostsOf cp) with
      | none => rw [hmm] at h; simp at h; subst h; cases hkey
      | some hb =>
        rw [hmm] at h
        simp only at h
        have main : ∀ ib, ipMatch P ip (hostsOf cp) = some ib →
            matchedRound P false l mk hb ib (restOf cp (0 :: stale)) = .line ln →
            ∃ hosts key, Says l ln.marker hosts key ∧ P.readKey key = some k ∧
              matchMaybeHashed P host hosts = some ln.matchHost ∧ ipMatch P ip hosts = some ln.matchIp ∧
              ln.status = (if ln.matchHost || ln.matchIp then .matched else .ok) := by
          intro ib hib h
          simp only [matchedRound, Bool.false_and, Bool.false_eq_true, if_false] at h
          cases hr : restOf cp (0 :: stale) with
          | none => exact absurd hr (rest_terminated cp stale)
          | some key =>
            rw [hr] at h
            cases key with
            | nil => simp [keyRound] at h; subst h; cases hkey
            | cons c r =>
              simp only [keyRound] at h
              by_cases h35 : c = 35
              · simp [h35] at h; subst h; cases hkey
              · rw [if_neg h35] at h
                cases hk : P.readKey (c :: r) with
                | none => rw [hk] at h; simp at h; subst h; cases hkey
                | some k' =>
                  rw [hk] at h
                  simp only [Round.line.injEq] at h
                  subst h
                  simp only [Option.some.injEq] at hkey
                  subst hkey
                  have hkt : KeyText (c :: r) := by
                    refine ⟨c, r, rfl, ?_⟩
                    have : c ≠ 32 ∧ c ≠ 9 := by
                      unfold restOf at hr
                      split at hr
                      · rw [hcs] at hr; simp [skipBlanks] at hr
                      · rename_i r' _
                        injection hr with hr
                        obtain ⟨_, _, _, hh⟩ := skip_split r'
                        exact hh c (by rw [hr]; rfl)
                    exact ⟨this.1, this.2, h35⟩
                  obtain ⟨b, eb, hbb, hbn, hhw⟩ := (rest_some cp (0 :: stale) hcs (c :: r) hkt).1 hr
                  have hcph : ∀ c, cp.head? = some c → c ≠ 32 ∧ c ≠ 9 := by
                    rcases markers_some hmk with ⟨_, _, rfl⟩ | ⟨_, _, _, _, _, _, _, a6, _⟩
                    · exact hhead
                    · exact a6
                  have hne : hostsOf cp ≠ [] := by
                    intro e0
                    rw [e0, List.nil_append] at eb
                    cases b with
                    | nil => exact absurd rfl hbn
                    | cons x xs =>
                      have := hcph x (by rw [eb]; rfl)
                      rcases hbb x (by simp) with h | h
                      · exact this.1 h
                      · exact this.2 h
                  refine ⟨hostsOf cp, c :: r, ?_, hk, hmm, hib, rfl⟩
                  rcases markers_some hmk with ⟨a1, rfl, rfl⟩ | ⟨m, b0, a1, a2, a3, a4, a5, a6, a7⟩
                  · have hhd : (skipBlanks l).head? = (hostsOf (skipBlanks l)).head? := by
                      conv => lhs; rw [eb]
                      exact head_append hne
                    have := Says.plain hw ⟨hne, hhw⟩ (by rw [← hhd]; exact a1) (by rw [← hhd]; exact hc.2) hbb hbn hkt
                    rw [← eb, ← ew] at this
                    exact this
                  · have hhd : cp.head? = (hostsOf cp).head? := by
                      conv => lhs; rw [eb]
                      exact head_append hne
                    have := Says.marked hw a2 a3 a4 (by rw [← eb]; exact a5) ⟨hne, hhw⟩ (by rw [← hhd]; exact a7)
                      hbb hbn hkt
                    rw [← eb, ← a1, ← ew] at this
                    exact this
        cases ip with
        | none => exact main false rfl h
        | some ip =>
          simp only at h
          cases him : matchMaybeHashed P ip (hostsOf cp) with
          | none => rw [him] at h; simp at h; subst h; cases hkey
          | some ib => rw [him] at h; exact main ib him h

/-- A well-formed line, unless its names are a malformed hash. -/
theorem round_says {P : Prims} {host : Bytes} {ip : Option Bytes} {l stale hosts key : Bytes} {mk : Marker} {k : Key}
    {hb ib : Bool} (h0 : 0 ∉ l) (h10 : 10 ∉ l) (hsays : Says l mk hosts key) (hk : P.readKey key = some k)
    (hmm : matchMaybeHashed P host hosts = some hb) (hib : ipMatch P ip hosts = some ib) :
    round P host ip false (l ++ 10 :: 0 :: stale) =
      .line { status := if hb || ib then .matched else .ok, marker := mk, matchHost := hb, matchIp := ib,
              key := some k, text := l } := by
  obtain ⟨e1, e2⟩ := line_text (r := 0 :: stale) h0 h10
  have hcs : cString (0 :: stale) = some [] := by simp [cString]
  unfold round
  rw [e1, e2]
  have core : ∀ (cp b : Bytes), Word hosts → cp = hosts ++ (b ++ key) → Blanks b → b ≠ [] → KeyText key →
      hostsOf cp = hosts ∧ restOf cp (0 :: stale) = some key := by
    intro cp b hh ecp hb hbn hkt
    have hx : ∀ c, (b ++ key).head? = some c → c = 32 ∨ c = 9 := by
      intro c hc'; rw [head_append hbn] at hc'
      cases b with
      | nil => exact absurd rfl hbn
      | cons x xs => simp at hc'; subst hc'; exact hb x (by simp)
    obtain ⟨t1, t2⟩ := word_take hh.2 hx
    rw [← ecp] at t1
    refine ⟨t1, ?_⟩
    rw [rest_some cp (0 :: stale) hcs key hkt]
    exact ⟨b, by rw [t1]; exact ecp, hb, hbn, by rw [t1]; exact hh.2⟩
  have fin : ∀ (mk : Marker) (cp : Bytes), hostsOf cp = hosts → restOf cp (0 :: stale) = some key → KeyText key →
      namedRound P host ip false l (0 :: stale) mk cp =
      .line { status := if hb || ib then .matched else .ok, marker := mk, matchHost := hb, matchIp := ib,
              key := some k, text := l } := by
    intro mk cp hho hre hkt
    obtain ⟨k0, kr, rfl, _, _, k3⟩ := hkt
    simp only [namedRound]
    rw [hho, hmm, hre]
    cases ip with
    | none =>
      simp only [ipMatch, Option.some.injEq] at hib; subst hib
      simp [matchedRound, keyRound, k3, hk]
    | some ip =>
      simp only [ipMatch] at hib
      simp only [hib]
      simp [matchedRound, keyRound, k3, hk]
  cases hsays with
  | @plain w hosts b key hw hh h1 h2 hb hbn hkt =>
    have hsk : skipBlanks (w ++ (hosts ++ (b ++ key))) = hosts ++ (b ++ key) := skip_blanks hw hh.no_blank_head
    rw [hsk]
    have hhd : (hosts ++ (b ++ key)).head? = hosts.head? := head_append hh.1
    rw [if_neg]
    · have hcm : checkMarkers (hosts ++ (b ++ key)) = some (.none, hosts ++ (b ++ key)) := by
        unfold checkMarkers; rw [if_pos (by rw [hhd]; exact h1)]
      rw [hcm]
      obtain ⟨t1, t2⟩ := core _ b hh rfl hb hbn hkt
      exact fin _ _ t1 t2 hkt
    · simp only [Bool.or_eq_true, decide_eq_true_eq, not_or]
      rw [hhd]
      refine ⟨?_, h2⟩
      cases hosts with
      | nil => exact absurd rfl hh.1
      | cons x xs => simp
  | @marked w m b0 hosts b key mk hw hm hb0 hb0n hs hh h1 hb hbn hkt =>
    obtain ⟨f1, f2, f3, f4, f5, f6, _⟩ := markerWord_facts hm
    have hmne : m ≠ [] := by intro e0; rw [e0] at f2; exact absurd f2 (by decide)
    have hhd : (m ++ (b0 ++ (hosts ++ (b ++ key)))).head? = some 64 := by rw [head_append hmne, f1]
    have hsk : skipBlanks (w ++ (m ++ (b0 ++ (hosts ++ (b ++ key))))) = m ++ (b0 ++ (hosts ++ (b ++ key))) :=
      skip_blanks hw (by intro c hc; rw [hhd] at hc; injection hc with hc; subst hc; decide)
    rw [hsk, if_neg (by rw [hhd]; decide)]
    rw [markers_marked hm hb0 hb0n hs hh.no_blank_head (by rw [head_append hh.1]; exact h1)]
    obtain ⟨t1, t2⟩ := core _ b hh rfl hb hbn hkt
    exact fin _ _ t1 t2 hkt

/-- Every terminated line is handed over, with its text. -/
theorem round_line (P : Prims) (host : Bytes) (ip : Option Bytes) (l stale : Bytes) (h0 : 0 ∉ l) (h10 : 10 ∉ l) :
    ∃ ln, round P host ip false (l ++ 10 :: 0 :: stale) = .line ln ∧ ln.text = l ∧
      (ln.status = .matched → ln.key ≠ none) := by
  obtain ⟨e1, e2⟩ := line_text (r := 0 :: stale) h0 h10
  have hk : ∀ ln cp, ∃ ln', keyRound P ln (restOf cp (0 :: stale)) = .line ln' ∧ ln'.text = ln.text ∧
      (ln'.status = .matched → ln'.key ≠ none) := by
    intro ln cp
    cases hr : restOf cp (0 :: stale) with
    | none => exact absurd hr (rest_terminated cp stale)
    | some s =>
      unfold keyRound
      cases s with
      | nil => exact ⟨_, rfl, rfl, by simp⟩
      | cons c r =>
        simp only
        split
        · exact ⟨_, rfl, rfl, by simp⟩
        · split
          · exact ⟨_, rfl, rfl, by simp⟩
          · exact ⟨_, rfl, rfl, by simp⟩
  have hm : ∀ mk h i cp, ∃ ln', matchedRound P false l mk h i (restOf cp (0 :: stale)) = .line ln' ∧ ln'.text = l ∧
      (ln'.status = .matched → ln'.key ≠ none) := by
    intro mk h i cp
    unfold matchedRound
    simp only [Bool.false_and, Bool.false_eq_true, if_false]
    exact hk _ _
  unfold round
  rw [e1, e2]
  simp only [Bool.false_eq_true, if_false]
  split
  · exact ⟨_, rfl, rfl, by simp⟩
  · split
    · exact ⟨_, rfl, rfl, by simp⟩
    · unfold namedRound
      split
      · exact ⟨_, rfl, rfl, by simp⟩
      · split
        · exact hm _ _ _ _
        · split
          · exact ⟨_, rfl, rfl, by simp⟩
          · exact hm _ _ _ _

/-- The host-names field names the host or the address. -/
def NamesEither (P : Prims) (host : Bytes) (ip : Option Bytes) (hosts : Bytes) : Prop :=
  Names P host hosts ∨ ∃ a, ip = some a ∧ Names P a hosts

/-- The line is a plain (unmarked) entry for the host or the address, with key `k`. -/
def Plain (P : Prims) (host : Bytes) (ip : Option Bytes) (l : Bytes) (k : Key) : Prop :=
  ∃ hosts key, Says l .none hosts key ∧ NamesEither P host ip hosts ∧ P.readKey key = some k

/-- A match of one name means the hash, if any, is well formed for the other. -/
theorem match_other {P : Prims} {a b hosts : Bytes} {x : Bool} (h : matchMaybeHashed P a hosts = some x) :
    ∃ y, matchMaybeHashed P b hosts = some y := by
  unfold matchMaybeHashed at h ⊢
  split
  · rename_i h1
    rw [if_pos h1] at h
    cases he : extractSalt P hosts with
    | none => rw [he] at h; cases h
    | some s => exact ⟨_, rfl⟩
  · exact ⟨_, rfl⟩

/-- The matched, unmarked lines are the plain entries. -/
theorem matched_iff {P : Prims} (hP : Base64Ok P) {host : Bytes} {ip : Option Bytes} {l stale : Bytes} {ln : Line}
    (h0 : 0 ∉ l) (h10 : 10 ∉ l) (h : round P host ip false (l ++ 10 :: 0 :: stale) = .line ln) (k : Key) :
    (ln.status = .matched ∧ ln.marker = .none ∧ ln.key = some k) ↔ Plain P host ip l k := by
  constructor
  · rintro ⟨hs, hm, hk⟩
    obtain ⟨hosts, key, hsays, hrk, hmm, hib, hst⟩ := round_key h0 h10 h hk
    rw [hm] at hsays
    refine ⟨hosts, key, hsays, ?_, hrk⟩
    rw [hs] at hst
    have hor : (ln.matchHost || ln.matchIp) = true := by
      cases ho : (ln.matchHost || ln.matchIp) with
      | true => rfl
      | false => rw [ho] at hst; simp at hst
    rcases Bool.or_eq_true _ _ ▸ hor with h1 | h1
    · rw [h1] at hmm; exact .inl ((names_iff hP host hosts).1 hmm)
    · rw [h1] at hib
      cases ip with
      | none => simp [ipMatch] at hib
      | some a => exact .inr ⟨a, rfl, (names_iff hP a hosts).1 hib⟩
  · rintro ⟨hosts, key, hsays, hn, hrk⟩
    have hex : ∃ hb ib, matchMaybeHashed P host hosts = some hb ∧ ipMatch P ip hosts = some ib ∧
        (hb || ib) = true := by
      rcases hn with hn | ⟨a, rfl, hn⟩
      · have h1 := (names_iff hP host hosts).2 hn
        cases ip with
        | none => exact ⟨true, false, h1, rfl, rfl⟩
        | some a =>
          obtain ⟨y, hy⟩ := match_other (b := a) h1
          exact ⟨true, y, h1, hy, rfl⟩
      · have h1 := (names_iff hP a hosts).2 hn
        obtain ⟨y, hy⟩ := match_other (b := host) h1
        exact ⟨y, true, hy, h1, by simp⟩
    obtain ⟨hb, ib, m1, m2, m3⟩ := hex
    have := round_says (stale := stale) h0 h10 hsays hrk m1 m2
    rw [h] at this
    simp only [Round.line.injEq] at this
    rw [this, m3]
    exact ⟨rfl, rfl, rfl⟩

/-- The lines handed over for a terminated file. -/
inductive Handed (P : Prims) (host : Bytes) (ip : Option Bytes) : List Line → List Bytes → Prop where
  | nil : Handed P host ip [] []
  | cons {ln : Line} {lns : List Line} {l stale : Bytes} {ls : List Bytes} (h0 : 0 ∉ l) (h10 : 10 ∉ l)
      (h : round P host ip false (l ++ 10 :: 0 :: stale) = .line ln) (ht : ln.text = l)
      (r : Handed P host ip lns ls) : Handed P host ip (ln :: lns) (l :: ls)

theorem foreach_handed {P : Prims} {host : Bytes} {ip : Option Bytes} {mems ls : List Bytes} (h : Terminated mems ls) :
    ∃ lns, foreach P host ip false mems = some lns ∧ Handed P host ip lns ls := by
  induction mems generalizing ls with
  | nil =>
    cases ls with
    | nil => exact ⟨[], rfl, .nil⟩
    | cons l ls => exact absurd h id
  | cons mem mems ih =>
    cases ls with
    | nil => exact absurd h id
    | cons l ls =>
      obtain ⟨⟨h0, h10, stale, rfl⟩, h⟩ := h
      obtain ⟨lns, hf, hh⟩ := ih h
      obtain ⟨ln, hr, ht, _⟩ := round_line P host ip l stale h0 h10
      exact ⟨ln :: lns, by simp [foreach, hr, hf], .cons h0 h10 hr ht hh⟩


/-- What stays of the file. -/
theorem kept_eq {P : Prims} (hP : Base64Ok P) {host : Bytes} {ip : Option Bytes} {keys : List Key}
    {lns : List Line} {ls : List Bytes} (h : Handed P host ip lns ls) :
    ∃ keep : Bytes → Bool, (lns.filter (keeps keys)).map Line.text = ls.filter keep ∧
      ∀ l ∈ ls, (keep l = true ↔ ∀ k, Plain P host ip l k → ∃ x ∈ keys, equal x k = true) := by
  classical
  refine ⟨fun l => decide (∀ k, Plain P host ip l k → ∃ x ∈ keys, equal x k = true), ?_, by simp⟩
  induction h with
  | nil => rfl
  | @cons ln lns l stale ls h0 h10 hr ht r ih =>
    have hk : keeps keys ln = decide (∀ k, Plain P host ip l k → ∃ x ∈ keys, equal x k = true) := by
      rw [Bool.eq_iff_iff, decide_eq_true_iff]
      unfold keeps
      have hmi := matched_iff hP h0 h10 hr
      simp only [Bool.or_eq_true, Bool.not_eq_true', Bool.and_eq_false_iff, decide_eq_false_iff_not]
      constructor
      · rintro (h | h) k hp
        · have := (hmi k).2 hp
          rcases h with h | h
          · exact absurd this.1 h
          · exact absurd this.2.1 h
        · have := ((hmi k).2 hp).2.2
          rw [this] at h
          simpa using h
      · intro h
        by_cases hs : ln.status = .matched
        · by_cases hm : ln.marker = .none
          · right
            cases hkey : ln.key with
            | none =>
              obtain ⟨ln', hr', _, hne⟩ := round_line P host ip l stale h0 h10
              rw [hr] at hr'; injection hr' with hr'; subst hr'
              exact absurd hkey (hne hs)
            | some k =>
              obtain ⟨x, hx, he⟩ := h k ((hmi k).1 ⟨hs, hm, hkey⟩)
              simp only [Option.any_some, List.any_eq_true]
              exact ⟨x, hx, he⟩
          · exact .inl (.inr hm)
        · exact .inl (.inl hs)
    simp only [List.filter_cons, hk]
    split
    · rw [List.map_cons, ht, ih]
    · exact ih

/-! ## Lines the code writes -/

theorem says_parse {l hosts key : Bytes} {mk : Marker} (h : Says l mk hosts key) :
    ∃ cp, checkMarkers (skipBlanks l) = some (mk, cp) ∧ hostsOf cp = hosts ∧ restOf cp [0] = some key := by
  have hcs : cString [0] = some [] := by simp [cString]
  have core : ∀ (cp b hosts key : Bytes), Word hosts → cp = hosts ++ (b ++ key) → Blanks b → b ≠ [] → KeyText key →
      hostsOf cp = hosts ∧ restOf cp [0] = some key := by
    intro cp b hosts key hh ecp hb hbn hkt
    have hx : ∀ c, (b ++ key).head? = some c → c = 32 ∨ c = 9 := by
      intro c hc'; rw [head_append hbn] at hc'
      cases b with
      | nil => exact absurd rfl hbn
      | cons x xs => simp at hc'; subst hc'; exact hb x (by simp)
    obtain ⟨t1, t2⟩ := word_take hh.2 hx
    rw [← ecp] at t1
    refine ⟨t1, ?_⟩
    rw [rest_some cp [0] hcs key hkt]
    exact ⟨b, by rw [t1]; exact ecp, hb, hbn, by rw [t1]; exact hh.2⟩
  cases h with
  | @plain w hosts b key hw hh h1 h2 hb hbn hkt =>
    rw [skip_blanks hw hh.no_blank_head]
    refine ⟨hosts ++ (b ++ key), ?_, core _ b _ _ hh rfl hb hbn hkt⟩
    unfold checkMarkers; rw [if_pos (by rw [head_append hh.1]; exact h1)]
  | @marked w m b0 hosts b key mk hw hm hb0 hb0n hs hh h1 hb hbn hkt =>
    obtain ⟨f1, f2, _⟩ := markerWord_facts hm
    have hmne : m ≠ [] := by intro e0; rw [e0] at f2; exact absurd f2 (by decide)
    have hhd : (m ++ (b0 ++ (hosts ++ (b ++ key)))).head? = some 64 := by rw [head_append hmne, f1]
    rw [skip_blanks hw (by intro c hc; rw [hhd] at hc; injection hc with hc; subst hc; decide)]
    exact ⟨_, markers_marked hm hb0 hb0n hs hh.no_blank_head (by rw [head_append hh.1]; exact h1),
      core _ b _ _ hh rfl hb hbn hkt⟩

/-- A line says one thing only. -/
theorem says_unique {l h1 k1 h2 k2 : Bytes} {m1 m2 : Marker} (a : Says l m1 h1 k1) (b : Says l m2 h2 k2) :
    m1 = m2 ∧ h1 = h2 ∧ k1 = k2 := by
  obtain ⟨c1, a1, a2, a3⟩ := says_parse a
  obtain ⟨c2, b1, b2, b3⟩ := says_parse b
  rw [a1] at b1
  simp only [Option.some.injEq, Prod.mk.injEq] at b1
  obtain ⟨rfl, rfl⟩ := b1
  exact ⟨rfl, a2.symm.trans b2, Option.some.inj (a3.symm.trans b3)⟩

/-- A name that stands for itself in a host-names field: no blanks, commas, wildcards, and no first
character with a meaning of its own; shorter than the pattern buffer. -/
structure PlainName (n : Bytes) : Prop where
  ne : n ≠ []
  chars : ∀ c ∈ n, c ≠ 9 ∧ c ≠ 32 ∧ c ≠ 42 ∧ c ≠ 44 ∧ c ≠ 63
  head : ∀ c, n.head? = some c → c ≠ 33 ∧ c ≠ 35 ∧ c ≠ 64 ∧ c ≠ 124
  len : n.length < 1023

theorem lower_facts (c : UInt8) : Match.toLower (Match.toLower c) = Match.toLower c ∧
    (∀ x ∈ [(9 : UInt8), 32, 42, 44, 63, 33, 35, 64, 124], Match.toLower c = x → c = x) := by
  have : ∀ n : Fin 256, let c := UInt8.ofNat n.val
      Match.toLower (Match.toLower c) = Match.toLower c ∧
      (∀ x ∈ [(9 : UInt8), 32, 42, 44, 63, 33, 35, 64, 124], Match.toLower c = x → c = x) := by decide +kernel
  have h := this ⟨c.toNat, c.toNat_lt⟩
  simpa using h

theorem PlainName.lower {n : Bytes} (h : PlainName n) : PlainName (n.map Match.toLower) where
  ne := by simpa using h.ne
  chars := by
    intro c hc
    obtain ⟨d, hd, rfl⟩ := List.mem_map.1 hc
    have f := (lower_facts d).2
    have g := h.chars d hd
    exact ⟨fun e => g.1 (f 9 (by simp) e), fun e => g.2.1 (f 32 (by simp) e), fun e => g.2.2.1 (f 42 (by simp) e),
      fun e => g.2.2.2.1 (f 44 (by simp) e), fun e => g.2.2.2.2 (f 63 (by simp) e)⟩
  head := by
    intro c hc
    cases n with
    | nil => cases hc
    | cons d r =>
      simp at hc; subst hc
      have f := (lower_facts d).2
      have g := h.head d rfl
      exact ⟨fun e => g.1 (f 33 (by simp) e), fun e => g.2.1 (f 35 (by simp) e), fun e => g.2.2.1 (f 64 (by simp) e),
        fun e => g.2.2.2 (f 124 (by simp) e)⟩
  len := by simpa using h.len

theorem lower_lower (n : Bytes) : (n.map Match.toLower).map Match.toLower = n.map Match.toLower := by
  rw [List.map_map]
  exact List.map_congr_left fun c _ => (lower_facts c).1

theorem PlainName.word {n : Bytes} (h : PlainName n) : Word n :=
  ⟨h.ne, fun c hc => ⟨(h.chars c hc).2.1, (h.chars c hc).1⟩⟩

theorem PlainName.not_neg {n : Bytes} (h : PlainName n) : ¬ Match.isNeg n := fun e => (h.head 33 e).1 rfl

theorem PlainName.body {n : Bytes} (h : PlainName n) : Match.body n = n := by
  unfold Match.body; exact if_neg h.not_neg

theorem PlainName.short {n : Bytes} (h : PlainName n) : Match.short n := by
  unfold Match.short; rw [h.body]; exact h.len

theorem glob_self {n : Bytes} (h : ∀ c ∈ n, c ≠ 42 ∧ c ≠ 63) : Match.Glob n n := by
  induction n with
  | nil => exact .nil
  | cons c r ih =>
    exact .lit c (h c (by simp)).1 (h c (by simp)).2 (ih fun d hd => h d (by simp [hd]))

theorem PlainName.entries {n : Bytes} (h : PlainName n) : Match.entries n = [n] := by
  have hs : Text.split 44 n = [n] := Text.split_no_sep fun hc => (h.chars 44 hc).2.2.2.1 rfl
  unfold Match.entries
  rw [hs]
  simp [h.ne]

theorem PlainName.entries_two {n m : Bytes} (h : PlainName n) (hm : PlainName m) :
    Match.entries (n ++ 44 :: m) = [n, m] := by
  have hs : Text.split 44 m = [m] := Text.split_no_sep fun hc => (hm.chars 44 hc).2.2.2.1 rfl
  have hs2 : Text.split 44 (n ++ 44 :: m) = [n, m] := by
    rw [Text.split_append fun hc => (h.chars 44 hc).2.2.2.1 rfl, hs]
  unfold Match.entries
  rw [hs2]
  simp [hm.ne]

theorem PlainName.hit {n x : Bytes} (h : PlainName n) (e : n.map Match.toLower = x.map Match.toLower) :
    Match.Glob ((Match.body n).map Match.toLower) (x.map Match.toLower) := by
  rw [h.body, e]
  rw [← e]
  exact glob_self fun c hc => ⟨(h.lower.chars c hc).2.2.1, (h.lower.chars c hc).2.2.2.2⟩

theorem names_one {P : Prims} {n x : Bytes} (h : PlainName n) (e : n.map Match.toLower = x.map Match.toLower) :
    Names P x n := by
  refine .inl ⟨fun e => (h.head 124 e).2.2.2 rfl, ?_, ?_⟩
  · intro y hy
    rw [h.entries] at hy
    simp at hy; subst hy
    exact ⟨h.short, fun hn => h.not_neg hn.1⟩
  · exact ⟨n, by rw [h.entries]; simp, h.not_neg, h.hit e⟩

theorem names_two {P : Prims} {n m x : Bytes} (h : PlainName n) (hm : PlainName m)
    (e : n.map Match.toLower = x.map Match.toLower ∨ m.map Match.toLower = x.map Match.toLower) :
    Names P x (n ++ 44 :: m) := by
  refine .inl ⟨fun e => (h.head 124 (by rw [← head_append (b := 44 :: m) h.ne]; exact e)).2.2.2 rfl, ?_, ?_⟩
  · intro y hy
    rw [h.entries_two hm] at hy
    simp at hy
    rcases hy with rfl | rfl
    · exact ⟨h.short, fun hn => h.not_neg hn.1⟩
    · exact ⟨hm.short, fun hn => hm.not_neg hn.1⟩
  · rcases e with e | e
    · exact ⟨n, by rw [h.entries_two hm]; simp, h.not_neg, h.hit e⟩
    · exact ⟨m, by rw [h.entries_two hm]; simp, hm.not_neg, hm.hit e⟩

theorem says_line {hosts key : Bytes} (hh : Word hosts) (h : hosts.head? ≠ some 64 ∧ hosts.head? ≠ some 35)
    (hk : KeyText key) : Says (hosts ++ 32 :: key) .none hosts key := by
  have := Says.plain (w := []) (b := [32]) (by simp [Blanks]) hh h.1 h.2 (by simp [Blanks]) (by simp) hk
  simpa using this

/-- What is assumed of the surroundings: salts of the right size, base64 without blanks, names that stand
for themselves (lower-case already if they are to be hashed), and keys that can be written and read back. -/
structure Setting (P : Prims) (salt : Bytes → Bytes) (hash : Bool) (host : Bytes) (ip : Option Bytes)
    (keys : List Key) : Prop where
  b64 : Base64Ok P
  noBlank : ∀ s, ∀ c ∈ P.b64enc s, c ≠ 32 ∧ c ≠ 9
  salts : ∀ n, (salt n).length = 20
  names : ∀ n, (n = host ∨ ip = some n) → PlainName n ∧ (hash = true → n.map Match.toLower = n)
  write : ∀ k ∈ keys, KeyText (P.writeKey k) ∧ P.readKey (P.writeKey k) = some k

theorem hashed_word {P : Prims} (hb : ∀ s, ∀ c ∈ P.b64enc s, c ≠ 32 ∧ c ≠ 9) (s n : Bytes) : Word (hashed P s n) := by
  refine ⟨by simp [hashed], ?_⟩
  intro c hc
  simp only [hashed, List.mem_append] at hc
  rcases hc with ((hc | hc) | hc) | hc
  · revert c; decide
  · exact hb _ c hc
  · revert c; decide
  · exact hb _ c hc

/-- What a written line says: a host-names field and one of the keys. -/
theorem write_says {P : Prims} {salt : Bytes → Bytes} {hash : Bool} {host : Bytes} {ip : Option Bytes}
    {keys : List Key} (S : Setting P salt hash host ip keys) {k : Key} (hk : k ∈ keys) {a : Bytes} {b : Option Bytes}
    (ha : a = host ∨ ip = some a) (hb : ∀ x, b = some x → ip = some x) :
    (∀ l ∈ writeEntry P salt hash a b k, ∃ hosts, Says l .none hosts (P.writeKey k)) ∧
    (∀ n, (n = a ∨ b = some n) → ∃ l ∈ writeEntry P salt hash a b k, ∃ hosts, Says l .none hosts (P.writeKey k) ∧
      Names P n hosts) := by
  obtain ⟨hkt, _⟩ := S.write k hk
  obtain ⟨na, la⟩ := S.names a ha
  have hh : ∀ n, Says (hashed P (salt n) n ++ 32 :: P.writeKey k) .none (hashed P (salt n) n) (P.writeKey k) :=
    fun n => says_line (hashed_word S.noBlank _ _) (by simp [hashed]) hkt
  have hn : ∀ n, Names P n (hashed P (salt n) n) := fun n => .inr ⟨salt n, S.salts n, rfl⟩
  have hd : ∀ n : Bytes, PlainName n → ∀ r, (n ++ r).head? ≠ some 64 ∧ (n ++ r).head? ≠ some 35 := by
    intro n h r
    rw [head_append h.ne]
    exact ⟨fun e => (h.head 64 e).2.2.1 rfl, fun e => (h.head 35 e).2.1 rfl⟩
  unfold writeEntry
  cases hash with
  | true =>
    simp only [if_true]
    rw [la rfl]
    cases b with
    | none =>
      refine ⟨?_, ?_⟩
      · intro l hl; simp at hl; subst hl; exact ⟨_, hh a⟩
      · intro n hn'
        rcases hn' with rfl | h
        · exact ⟨_, List.mem_cons_self, _, hh n, hn n⟩
        · cases h
    | some x =>
      obtain ⟨_, lx⟩ := S.names x (.inr (hb x rfl))
      simp only
      rw [lx rfl]
      refine ⟨?_, ?_⟩
      · intro l hl; simp at hl; rcases hl with rfl | rfl
        · exact ⟨_, hh a⟩
        · exact ⟨_, hh x⟩
      · intro n hn'
        rcases hn' with rfl | h
        · exact ⟨_, List.mem_cons_self, _, hh n, hn n⟩
        · injection h with h; subst h
          exact ⟨_, List.mem_cons_of_mem _ List.mem_cons_self, _, hh x, hn x⟩
  | false =>
    simp only [Bool.false_eq_true, if_false]
    cases b with
    | none =>
      have hs : Says (a.map Match.toLower ++ 32 :: P.writeKey k) .none (a.map Match.toLower) (P.writeKey k) :=
        says_line na.lower.word (by have := hd _ na.lower []; simpa using this) hkt
      refine ⟨?_, ?_⟩
      · intro l hl; simp at hl; subst hl; exact ⟨_, hs⟩
      · intro n hn'
        rcases hn' with rfl | h
        · exact ⟨_, List.mem_cons_self, _, hs, names_one na.lower (lower_lower n)⟩
        · cases h
    | some x =>
      obtain ⟨nx, _⟩ := S.names x (.inr (hb x rfl))
      have hs : Says (a.map Match.toLower ++ 44 :: x ++ 32 :: P.writeKey k) .none (a.map Match.toLower ++ 44 :: x)
          (P.writeKey k) := by
        refine says_line ⟨by simp, ?_⟩ (hd _ na.lower _) hkt
        intro c hc
        rcases List.mem_append.1 hc with hc | hc
        · exact na.lower.word.2 c hc
        · rcases List.mem_cons.1 hc with rfl | hc
          · decide
          · exact nx.word.2 c hc
      refine ⟨?_, ?_⟩
      · intro l hl
        rw [List.mem_singleton] at hl
        rw [hl]; exact ⟨_, hs⟩
      · intro n hn'
        refine ⟨_, List.mem_singleton_self _, _, hs, names_two na.lower nx ?_⟩
        rcases hn' with rfl | h
        · exact .inl (lower_lower n)
        · injection h with h; subst h; exact .inr rfl

/-- ... for the lines added for one key. -/
theorem add_says {P : Prims} {salt : Bytes → Bytes} {hash : Bool} {host : Bytes} {ip : Option Bytes}
    {keys : List Key} (S : Setting P salt hash host ip keys) {k : Key} (hk : k ∈ keys) (bits : Bool × Bool) :
    (∀ l ∈ addFor P salt hash host ip bits k, ∃ hosts, Says l .none hosts (P.writeKey k)) ∧
    (bits.1 = false → ∃ l ∈ addFor P salt hash host ip bits k, ∃ hosts, Says l .none hosts (P.writeKey k) ∧
      Names P host hosts) ∧
    (∀ a, ip = some a → bits.2 = false → ∃ l ∈ addFor P salt hash host ip bits k, ∃ hosts,
      Says l .none hosts (P.writeKey k) ∧ Names P a hosts) := by
  obtain ⟨b1, b2⟩ := bits
  have w1 := write_says S hk (a := host) (b := none) (.inl rfl) (by simp)
  cases hip : ip with
  | none =>
    cases b1 with
    | true => simp [addFor]
    | false => exact ⟨w1.1, fun _ => w1.2 host (.inl rfl), fun a h => by cases h⟩
  | some a =>
    have w2 := write_says S hk (a := a) (b := none) (.inr hip) (by simp)
    have w3 := write_says S hk (a := host) (b := some a) (.inl rfl) (by rw [hip]; exact fun x h => h)
    cases b1 with
    | true =>
      cases b2 with
      | true => simp [addFor]
      | false =>
        refine ⟨w2.1, (fun h => by cases h), fun x hx _ => ?_⟩
        injection hx with hx; subst hx
        exact w2.2 a (.inl rfl)
    | false =>
      cases b2 with
      | true => exact ⟨w1.1, fun _ => w1.2 host (.inl rfl), fun x _ h => by cases h⟩
      | false =>
        refine ⟨w3.1, fun _ => w3.2 host (.inl rfl), fun x hx _ => ?_⟩
        injection hx with hx; subst hx
        exact w3.2 a (.inr rfl)

theorem additions_mem (P : Prims) (salt : Bytes → Bytes) (hash : Bool) (host : Bytes) (ip : Option Bytes)
    (bits : Nat → Bool × Bool) (ks : List Key) (i : Nat) (l : Bytes) :
    l ∈ additions P salt hash host ip bits i ks ↔
      ∃ j k, ks[j]? = some k ∧ l ∈ addFor P salt hash host ip (bits (i + j)) k := by
  induction ks generalizing i with
  | nil => simp [additions]
  | cons k ks ih =>
    simp only [additions, List.mem_append, ih]
    constructor
    · rintro (h | ⟨j, k', hj, h⟩)
      · exact ⟨0, k, rfl, h⟩
      · exact ⟨j + 1, k', by simpa using hj, by rw [show i + (j + 1) = i + 1 + j by omega]; exact h⟩
    · rintro ⟨j, k', hj, h⟩
      cases j with
      | zero => simp at hj; subst hj; exact .inl h
      | succ j => exact .inr ⟨j, k', by simpa using hj, by rw [show i + 1 + j = i + (j + 1) by omega]; exact h⟩

theorem equal_refl (k : Key) : equal k k = true := by simp [equal, equalPublic]

theorem handed_mem {P : Prims} {host : Bytes} {ip : Option Bytes} {lns : List Line} {ls : List Bytes}
    (h : Handed P host ip lns ls) {ln : Line} (hm : ln ∈ lns) :
    ∃ stale, 0 ∉ ln.text ∧ 10 ∉ ln.text ∧ round P host ip false (ln.text ++ 10 :: 0 :: stale) = .line ln := by
  induction h with
  | nil => cases hm
  | cons h0 h10 hr ht r ih =>
    rcases List.mem_cons.1 hm with rfl | hm
    · rw [ht]; exact ⟨_, h0, h10, hr⟩
    · exact ih hm

/-! ## The property -/

/-- **C62 (other lines).**  Replacing a host's keys leaves the lines of the file in place, in order and byte
for byte, and adds lines at the end; the only lines that go are unmarked, well-formed entries that name the
host or its address and hold none of the given keys. -/
theorem C62_kept {P : Prims} (hP : Base64Ok P) (salt : Bytes → Bytes) (hash : Bool) (host : Bytes) (ip : Option Bytes)
    (keys : List Key) {mems ls : List Bytes} (h : Terminated mems ls) :
    ∃ (keep : Bytes → Bool) (added : List Bytes),
      replaceEntries P salt hash host ip keys mems = some (ls.filter keep ++ added) ∧
      ∀ l ∈ ls, (keep l = false ↔ ∃ k, Plain P host ip l k ∧ ∀ x ∈ keys, equal x k = false) := by
  obtain ⟨lns, hf, hh⟩ := foreach_handed (P := P) (host := host) (ip := ip) h
  obtain ⟨keep, hk, hs⟩ := kept_eq hP (keys := keys) hh
  refine ⟨keep, additions P salt hash host ip (matchBits keys lns) 0 keys,
    by unfold replaceEntries; rw [hf]; simp only [hk], ?_⟩
  intro l hl
  have := hs l hl
  constructor
  · intro hf
    apply Classical.byContradiction
    intro hn
    have : keep l = true := this.2 (by
      intro k hp
      apply Classical.byContradiction
      intro hx
      exact hn ⟨k, hp, fun x hx' => Bool.eq_false_iff.2 fun e => hx ⟨x, hx', e⟩⟩)
    rw [this] at hf; cases hf
  · rintro ⟨k, hp, hx⟩
    apply Bool.eq_false_iff.2
    intro ht
    obtain ⟨x, hx', e⟩ := this.1 ht k hp
    rw [hx x hx'] at e; cases e

/-- **C62 (the keys).**  Afterwards each of the given keys is listed for the host and for the address, and no
other key is listed for them on an unmarked line. -/
theorem C62_listed {P : Prims} {salt : Bytes → Bytes} {hash : Bool} {host : Bytes} {ip : Option Bytes}
    {keys : List Key} (S : Setting P salt hash host ip keys) {mems ls : List Bytes} (h : Terminated mems ls) :
    ∃ out, replaceEntries P salt hash host ip keys mems = some out ∧
      ∀ n, (n = host ∨ ip = some n) →
        (∀ k ∈ keys, ∃ k', equal k k' = true ∧ Lists P out n .none k') ∧
        (∀ k', Lists P out n .none k' → ∃ k ∈ keys, equal k k' = true) := by
  obtain ⟨lns, hf, hh⟩ := foreach_handed (P := P) (host := host) (ip := ip) h
  refine ⟨_, by unfold replaceEntries; rw [hf], ?_⟩
  intro n hn
  constructor
  · intro k hk
    obtain ⟨i, hi⟩ := List.mem_iff_getElem?.1 hk
    have old : ∀ ln ∈ lns, holds keys ln = some i →
        (n = host ∧ ln.matchHost = true ∨ ip = some n ∧ ln.matchIp = true) →
        ∃ k', equal k k' = true ∧ Lists P ((lns.filter (keeps keys)).map Line.text ++
          additions P salt hash host ip (matchBits keys lns) 0 keys) n .none k' := by
      intro ln hln hho hm
      unfold holds at hho
      split at hho
      · rename_i hc
        simp only [Bool.and_eq_true, decide_eq_true_eq] at hc
        obtain ⟨hst, hmk⟩ := hc
        rw [List.findIdx?_eq_some_iff_getElem] at hho
        obtain ⟨hlt, hp, _⟩ := hho
        have hki : keys[i] = k := by
          rw [List.getElem?_eq_getElem hlt] at hi; exact Option.some.inj hi
        rw [hki] at hp
        obtain ⟨stale, h0, h10, hr⟩ := handed_mem hh hln
        cases hkey : ln.key with
        | none => rw [hkey] at hp; simp at hp
        | some k' =>
          rw [hkey] at hp
          simp only [Option.any_some] at hp
          obtain ⟨hosts, key, hsays, hrk, hmm, hib, _⟩ := round_key h0 h10 hr hkey
          rw [hmk] at hsays
          refine ⟨k', hp, ln.text, ?_, hosts, key, hsays, ?_, hrk⟩
          · apply List.mem_append_left
            apply List.mem_map.2
            refine ⟨ln, List.mem_filter.2 ⟨hln, ?_⟩, rfl⟩
            unfold keeps
            rw [hkey]
            simp only [Option.any_some, Bool.or_eq_true, List.any_eq_true]
            exact .inr ⟨k, hk, hp⟩
          · rcases hm with ⟨rfl, hm⟩ | ⟨hipn, hm⟩
            · rw [hm] at hmm; exact (names_iff S.b64 n hosts).1 hmm
            · rw [hm, hipn] at hib; exact (names_iff S.b64 n hosts).1 hib
      · cases hho
    have new : (∃ l ∈ addFor P salt hash host ip (matchBits keys lns i) k, ∃ hosts,
        Says l .none hosts (P.writeKey k) ∧ Names P n hosts) →
        ∃ k', equal k k' = true ∧ Lists P ((lns.filter (keeps keys)).map Line.text ++
          additions P salt hash host ip (matchBits keys lns) 0 keys) n .none k' := by
      rintro ⟨l, hl, hosts, hsays, hnm⟩
      refine ⟨k, equal_refl k, l, ?_, hosts, _, hsays, hnm, (S.write k hk).2⟩
      apply List.mem_append_right
      rw [additions_mem]
      exact ⟨i, k, hi, by rw [Nat.zero_add]; exact hl⟩
    obtain ⟨_, a1, a2⟩ := add_says S hk (matchBits keys lns i)
    rcases hn with rfl | hn
    · cases hb : (matchBits keys lns i).1 with
      | false => exact new (a1 hb)
      | true =>
        simp only [matchBits, List.any_eq_true, Bool.and_eq_true, decide_eq_true_eq] at hb
        obtain ⟨ln, hln, h1, h2⟩ := hb
        exact old ln hln h1 (.inl ⟨rfl, h2⟩)
    · cases hb : (matchBits keys lns i).2 with
      | false => exact new (a2 n hn hb)
      | true =>
        simp only [matchBits, List.any_eq_true, Bool.and_eq_true, decide_eq_true_eq] at hb
        obtain ⟨ln, hln, h1, h2⟩ := hb
        exact old ln hln h1 (.inr ⟨hn, h2⟩)
  · rintro k' ⟨l, hl, hosts, key, hsays, hnm, hrk⟩
    rcases List.mem_append.1 hl with hl | hl
    · obtain ⟨keep, hkeq, hks⟩ := kept_eq S.b64 (keys := keys) hh
      rw [hkeq] at hl
      obtain ⟨h1, h2⟩ := List.mem_filter.1 hl
      refine (hks l h1).1 h2 k' ⟨hosts, key, hsays, ?_, hrk⟩
      rcases hn with rfl | hn
      · exact .inl hnm
      · exact .inr ⟨n, hn, hnm⟩
    · rw [additions_mem] at hl
      obtain ⟨j, k, hj, hl⟩ := hl
      have hk : k ∈ keys := List.mem_iff_getElem?.2 ⟨j, hj⟩
      obtain ⟨hosts', hs'⟩ := (add_says S hk _).1 l hl
      obtain ⟨_, _, he⟩ := says_unique hsays hs'
      rw [he, (S.write k hk).2] at hrk
      injection hrk with hrk; subst hrk
      exact ⟨k, hk, equal_refl k⟩

/-! ## A concrete case -/

def toyReplace (hash : Bool) (ip : Option Bytes) (names : List Bytes) (lines : List Bytes) : Option (List Bytes) :=
  replaceEntries toy (fun _ => List.replicate 20 1) hash b!"h" ip (names.map fun n => { pub := n, type := 1 })
    (lines.map (· ++ [10, 0]))

example : toyReplace false none [b!"N", b!"K"] [b!"# c", b!"h t K", b!"x t O", b!"h,x t O", b!"@revoked h t O", b!"h junk"] =
    some [b!"# c", b!"h t K", b!"x t O", b!"@revoked h t O", b!"h junk", b!"h t N"] := by decide +kernel
example : toyReplace false (some b!"1") [b!"K", b!"N"] [b!"h t K", b!"1 t O"] =
    some [b!"h t K", b!"1 t K", b!"h,1 t N"] := by decide +kernel
example : Setting toy (fun _ => List.replicate 20 1) true b!"h" (some b!"1") [{ pub := b!"K", type := 1 }] where
  b64 := toy_ok
  noBlank s := by
    show ∀ c ∈ toyEnc s, _
    induction s with
    | nil => intro c hc; cases hc
    | cons x r ih =>
      have : ∀ n : Fin 256, 65 + UInt8.ofNat n.val / 16 ≠ 32 ∧ 65 + UInt8.ofNat n.val / 16 ≠ 9 ∧
          65 + UInt8.ofNat n.val % 16 ≠ 32 ∧ 65 + UInt8.ofNat n.val % 16 ≠ 9 := by decide +kernel
      have hx := this ⟨x.toNat, x.toNat_lt⟩
      simp only [UInt8.ofNat_toNat] at hx
      intro c hc
      simp only [toyEnc, List.mem_cons] at hc
      rcases hc with rfl | rfl | hc
      · exact ⟨hx.1, hx.2.1⟩
      · exact ⟨hx.2.2.1, hx.2.2.2⟩
      · exact ih c hc
  salts _ := by decide
  names n hn := by
    rcases hn with rfl | hn
    · exact ⟨⟨by decide, by decide, by decide, by decide⟩, by decide⟩
    · injection hn with hn; subst hn
      exact ⟨⟨by decide, by decide, by decide, by decide⟩, by decide⟩
  write k hk := by
    simp at hk; subst hk
    exact ⟨⟨116, b!" K", by decide, by decide, by decide, by decide⟩, by decide⟩

/-- A line that names several hosts goes as a whole: `x` loses its entry when `h` gets new keys. -/
theorem C62_shared_line_lost : toyReplace false none [b!"N"] [b!"h,x t O"] = some [b!"h t N"] := by decide +kernel

/-- A hash is made of the lower-case name but compared with the name as given: with an upper-case letter in
the name the entry just added is not found again. -/
theorem C62_hashed_case :
    (writeEntry toy (fun _ => List.replicate 20 1) true b!"H" none { pub := b!"N", type := 1 }).all
      (fun l => (contributes toy b!"H" (l ++ [10, 0])).isNone) = true := by decide +kernel

end Verif.Hostfile
