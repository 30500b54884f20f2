/-
The loops of UpdateHostkeys.
-/
import Verif.HostKey.UpdateSpec

namespace Verif.HostKey.Update
open Verif
open _root_.Verif.Hostfile

theorem accepted_cons (E : Env) (b : Bytes) (bs : List Bytes) (k : Key) (hp : E.parse b = some k) :
    accepted E (b :: bs) = if E.algOk k && k.cert.isNone then k :: accepted E bs else accepted E bs := by
  unfold accepted
  rw [List.filterMap_cons, hp]
  by_cases h : (E.algOk k && k.cert.isNone) = true
  · simp [Option.filter, h]
  · simp [Option.filter, h]

theorem collect_iff (E : Env) (blobs : List Bytes) (ks0 ks : List Key) :
    collect E blobs ks0 = some ks ↔ ks = ks0 ++ accepted E blobs ∧
      (accepted E blobs).Pairwise (fun a b => equal b a = false) ∧
      ∀ a ∈ ks0, ∀ b ∈ accepted E blobs, equal b a = false := by
  induction blobs generalizing ks0 with
  | nil => simp [collect, accepted]; exact eq_comm
  | cons b bs ih =>
    unfold collect
    cases hp : E.parse b with
    | none =>
      have : accepted E (b :: bs) = accepted E bs := by simp [accepted, hp]
      rw [this]; exact ih ks0
    | some k =>
      dsimp only
      by_cases ha : E.algOk k = true
      · rw [if_neg (by simp [ha])]
        by_cases hc : k.isCert = true
        · rw [if_pos hc]
          have : accepted E (b :: bs) = accepted E bs := by
            have : k.cert.isNone = false := by simpa [Key.isCert] using hc
            rw [accepted_cons E b bs k hp, if_neg (by simp [this])]
          rw [this]; exact ih ks0
        · rw [if_neg hc]
          have hc' : k.cert.isNone = true := by simpa [Key.isCert] using hc
          have : accepted E (b :: bs) = k :: accepted E bs := by
            rw [accepted_cons E b bs k hp, if_pos (by simp [ha, hc'])]
          rw [this]
          by_cases hd : ks0.any (equal k ·) = true
          · rw [if_pos hd]
            constructor
            · intro h; cases h
            · rintro ⟨_, _, h⟩
              obtain ⟨a, ha', he⟩ := List.any_eq_true.1 hd
              rw [h a ha' k (by simp)] at he; cases he
          · rw [if_neg hd, ih]
            have hd' : ∀ a ∈ ks0, equal k a = false := by
              intro a ha'
              cases he : equal k a with
              | false => rfl
              | true => exact absurd (List.any_eq_true.2 ⟨a, ha', he⟩) hd
            simp only [List.pairwise_cons, List.append_assoc, List.singleton_append, List.mem_append, List.mem_cons,
              List.not_mem_nil, or_false]
            constructor
            · rintro ⟨h1, h2, h3⟩
              refine ⟨h1, ⟨fun a ha' => h3 k (.inr rfl) a ha', h2⟩, ?_⟩
              rintro a ha' c (rfl | hc'')
              · exact hd' a ha'
              · exact h3 a (.inl ha') c hc''
            · rintro ⟨h1, ⟨h2, h3⟩, h4⟩
              refine ⟨h1, h3, ?_⟩
              rintro a (ha' | rfl) c hc''
              · exact h4 a ha' c (.inr hc'')
              · exact h2 c hc''
      · rw [if_pos (by simpa using ha)]
        have : accepted E (b :: bs) = accepted E bs := by
          rw [accepted_cons E b bs k hp, if_neg (by simp [ha])]
        rw [this]; exact ih ks0

theorem accepted_mem {E : Env} {blobs : List Bytes} {k : Key} :
    k ∈ accepted E blobs ↔ ∃ b ∈ blobs, E.parse b = some k ∧ E.algOk k = true ∧ k.cert = none := by
  unfold accepted
  simp [List.mem_filterMap, Option.filter_eq_some_iff]

theorem complex_iff (hosts : Bytes) : complex hosts = false ↔ Simple hosts := by
  unfold complex Simple
  by_cases h1 : 42 ∈ hosts
  · simp [h1]
  by_cases h2 : 63 ∈ hosts
  · simp [h1, h2]
  simp only [h1, h2, decide_false, Bool.or_false, Bool.false_eq_true, if_false, not_false_eq_true, true_and]
  clear h1 h2
  induction hosts with
  | nil => simp
  | cons c r ih =>
    by_cases hc : c = 44
    · subst hc
      simp only [ne_eq, not_true_eq_false, decide_false, Bool.false_eq_true, not_false_eq_true,
        List.dropWhile_cons_of_neg, decide_eq_false_iff_not, List.count_cons_self]
      rw [← List.count_eq_zero]
      omega
    · rw [List.dropWhile_cons_of_pos (by simp [hc]), List.count_cons_of_ne hc]
      exact ih

theorem ask_iff (n : Nat) (rs : List Bytes) : ask n rs = true ↔
    ∃ i < n, (∃ r, rs[i]? = some r ∧ r.map Match.toLower = b!"yes") ∧
      ∀ m < i, ∃ r, rs[m]? = some r ∧ r.map Match.toLower ≠ b!"yes" ∧ r.map Match.toLower ≠ b!"no" := by
  induction n generalizing rs with
  | zero => simp [ask]
  | succ n ih =>
    cases rs with
    | nil => simp [ask]
    | cons r rs =>
      unfold ask says
      by_cases hy : r.map Match.toLower = b!"yes"
      · simp only [hy, decide_true, if_true, true_iff]
        exact ⟨0, by omega, ⟨r, rfl, hy⟩, fun m hm => by omega⟩
      · by_cases hn : r.map Match.toLower = b!"no"
        · rw [if_neg (by simp [hy]), if_pos (by simp [hn])]
          refine ⟨fun h => absurd h (by simp), ?_⟩
          rintro ⟨i, hi, ⟨r', h1, h2⟩, h3⟩
          cases i with
          | zero => simp at h1; subst h1; exact absurd h2 hy
          | succ i =>
            obtain ⟨r', h4, _, h5⟩ := h3 0 (by omega)
            simp at h4; subst h4; exact absurd hn h5
        · rw [if_neg (by simp [hy]), if_neg (by simp [hn]), ih]
          constructor
          · rintro ⟨i, hi, ⟨r', h1, h2⟩, h3⟩
            refine ⟨i + 1, by omega, ⟨r', by simpa using h1, h2⟩, ?_⟩
            intro m hm
            cases m with
            | zero => exact ⟨r, rfl, hy, hn⟩
            | succ m =>
              obtain ⟨r', h4, h5⟩ := h3 m (by omega)
              exact ⟨r', by simpa using h4, h5⟩
          · rintro ⟨i, hi, ⟨r', h1, h2⟩, h3⟩
            cases i with
            | zero => simp at h1; subst h1; exact absurd h2 hy
            | succ i =>
              refine ⟨i, by omega, ⟨r', by simpa using h1, h2⟩, ?_⟩
              intro m hm
              obtain ⟨r', h4, h5⟩ := h3 (m + 1) (by omega)
              exact ⟨r', by simpa using h4, h5⟩

/-! ## Reading -/

/-- The line read as `ln`. -/
def Reads (E : Env) (l : Bytes) (ln : Line) : Prop :=
  0 ∉ l ∧ 10 ∉ l ∧ ln.text = l ∧ ∃ stale, round E.P E.host E.ip false (l ++ 10 :: 0 :: stale) = .line ln

theorem handed_reads {E : Env} {lns : List Line} {ls : List Bytes} (h : Handed E.P E.host E.ip lns ls) :
    (∀ ln ∈ lns, ∃ l ∈ ls, Reads E l ln) ∧ (∀ l ∈ ls, ∃ ln ∈ lns, Reads E l ln) := by
  induction h with
  | nil => simp
  | @cons ln lns l stale ls h0 h10 hr ht r ih =>
    have hx : Reads E l ln := ⟨h0, h10, ht, stale, hr⟩
    constructor
    · intro x hm
      rcases List.mem_cons.1 hm with rfl | hm
      · exact ⟨l, by simp, hx⟩
      · obtain ⟨l', h1, h2⟩ := ih.1 x hm; exact ⟨l', by simp [h1], h2⟩
    · intro x hm
      rcases List.mem_cons.1 hm with rfl | hm
      · exact ⟨ln, by simp, hx⟩
      · obtain ⟨l', h1, h2⟩ := ih.2 x hm; exact ⟨l', by simp [h1], h2⟩

theorem terminated_unique {mems a b : List Bytes} (ha : Terminated mems a) (hb : Terminated mems b) : a = b := by
  induction mems generalizing a b with
  | nil =>
    cases a <;> cases b <;> first | rfl | exact absurd ha id | exact absurd hb id
  | cons m mems ih =>
    cases a with
    | nil => exact absurd ha id
    | cons x a =>
      cases b with
      | nil => exact absurd hb id
      | cons y b =>
        obtain ⟨⟨_, x10, s1, e1⟩, ha⟩ := ha
        obtain ⟨⟨_, y10, s2, e2⟩, hb⟩ := hb
        have hxy : x = y := by
          have t : ∀ (z s : Bytes), 10 ∉ z → (z ++ 10 :: s).takeWhile (· ≠ 10) = z := by
            intro z s hz
            rw [List.takeWhile_append_of_pos]
            · simp
            · intro c hc; simp; rintro rfl; exact hz hc
          have := congrArg (List.takeWhile (· ≠ 10)) (e1.symm.trans e2)
          rwa [t _ _ x10, t _ _ y10] at this
        rw [hxy, ih ha hb]

theorem readAll_ok (E : Env) (fs : List (Option (List Bytes)))
    (he : ∀ mems, some mems ∈ fs → ∃ ls, Terminated mems ls) :
    ∃ all, readAll E fs = some all ∧
      (∀ ln ∈ all, ∃ mems ls l, some mems ∈ fs ∧ Terminated mems ls ∧ l ∈ ls ∧ Reads E l ln) ∧
      (∀ mems ls l, some mems ∈ fs → Terminated mems ls → l ∈ ls → ∃ ln ∈ all, Reads E l ln) := by
  induction fs with
  | nil => exact ⟨[], rfl, by simp, by simp⟩
  | cons f fs ih =>
    obtain ⟨all, h1, h2, h3⟩ := ih (fun m hm => he m (by simp [hm]))
    cases f with
    | none =>
      refine ⟨all, h1, ?_, ?_⟩
      · intro ln hln
        obtain ⟨m, ls, l, a, b⟩ := h2 ln hln
        exact ⟨m, ls, l, by simp [a], b⟩
      · intro m ls l hm
        exact h3 m ls l (by simpa using hm)
    | some mems =>
      obtain ⟨ls, ht⟩ := he mems (by simp)
      obtain ⟨lns, hf, hh⟩ := foreach_handed (P := E.P) (host := E.host) (ip := E.ip) ht
      obtain ⟨r1, r2⟩ := handed_reads hh
      refine ⟨lns ++ all, by simp [readAll, hf, h1], ?_, ?_⟩
      · intro ln hln
        rcases List.mem_append.1 hln with hln | hln
        · obtain ⟨l, hl, hr⟩ := r1 ln hln
          exact ⟨mems, ls, l, by simp, ht, hl, hr⟩
        · obtain ⟨m, ls, l, a, b⟩ := h2 ln hln
          exact ⟨m, ls, l, by simp [a], b⟩
      · intro m ls' l hm ht' hl
        rcases List.mem_cons.1 hm with e | hm
        · injection e with e; subst e
          have := terminated_unique ht ht'; subst this
          obtain ⟨ln, h, hr⟩ := r2 l hl
          exact ⟨ln, by simp [h], hr⟩
        · obtain ⟨ln, h, hr⟩ := h3 m ls' l hm ht' hl
          exact ⟨ln, by simp [h], hr⟩

/-- What a line handed over with a key says. -/
theorem reads_key {E : Env} (hP : Base64Ok E.P) {l : Bytes} {ln : Line} {k : Key} (hr : Reads E l ln)
    (hk : ln.key = some k) :
    ∃ hosts key, Says l ln.marker hosts key ∧ E.P.readKey key = some k ∧ Readable E hosts ∧
      (ln.status = .matched ↔ NamesEither E.P E.host E.ip hosts) ∧
      (ln.matchHost = true ↔ Names E.P E.host hosts) ∧
      (∀ a, E.ip = some a → (ln.matchIp = true ↔ Names E.P a hosts)) ∧ hostsField ln = hosts := by
  obtain ⟨h0, h10, ht, stale, h⟩ := hr
  obtain ⟨hosts, key, hsays, hrk, hmm, hib, hst⟩ := round_key h0 h10 h hk
  have nh : ∀ n b, matchMaybeHashed E.P n hosts = some b → (b = true ↔ Names E.P n hosts) := by
    intro n b hb
    constructor
    · intro e; rw [e] at hb; exact (names_iff hP n hosts).1 hb
    · intro hn
      have := (names_iff hP n hosts).2 hn
      rw [hb] at this; exact Option.some.inj this
  have h1 := nh _ _ hmm
  have h2 : ∀ a, E.ip = some a → (ln.matchIp = true ↔ Names E.P a hosts) := by
    intro a ha
    rw [ha] at hib
    exact nh _ _ hib
  refine ⟨hosts, key, hsays, hrk, ?_, ?_, h1, h2, ?_⟩
  · intro hh
    unfold matchMaybeHashed at hmm
    rw [if_pos hh] at hmm
    intro hn; rw [hn] at hmm; cases hmm
  · rw [hst]
    unfold NamesEither
    rw [← h1]
    cases hi : E.ip with
    | none =>
      rw [hi] at hib
      have : ln.matchIp = false := (Option.some.inj hib).symm
      rw [this]
      cases ln.matchHost <;> simp
    | some a =>
      have := h2 a hi
      cases hx : ln.matchHost with
      | true => simp
      | false =>
        cases hy : ln.matchIp with
        | true => simp [hy] at this; simp [this]
        | false => simp [hy] at this; simp [this]
  · obtain ⟨cp, e1, e2, _⟩ := says_parse hsays
    unfold hostsField
    rw [ht, e1]; exact e2

/-- Every line that can be read is handed over with its key. -/
theorem reads_says {E : Env} {l hosts key : Bytes} {mk : Marker} {k : Key} {ln : Line} (hr : Reads E l ln)
    (hs : Says l mk hosts key) (hk : E.P.readKey key = some k) (hg : Readable E hosts) :
    ln.key = some k ∧ ln.marker = mk := by
  obtain ⟨h0, h10, ht, stale, h⟩ := hr
  have hm : ∀ n, ∃ b, matchMaybeHashed E.P n hosts = some b := by
    intro n
    unfold matchMaybeHashed
    by_cases hh : hosts.head? = some 124
    · rw [if_pos hh]
      cases he : extractSalt E.P hosts with
      | none => exact absurd he (hg hh)
      | some s => exact ⟨_, rfl⟩
    · rw [if_neg hh]; exact ⟨_, rfl⟩
  obtain ⟨b, hb⟩ := hm E.host
  have hi : ∃ c, ipMatch E.P E.ip hosts = some c := by
    cases E.ip with
    | none => exact ⟨false, rfl⟩
    | some a => exact hm a
  obtain ⟨c, hc⟩ := hi
  have := round_says (stale := stale) h0 h10 hs hk hb hc
  rw [h] at this
  simp only [Round.line.injEq] at this
  rw [this]
  exact ⟨rfl, rfl⟩

/-! ## The search -/

/-- A line that does not stand in the way. -/
def Clean (keys : List Key) (ip : Option Bytes) (ln : Line) : Prop :=
  ∀ k, ln.key = some k →
    (ln.status ≠ .matched → keys.any (equal k ·) = false) ∧
    (ln.status = .matched → ln.marker = .none ∧ complex (hostsField ln) = false ∧
      (ip.isSome = true → 44 ∈ hostsField ln → ln.matchHost = true ∧ ln.matchIp = true))

/-- What a clean line does. -/
def step (keys : List Key) (f : Find) (ln : Line) : Find :=
  match ln.key with
  | none => f
  | some k => if ln.status = .matched then mark keys k f else f

theorem mark_flags (keys : List Key) (k : Key) (f : Find) :
    (mark keys k f).complex = f.complex ∧ (mark keys k f).other = f.other := by
  unfold mark; split <;> exact ⟨rfl, rfl⟩

theorem findLine_clean {keys : List Key} {ip : Option Bytes} {f : Find} {ln : Line} (h : Clean keys ip ln) :
    findLine keys ip f ln = step keys f ln := by
  unfold findLine step
  cases hk : ln.key with
  | none => rfl
  | some k =>
    dsimp only
    obtain ⟨h1, h2⟩ := h k hk
    by_cases hs : ln.status = .matched
    · obtain ⟨a, b, c⟩ := h2 hs
      rw [if_neg (by simp [hs]), if_neg (by simp [a]), if_pos hs]
      by_cases hi : ip.isSome = true ∧ 44 ∈ hostsField ln
      · obtain ⟨d, e⟩ := c hi.1 hi.2
        rw [if_neg (by simp [d]), if_neg (by simp [e])]
        unfold markSimple; rw [if_neg (by simp [b])]
      · rw [if_neg, if_neg]
        · unfold markSimple; rw [if_neg (by simp [b])]
        · intro hx; simp at hx; exact hi (by simp [hx])
        · intro hx; simp at hx; exact hi (by simp [hx])
    · rw [if_pos hs, if_neg hs, if_neg (by rw [h1 hs]; simp)]

theorem findLine_dirty {keys : List Key} {ip : Option Bytes} {f : Find} {ln : Line}
    (h : (findLine keys ip f ln).complex = false ∧ (findLine keys ip f ln).other = false) :
    f.complex = false ∧ f.other = false ∧ Clean keys ip ln := by
  unfold findLine at h
  cases hk : ln.key with
  | none => rw [hk] at h; exact ⟨h.1, h.2, fun k he => by rw [hk] at he; cases he⟩
  | some k =>
    rw [hk] at h
    dsimp only at h
    by_cases hs : ln.status = .matched
    · rw [if_neg (by simp [hs])] at h
      by_cases hm : ln.marker = .none
      · rw [if_neg (by simp [hm])] at h
        have ms : ∀ {g : Find}, (markSimple keys (hostsField ln) k g).complex = false ∧
            (markSimple keys (hostsField ln) k g).other = false →
            complex (hostsField ln) = false ∧ g.complex = false ∧ g.other = false := by
          intro g hg
          unfold markSimple at hg
          by_cases hc : complex (hostsField ln) = true
          · rw [if_pos hc] at hg; cases hg.1
          · rw [if_neg hc, (mark_flags keys k g).1, (mark_flags keys k g).2] at hg
            exact ⟨by simpa using hc, hg⟩
        by_cases h1 : (ip.isSome && decide (44 ∈ hostsField ln) && !ln.matchHost) = true
        · rw [if_pos h1] at h; cases h.2
        · rw [if_neg h1] at h
          by_cases h2 : (ip.isSome && decide (44 ∈ hostsField ln) && !ln.matchIp) = true
          · rw [if_pos h2] at h; cases (ms h).2.2
          · rw [if_neg h2] at h
            obtain ⟨a, b, c⟩ := ms h
            refine ⟨b, c, ?_⟩
            intro k' _
            refine ⟨fun hx => absurd hs hx, fun _ => ⟨hm, a, ?_⟩⟩
            intro hi hc
            simp only [hi, hc, decide_true, Bool.and_self, Bool.true_and, Bool.not_eq_true, Bool.not_eq_false'] at h1 h2
            exact ⟨h1, h2⟩
      · rw [if_pos (by simp [hm])] at h; cases h.1
    · rw [if_pos hs] at h
      by_cases ha : keys.any (equal k ·) = true
      · rw [if_pos ha] at h; cases h.2
      · rw [if_neg ha] at h
        refine ⟨h.1, h.2, ?_⟩
        intro k' hk'
        rw [hk] at hk'; injection hk' with hk'; subst hk'
        exact ⟨fun _ => by simpa using ha, fun hx => absurd hx hs⟩

theorem fold_flags {keys : List Key} {ip : Option Bytes} {ls : List Line} {f : Find} :
    ((ls.foldl (findLine keys ip) f).complex = false ∧ (ls.foldl (findLine keys ip) f).other = false) ↔
      (f.complex = false ∧ f.other = false) ∧ ∀ ln ∈ ls, Clean keys ip ln := by
  induction ls generalizing f with
  | nil => simp
  | cons ln ls ih =>
    rw [List.foldl_cons, ih]
    constructor
    · rintro ⟨h1, h2⟩
      obtain ⟨a, b, c⟩ := findLine_dirty h1
      refine ⟨⟨a, b⟩, ?_⟩
      intro x hx
      rcases List.mem_cons.1 hx with rfl | hx
      · exact c
      · exact h2 x hx
    · rintro ⟨h1, h2⟩
      refine ⟨?_, fun x hx => h2 x (by simp [hx])⟩
      rw [findLine_clean (h2 ln (by simp))]
      unfold step
      split
      · exact h1
      · split
        · rw [(mark_flags _ _ _).1, (mark_flags _ _ _).2]; exact h1
        · exact h1

theorem fold_step {keys : List Key} {ip : Option Bytes} {ls : List Line} {f : Find}
    (h : ∀ ln ∈ ls, Clean keys ip ln) : ls.foldl (findLine keys ip) f = ls.foldl (step keys) f := by
  induction ls generalizing f with
  | nil => rfl
  | cons ln ls ih =>
    rw [List.foldl_cons, List.foldl_cons, findLine_clean (h ln (by simp)), ih (fun x hx => h x (by simp [hx]))]

/-- The keys found, and those no longer offered. -/
theorem fold_mem {keys : List Key} {ls : List Line} {f : Find} :
    (∀ i, i ∈ (ls.foldl (step keys) f).seen ↔ i ∈ f.seen ∨ ∃ ln ∈ ls, ∃ k, ln.key = some k ∧ ln.status = .matched ∧
      keys.findIdx? (equal k ·) = some i) ∧
    (∀ k, k ∈ (ls.foldl (step keys) f).old ↔ k ∈ f.old ∨ ∃ ln ∈ ls, ln.key = some k ∧ ln.status = .matched ∧
      keys.findIdx? (equal k ·) = none) := by
  induction ls generalizing f with
  | nil => simp
  | cons ln ls ih =>
    obtain ⟨i1, i2⟩ := ih (f := step keys f ln)
    rw [List.foldl_cons]
    have hs : (∀ i, i ∈ (step keys f ln).seen ↔ i ∈ f.seen ∨ ∃ k, ln.key = some k ∧ ln.status = .matched ∧
          keys.findIdx? (equal k ·) = some i) ∧
        (∀ k, k ∈ (step keys f ln).old ↔ k ∈ f.old ∨ (ln.key = some k ∧ ln.status = .matched ∧
          keys.findIdx? (equal k ·) = none)) := by
      unfold step
      cases hk : ln.key with
      | none => simp
      | some k =>
        dsimp only
        by_cases hs : ln.status = .matched
        · rw [if_pos hs]
          unfold mark
          cases hx : keys.findIdx? (equal k ·) with
          | none =>
            simp only [hs, true_and, Option.some.injEq, List.mem_append, List.mem_singleton]
            constructor
            · intro i
              constructor
              · exact .inl
              · rintro (h | ⟨k', rfl, h⟩)
                · exact h
                · rw [hx] at h; cases h
            · intro k'
              constructor
              · rintro (h | rfl)
                · exact .inl h
                · exact .inr ⟨rfl, hx⟩
              · rintro (h | ⟨rfl, _⟩)
                · exact .inl h
                · exact .inr rfl
          | some j =>
            simp only [hs, true_and, Option.some.injEq, List.mem_cons]
            constructor
            · intro i
              constructor
              · rintro (rfl | h)
                · exact .inr ⟨k, rfl, hx⟩
                · exact .inl h
              · rintro (h | ⟨k', rfl, h⟩)
                · exact .inr h
                · rw [hx] at h; exact .inl (Option.some.inj h).symm
            · intro k'
              constructor
              · exact .inl
              · rintro (h | ⟨rfl, h⟩)
                · exact h
                · rw [hx] at h; cases h
        · rw [if_neg hs]; simp [hs]
    constructor
    · intro i
      rw [i1, hs.1]
      constructor
      · rintro ((h | ⟨k, h⟩) | ⟨l, hl, k, h⟩)
        · exact .inl h
        · exact .inr ⟨ln, by simp, k, h⟩
        · exact .inr ⟨l, by simp [hl], k, h⟩
      · rintro (h | ⟨l, hl, k, h⟩)
        · exact .inl (.inl h)
        · rcases List.mem_cons.1 hl with rfl | hl
          · exact .inl (.inr ⟨k, h⟩)
          · exact .inr ⟨l, hl, k, h⟩
    · intro k
      rw [i2, hs.2]
      constructor
      · rintro ((h | h) | ⟨l, hl, h⟩)
        · exact .inl h
        · exact .inr ⟨ln, by simp, h⟩
        · exact .inr ⟨l, by simp [hl], h⟩
      · rintro (h | ⟨l, hl, h⟩)
        · exact .inl (.inl h)
        · rcases List.mem_cons.1 hl with rfl | hl
          · exact .inl (.inr h)
          · exact .inr ⟨l, hl, h⟩

end Verif.HostKey.Update
