/-
C13, C14: negotiation and guessed packets.
-/
import Verif.Kex.Spec
import Verif.Match.Props

namespace Verif.Kex
open Verif Wire Text
open scoped Verif.Match

theorem chosen_iff (c s n : Bytes) : (Match.matchList c s).1 = some n ↔ Chosen c s n := Match.C07_selected_iff c s n

theorem chosen_unique {c s n m : Bytes} (h1 : Chosen c s n) (h2 : Chosen c s m) : n = m := by
  rw [← chosen_iff] at h1 h2
  rw [h1] at h2; exact Option.some.inj h2

/-- A choice is on both lists. -/
theorem chosen_mem {c s n : Bytes} (h : Chosen c s n) : n ∈ Match.names c ∧ n ∈ Match.names s := by
  obtain ⟨h1, b, a, h2, _⟩ := h
  exact ⟨by rw [h2]; simp, List.mem_of_mem_take h1⟩

theorem exists_chosen {c s : Bytes} (hl : (Match.names s).length ≤ 40) : (∃ n, Chosen c s n) ↔ ¬ Disjoint c s := by
  constructor
  · rintro ⟨n, h⟩ hd
    exact hd n (chosen_mem h).1 (chosen_mem h).2
  · intro hd
    rcases h : (Match.matchList c s).1 with _ | n
    · rw [Match.C07_none_iff, List.take_of_length_le hl] at h
      exact absurd h hd
    · exact ⟨n, (chosen_iff c s n).1 h⟩

/-! Each choosing function: success. -/

theorem chooseEnc_ok {S c s n k} : chooseEnc S c s = .ok (n, k) ↔ Chosen c s n ∧ S.cipher n = some k := by
  rw [← chosen_iff]; unfold chooseEnc
  rcases h : (Match.matchList c s).1 with _ | m
  · simp
  · rcases h2 : S.cipher m with _ | k' <;> simp [h2]
    · rintro rfl; simp [h2]
    · intro hm; subst hm; simp [h2]

theorem chooseMac_ok {S c s n k} : chooseMac S c s = .ok (n, k) ↔ Chosen c s n ∧ S.mac n = some k := by
  rw [← chosen_iff]; unfold chooseMac
  rcases h : (Match.matchList c s).1 with _ | m
  · simp
  · rcases h2 : S.mac m with _ | k' <;> simp [h2]
    · rintro rfl; simp [h2]
    · intro hm; subst hm; simp [h2]

theorem chooseKex_ok {S c s n k} : chooseKex S c s = .ok (n, k) ↔ Chosen c s n ∧ S.kex n = some k := by
  rw [← chosen_iff]; unfold chooseKex
  rcases h : (Match.matchList c s).1 with _ | m
  · simp
  · rcases h2 : S.kex m with _ | k' <;> simp [h2]
    · rintro rfl; simp [h2]
    · intro hm; subst hm; simp [h2]

theorem chooseHostkey_ok {S c s n k} : chooseHostkey S c s = .ok (n, k) ↔ Chosen c s n ∧ S.hostkey n = some k := by
  rw [← chosen_iff]; unfold chooseHostkey
  rcases h : (Match.matchList c s).1 with _ | m
  · simp
  · rcases h2 : S.hostkey m with _ | k' <;> simp [h2]
    · rintro rfl; simp [h2]
    · intro hm; subst hm; simp [h2]

/-- The compression methods of the build. -/
def compOf (S : Support) (n : Bytes) : Option Bool :=
  if S.zlib ∧ n = b!"zlib@openssh.com" then some true else if n = b!"none" then some false else none

theorem chooseComp_ok {S c s n k} : chooseComp S c s = .ok (n, k) ↔ Chosen c s n ∧ compOf S n = some k := by
  rw [← chosen_iff]; unfold chooseComp
  rcases h : (Match.matchList c s).1 with _ | m
  · simp
  · simp only [Option.some.injEq]
    unfold compOf
    constructor
    · intro he
      split at he
      · rename_i hc
        injection he with he; injection he with h1 h2; subst h1 h2
        exact ⟨rfl, if_pos hc⟩
      · split at he
        · rename_i hc hd
          injection he with he; injection he with h1 h2; subst h1 h2
          exact ⟨rfl, by rw [if_neg hc, if_pos hd]⟩
        · simp at he
    · rintro ⟨rfl, he⟩
      split at he
      · rename_i hc; rw [if_pos hc]; injection he with he; rw [he]
      · rename_i hc
        rw [if_neg hc]
        split at he
        · rename_i hd; rw [if_pos hd]; injection he with he; rw [he]
        · simp at he

/-- What is chosen for a direction, given the two proposals. -/
def ModeSpec (S : Support) (cprop sprop : Proposal) (d : Dir) (k : NewKeys) : Prop :=
  Chosen (cprop.at (encIdx d)) (sprop.at (encIdx d)) k.enc ∧ S.cipher k.enc = some k.cipher ∧
  (if k.cipher.authLen = 0 then
    ∃ n l, k.mac = some (n, l) ∧ Chosen (cprop.at (macIdx d)) (sprop.at (macIdx d)) n ∧ S.mac n = some l
   else k.mac = none) ∧
  Chosen (cprop.at (compIdx d)) (sprop.at (compIdx d)) k.comp ∧ compOf S k.comp = some k.delayed

def dirOf (ctos : Bool) : Dir := if ctos then .ctos else .stoc

theorem chooseMode_ok {S server mode cprop sprop k} :
    chooseMode S server mode cprop sprop = .ok k ↔ ModeSpec S cprop sprop (dirOf (ctosOf server mode)) k := by
  unfold chooseMode
  have hi : ∀ b : Bool, (if b then (2 : Nat) else 3) = encIdx (dirOf b) := by decide
  have hm : ∀ b : Bool, (if b then (4 : Nat) else 5) = macIdx (dirOf b) := by decide
  have hc : ∀ b : Bool, (if b then (6 : Nat) else 7) = compIdx (dirOf b) := by decide
  simp only [hi, hm, hc]
  generalize dirOf (ctosOf server mode) = d
  unfold ModeSpec
  constructor
  · intro h
    split at h
    · simp at h
    · rename_i n c he
      obtain ⟨h1, h2⟩ := chooseEnc_ok.1 he
      split at h
      · simp at h
      · rename_i mac hmac
        split at h
        · simp at h
        · rename_i z dl hz
          obtain ⟨h5, h6⟩ := chooseComp_ok.1 hz
          injection h with h
          subst h
          refine ⟨h1, h2, ?_, h5, h6⟩
          by_cases ha : c.authLen = 0
          · rw [if_pos ha] at hmac ⊢
            rcases hx : chooseMac S (cprop.at (macIdx d)) (sprop.at (macIdx d)) with e | ⟨n', l⟩
            · rw [hx] at hmac; simp [Except.map] at hmac
            · rw [hx] at hmac
              simp only [Except.map, Except.ok.injEq] at hmac
              obtain ⟨h3, h4⟩ := chooseMac_ok.1 hx
              exact ⟨n', l, hmac.symm, h3, h4⟩
          · rw [if_neg ha] at hmac ⊢
            injection hmac with hmac
            exact hmac.symm
  · rintro ⟨h1, h2, h3, h4, h5⟩
    rw [chooseEnc_ok.2 ⟨h1, h2⟩, ]
    simp only
    by_cases ha : k.cipher.authLen = 0
    · rw [if_pos ha] at h3 ⊢
      obtain ⟨n, l, e, hn, hl⟩ := h3
      rw [chooseMac_ok.2 ⟨hn, hl⟩, chooseComp_ok.2 ⟨h4, h5⟩]
      simp only [Except.map, ← e]
    · rw [if_neg ha] at h3 ⊢
      rw [chooseComp_ok.2 ⟨h4, h5⟩]
      simp only [← h3]

theorem modeSpec_unique {S cprop sprop d k k'} (h : ModeSpec S cprop sprop d k) (h' : ModeSpec S cprop sprop d k') :
    k = k' := by
  obtain ⟨e, c, m, z, dl⟩ := k
  obtain ⟨e', c', m', z', dl'⟩ := k'
  obtain ⟨h1, h2, h3, h4, h5⟩ := h
  obtain ⟨g1, g2, g3, g4, g5⟩ := h'
  simp only at *
  obtain rfl := chosen_unique h1 g1
  obtain rfl := chosen_unique h4 g4
  rw [h2] at g2; injection g2 with g2; subst g2
  rw [h5] at g5; injection g5 with g5; subst g5
  by_cases ha : c.authLen = 0
  · rw [if_pos ha] at h3 g3
    obtain ⟨n, l, rfl, hn, hl⟩ := h3
    obtain ⟨n', l', rfl, hn', hl'⟩ := g3
    obtain rfl := chosen_unique hn hn'
    rw [hl] at hl'; injection hl' with hl'; subst hl'; rfl
  · rw [if_neg ha] at h3 g3
    rw [h3, g3]

/-- The strict key exchange rule (kex.c:962-967) does not end the connection. -/
def StrictOk (server : Bool) (f : Flags) (seq : Nat) (peer : Proposal) : Prop :=
  ¬ (f.initial = true ∧ (peerMarkers server f peer).strict = true ∧ seq ≠ 0)

/-- A configuration agrees with a pair of proposals. -/
def ConfSpec (S : Support) (server : Bool) (cprop sprop : Proposal) (c : Conf) : Prop :=
  Chosen (cprop.at 0) (sprop.at 0) c.kex ∧ S.kex c.kex = some c.kexType ∧
  Chosen (cprop.at 1) (sprop.at 1) c.hostkey ∧ S.hostkey c.hostkey = some c.hostkeyType ∧
  (∀ d, ModeSpec S cprop sprop d (c.keysFor server d)) ∧
  c.need = max c.keysIn.need c.keysOut.need ∧ c.dhNeed = max c.keysIn.dhNeed c.keysOut.dhNeed

theorem chooseProps_ok {S server f seq my peer follows c} :
    chooseProps S server f seq my peer follows = .ok c ↔
      StrictOk server f seq peer ∧
      ConfSpec S server (if server then peer else my) (if server then my else peer) c ∧
      c.skip = decide (follows ≠ 0 ∧ ¬ proposalsMatch my peer) ∧ c.flags = peerMarkers server f peer := by
  unfold chooseProps
  simp only
  generalize hcp : (if server then peer else my : Proposal) = cp
  generalize hsp : (if server then my else peer : Proposal) = sp
  constructor
  · intro h
    split at h
    · simp at h
    · rename_i hs
      refine ⟨hs, ?_⟩
      split at h
      · simp at h
      · rename_i kn kt hk
        split at h
        · simp at h
        · rename_i hn ht hh
          split at h
          · simp at h
          · rename_i ki hi
            split at h
            · simp at h
            · rename_i ko ho
              injection h with h; subst h
              have k := chooseKex_ok.1 hk
              have hk := chooseHostkey_ok.1 hh
              refine ⟨⟨k.1, k.2, hk.1, hk.2, ?_, rfl, rfl⟩, rfl, rfl⟩
              have h1 := chooseMode_ok.1 hi
              have h2 := chooseMode_ok.1 ho
              intro d
              cases server <;> cases d
              · exact h2
              · exact h1
              · exact h1
              · exact h2
  · rintro ⟨hs, ⟨h1, h2, h3, h4, h5, h6, h7⟩, h8, h9⟩
    rw [if_neg hs, chooseKex_ok.2 ⟨h1, h2⟩, chooseHostkey_ok.2 ⟨h3, h4⟩]
    simp only
    have hi : chooseMode S server .input cp sp = .ok c.keysIn := by
      apply chooseMode_ok.2
      cases server
      · exact h5 .stoc
      · exact h5 .ctos
    have ho : chooseMode S server .output cp sp = .ok c.keysOut := by
      apply chooseMode_ok.2
      cases server
      · exact h5 .ctos
      · exact h5 .stoc
    rw [hi, ho]
    simp only [← h6, ← h7, ← h8, ← h9]

/-- **C13** agreement: when client and server both complete the negotiation of the same two proposals,
they have chosen the same key exchange method, the same host key algorithm, and for each direction of
traffic the same cipher, MAC and compression (and the same amount of key material). -/
theorem C13_agree (S : Support) (cprop sprop : Proposal) (fc fs : Flags) (qc qs : Nat) (wc ws : UInt8) (c s : Conf)
    (hc : chooseProps S false fc qc cprop sprop wc = .ok c)
    (hs : chooseProps S true fs qs sprop cprop ws = .ok s) :
    c.kex = s.kex ∧ c.hostkey = s.hostkey ∧ c.kexType = s.kexType ∧ c.hostkeyType = s.hostkeyType ∧
    (∀ d, c.keysFor false d = s.keysFor true d) ∧ c.keysOut = s.keysIn ∧ c.keysIn = s.keysOut ∧
    c.need = s.need ∧ c.dhNeed = s.dhNeed := by
  obtain ⟨_, ⟨c1, c2, c3, c4, c5, c6, c7⟩, _⟩ := chooseProps_ok.1 hc
  obtain ⟨_, ⟨s1, s2, s3, s4, s5, s6, s7⟩, _⟩ := chooseProps_ok.1 hs
  simp only [if_true, Bool.false_eq_true, if_false] at *
  have e1 := chosen_unique c1 s1
  have e2 := chosen_unique c3 s3
  have hd : ∀ d, c.keysFor false d = s.keysFor true d := fun d => modeSpec_unique (c5 d) (s5 d)
  have k1 : c.keysOut = s.keysIn := hd .ctos
  have k2 : c.keysIn = s.keysOut := hd .stoc
  refine ⟨e1, e2, ?_, ?_, hd, k1, k2, ?_, ?_⟩
  · rw [e1, s2] at c2; injection c2 with c2; exact c2.symm
  · rw [e2, s4] at c4; injection c4 with c4; exact c4.symm
  · rw [c6, s6, k1, k2, Nat.max_comm]
  · rw [c7, s7, k1, k2, Nat.max_comm]

/-- **C13** the two ends succeed or fail together (the strict key exchange rule aside). -/
theorem C13_together (S : Support) (cprop sprop : Proposal) (fc fs : Flags) (qc qs : Nat) (wc ws : UInt8)
    (hqc : StrictOk false fc qc sprop) (hqs : StrictOk true fs qs cprop) :
    (∃ c, chooseProps S false fc qc cprop sprop wc = .ok c) ↔
      (∃ s, chooseProps S true fs qs sprop cprop ws = .ok s) := by
  constructor
  · rintro ⟨c, h⟩
    obtain ⟨_, ⟨c1, c2, c3, c4, c5, c6, c7⟩, _⟩ := chooseProps_ok.1 h
    refine ⟨{ c with
      keysIn := c.keysOut, keysOut := c.keysIn,
      skip := decide (ws ≠ 0 ∧ ¬ proposalsMatch sprop cprop), flags := peerMarkers true fs cprop }, ?_⟩
    rw [chooseProps_ok]
    refine ⟨hqs, ⟨c1, c2, c3, c4, ?_, ?_, ?_⟩, rfl, rfl⟩
    · intro d; cases d
      · exact c5 .ctos
      · exact c5 .stoc
    · show c.need = max c.keysOut.need c.keysIn.need
      rw [c6, Nat.max_comm]
    · show c.dhNeed = max c.keysOut.dhNeed c.keysIn.dhNeed
      rw [c7, Nat.max_comm]
  · rintro ⟨c, h⟩
    obtain ⟨_, ⟨c1, c2, c3, c4, c5, c6, c7⟩, _⟩ := chooseProps_ok.1 h
    refine ⟨{ c with
      keysIn := c.keysOut, keysOut := c.keysIn,
      skip := decide (wc ≠ 0 ∧ ¬ proposalsMatch cprop sprop), flags := peerMarkers false fc sprop }, ?_⟩
    rw [chooseProps_ok]
    refine ⟨hqc, ⟨c1, c2, c3, c4, ?_, ?_, ?_⟩, rfl, rfl⟩
    · intro d; cases d
      · exact c5 .ctos
      · exact c5 .stoc
    · show c.need = max c.keysOut.need c.keysIn.need
      rw [c6, Nat.max_comm]
    · show c.dhNeed = max c.keysOut.dhNeed c.keysIn.dhNeed
      rw [c7, Nat.max_comm]

/-- **C13** every choice is the client's first name that the server also offers, and so is on both lists. -/
theorem C13_choice (S : Support) (server : Bool) (cprop sprop : Proposal) (f : Flags) (q : Nat) (w : UInt8) (c : Conf)
    (h : chooseProps S server f q (if server then sprop else cprop) (if server then cprop else sprop) w = .ok c) :
    (Chosen (cprop.at 0) (sprop.at 0) c.kex ∧ c.kex ∈ Match.names (cprop.at 0) ∧ c.kex ∈ Match.names (sprop.at 0)) ∧
    (Chosen (cprop.at 1) (sprop.at 1) c.hostkey ∧ c.hostkey ∈ Match.names (cprop.at 1) ∧
      c.hostkey ∈ Match.names (sprop.at 1)) ∧
    ∀ d, (Chosen (cprop.at (encIdx d)) (sprop.at (encIdx d)) (c.keysFor server d).enc ∧
        (c.keysFor server d).enc ∈ Match.names (cprop.at (encIdx d)) ∧
        (c.keysFor server d).enc ∈ Match.names (sprop.at (encIdx d))) ∧
      (∀ n l, (c.keysFor server d).mac = some (n, l) → Chosen (cprop.at (macIdx d)) (sprop.at (macIdx d)) n ∧
        n ∈ Match.names (cprop.at (macIdx d)) ∧ n ∈ Match.names (sprop.at (macIdx d))) ∧
      ((c.keysFor server d).mac = none ↔ (c.keysFor server d).cipher.authLen ≠ 0) ∧
      (Chosen (cprop.at (compIdx d)) (sprop.at (compIdx d)) (c.keysFor server d).comp ∧
        (c.keysFor server d).comp ∈ Match.names (cprop.at (compIdx d)) ∧
        (c.keysFor server d).comp ∈ Match.names (sprop.at (compIdx d))) := by
  obtain ⟨_, ⟨c1, _, c3, _, c5, _, _⟩, _⟩ := chooseProps_ok.1 h
  have e1 : (if server then (if server then cprop else sprop) else (if server then sprop else cprop) : Proposal) = cprop := by
    cases server <;> rfl
  have e2 : (if server then (if server then sprop else cprop) else (if server then cprop else sprop) : Proposal) = sprop := by
    cases server <;> rfl
  rw [e1, e2] at c1 c3
  rw [e1, e2] at c5
  refine ⟨⟨c1, chosen_mem c1⟩, ⟨c3, chosen_mem c3⟩, fun d => ?_⟩
  obtain ⟨h1, h2, h3, h4, h5⟩ := c5 d
  refine ⟨⟨h1, chosen_mem h1⟩, ?_, ?_, ⟨h4, chosen_mem h4⟩⟩
  · intro n l hm
    by_cases ha : (c.keysFor server d).cipher.authLen = 0
    · rw [if_pos ha] at h3
      obtain ⟨n', l', e, hn, hl⟩ := h3
      rw [hm] at e; injection e with e; injection e with e1 e2; subst e1
      exact ⟨hn, chosen_mem hn⟩
    · rw [if_neg ha] at h3; rw [h3] at hm; simp at hm
  · by_cases ha : (c.keysFor server d).cipher.authLen = 0
    · rw [if_pos ha] at h3
      obtain ⟨n', l', e, hn, hl⟩ := h3
      rw [e]; simp [ha]
    · rw [if_neg ha] at h3; simp [h3, ha]

/-- Everything on both lists is supported by this build, in every category. -/
def Supported (S : Support) (cprop sprop : Proposal) : Prop :=
  (∀ n, n ∈ Match.names (cprop.at 0) → n ∈ Match.names (sprop.at 0) → (S.kex n).isSome) ∧
  (∀ n, n ∈ Match.names (cprop.at 1) → n ∈ Match.names (sprop.at 1) → (S.hostkey n).isSome) ∧
  ∀ d, (∀ n, n ∈ Match.names (cprop.at (encIdx d)) → n ∈ Match.names (sprop.at (encIdx d)) → (S.cipher n).isSome) ∧
    (∀ n, n ∈ Match.names (cprop.at (macIdx d)) → n ∈ Match.names (sprop.at (macIdx d)) → (S.mac n).isSome) ∧
    (∀ n, n ∈ Match.names (cprop.at (compIdx d)) → n ∈ Match.names (sprop.at (compIdx d)) → (compOf S n).isSome)

/-- The pairs of lists that must have a common name: key exchange, host key, and per direction cipher,
compression, and the MAC unless the agreed cipher authenticates by itself. -/
def RequiredDisjoint (S : Support) (cprop sprop : Proposal) : Prop :=
  Disjoint (cprop.at 0) (sprop.at 0) ∨ Disjoint (cprop.at 1) (sprop.at 1) ∨
  ∃ d, Disjoint (cprop.at (encIdx d)) (sprop.at (encIdx d)) ∨
    Disjoint (cprop.at (compIdx d)) (sprop.at (compIdx d)) ∨
    (Disjoint (cprop.at (macIdx d)) (sprop.at (macIdx d)) ∧
      ∃ n k, Chosen (cprop.at (encIdx d)) (sprop.at (encIdx d)) n ∧ S.cipher n = some k ∧ k.authLen = 0)

/-- **C13** failure: with at most forty names on each of the server's lists and every common name
supported, negotiation fails exactly when some required pair of lists has no common name.  Missing for the
full claim: longer lists, for which it is false (`C13_long_list_false`). -/
theorem C13_fails_iff_partial (S : Support) (server : Bool) (cprop sprop : Proposal) (f : Flags) (q : Nat) (w : UInt8)
    (hq : StrictOk server f q (if server then cprop else sprop)) (hsup : Supported S cprop sprop)
    (h40 : ∀ i, (Match.names (sprop.at i)).length ≤ 40) :
    (¬ ∃ c, chooseProps S server f q (if server then sprop else cprop) (if server then cprop else sprop) w = .ok c) ↔
      RequiredDisjoint S cprop sprop := by
  have e1 : (if server then (if server then cprop else sprop) else (if server then sprop else cprop) : Proposal) = cprop := by
    cases server <;> rfl
  have e2 : (if server then (if server then sprop else cprop) else (if server then cprop else sprop) : Proposal) = sprop := by
    cases server <;> rfl
  constructor
  · intro hf
    apply Classical.byContradiction
    intro hr
    apply hf
    unfold RequiredDisjoint at hr
    simp only [not_or, not_exists] at hr
    obtain ⟨r1, r2, r3⟩ := hr
    obtain ⟨n, hn⟩ := (exists_chosen (h40 0)).2 r1
    obtain ⟨m, hm⟩ := (exists_chosen (h40 1)).2 r2
    obtain ⟨kt, hkt⟩ := Option.isSome_iff_exists.1 (hsup.1 n (chosen_mem hn).1 (chosen_mem hn).2)
    obtain ⟨ht, hht⟩ := Option.isSome_iff_exists.1 (hsup.2.1 m (chosen_mem hm).1 (chosen_mem hm).2)
    have hd : ∀ d, ∃ k, ModeSpec S cprop sprop d k := by
      intro d
      obtain ⟨s1, s2, s3⟩ := hsup.2.2 d
      obtain ⟨d1, d2, d3⟩ := r3 d
      obtain ⟨e, he⟩ := (exists_chosen (h40 _)).2 d1
      obtain ⟨z, hz⟩ := (exists_chosen (h40 _)).2 d2
      obtain ⟨ci, hci⟩ := Option.isSome_iff_exists.1 (s1 e (chosen_mem he).1 (chosen_mem he).2)
      obtain ⟨dl, hdl⟩ := Option.isSome_iff_exists.1 (s3 z (chosen_mem hz).1 (chosen_mem hz).2)
      by_cases ha : ci.authLen = 0
      · have : ¬ Disjoint (cprop.at (macIdx d)) (sprop.at (macIdx d)) := by
          intro hdj; exact d3 ⟨hdj, e, ci, he, hci, ha⟩
        obtain ⟨mn, hmn⟩ := (exists_chosen (h40 _)).2 this
        obtain ⟨ml, hml⟩ := Option.isSome_iff_exists.1 (s2 mn (chosen_mem hmn).1 (chosen_mem hmn).2)
        exact ⟨⟨e, ci, some (mn, ml), z, dl⟩, he, hci, by rw [if_pos ha]; exact ⟨mn, ml, rfl, hmn, hml⟩, hz, hdl⟩
      · exact ⟨⟨e, ci, none, z, dl⟩, he, hci, by rw [if_neg ha], hz, hdl⟩
    obtain ⟨k1, hk1⟩ := hd .ctos
    obtain ⟨k2, hk2⟩ := hd .stoc
    let ki := if server then k1 else k2
    let ko := if server then k2 else k1
    refine ⟨{ kex := n, kexType := kt, hostkey := m, hostkeyType := ht, keysIn := ki, keysOut := ko,
              need := max ki.need ko.need, dhNeed := max ki.dhNeed ko.dhNeed,
              skip := decide (w ≠ 0 ∧ ¬ proposalsMatch (if server then sprop else cprop) (if server then cprop else sprop))
              flags := peerMarkers server f (if server then cprop else sprop) }, ?_⟩
    rw [chooseProps_ok, e1, e2]
    refine ⟨hq, ⟨hn, hkt, hm, hht, ?_, rfl, rfl⟩, rfl, rfl⟩
    intro d
    cases server <;> cases d
    · exact hk1
    · exact hk2
    · exact hk1
    · exact hk2
  · rintro hr ⟨c, h⟩
    obtain ⟨_, ⟨c1, _, c3, _, c5, _, _⟩, _⟩ := chooseProps_ok.1 h
    rw [e1, e2] at c1 c3 c5
    rcases hr with hr | hr | ⟨d, hr | hr | ⟨hr, n, k, hn, hk, ha⟩⟩
    · exact (exists_chosen (h40 0)).1 ⟨_, c1⟩ hr
    · exact (exists_chosen (h40 1)).1 ⟨_, c3⟩ hr
    · exact (exists_chosen (h40 _)).1 ⟨_, (c5 d).1⟩ hr
    · exact (exists_chosen (h40 _)).1 ⟨_, (c5 d).2.2.2.1⟩ hr
    · obtain ⟨m1, m2, m3, _⟩ := c5 d
      obtain rfl := chosen_unique hn m1
      rw [hk] at m2; injection m2 with m2
      rw [← m2, if_pos ha] at m3
      obtain ⟨n', l, _, hc, _⟩ := m3
      exact (exists_chosen (h40 _)).1 ⟨_, hc⟩ hr

/-! ### The proposals travel unchanged -/

theorem getProps_flatMap (p : Proposal) (rest : Bytes) (h : ∀ s ∈ p, (0 : UInt8) ∉ s ∧ s.length ≤ maxString) :
    getProps p.length (p.flatMap str ++ rest) = some (p, rest) := by
  induction p with
  | nil => rfl
  | cons s p ih =>
    rw [List.length_cons, getProps, List.flatMap_cons, List.append_assoc,
      getCstr_append s _ (h s (by simp)).1 (h s (by simp)).2]
    simp only
    rw [ih (fun s hs => h s (by simp [hs]))]

/-- **C13** on the wire: what one end put into its KEXINIT (with any cookie) is what the other end reads
from it, so both ends negotiate about the same two proposals. -/
theorem C13_wire (p : Proposal) (cookie : Bytes) (hc : cookie.length = 16) (hp : p.length = 10)
    (h : ∀ s ∈ p, (0 : UInt8) ∉ s ∧ s.length ≤ maxString) :
    buf2prop (cookie ++ (prop2buf p).drop 16) = some (p, 0) := by
  unfold buf2prop prop2buf
  have h0 : (List.replicate 16 (0 : UInt8) ++ (p.take 10).flatMap str ++ [0] ++ be 4 0).drop 16 =
      p.flatMap str ++ ([0] ++ be 4 0) := by
    rw [List.take_of_length_le (by omega)]
    simp
  rw [h0]
  rw [if_neg (by simp; omega)]
  rw [List.drop_left' hc]
  have := getProps_flatMap p ([0] ++ be 4 0) h
  rw [hp] at this
  rw [this]
  simp

/-! ### Examples -/

/-- A small build: some of the entries of cipher.c:85-117, mac.c:58-80 and kex-names.c:54-92. -/
def exampleSupport : Support where
  cipher n :=
    if n = b!"aes128-ctr" then some ⟨n, 16, 16, 0, 0, false⟩
    else if n = b!"aes256-ctr" then some ⟨n, 16, 32, 0, 0, false⟩
    else if n = b!"chacha20-poly1305@openssh.com" then some ⟨n, 8, 64, 0, 16, true⟩
    else none
  mac n := if n = b!"hmac-sha1" then some 20 else if n = b!"hmac-sha2-256" then some 32 else none
  kex n := if n = b!"curve25519-sha256" then some 9 else if n = b!"ecdh-sha2-nistp256" then some 8 else none
  hostkey n := if n = b!"ssh-ed25519" then some 3 else none
  zlib := true

def exampleClient : Proposal :=
  [b!"ecdh-sha2-nistp256,curve25519-sha256,ext-info-c,kex-strict-c-v00@openssh.com", b!"ssh-ed25519",
   b!"chacha20-poly1305@openssh.com,aes128-ctr", b!"aes256-ctr,aes128-ctr",
   b!"hmac-sha1", b!"hmac-sha2-256,hmac-sha1", b!"none", b!"zlib@openssh.com,none", b!"", b!""]
def exampleServer : Proposal :=
  [b!"curve25519-sha256,kex-strict-s-v00@openssh.com", b!"rsa-sha2-512,ssh-ed25519",
   b!"aes128-ctr,chacha20-poly1305@openssh.com", b!"aes128-ctr,aes256-ctr",
   b!"hmac-sha2-256", b!"hmac-sha1,hmac-sha2-256", b!"none,zlib@openssh.com", b!"none", b!"", b!""]
def exampleFlags : Flags := ⟨true, false, false, false, false, false⟩

def confOf : Except Err Conf → Option Conf
  | .ok c => some c
  | .error _ => none
def errOf : Except Err Conf → Option Err
  | .ok _ => none
  | .error e => some e

/-- Non-vacuity: both ends succeed; the MAC lists client to server are disjoint, but that cipher needs no
MAC. -/
example : ((confOf (chooseProps exampleSupport false exampleFlags 0 exampleClient exampleServer 0)).map fun c =>
      (c.kex, c.keysOut.enc, c.keysIn.enc)) =
    some (b!"curve25519-sha256", b!"chacha20-poly1305@openssh.com", b!"aes256-ctr") := by decide +kernel
example : ((confOf (chooseProps exampleSupport true exampleFlags 0 exampleServer exampleClient 1)).map fun c =>
      (c.keysIn.mac.isSome, (c.keysOut.mac.map (·.1)).getD [], c.keysOut.comp)) =
    some (false, b!"hmac-sha2-256", b!"none") := by decide +kernel
/-- Non-vacuity: a negotiation failing for want of a MAC. -/
example : (chooseProps exampleSupport false exampleFlags 0 (exampleClient.set 2 b!"aes128-ctr") exampleServer 0
    |> errOf) = some .noMacMatch := by decide +kernel
example : ∀ s ∈ exampleClient, (0 : UInt8) ∉ s ∧ s.length ≤ maxString := by decide

/-- A server listing forty names the client does not know, and then one it does. -/
def longServer : Proposal :=
  exampleServer.set 0 ((List.replicate 40 b!"x,").flatten ++ b!"curve25519-sha256")

/-- **C13 is false** for lists of more than forty names: here both ends offer `curve25519-sha256`, yet
negotiation fails. -/
theorem C13_long_list_false :
    (b!"curve25519-sha256" ∈ Match.names (exampleClient.at 0) ∧ b!"curve25519-sha256" ∈ Match.names (longServer.at 0)) ∧
    Supported exampleSupport exampleClient longServer ∧ ¬ RequiredDisjoint exampleSupport exampleClient longServer ∧
    chooseProps exampleSupport false exampleFlags 0 exampleClient longServer 0 = .error .noKexMatch := by
  have he : ∀ r : Except Err Conf, errOf r = some .noKexMatch → r = .error .noKexMatch := by
    intro r h; cases r <;> simp_all [errOf]
  have hdj : ∀ c s : Bytes, Disjoint c s ↔ (Match.names c).all (fun n => !(Match.names s).contains n) = true := by
    intro c s; simp [Disjoint]
  refine ⟨by decide +kernel, ⟨by decide +kernel, by decide +kernel, ?_⟩, ?_, he _ (by decide +kernel)⟩
  · intro d; cases d <;> decide +kernel
  · rintro (h | h | ⟨d, h | h | ⟨h, n, k, hn, hk, ha⟩⟩)
    · rw [hdj] at h; revert h; decide +kernel
    · rw [hdj] at h; revert h; decide +kernel
    · rw [hdj] at h; revert h; cases d <;> decide +kernel
    · rw [hdj] at h; revert h; cases d <;> decide +kernel
    · rw [hdj] at h
      cases d
      · rw [← chosen_iff] at hn
        have h2 : (Match.matchList (exampleClient.at (encIdx .ctos)) (longServer.at (encIdx .ctos))).1 =
            some b!"chacha20-poly1305@openssh.com" := by decide +kernel
        rw [h2] at hn; injection hn with hn; subst hn
        have h3 : exampleSupport.cipher b!"chacha20-poly1305@openssh.com" =
          some ⟨b!"chacha20-poly1305@openssh.com", 8, 64, 0, 16, true⟩ := by decide +kernel
        rw [h3] at hk; injection hk with hk; subst hk
        simp at ha
      · revert h; decide +kernel

/-! ### C14: guessed packets -/

theorem cutComma_first (s : Bytes) : IsFirst (cutComma s) s := by
  have h := strsep_token COMMA s
  have he : (strsep COMMA s).1 = cutComma s := rfl
  rw [he] at h
  refine ⟨h, ?_⟩
  rcases hr : (strsep COMMA s).2 with _ | r
  · left; rw [← he, strsep_last hr]
  · right; exact ⟨r, by rw [← he]; exact strsep_rest hr⟩

theorem first_unique {n m s : Bytes} (h1 : IsFirst n s) (h2 : IsFirst m s) : n = m := by
  have aux : ∀ {k : Bytes}, IsFirst k s → (split COMMA s).head? = some k := by
    rintro k ⟨hk, rfl | ⟨r, rfl⟩⟩
    · rw [split_no_sep hk]; rfl
    · rw [split_append hk]; rfl
  have := aux h1
  rw [aux h2] at this
  exact (Option.some.inj this).symm

/-- **C14** when the code decides to skip: the peer announced a guess, and the first names of the key
exchange lists or of the host key lists differ. -/
theorem C14_decision (S : Support) (server : Bool) (f : Flags) (q : Nat) (my peer : Proposal) (w : UInt8) (c : Conf)
    (k1 k2 h1 h2 : Bytes) (hk1 : IsFirst k1 (my.at 0)) (hk2 : IsFirst k2 (peer.at 0))
    (hh1 : IsFirst h1 (my.at 1)) (hh2 : IsFirst h2 (peer.at 1))
    (h : chooseProps S server f q my peer w = .ok c) :
    c.skip = true ↔ w ≠ 0 ∧ (k1 ≠ k2 ∨ h1 ≠ h2) := by
  obtain ⟨_, _, h3, _⟩ := chooseProps_ok.1 h
  rw [h3]
  have e1 := first_unique hk1 (cutComma_first _)
  have e2 := first_unique hk2 (cutComma_first _)
  have e3 := first_unique hh1 (cutComma_first _)
  have e4 := first_unique hh2 (cutComma_first _)
  subst e1 e2 e3 e4
  simp only [proposalsMatch, List.all_cons, List.all_nil, Bool.and_true, decide_eq_true_eq, Bool.and_eq_true,
    Classical.not_and_iff_not_or_not, ne_eq, Bool.not_eq_true, decide_eq_false_iff_not]

/-- A packet that the dispatcher accepts in a given state. -/
def Accepts (h : Handlers σ) (s : σ) (p : Nat × Bytes) : Prop := 0 < p.1 ∧ p.1 < 255 ∧ h.installed s p.1 = true

theorem dispatch1_kexinit (h : Handlers σ) (d : Disp σ) (payload : Bytes) (s : σ) (c : Bool) (h0 : d.skip = 0)
    (hk : d.kexinit = true) (hin : Accepts h d.rest (20, payload)) (hrun : h.kexinit d.rest payload = .ok (s, c)) :
    dispatch1 h d 20 payload = .ok (⟨if c then 1 else 0, false, s⟩, true) := by
  unfold dispatch1
  rw [if_pos (show 0 < 20 ∧ 20 < 255 ∧ h.installed d.rest 20 = true from hin), if_neg (by simp [h0]),
    if_pos ⟨rfl, hk⟩, hrun]
  simp [h0]

/-- **C14** a guess, wrong or right.  A KEXINIT arrives whose proposal has first names `k2`, `h2`, ours has
`k1`, `h1`, and the exchange starts.  If the peer announced a guess and the first names differ, exactly the
next packet is passed over, and the packets after it are dispatched as if it had not been there; otherwise
nothing is passed over. -/
theorem C14_guess (h : Handlers σ) (d : Disp σ) (payload : Bytes) (my peer : Proposal) (w w' : UInt8) (s : σ)
    (c : Conf) (k1 k2 h1 h2 : Bytes) (p : Nat × Bytes) (rest : List (Nat × Bytes))
    (h0 : d.skip = 0) (hk : d.kexinit = true) (hin : Accepts h d.rest (20, payload)) (hw : wellFormed payload = true)
    (hmy : buf2prop (h.my d.rest) = some (my, w')) (hpeer : buf2prop payload = some (peer, w))
    (hk1 : IsFirst k1 (my.at 0)) (hk2 : IsFirst k2 (peer.at 0))
    (hh1 : IsFirst h1 (my.at 1)) (hh2 : IsFirst h2 (peer.at 1))
    (hc : chooseProps h.support h.server (h.flags d.rest) (h.seq d.rest) my peer w = .ok c)
    (hs : h.start d.rest c = .ok s) (hp : Accepts h s p) :
    dispatchRun h d ((20, payload) :: p :: rest) =
      if w ≠ 0 ∧ (k1 ≠ k2 ∨ h1 ≠ h2) then
        ((dispatchRun h ⟨0, false, s⟩ rest).1, (20, payload) :: (dispatchRun h ⟨0, false, s⟩ rest).2)
      else
        ((dispatchRun h ⟨0, false, s⟩ (p :: rest)).1, (20, payload) :: (dispatchRun h ⟨0, false, s⟩ (p :: rest)).2) := by
  obtain ⟨t, pl⟩ := p
  have hd := C14_decision _ _ _ _ _ _ _ c k1 k2 h1 h2 hk1 hk2 hh1 hh2 hc
  have hrun : h.kexinit d.rest payload = .ok (s, c.skip) := by
    unfold Handlers.kexinit chooseConf
    rw [if_pos hw, hmy, hpeer]
    simp only
    rw [hc]
    simp only
    rw [hs]
  have h1 := dispatch1_kexinit h d payload s c.skip h0 hk hin hrun
  rw [dispatchRun, h1]
  by_cases hsk : c.skip = true
  · rw [if_pos (hd.1 hsk)]
    rw [hsk]
    have h2 : dispatch1 h ⟨1, false, s⟩ t pl = .ok (⟨0, false, s⟩, false) := by
      unfold dispatch1
      rw [if_pos (show 0 < t ∧ t < 255 ∧ h.installed s t = true from hp), if_pos (by simp)]
      rfl
    simp only [if_true]
    rw [dispatchRun, h2]
    simp
  · rw [if_neg (fun hc => hsk (hd.2 hc))]
    simp only [Bool.not_eq_true] at hsk
    rw [hsk]
    rfl

/-- No KEXINIT handled by this end asks for a skip. -/
def NoGuess (h : Handlers σ) : Prop := ∀ s p s' c, h.kexinit s p = .ok (s', c) → c = false

/-- **C14** nothing else is ever discarded: as long as no KEXINIT with a wrong guess arrives, every packet
up to the end (or to the one that ends the connection) is handed to a handler. -/
theorem C14_nothing_else (h : Handlers σ) (hg : NoGuess h) (d : Disp σ) (h0 : d.skip = 0) (ps : List (Nat × Bytes)) :
    (dispatchRun h d ps).2 <+: ps ∧ ((dispatchRun h d ps).1.toBool = true → (dispatchRun h d ps).2 = ps) := by
  induction ps generalizing d with
  | nil => simp [dispatchRun]
  | cons p rest ih =>
    obtain ⟨t, pl⟩ := p
    rw [dispatchRun]
    rcases hd : dispatch1 h d t pl with e | ⟨d', ran⟩
    · simp [Except.toBool]
    · have : d'.skip = 0 ∧ ran = true := by
        unfold dispatch1 at hd
        split at hd
        · rw [if_neg (by simp [h0])] at hd
          split at hd
          · split at hd
            · simp at hd
            · rename_i s c hk
              injection hd with hd; injection hd with h1 h2
              subst h1 h2
              simp [hg _ _ _ _ hk, h0]
          · split at hd
            · simp at hd
            · injection hd with hd; injection hd with h1 h2
              subst h1 h2
              simp [h0]
        · simp at hd
      obtain ⟨h1, rfl⟩ := this
      obtain ⟨i1, i2⟩ := ih d' h1
      simp only [if_true]
      refine ⟨List.cons_prefix_cons.2 ⟨rfl, i1⟩, fun hb => by rw [i2 hb]⟩

/-- Non-vacuity: a server offering `exampleServer`. -/
def exampleHandlers : Handlers Unit where
  installed _ _ := true
  run _ k _ _ := .ok ((), k)
  support := exampleSupport
  server := true
  my _ := prop2buf exampleServer
  flags _ := exampleFlags
  seq _ := 0
  start _ _ := .ok ()

/-- A client's KEXINIT announcing a guess (last byte but four). -/
def exampleKexinit (guess : UInt8) : Bytes :=
  List.replicate 16 7 ++ exampleClient.flatMap str ++ [guess, 0, 0, 0, 0]

example : (dispatchRun exampleHandlers ⟨0, true, ()⟩ [(20, exampleKexinit 1), (30, [1]), (30, [2]), (21, [])]).2 =
    [(20, exampleKexinit 1), (30, [2]), (21, [])] := by decide +kernel
example : (dispatchRun exampleHandlers ⟨0, true, ()⟩ [(20, exampleKexinit 0), (30, [1]), (30, [2]), (21, [])]).2 =
    [(20, exampleKexinit 0), (30, [1]), (30, [2]), (21, [])] := by decide +kernel
example : wellFormed (exampleKexinit 1) = true ∧ buf2prop (exampleKexinit 1) = some (exampleClient, 1) := by
  decide +kernel

end Verif.Kex
