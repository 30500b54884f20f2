/-
C85: the first key exchange in strict mode admits no packet but its own.
-/
import Verif.Exch.Spec
import Verif.Kex.Props
import Verif.Kex.Names

namespace Verif.Exch
open Verif Wire Text
open scoped Verif.Match
open _root_.Verif.Kex (Support Flags Conf KeySet Err chooseConf wellFormed deriveKeys prop2buf buf2prop)

/-! ### The table -/

/-- The table with one message admitted. -/
def only (X : Nat) (h : Handler) : Nat → Handler := fun t =>
  if t = X then h else if 1 ≤ t ∧ t ≤ 49 then .kexError else .none

theorem only_self (X : Nat) (h : Handler) : only X h X = h := if_pos rfl

theorem only_other {X t : Nat} {h : Handler} (ht : t ≠ X) (hr : 1 ≤ t ∧ t ≤ 49) : only X h t = .kexError := by
  unfold only; rw [if_neg ht, if_pos hr]

theorem only_out {X t : Nat} {h : Handler} (hX : 1 ≤ X ∧ X ≤ 49) (hr : ¬ (1 ≤ t ∧ t ≤ 49)) : only X h t = .none := by
  unfold only; rw [if_neg (by omega), if_neg hr]

theorem only_next {X Y : Nat} {h k : Handler} (hX : 1 ≤ X ∧ X ≤ 49) (hY : 1 ≤ Y ∧ Y ≤ 49) :
    setH Y k (setH X .kexError (only X h)) = only Y k := by
  funext t
  unfold setH only
  by_cases h1 : t = Y
  · simp [h1]
  · by_cases h2 : t = X
    · subst h2; simp [h1, hX]
    · simp [h1, h2]

theorem only_same {X : Nat} {h k : Handler} : setH X k (only X h) = only X k := by
  funext t
  unfold setH only
  by_cases h1 : t = X
  · simp [h1]
  · simp [h1]

theorem only_newkeys {X : Nat} {h : Handler} (hX : 1 ≤ X ∧ X ≤ 49) : setH 21 .newkeys (resetH (only X h)) = only 21 .newkeys := by
  funext t
  unfold setH resetH only
  by_cases h1 : t = 21
  · simp [h1]
  · by_cases h2 : 1 ≤ t ∧ t ≤ 49
    · simp [h1, h2]
    · have : t ≠ X := by omega
      simp [h1, h2, this]

theorem only_ready : setH 20 .kexinit (resetH fun _ => .none) = only 20 .kexinit := by
  funext t; unfold setH resetH only
  by_cases h1 : t = 20
  · simp [h1]
  · simp [h1]

/-! ### Sending -/

/-- The types of the messages sent. -/
def sentTypes (s : St) : List Nat := s.sent.map (·.1)

theorem send_types (s : St) (t : Nat) (p : Bytes) : sentTypes (send s t p) = sentTypes s ++ [t] := by
  simp [sentTypes, send]

theorem send_flags (s : St) (t : Nat) (p : Bytes) : (send s t p).flags = s.flags := rfl
theorem send_done (s : St) (t : Nat) (p : Bytes) : (send s t p).done = s.done := rfl
theorem send_table (s : St) (t : Nat) (p : Bytes) : (send s t p).table = s.table := rfl

theorem sendExtInfo_or (E : Env) (s : St) : sendExtInfo E s = s ∨
    (sendExtInfo E s = send s 7 (extInfoBody E s.flags) ∧ (s.flags.extInfoC = true ∨ s.flags.extInfoS = true)) := by
  unfold sendExtInfo
  by_cases h : s.flags.initial ∧ (s.flags.extInfoC ∨ s.flags.extInfoS)
  · exact Or.inr ⟨if_pos h, h.2⟩
  · exact Or.inl (if_neg h)

/-- What `finish` leaves behind: NEWKEYS was sent, possibly EXT_INFO, and NEWKEYS is awaited. -/
theorem finish_ok {E : Env} {s s' : St} {r : Rec} (h : finish E s r = .ok s') :
    s'.flags = s.flags ∧ s'.done = s.done ∧ s'.table = setH 21 .newkeys (resetH s.table) ∧
    s'.skip = s.skip ∧ s'.seq = s.seq ∧ s'.conf = s.conf ∧ s'.my = s.my ∧
    (sentTypes s' = sentTypes s ++ [21] ∨ sentTypes s' = sentTypes s ++ [21, 7]) := by
  unfold finish at h
  split at h
  · cases h
  · rename_i sid kin kout hd
    simp only [sendNewkeys] at h
    injection h with h
    subst h
    rcases sendExtInfo_or E { send { ({ s with
      sid := sid, pendIn := some kin, pendOut := some kout, eph := none, dh := none
      recs := s.recs ++ [{ r with sid := sid, keysIn := kin, keysOut := kout }] } : St) with
        table := resetH s.table } 21 [] with
        curOut := some kout, pendOut := none
        table := setH 21 .newkeys (resetH s.table) } with h | ⟨h, _⟩
    · rw [h]; simp [send, sentTypes]
    · rw [h]; simp [send, sentTypes]

theorem finishClient_ok {E : Env} {s s' : St} {r : Rec} (h : finishClient E s r = .ok s') :
    s'.flags = s.flags ∧ s'.done = s.done ∧ s'.table = setH 21 .newkeys (resetH s.table) ∧
    s'.skip = s.skip ∧ s'.seq = s.seq ∧ s'.conf = s.conf ∧ s'.my = s.my ∧
    (sentTypes s' = sentTypes s ++ [21] ∨ sentTypes s' = sentTypes s ++ [21, 7]) := by
  unfold finishClient at h
  split at h
  · split at h
    · cases h
    · rename_i s1 h1
      have := finish_ok h1
      split at h
      · split at h
        · cases h
        · injection h with h; subst h; exact this
      · injection h with h; subst h; exact this
  · cases h

theorem finishServer_ok {E : Env} {s s' : St} {t : Nat} {p : Bytes} {r : Rec} (h : finishServer E s t p r = .ok s') :
    s'.flags = s.flags ∧ s'.done = s.done ∧ s'.table = setH 21 .newkeys (resetH s.table) ∧
    s'.skip = s.skip ∧ s'.seq = s.seq ∧ s'.conf = s.conf ∧ s'.my = s.my ∧
    (sentTypes s' = sentTypes s ++ [t, 21] ∨ sentTypes s' = sentTypes s ++ [t, 21, 7]) := by
  unfold finishServer at h
  split at h
  · cases h
  · rename_i s1 h1
    have := finish_ok h1
    rw [send_types, List.append_assoc, List.append_assoc] at this
    injection h with h; subst h; exact this

/-! ### The handlers of the methods -/

/-- What finishing an exchange does to the bookkeeping. -/
def Finished (s s' : St) (ts : List Nat) (X : Nat) : Prop :=
  s'.flags = s.flags ∧ s'.done = s.done ∧ s'.table = setH 21 .newkeys (resetH (setH X .kexError s.table)) ∧
  s'.skip = s.skip ∧ s'.seq = s.seq ∧ s'.conf = s.conf ∧ s'.my = s.my ∧
  (sentTypes s' = sentTypes s ++ (ts ++ [21]) ∨ sentTypes s' = sentTypes s ++ (ts ++ [21, 7]))

theorem genReply_ok {E : Env} {s s' : St} {p : Bytes} (h : genReply E s p = .ok s') : Finished s s' [] 31 := by
  unfold genReply at h
  repeat' split at h
  all_goals first
    | cases h; done
    | exact finishClient_ok h

theorem genInit_ok {E : Env} {s s' : St} {p ρ σ : Bytes} (h : genInit E s p ρ σ = .ok s') : Finished s s' [31] 30 := by
  unfold genInit at h
  repeat' split at h
  all_goals first
    | cases h; done
    | exact finishServer_ok h

theorem gexReply_ok {E : Env} {s s' : St} {p : Bytes} (h : gexReply E s p = .ok s') : Finished s s' [] 33 := by
  unfold gexReply at h
  repeat' split at h
  all_goals first
    | cases h; done
    | exact finishClient_ok h

theorem gexInit_ok {E : Env} {s s' : St} {p σ : Bytes} (h : gexInit E s p σ = .ok s') : Finished s s' [33] 32 := by
  unfold gexInit at h
  repeat' split at h
  all_goals first
    | cases h; done
    | exact finishServer_ok h

/-- A step in the middle of a method: one message is sent and another one awaited. -/
def Moved (s s' : St) (t X Y : Nat) (h : Handler) : Prop :=
  s'.flags = s.flags ∧ s'.done = s.done ∧ s'.table = setH Y h (setH X .kexError s.table) ∧
  s'.skip = s.skip ∧ s'.seq = s.seq ∧ s'.conf = s.conf ∧ s'.my = s.my ∧ sentTypes s' = sentTypes s ++ [t]

theorem gexGroup_ok {E : Env} {s s' : St} {p ρ : Bytes} (h : gexGroup E s p ρ = .ok s') :
    Moved s s' 32 31 33 .gexReply := by
  unfold gexGroup at h
  repeat' split at h
  all_goals first
    | cases h; done
    | (injection h with h; subst h; exact ⟨rfl, rfl, rfl, rfl, rfl, rfl, rfl, send_types _ _ _⟩)

theorem gexRequest_ok {E : Env} {s s' : St} {p ρ σ : Bytes} (h : gexRequest E s p ρ σ = .ok s') :
    Moved s s' 31 34 32 .gexInit := by
  unfold gexRequest at h
  repeat' split at h
  all_goals first
    | cases h; done
    | (injection h with h; subst h; exact ⟨rfl, rfl, rfl, rfl, rfl, rfl, rfl, send_types _ _ _⟩)

/-! ### The stages of an exchange -/

/-- How far an exchange has come after KEXINIT: what was received since, what is awaited, and the types of all
messages sent. -/
inductive Stage : Bool → Method → List Nat → Nat → Handler → List Nat → Prop
  | genS0 : Stage true .gen [] 30 .genInit [20]
  | genS1 (l) (hl : l = [] ∨ l = [7]) : Stage true .gen [30] 21 .newkeys ([20, 31, 21] ++ l)
  | genC0 : Stage false .gen [] 31 .genReply [20, 30]
  | genC1 (l) (hl : l = [] ∨ l = [7]) : Stage false .gen [31] 21 .newkeys ([20, 30, 21] ++ l)
  | gexS0 : Stage true .gex [] 34 .gexRequest [20]
  | gexS1 : Stage true .gex [34] 32 .gexInit [20, 31]
  | gexS2 (l) (hl : l = [] ∨ l = [7]) : Stage true .gex [34, 32] 21 .newkeys ([20, 31, 33, 21] ++ l)
  | gexC0 : Stage false .gex [] 31 .gexGroup [20, 34]
  | gexC1 : Stage false .gex [31] 33 .gexReply [20, 34, 32]
  | gexC2 (l) (hl : l = [] ∨ l = [7]) : Stage false .gex [31, 33] 21 .newkeys ([20, 34, 32, 21] ++ l)

theorem Stage.range {b : Bool} {m : Method} {pre : List Nat} {X : Nat} {h : Handler} {l : List Nat}
    (st : Stage b m pre X h l) : 1 ≤ X ∧ X ≤ 49 := by cases st <;> omega

/-- The flags before KEXINIT is received for the first time. -/
def flags0 : Flags :=
  { initial := true, strict := false, extInfoC := false, extInfoS := false, rsaSha256 := false, rsaSha512 := false }

/-- The state of the first exchange. -/
inductive Phase (E : Env) (my : Bytes) (s : St) : List (Nat × Bytes) → Prop
  /-- no KEXINIT received -/
  | start (hist) (hf : s.flags = flags0) (hmy : s.my = my) (hd : s.done = false)
      (hk : s.initSent = true) (hp : s.peer = []) (ht : s.table = only 20 .kexinit) (h0 : s.skip = 0)
      (hq : s.seq = hist.length) (hl : s.seq < 4294967296) (hm : hist = [] → sentTypes s = [20]) : Phase E my s hist
  /-- KEXINIT received, not in strict mode -/
  | loose (hist) (hi : s.flags.initial = true) (hs : s.flags.strict = false) (hd : s.done = false)
      (ht : ∀ t, s.table t ≠ .kexinit) : Phase E my s hist
  /-- KEXINIT received, in strict mode -/
  | strict (init : Bytes) (guess ms : List (Nat × Bytes)) (c : Conf) (m : Method) (X : Nat) (h : Handler)
      (hi : s.flags.initial = true) (hs : s.flags.strict = true) (hd : s.done = false)
      (hc : s.conf = some c) (hcc : chooseConf E.S E.server flags0 0 my init = .ok c)
      (hm : E.method c.kexType = some m)
      (hg : s.skip + guess.length = if c.skip then 1 else 0)
      (hgr : ∀ p ∈ guess, 2 ≤ p.1 ∧ p.1 ≤ 49)
      (ht : s.table = only X h) (hst : Stage E.server m (ms.map (·.1)) X h (sentTypes s))
      (hpre : ms ≠ [] → s.skip = 0) : Phase E my s ((20, init) :: (guess ++ ms))

/-! ### Steps -/

theorem chooseConf_flags {S : Support} {server : Bool} {f : Flags} {seq : Nat} {my peer : Bytes} {c : Conf}
    (h : chooseConf S server f seq my peer = .ok c) (hi : f.initial = true) :
    c.flags.initial = true ∧ (c.flags.strict = true → seq = 0) := by
  unfold chooseConf at h
  split at h
  · cases h
  · split at h
    · cases h
    · rename_i peerp follows _
      obtain ⟨h1, _, _, h4⟩ := Kex.chooseProps_ok.1 h
      rw [h4]
      refine ⟨?_, fun hs => ?_⟩
      · unfold Kex.peerMarkers
        rw [if_pos hi]
        split <;> exact hi
      · unfold Kex.StrictOk at h1
        by_cases hq : seq = 0
        · exact hq
        · exact absurd ⟨hi, hs, hq⟩ h1

/-- Sending KEXINIT again does nothing. -/
theorem sendKexinit_again {s : St} {ρ : Bytes} (h : s.initSent = true) : sendKexinit s ρ = .ok s := by
  unfold sendKexinit; rw [if_pos h]

/-- How a method starts: `sent` is what it sends and `X` what it awaits. -/
theorem startMethod_ok {E : Env} {s s' : St} {c : Conf} {ρ : Bytes} (h : startMethod E s c ρ = .ok s')
    (hs : sentTypes s = [20]) :
    s'.flags = s.flags ∧ s'.done = s.done ∧ s'.skip = s.skip ∧ s'.my = s.my ∧ s'.conf = s.conf ∧
    ∃ m X k, E.method c.kexType = some m ∧ s'.table = setH X k s.table ∧ Stage E.server m [] X k (sentTypes s') := by
  unfold startMethod at h
  split at h
  · cases h
  · rename_i hm
    split at h
    · rename_i hb
      injection h with h; subst h
      refine ⟨rfl, rfl, rfl, rfl, rfl, .gen, 30, .genInit, hm, rfl, ?_⟩
      rw [hb]; show Stage _ _ _ _ _ (sentTypes s); rw [hs]; exact .genS0
    · rename_i hb
      unfold genClient at h
      split at h
      · cases h
      · injection h with h; subst h
        refine ⟨rfl, rfl, rfl, rfl, rfl, .gen, 31, .genReply, hm, rfl, ?_⟩
        rw [Bool.eq_false_iff.2 hb]
        rename_i pub priv _
        show Stage _ _ _ _ _ (sentTypes (send s 30 (str pub)))
        rw [send_types, hs]; exact .genC0
  · rename_i hm
    split at h
    · rename_i hb
      injection h with h; subst h
      refine ⟨rfl, rfl, rfl, rfl, rfl, .gex, 34, .gexRequest, hm, rfl, ?_⟩
      rw [hb]; show Stage _ _ _ _ _ (sentTypes s); rw [hs]; exact .gexS0
    · rename_i hb
      injection h with h; subst h
      refine ⟨rfl, rfl, rfl, rfl, rfl, .gex, 31, .gexGroup, hm, rfl, ?_⟩
      rw [Bool.eq_false_iff.2 hb]
      show Stage _ _ _ _ _ (sentTypes (send s 34 _))
      rw [send_types, hs]; exact .gexC0

/-- Starting a method never admits another KEXINIT. -/
theorem startMethod_loose {E : Env} {s s' : St} {c : Conf} {ρ : Bytes} (h : startMethod E s c ρ = .ok s')
    (ht : ∀ t, s.table t ≠ .kexinit) : s'.flags = s.flags ∧ s'.done = s.done ∧ ∀ t, s'.table t ≠ .kexinit := by
  have key : ∀ X k, k ≠ Handler.kexinit → ∀ t, setH X k s.table t ≠ .kexinit := by
    intro X k hk t
    unfold setH
    split
    · exact hk
    · exact ht t
  unfold startMethod genClient gexClient at h
  repeat' split at h
  all_goals first
    | cases h; done
    | (injection h with h; subst h; exact ⟨rfl, rfl, key _ _ (by decide)⟩)

theorem only_20 : setH 20 .kexError (only 20 .kexinit) = only 20 .kexError := only_same

/-- The table while KEXINIT is being handled. -/
theorem only_start (X : Nat) (k : Handler) (hX : 1 ≤ X ∧ X ≤ 49) : setH X k (only 20 .kexError) = only X k := by
  have := only_next (X := 20) (Y := X) (h := .kexinit) (k := k) (by omega) hX
  rwa [only_20] at this

/-- What happens to KEXINIT in the first phase. -/
theorem kexinit_start {E : Env} {my : Bytes} {s s' : St} {hist : List (Nat × Bytes)} {seq : Nat} {p ρ σ : Bytes}
    (hf : s.flags = flags0) (hmy : s.my = my) (hd : s.done = false) (hk : s.initSent = true) (hp : s.peer = [])
    (ht : s.table = only 20 .kexinit) (h0 : s.skip = 0) (hq : seq = hist.length)
    (hm : hist = [] → sentTypes s = [20]) (h : inputKexinit E s seq p ρ σ = .ok s') :
    Phase E my s' (hist ++ [(20, p)]) := by
  unfold inputKexinit at h
  split at h
  · rw [sendKexinit_again (by exact hk)] at h
    dsimp only at h
    split at h
    · cases h
    · rename_i c hc
      rw [hf, hmy, hp, List.nil_append] at hc
      obtain ⟨hci, hcs⟩ := chooseConf_flags hc rfl
      by_cases hs : c.flags.strict = true
      · have hh : hist = [] := by
          have := hcs hs
          rw [hq] at this
          exact List.length_eq_zero_iff.1 this
        subst hh
        rw [hcs hs] at hc
        obtain ⟨a, b, d, e, g, m, X, k, hmm, htt, hst⟩ := startMethod_ok h (hm rfl)
        have hXr := hst.range
        refine Phase.strict p [] [] c m X k ?_ ?_ ?_ ?_ ?_ hmm ?_ (by simp) ?_ hst (by simp)
        · rw [a]; exact hci
        · rw [a]; exact hs
        · rw [b]; exact hd
        · rw [g]
        · exact hc
        · rw [d]
          show (if c.skip then 1 else s.skip) + 0 = _
          rw [h0]; rfl
        · rw [htt]
          show setH X k (setH 20 .kexError s.table) = _
          rw [ht, only_20, only_start X k hXr]
      · have := startMethod_loose h (by
          intro t
          show setH 20 .kexError s.table t ≠ _
          rw [ht, only_20]
          unfold only
          split
          · decide
          · split <;> decide)
        exact Phase.loose _ (by rw [this.1]; exact hci) (by rw [this.1]; exact Bool.eq_false_iff.2 hs)
          (by rw [this.2.1]; exact hd) this.2.2
  · cases h

/-! #### Outside strict mode -/

theorem extEntries_keeps {E : Env} {s s' : St} {n : Nat} {b : Bytes} (h : extEntries E s n b = .ok s') :
    s'.flags = s.flags ∧ s'.done = s.done ∧ s'.table = s.table ∧ s'.sent = s.sent ∧ s'.my = s.my ∧ s'.peer = s.peer ∧
    s'.recs = s.recs := by
  induction n generalizing s b with
  | zero =>
    rw [extEntries] at h
    split at h
    · injection h with h; subst h; simp
    · cases h
  | succ n ih =>
    rw [extEntries] at h
    split at h
    · cases h
    · split at h
      · cases h
      · split at h
        · cases h
        · rename_i name _ _ _ v _ _ _ s1 h1
          have := ih h
          have e : s1.flags = s.flags ∧ s1.done = s.done ∧ s1.table = s.table ∧ s1.sent = s.sent ∧ s1.my = s.my ∧
              s1.peer = s.peer ∧ s1.recs = s.recs := by
            split at h1
            · unfold extServer at h1
              repeat' split at h1
              all_goals first
                | cases h1; done
                | (injection h1 with h1; subst h1; simp)
            · unfold extClient at h1
              repeat' split at h1
              all_goals first
                | cases h1; done
                | (injection h1 with h1; subst h1; simp)
          obtain ⟨a1, a2, a3, a4, a5, a6, a7⟩ := this
          obtain ⟨b1, b2, b3, b4, b5, b6, b7⟩ := e
          exact ⟨a1.trans b1, a2.trans b2, a3.trans b3, a4.trans b4, a5.trans b5, a6.trans b6, a7.trans b7⟩

theorem inputExtInfo_keeps {E : Env} {s s' : St} {seq : Nat} {p : Bytes} (h : inputExtInfo E s seq p = .ok s') :
    s'.flags = s.flags ∧ s'.done = s.done ∧ (s'.table = s.table ∨ s'.table = setH 7 .kexError s.table) := by
  unfold inputExtInfo dispatchError at h
  split at h
  · injection h with h; subst h; exact ⟨rfl, rfl, Or.inl rfl⟩
  · split at h
    · cases h
    · split at h
      · injection h with h; subst h; exact ⟨rfl, rfl, Or.inr rfl⟩
      · have := extEntries_keeps h
        exact ⟨this.1, this.2.1, Or.inr this.2.2.1⟩

/-- A table without KEXINIT. -/
def NoInit (tab : Nat → Handler) : Prop := ∀ t, tab t ≠ .kexinit

theorem NoInit.set {tab : Nat → Handler} (h : NoInit tab) (X : Nat) {k : Handler} (hk : k ≠ .kexinit) :
    NoInit (setH X k tab) := by
  intro t; unfold setH
  split
  · exact hk
  · exact h t

theorem NoInit.reset {tab : Nat → Handler} (h : NoInit tab) : NoInit (resetH tab) := by
  intro t; unfold resetH
  split
  · decide
  · exact h t

theorem NoInit.finished {s s' : St} {ts : List Nat} {X : Nat} (h : NoInit s.table) (hf : Finished s s' ts X) :
    NoInit s'.table := by
  rw [hf.2.2.1]
  exact ((h.set X (by decide)).reset).set 21 (by decide)

theorem NoInit.moved {s s' : St} {t X Y : Nat} {k : Handler} (h : NoInit s.table) (hk : k ≠ .kexinit)
    (hf : Moved s s' t X Y k) : NoInit s'.table := by
  rw [hf.2.2.1]
  exact (h.set X (by decide)).set Y hk

/-- Without strict mode it stays off until the first exchange has ended. -/
theorem handle_loose {E : Env} {s s' : St} {seq t : Nat} {p ρ σ τ : Bytes} (hi : s.flags.initial = true)
    (hs : s.flags.strict = false) (hd : s.done = false) (ht : NoInit s.table)
    (h : handle E s seq t p ρ σ τ = .ok s') :
    (s'.flags.initial = true ∧ s'.flags.strict = false ∧ s'.done = false ∧ NoInit s'.table) ∨
    (s'.flags.initial = false ∧ s'.flags.strict = false) := by
  have fin : ∀ {ts X}, Finished s s' ts X → (s'.flags.initial = true ∧ s'.flags.strict = false ∧ s'.done = false ∧ NoInit s'.table) :=
    fun hf => ⟨by rw [hf.1]; exact hi, by rw [hf.1]; exact hs, by rw [hf.2.1]; exact hd, ht.finished hf⟩
  have mov : ∀ {t X Y k}, k ≠ Handler.kexinit → Moved s s' t X Y k → (s'.flags.initial = true ∧ s'.flags.strict = false ∧ s'.done = false ∧ NoInit s'.table) :=
    fun hk hf => ⟨by rw [hf.1]; exact hi, by rw [hf.1]; exact hs, by rw [hf.2.1]; exact hd, ht.moved hk hf⟩
  unfold handle at h
  split at h
  · cases h
  · unfold kexError at h
    rw [if_neg (by simp [hs])] at h
    injection h with h; subst h; exact Or.inl ⟨hi, hs, hd, ht⟩
  · unfold dispatchError at h
    injection h with h; subst h; exact Or.inl ⟨hi, hs, hd, ht⟩
  · rename_i hk; exact absurd hk (ht _)
  · unfold inputNewkeys at h
    split at h
    · cases h
    · split at h
      · injection h with h; subst h; exact Or.inr ⟨rfl, hs⟩
      · cases h
  · obtain ⟨a, b, c⟩ := inputExtInfo_keeps h
    refine Or.inl ⟨by rw [a]; exact hi, by rw [a]; exact hs, by rw [b]; exact hd, ?_⟩
    rcases c with c | c
    · rw [c]; exact ht
    · rw [c]; exact ht.set 7 (by decide)
  · exact Or.inl (fin (genReply_ok h))
  · exact Or.inl (fin (genInit_ok h))
  · exact Or.inl (mov (by decide) (gexGroup_ok h))
  · exact Or.inl (fin (gexReply_ok h))
  · exact Or.inl (mov (by decide) (gexRequest_ok h))
  · exact Or.inl (fin (gexInit_ok h))
  · injection h with h; subst h; exact Or.inl ⟨hi, hs, hd, ht⟩

/-- Messages handled by the packet layer change nothing before the first exchange has ended. -/
theorem implicitly_keeps {s s' : St} {t : Nat} {p : Bytes} (hd : s.done = false)
    (h : implicitly s t p = some (.ok s')) : s' = s := by
  unfold implicitly at h
  repeat' split at h
  all_goals first
    | (injection h with h; injection h with h; exact h.symm)
    | (injection h with h; cases h; done)
    | skip
  all_goals first
    | (cases h; done)
    | skip
  all_goals (exfalso; simp_all)

/-! #### In strict mode -/

/-- The first exchange has ended in strict mode, and this is all that was received. -/
def Complete (E : Env) (my : Bytes) (s : St) (hist : List (Nat × Bytes)) : Prop :=
  s.flags.initial = false ∧ s.flags.strict = true ∧ s.seq = 0 ∧
  ∃ init guess ms c m, hist = (20, init) :: (guess ++ ms ++ [(21, [])]) ∧
    chooseConf E.S E.server flags0 0 my init = .ok c ∧ E.method c.kexType = some m ∧
    guess.length = (if c.skip then 1 else 0) ∧ (∀ p ∈ guess, 2 ≤ p.1 ∧ p.1 ≤ 49) ∧
    ms.map (·.1) = expected E.server m ∧
    (sentTypes s = [20] ++ replies E.server m ++ [21] ∨ sentTypes s = [20] ++ replies E.server m ++ [21, 7])

theorem inputNewkeys_ok {E : Env} {s s' : St} {p : Bytes} (h : inputNewkeys E s p = .ok s') :
    p = [] ∧ s'.flags = { s.flags with initial := false } ∧ s'.sent = s.sent ∧ s'.seq = s.seq := by
  unfold inputNewkeys at h
  split at h
  · cases h
  · rename_i hp
    split at h
    · injection h with h; subst h
      exact ⟨Decidable.not_not.1 hp, rfl, rfl, rfl⟩
    · cases h

/-- A message that was awaited, in strict mode. -/
theorem handle_strict {E : Env} {my : Bytes} {s s' : St} {seq t : Nat} {p ρ σ τ : Bytes} {init : Bytes}
    {guess ms : List (Nat × Bytes)} {c : Conf} {m : Method} {h : Handler}
    (hi : s.flags.initial = true) (hs : s.flags.strict = true) (hd : s.done = false) (hc : s.conf = some c)
    (hcc : chooseConf E.S E.server flags0 0 my init = .ok c) (hm : E.method c.kexType = some m)
    (h0 : s.skip = 0) (hg : s.skip + guess.length = if c.skip then 1 else 0)
    (hgr : ∀ p ∈ guess, 2 ≤ p.1 ∧ p.1 ≤ 49) (ht : s.table = only t h) (hz : t = 21 → s.seq = 0)
    (hst : Stage E.server m (ms.map (·.1)) t h (sentTypes s)) (hh : handle E s seq t p ρ σ τ = .ok s') :
    Phase E my s' ((20, init) :: (guess ++ (ms ++ [(t, p)]))) ∨
    Complete E my s' ((20, init) :: (guess ++ (ms ++ [(t, p)]))) := by
  unfold handle at hh
  rw [ht, only_self] at hh
  have hr := hst.range
  have fin : ∀ {ts : List Nat}, Finished s s' ts t →
      (∀ l, l = [] ∨ l = [7] → Stage E.server m (ms.map (·.1) ++ [t]) 21 .newkeys (sentTypes s ++ ts ++ [21] ++ l)) →
      Phase E my s' ((20, init) :: (guess ++ (ms ++ [(t, p)]))) := by
    intro ts hf hl
    obtain ⟨a1, a2, a3, a4, a5, a6, a7, a8⟩ := hf
    refine Phase.strict init guess (ms ++ [(t, p)]) c m 21 .newkeys (by rw [a1]; exact hi) (by rw [a1]; exact hs)
      (by rw [a2]; exact hd) (by rw [a6]; exact hc) hcc hm (by rw [a4]; exact hg) hgr ?_ ?_ (fun _ => by rw [a4]; exact h0)
    · rw [a3, ht, only_same, only_newkeys hr]
    · rw [List.map_append]
      rcases a8 with e | e
      · have := hl [] (Or.inl rfl)
        rw [e]
        simpa using this
      · have := hl [7] (Or.inr rfl)
        rw [e]
        simpa using this
  have mov : ∀ {u Y : Nat} {k : Handler}, Moved s s' u t Y k →
      Stage E.server m (ms.map (·.1) ++ [t]) Y k (sentTypes s ++ [u]) →
      Phase E my s' ((20, init) :: (guess ++ (ms ++ [(t, p)]))) := by
    intro u Y k hf hl
    obtain ⟨a1, a2, a3, a4, a5, a6, a7, a8⟩ := hf
    refine Phase.strict init guess (ms ++ [(t, p)]) c m Y k (by rw [a1]; exact hi) (by rw [a1]; exact hs)
      (by rw [a2]; exact hd) (by rw [a6]; exact hc) hcc hm (by rw [a4]; exact hg) hgr ?_ ?_ (fun _ => by rw [a4]; exact h0)
    · rw [a3, ht, only_next hr hl.range]
    · rw [List.map_append, a8]; exact hl
  have done : ∀ l, l = [] ∨ l = [7] → inputNewkeys E s p = .ok s' → t = 21 → ms.map (·.1) = expected E.server m →
      sentTypes s = [20] ++ replies E.server m ++ [21] ++ l →
      Complete E my s' ((20, init) :: (guess ++ (ms ++ [(t, p)]))) := by
    intro l hl hn ht' he hr'
    obtain ⟨b1, b2, b3, b4⟩ := inputNewkeys_ok hn
    refine ⟨by rw [b2], by rw [b2]; exact hs, by rw [b4]; exact hz ht', init, guess, ms, c, m, ?_, hcc, hm, by omega, hgr, he, ?_⟩
    · rw [ht', b1, List.append_assoc]
    · unfold sentTypes at hr' ⊢
      rw [b3, hr']
      rcases hl with e | e
      · left; rw [e, List.append_nil]
      · right; rw [e, List.append_assoc]; rfl
  generalize hb : E.server = b at hst fin mov done
  generalize hw : sentTypes s = w at hst fin mov done
  generalize hx : ms.map (·.1) = x at hst fin mov done
  cases hst with
  | genS0 => exact Or.inl (fin (genInit_ok hh) fun l hl => .genS1 l hl)
  | genC0 => exact Or.inl (fin (genReply_ok hh) fun l hl => .genC1 l hl)
  | gexS0 => exact Or.inl (mov (gexRequest_ok hh) .gexS1)
  | gexS1 => exact Or.inl (fin (gexInit_ok hh) fun l hl => .gexS2 l hl)
  | gexC0 => exact Or.inl (mov (gexGroup_ok hh) .gexC1)
  | gexC1 => exact Or.inl (fin (gexReply_ok hh) fun l hl => .gexC2 l hl)
  | genS1 l hl => exact Or.inr (done l hl hh rfl rfl rfl)
  | genC1 l hl => exact Or.inr (done l hl hh rfl rfl rfl)
  | gexS2 l hl => exact Or.inr (done l hl hh rfl rfl rfl)
  | gexC2 l hl => exact Or.inr (done l hl hh rfl rfl rfl)

/-- What can come out of a packet in the first exchange. -/
def Outcome (E : Env) (my : Bytes) (s : St) (hist : List (Nat × Bytes)) : Prop :=
  Phase E my s hist ∨ Complete E my s hist ∨ (s.flags.initial = false ∧ s.flags.strict = false)

theorem dispatch_cases {E : Env} {s s' : St} {seq t : Nat} {p ρ σ τ : Bytes}
    (h : dispatch E s seq t p ρ σ τ = .ok s') :
    0 < t ∧ s.table t ≠ .none ∧
    ((s.skip ≠ 0 ∧ s' = { s with skip := s.skip - 1 }) ∨ (s.skip = 0 ∧ handle E s seq t p ρ σ τ = .ok s')) := by
  unfold dispatch at h
  split at h
  · rename_i hc
    refine ⟨hc.1, hc.2.2, ?_⟩
    split at h
    · rename_i hs
      injection h with h
      exact Or.inl ⟨hs, h.symm⟩
    · rename_i hs
      exact Or.inr ⟨by omega, h⟩
  · cases h

theorem only_in {X t : Nat} {h : Handler} (hX : 1 ≤ X ∧ X ≤ 49) (ht : only X h t ≠ .none) : 1 ≤ t ∧ t ≤ 49 := by
  by_cases hr : 1 ≤ t ∧ t ≤ 49
  · exact hr
  · exact absurd (only_out hX hr) ht

/-- One packet in the first exchange. -/
theorem packet_phase {E : Env} {my : Bytes} {s s' : St} {hist : List (Nat × Bytes)} {t : Nat} {p ρ σ τ : Bytes}
    (hp : Phase E my s hist) (h : packet E s t p ρ σ τ = .ok s') : Outcome E my s' (hist ++ [(t, p)]) := by
  unfold packet at h
  split at h
  · cases h
  rename_i hseq
  split at h
  · cases h
  rename_i ht01
  cases hp with
  | start _ hf hmy hd hk hpe ht h0 hq hl hm =>
    have hfi : s.flags.initial = true := by rw [hf]; rfl
    have hfs : s.flags.strict = false := by rw [hf]; rfl
    rw [if_neg (by simp [hfs])] at h
    have hn : nextSeq s t = s.seq + 1 := by
      unfold nextSeq
      rw [if_neg (by simp [hfs])]
      have : ¬ ((s.seq + 1) % 4294967296 = 0) := fun hh => hseq ⟨hh, hfi⟩
      omega
    have hl' : s.seq + 1 < 4294967296 := by
      have : ¬ ((s.seq + 1) % 4294967296 = 0) := fun hh => hseq ⟨hh, hfi⟩
      omega
    rw [hn] at h
    have next : ∀ s1 : St, s1.flags = s.flags → s1.my = s.my → s1.done = s.done → s1.initSent = s.initSent → s1.peer = s.peer →
        s1.table = s.table → s1.skip = s.skip → s1.seq = s.seq + 1 → Outcome E my s1 (hist ++ [(t, p)]) := by
      intro s1 e1 e2 e3 e4 e5 e6 e7 e8
      refine Or.inl (Phase.start _ (by rw [e1]; exact hf) (by rw [e2]; exact hmy) (by rw [e3]; exact hd)
        (by rw [e4]; exact hk) (by rw [e5]; exact hpe) (by rw [e6]; exact ht) (by rw [e7]; exact h0) ?_ ?_ ?_)
      · rw [e8, hq]; simp
      · rw [e8]; exact hl'
      · intro hh; simp at hh
    split at h
    · rename_i r hr
      subst h
      have := implicitly_keeps (by exact hd) hr
      rw [this]
      exact next _ rfl rfl rfl rfl rfl rfl rfl rfl
    · obtain ⟨_, h2, h3⟩ := dispatch_cases h
      rcases h3 with ⟨h3, _⟩ | ⟨_, h3⟩
      · exact absurd h0 h3
      · by_cases ht20 : t = 20
        · subst ht20
          unfold handle at h3
          simp only [ht, only_self] at h3
          have := kexinit_start (s := { s with seq := s.seq + 1 }) (my := my) (hist := hist) hf hmy hd hk hpe ht h0 hq hm (by
            rw [ht]; exact h3)
          exact Or.inl this
        · have hr := only_in (X := 20) (h := .kexinit) ⟨by decide, by decide⟩ (by rw [← ht]; exact h2)
          unfold handle at h3
          simp only [ht, only_other ht20 hr] at h3
          unfold kexError at h3
          rw [if_neg (by simp [hfs])] at h3
          injection h3 with h3
          subst h3
          exact next _ rfl rfl rfl rfl rfl ht.symm rfl rfl
  | loose _ hi hs hd ht =>
    rw [if_neg (by simp [hs])] at h
    split at h
    · rename_i r hr
      subst h
      have := implicitly_keeps (by exact hd) hr
      rw [this]
      exact Or.inl (Phase.loose _ hi hs hd ht)
    · obtain ⟨_, h2, h3⟩ := dispatch_cases h
      rcases h3 with ⟨_, h3⟩ | ⟨_, h3⟩
      · subst h3; exact Or.inl (Phase.loose _ hi hs hd ht)
      · rcases handle_loose (by exact hi) (by exact hs) (by exact hd) (by exact ht) h3 with ⟨a, b, c, d⟩ | h'
        · exact Or.inl (Phase.loose _ a b c d)
        · exact Or.inr (Or.inr h')
  | strict init guess ms c m X k hi hs hd hc hcc hm hg hgr ht hst hpre =>
    rw [if_pos ⟨hi, hs⟩] at h
    obtain ⟨_, h2, h3⟩ := dispatch_cases h
    have hr := only_in hst.range (by rw [← ht]; exact h2)
    rcases h3 with ⟨h3, h4⟩ | ⟨h3, h4⟩
    · subst h4
      have hms : ms = [] := by
        by_cases he : ms = []
        · exact he
        · exact absurd (hpre he) h3
      subst hms
      have h3' : s.skip ≠ 0 := h3
      refine Or.inl ?_
      have : (20, init) :: (guess ++ []) ++ [(t, p)] = (20, init) :: ((guess ++ [(t, p)]) ++ []) := by simp
      rw [this]
      refine Phase.strict init (guess ++ [(t, p)]) [] c m X k hi hs hd hc hcc hm ?_ ?_ ht hst (by simp)
      · show s.skip - 1 + _ = _
        rw [List.length_append, ← hg]
        simp only [List.length_cons, List.length_nil]
        omega
      · intro q hq
        rcases List.mem_append.1 hq with hq | hq
        · exact hgr q hq
        · rw [List.mem_singleton] at hq; subst hq
          show 2 ≤ t ∧ t ≤ 49
          omega
    · have e : (20, init) :: (guess ++ ms) ++ [(t, p)] = (20, init) :: (guess ++ (ms ++ [(t, p)])) := by simp
      rw [e]
      by_cases htX : t = X
      · subst htX
        have := handle_strict (my := my) (s := { s with seq := nextSeq s t }) hi hs hd hc hcc hm h3 hg hgr ht
          (fun e => by show nextSeq s t = 0; unfold nextSeq; rw [if_pos ⟨e, hs⟩]) hst h4
        rcases this with h' | h'
        · exact Or.inl h'
        · exact Or.inr (Or.inl h')
      · exfalso
        unfold handle at h4
        simp only [ht, only_other htX hr] at h4
        unfold kexError at h4
        rw [if_pos ⟨hi, hs⟩] at h4
        cases h4

/-! ### Whole runs -/

theorem chooseConf_later {S : Support} {server : Bool} {f : Flags} {seq : Nat} {my peer : Bytes} {c : Conf}
    (h : chooseConf S server f seq my peer = .ok c) (hi : f.initial = false) : c.flags = f := by
  unfold chooseConf at h
  split at h
  · cases h
  · split at h
    · cases h
    · obtain ⟨_, _, _, h4⟩ := Kex.chooseProps_ok.1 h
      rw [h4]
      unfold Kex.peerMarkers
      rw [if_neg (by simp [hi])]

theorem startMethod_flags {E : Env} {s s' : St} {c : Conf} {ρ : Bytes} (h : startMethod E s c ρ = .ok s') :
    s'.flags = s.flags := by
  unfold startMethod genClient gexClient at h
  repeat' split at h
  all_goals first
    | cases h; done
    | (injection h with h; subst h; rfl)

theorem sendKexinit_flags {s s' : St} {ρ : Bytes} (h : sendKexinit s ρ = .ok s') : s'.flags = s.flags := by
  unfold sendKexinit at h
  repeat' split at h
  all_goals first
    | cases h; done
    | (injection h with h; subst h; rfl)

theorem implicitly_flags {s s' : St} {t : Nat} {p : Bytes} (h : implicitly s t p = some (.ok s')) :
    s'.flags = s.flags := by
  unfold implicitly at h
  repeat' split at h
  all_goals first
    | (injection h with h; injection h with h; subst h; rfl)
    | (injection h with h; cases h; done)
    | (cases h; done)

theorem handle_later {E : Env} {s s' : St} {seq t : Nat} {p ρ σ τ : Bytes} (hi : s.flags.initial = false)
    (h : handle E s seq t p ρ σ τ = .ok s') : s'.flags = s.flags := by
  unfold handle at h
  split at h
  · cases h
  · unfold kexError at h
    split at h
    · cases h
    · injection h with h; subst h; rfl
  · unfold dispatchError at h
    injection h with h; subst h; rfl
  · unfold inputKexinit at h
    split at h
    · split at h
      · cases h
      · rename_i s1 h1
        have e1 := sendKexinit_flags h1
        split at h
        · cases h
        · rename_i c hc
          rw [startMethod_flags h]
          show c.flags = _
          rw [chooseConf_later hc (by rw [e1]; exact hi), e1]
    · cases h
  · obtain ⟨_, h2, _⟩ := inputNewkeys_ok h
    rw [h2]
    cases hf : s.flags
    rw [hf] at hi
    subst hi
    rfl
  · exact (inputExtInfo_keeps h).1
  · exact (genReply_ok h).1
  · exact (genInit_ok h).1
  · exact (gexGroup_ok h).1
  · exact (gexReply_ok h).1
  · exact (gexRequest_ok h).1
  · exact (gexInit_ok h).1
  · injection h with h; subst h; rfl

theorem packet_later {E : Env} {s s' : St} {t : Nat} {p ρ σ τ : Bytes} (hi : s.flags.initial = false)
    (h : packet E s t p ρ σ τ = .ok s') : s'.flags = s.flags := by
  unfold packet at h
  split at h
  · cases h
  split at h
  · cases h
  rw [if_neg (by simp [hi])] at h
  split at h
  · rename_i r hr
    subst h
    have := implicitly_flags hr; exact this
  · obtain ⟨_, _, h3⟩ := dispatch_cases h
    rcases h3 with ⟨_, h3⟩ | ⟨_, h3⟩
    · subst h3; rfl
    · have := handle_later (s := { s with seq := nextSeq s t }) hi h3; exact this

/-- After the first exchange the flags never change. -/
theorem step_later {E : Env} {s s' : St} {e : Ev} (hi : s.flags.initial = false) (h : step E s e = .ok s') :
    s'.flags = s.flags := by
  cases e with
  | packet t p ρ σ τ => exact packet_later hi h
  | rekey ρ =>
    rw [step] at h
    split at h
    · have := sendKexinit_flags h; exact this
    · injection h with h; subst h; rfl
  | table k x own =>
    rw [step] at h
    split at h
    · injection h with h; subst h; rfl
    · injection h with h; subst h; rfl
  | authed => rw [step] at h; injection h with h; subst h; rfl

theorem received_cons (e : Ev) (es : List Ev) : received (e :: es) = received [e] ++ received es := by
  cases e <;> rfl

theorem received_append (a b : List Ev) : received (a ++ b) = received a ++ received b := by
  induction a with
  | nil => rfl
  | cons e es ih => rw [List.cons_append, received_cons, ih, received_cons e es, List.append_assoc]

theorem Phase.notDone {E : Env} {my : Bytes} {s : St} {hist : List (Nat × Bytes)} (h : Phase E my s hist) :
    s.done = false ∧ s.flags.initial = true := by
  cases h with
  | start _ hf _ hd => exact ⟨hd, by rw [hf]; rfl⟩
  | loose _ hi _ hd => exact ⟨hd, hi⟩
  | strict _ _ _ _ _ _ _ hi _ hd => exact ⟨hd, hi⟩

theorem Phase.authed {E : Env} {my : Bytes} {s : St} {hist : List (Nat × Bytes)} (h : Phase E my s hist) :
    Phase E my { s with authed := true } hist := by
  cases h with
  | start _ hf hmy hd hk hpe ht h0 hq hl hm => exact .start _ hf hmy hd hk hpe ht h0 hq hl hm
  | loose _ hi hs hd ht => exact .loose _ hi hs hd ht
  | strict init guess ms c m X k hi hs hd hc hcc hm hg hgr ht hst hpre =>
    exact .strict init guess ms c m X k hi hs hd hc hcc hm hg hgr ht hst hpre

theorem step_phase {E : Env} {my : Bytes} {s s' : St} {hist : List (Nat × Bytes)} {e : Ev}
    (hp : Phase E my s hist) (h : step E s e = .ok s') : Outcome E my s' (hist ++ received [e]) := by
  cases e with
  | packet t p ρ σ τ => exact packet_phase hp h
  | rekey ρ =>
    rw [step, if_neg (by simp [hp.notDone.1])] at h
    injection h with h; subst h
    exact Or.inl (by simpa [received] using hp)
  | table k x own =>
    rw [step, if_neg (by simp [hp.notDone.1])] at h
    injection h with h; subst h
    exact Or.inl (by simpa [received] using hp)
  | authed =>
    rw [step] at h; injection h with h; subst h
    exact Or.inl (by simpa [received] using hp.authed)

theorem run_later {E : Env} {s s' : St} {es : List Ev} (hi : s.flags.initial = false) (h : run E s es = .ok s') :
    s'.flags = s.flags := by
  induction es generalizing s with
  | nil => rw [run] at h; injection h with h; subst h; rfl
  | cons e es ih =>
    rw [run] at h
    split at h
    · cases h
    · rename_i s1 h1
      have := step_later hi h1
      rw [ih (by rw [this]; exact hi) h, this]

theorem run_phase {E : Env} {my : Bytes} {s s' : St} {hist : List (Nat × Bytes)} {es : List Ev}
    (hp : Phase E my s hist) (h : run E s es = .ok s') (hi : s'.flags.initial = true) :
    Phase E my s' (hist ++ received es) := by
  induction es generalizing s hist with
  | nil =>
    rw [run] at h; injection h with h; subst h
    simpa [received] using hp
  | cons e es ih =>
    rw [run] at h
    split at h
    · cases h
    · rename_i s1 h1
      rw [received_cons, ← List.append_assoc]
      rcases step_phase hp h1 with h2 | h2 | h2
      · exact ih h2 h
      · have := run_later h2.1 h; rw [this, h2.1] at hi; cases hi
      · have := run_later h2.1 h; rw [this, h2.1] at hi; cases hi

theorem setup_phase {E : Env} {vc vs : Bytes} {prop : Kex.Proposal} {ρ : Bytes} {s : St}
    (h : setup vc vs prop ρ = .ok s) : Phase E s.my s [] ∧ s.sent = [(20, s.my)] := by
  unfold setup sendKexinit at h
  rw [if_neg (show ¬ (ready vc vs prop).initSent = true from Bool.false_ne_true)] at h
  split at h
  · cases h
  · injection h with h; subst h
    refine ⟨Phase.start _ rfl rfl rfl rfl rfl ?_ rfl rfl (show 0 < 4294967296 by decide) (fun _ => rfl), rfl⟩
    exact only_ready

/-- **C85** If the first key exchange ends in strict mode, the packets received from the very beginning of the
connection were exactly: KEXINIT; the one guessed packet that the peer announced, if its guess was wrong; the
messages of the method agreed on, in order; NEWKEYS.  Nothing else was accepted, not even a message that is
otherwise ignored, so that no packet can have been inserted (or deleted without the exchange hash or the
sequence number telling).  What was sent is fixed as well, and the sequence number starts again at zero. -/
theorem C85_strict (E : Env) (vc vs : Bytes) (prop : Kex.Proposal) (ρ : Bytes) (s0 s s' : St) (es : List Ev) (e : Ev)
    (h0 : setup vc vs prop ρ = .ok s0) (h1 : run E s0 es = .ok s) (hi : s.flags.initial = true)
    (h2 : step E s e = .ok s') (hi' : s'.flags.initial = false) (hs : s'.flags.strict = true) :
    s0.sent = [(20, s0.my)] ∧ s'.seq = 0 ∧
    ∃ init guess ms c m, received (es ++ [e]) = (20, init) :: (guess ++ ms ++ [(21, [])]) ∧
      chooseConf E.S E.server flags0 0 s0.my init = .ok c ∧ E.method c.kexType = some m ∧
      guess.length = (if c.skip then 1 else 0) ∧ (∀ p ∈ guess, 2 ≤ p.1 ∧ p.1 ≤ 49) ∧
      ms.map (·.1) = expected E.server m ∧
      (s'.sent.map (·.1) = [20] ++ replies E.server m ++ [21] ∨
        s'.sent.map (·.1) = [20] ++ replies E.server m ++ [21, 7]) := by
  obtain ⟨hp, hsent⟩ := setup_phase (E := E) h0
  have hp' := run_phase hp h1 hi
  rw [received_append]
  rcases step_phase hp' h2 with h3 | h3 | h3
  · have := h3.notDone.2; rw [hi'] at this; cases this
  · exact ⟨hsent, h3.2.2.1, h3.2.2.2⟩
  · rw [h3.2] at hs; cases hs

/-- **C85** Strict mode is on if and only if the peer's first KEXINIT lists the marker. -/
theorem C85_marker (S : Support) (server : Bool) (q : Nat) (my peer : Bytes) (c : Conf)
    (h : chooseConf S server flags0 q my peer = .ok c) :
    ∃ p w, buf2prop peer = some (p, w) ∧
      (c.flags.strict = true ↔ (if server then b!"kex-strict-c-v00@openssh.com" else b!"kex-strict-s-v00@openssh.com") ∈
        Match.names (p.at 0)) := by
  unfold chooseConf at h
  split at h
  · cases h
  · split at h
    · cases h
    · rename_i peerp follows hb
      refine ⟨peerp, follows, hb, ?_⟩
      obtain ⟨_, _, _, h4⟩ := Kex.chooseProps_ok.1 h
      rw [h4]
      unfold Kex.peerMarkers
      rw [if_pos (show flags0.initial = true from rfl)]
      cases server with
      | true => exact Kex.hasAnyAlg_single (by decide) (by decide)
      | false => exact Kex.hasAnyAlg_single (by decide) (by decide)

/-- **C85** In strict mode an unexpected packet ends the connection: before the first exchange has ended, a
packet that is not the awaited one is an error unless it is the announced guess. -/
theorem C85_unexpected (E : Env) (vc vs : Bytes) (prop : Kex.Proposal) (ρ : Bytes) (s0 s : St) (es : List Ev)
    (h0 : setup vc vs prop ρ = .ok s0) (h1 : run E s0 es = .ok s) (hi : s.flags.initial = true)
    (hs : s.flags.strict = true) (hk : s.skip = 0) :
    ∃ X, X ∈ [21, 30, 31, 32, 33, 34] ∧ ∀ t p a b d, t ≠ X → packet E s t p a b d = .error .disconnect := by
  have hp := run_phase (setup_phase (E := E) h0).1 h1 hi
  generalize ([] ++ received es) = hist at hp
  cases hp with
  | start _ hf => rw [hf] at hs; cases hs
  | loose _ _ hs' => rw [hs] at hs'; cases hs'
  | strict init guess ms c m X k hi hs hd hc hcc hm hg hgr ht hst hpre =>
    refine ⟨X, by generalize E.server = b at hst; generalize ms.map (·.1) = x at hst; generalize sentTypes s = w at hst; cases hst <;> decide, fun t p a b d htX => ?_⟩
    unfold packet
    split
    · rfl
    · split
      · rfl
      · rw [if_pos ⟨hi, hs⟩]
        unfold dispatch
        split
        · rename_i hc'
          have hr := only_in hst.range (by rw [← ht]; exact hc'.2.2)
          rw [if_neg (by simpa using hk)]
          unfold handle
          simp only [ht, only_other htX hr]
          unfold kexError
          rw [if_pos ⟨hi, hs⟩]
        · rfl

end Verif.Exch
