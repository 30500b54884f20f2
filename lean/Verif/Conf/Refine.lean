/- The reader follows the log. -/
import Verif.Conf.View

namespace Verif.Conf
open Verif Match

/-- No value that means "not set" comes of the conversions. -/
structure Env.Sane (E : Env) : Prop where
  tun : ∀ a v, E.tun a = some v → v.1 ≠ -1 ∧ v.2 ≠ -1
  ipqos : ∀ a v, E.ipqos a = some v → v ≠ -1

def numKey (k : Key) : Bool := ordinary k && pairs.all fun p => decide (k ≠ p.1) && decide (k ≠ p.2)
def listKey (k : Key) : Bool := decide (k ≠ .sendEnv) && decide (k ≠ .localForward) && decide (k ≠ .remoteForward)

/-- A kind that sets an option of its own sort. -/
def Kind.ok : Kind → Bool
  | .multi k _ => numKey k
  | .time k => numKey k
  | .int k => numKey k
  | .string k => ordinaryStr k
  | .command k => ordinaryStr k
  | .algos k _ => ordinaryStr k
  | .array k => listKey k
  | .forward k _ _ => decide (k = .localForward ∨ k = .remoteForward)
  | _ => true

theorem keywords_ok : (keywords.all fun x => x.2.ok) = true := by decide +kernel

theorem kindOf_ok {ig : Option Bytes} {kw : Bytes} {k : Kind} (h : kindOf ig kw = some k) : k.ok = true := by
  simp only [kindOf] at h
  cases hf : keywords.find? (fun x => x.1 = kw) with
  | some x =>
    rw [hf] at h; simp only [Option.some.injEq] at h
    rw [← h]
    exact List.all_eq_true.1 keywords_ok _ (List.mem_of_find?_eq_some hf)
  | none =>
    rw [hf] at h
    cases ig with
    | none => cases h
    | some p =>
      simp only at h
      split at h
      · cases h; rfl
      · cases h

theorem num_ok {k : Key} {v : Int} (h : numKey k = true) : (Setting.int k v).Ok := by
  simp only [numKey, Bool.and_eq_true, List.all_eq_true, decide_eq_true_eq] at h
  exact h

theorem list_ok {k : Key} {l : List Bytes} (h : listKey k = true) : (Setting.list k l).Ok := by
  simpa [listKey, Setting.Ok, and_assoc] using h

theorem array_ok {k : Key} {l : List Bytes} {m : Nat} (h : listKey k = true) : (Setting.array k l m).Ok := by
  simpa [listKey, Setting.Ok, and_assoc] using h

theorem only_some {s : List Setting} {r : List Bytes} {l : List Setting} (h : only s r = some l) : l = s := by
  cases r <;> simp_all [only]

theorem jump_ok {E : Env} {str : Bytes} {s : Setting} (h : jumpValue E str = some s) : s.Ok := by
  simp only [jumpValue] at h
  split at h
  · cases h; trivial
  · split at h
    · split at h
      · cases h
      · cases h; trivial
    · cases h

theorem addKeys_ok {a : Bytes} {b : Option Bytes} {v : Int × Int} (h : addKeysValue a b = some v) : v.1 ≠ -1 ∧ v.2 ≠ -1 := by
  have hm : ∀ x, multistate yesNoAskConfirm a = some x → x ≠ -1 := by
    intro x hx
    simp only [multistate, Option.map_eq_some_iff] at hx
    obtain ⟨y, hy, rfl⟩ := hx
    have := List.mem_of_find?_eq_some hy
    simp only [yesNoAskConfirm, yesNoAsk, flagTable, List.cons_append, List.nil_append, List.mem_cons, List.not_mem_nil, or_false] at this
    rcases this with rfl | rfl | rfl | rfl | rfl | rfl <;> decide
  simp only [addKeysValue] at h
  split at h
  · split at h
    · cases h
    · cases h; exact ⟨by simp, by assumption⟩
  · rename_i x hx
    cases h; exact ⟨hm _ hx, by simp⟩
  · split at h
    · cases h
    · cases h; exact ⟨by simp, by assumption⟩
  · cases h

theorem persist_ok {a : Bytes} {v : Int × Int} (h : persistValue a = some v) : v.1 ≠ -1 ∧ v.2 ≠ -1 := by
  simp only [persistValue] at h
  split at h
  · cases h; decide
  · split at h
    · cases h; decide
    · split at h
      · cases h; exact ⟨by simp, by show Misc.Time.convtime a ≠ -1; omega⟩
      · cases h

theorem settings_ok {E : Env} (hE : E.Sane) {user : Bool} {k : Kind} {str : Bytes} {args : List Bytes} {l : List Setting}
    (hk : k.ok = true) (h : settings E user k str args = some l) : ∀ s ∈ l, s.Ok := by
  cases k <;> simp only [settings, Kind.ok] at h hk
  case ignore => cases h; simp
  case multi | time | int =>
    simp only [Option.bind_eq_some_iff] at h
    obtain ⟨⟨a, r⟩, -, v, -, h⟩ := h
    rw [only_some h]; simpa using num_ok hk
  case string =>
    simp only [Option.bind_eq_some_iff] at h
    obtain ⟨⟨a, r⟩, -, h⟩ := h
    rw [only_some h]; simpa [Setting.Ok] using hk
  case command => cases h; simpa [Setting.Ok] using hk
  case array =>
    split at h
    · cases h; simpa using array_ok hk
    · cases h
  case algos =>
    simp only [Option.bind_eq_some_iff] at h
    obtain ⟨⟨a, r⟩, -, h⟩ := h
    simp only at h
    split at h
    · rw [only_some h]; simpa [Setting.Ok] using hk
    · cases h
  case file =>
    simp only [Option.bind_eq_some_iff] at h
    obtain ⟨⟨a, r⟩, -, h⟩ := h
    rw [only_some h]; simp [Setting.Ok]
  case forward =>
    simp only [Option.bind_eq_some_iff] at h
    obtain ⟨⟨a, r⟩, -, ⟨x, d, r'⟩, -, f, -, h⟩ := h
    rw [only_some h]; simpa [Setting.Ok] using hk
  case forwardAgent =>
    simp only [Option.bind_eq_some_iff] at h
    obtain ⟨⟨a, r⟩, -, h⟩ := h
    simp only at h
    split at h
    · rw [only_some h]; simpa using num_ok (k := .forwardAgent) (by decide)
    · split at h
      · rw [only_some h]
        simpa using ⟨num_ok (k := .forwardAgent) (by decide), (by decide : ordinaryStr .agentSock = true)⟩
      · cases h
  case rekey =>
    simp only [Option.bind_eq_some_iff] at h
    obtain ⟨⟨a, r⟩, -, v, -, h⟩ := h
    have h1 : (Setting.int .rekeyLimit v).Ok := num_ok (by decide)
    cases r with
    | nil => cases h; simpa using h1
    | cons b r' =>
      simp only at h
      split at h
      · rw [only_some h]; simpa using h1
      · split at h
        · cases h
        · simp only [Option.bind_eq_some_iff] at h
          obtain ⟨t, -, h⟩ := h
          rw [only_some h]; simpa using ⟨h1, num_ok (k := .rekeyInterval) (by decide)⟩
  case proxyCommand => cases h; simp [Setting.Ok]
  case proxyJump =>
    simp only [Option.map_eq_some_iff] at h
    obtain ⟨s, hs, rfl⟩ := h
    simpa using jump_ok hs
  case port =>
    simp only [Option.bind_eq_some_iff] at h
    obtain ⟨⟨a, r⟩, -, h⟩ := h
    split at h
    · rw [only_some h]; simpa using num_ok (k := .port) (by decide)
    · cases h
  case logLevel =>
    simp only [Option.bind_eq_some_iff] at h
    obtain ⟨v, -, h⟩ := h
    rw [only_some h]; simpa using num_ok (k := .logLevel) (by decide)
  case logFacility =>
    simp only [Option.bind_eq_some_iff] at h
    obtain ⟨v, -, h⟩ := h
    rw [only_some h]; simp [Setting.Ok]
  case logVerbose =>
    split at h
    · cases h; simpa using list_ok (k := .logVerbose) (by decide)
    · cases h
  case permitRemoteOpen =>
    split at h
    · cases h; simpa using list_ok (k := .permitRemoteOpen) (by decide)
    · cases h
  case escape =>
    simp only [Option.bind_eq_some_iff] at h
    obtain ⟨⟨a, r⟩, -, v, -, h⟩ := h
    rw [only_some h]; simpa using num_ok (k := .escapeChar) (by decide)
  case sendEnv =>
    split at h
    · cases h; simp [Setting.Ok]
    · cases h
  case setEnv =>
    split at h
    · cases h; simpa using list_ok (k := .setEnv) (by decide)
    · cases h
  case persist =>
    simp only [Option.bind_eq_some_iff] at h
    obtain ⟨⟨a, r⟩, -, v, hv, h⟩ := h
    rw [only_some h]; simpa [Setting.Ok, pairs] using persist_ok hv
  case tunDevice =>
    simp only [Option.bind_eq_some_iff] at h
    obtain ⟨⟨a, r⟩, -, v, hv, h⟩ := h
    rw [only_some h]; simpa [Setting.Ok, pairs] using hE.tun _ _ hv
  case ipqos =>
    simp only [Option.bind_eq_some_iff] at h
    obtain ⟨v, hv, h⟩ := h
    have h1 := hE.ipqos _ _ hv
    split at h
    · cases h; simp [Setting.Ok, pairs, h1]
    · simp only [Option.bind_eq_some_iff] at h
      obtain ⟨w, hw, h⟩ := h
      have h2 := hE.ipqos _ _ hw
      rw [only_some h]; simp [Setting.Ok, pairs, h1, h2]
  case canonicalDomains =>
    split at h
    · cases h; simpa using list_ok (k := .canonicalDomains) (by decide)
    · cases h
  case cnames =>
    split at h
    · cases h; simpa using list_ok (k := .permittedCnames) (by decide)
    · cases h
  case mask =>
    simp only [Option.bind_eq_some_iff] at h
    obtain ⟨⟨a, r⟩, -, v, -, h⟩ := h
    rw [only_some h]; simp [Setting.Ok]
  case fingerprint =>
    simp only [Option.bind_eq_some_iff] at h
    obtain ⟨⟨a, r⟩, -, v, -, h⟩ := h
    rw [only_some h]; simpa using num_ok (k := .fingerprintHash) (by decide)
  case addKeys =>
    simp only [Option.bind_eq_some_iff] at h
    obtain ⟨⟨a, r⟩, -, v, hv, h⟩ := h
    rw [only_some h]; simpa [Setting.Ok, pairs] using addKeys_ok hv
  case identityAgent =>
    simp only [Option.bind_eq_some_iff] at h
    obtain ⟨⟨a, r⟩, -, h⟩ := h
    split at h
    · rw [only_some h]; simpa [Setting.Ok] using (by decide : ordinaryStr .identityAgent = true)
    · cases h
  case obscure =>
    split at h
    · simp only [Option.map_eq_some_iff] at h
      obtain ⟨v, -, rfl⟩ := h
      simpa using num_ok (k := .obscureTiming) (by decide)
    · cases h
  case channelTimeout =>
    split at h
    · cases h; simpa using list_ok (k := .channelTimeout) (by decide)
    · cases h
  case versionAddendum =>
    split at h
    · cases h
    · cases h; simpa [Setting.Ok] using (by decide : ordinaryStr .versionAddendum = true)
  case host => cases h
  case match_ => cases h
  case incl => cases h

theorem applyAll_view {l : List Setting} {log : Log} {a : Bool} {o : Opts} (hs : ∀ s ∈ l, s.Ok) (hl : LogOk log)
    (h : applyAll a l (view log) = some o) :
    o = view (log ++ l.map fun x => (a, x)) ∧ LogOk (log ++ l.map fun x => (a, x)) := by
  induction l generalizing log with
  | nil => simp only [applyAll, List.foldlM_nil] at h; cases h; simpa using hl
  | cons s l ih =>
    simp only [applyAll, List.foldlM_cons, Option.bind_eq_bind, Option.bind_eq_some_iff] at h
    obtain ⟨o', h1, h2⟩ := h
    have := apply_view (hs s (by simp)) hl h1
    subst this
    have hl' : LogOk (log ++ [(a, s)]) := by
      intro x hx
      rcases List.mem_append.1 hx with h | h
      · exact hl x h
      · simp only [List.mem_singleton] at h; subst h; exact hs s (by simp)
    have := ih (log := log ++ [(a, s)]) (fun t ht => hs t (List.mem_cons_of_mem _ ht)) hl' h2
    simpa using this

/-! ### Blocks -/

theorem hostLine_never {host : Bytes} {args : List Bytes} {b : Bool} (h : hostLine true host false args = some b) : b = false := by
  cases args with
  | nil => simpa [hostLine] using h.symm
  | cons a r =>
    simp only [hostLine] at h
    split at h
    · cases h
    · simpa using h.symm

theorem hostLine_sel {host : Bytes} {args : List Bytes} {act b : Bool} (h : hostLine false host act args = some b) :
    b = true ↔ (act = true ∨ ∃ a ∈ args, a.head? ≠ some 33 ∧ matchPattern host a = true) ∧
      (∀ a ∈ args, a.head? = some 33 → matchPattern host (a.drop 1) = false) := by
  induction args generalizing act with
  | nil => simp only [hostLine, Option.some.injEq] at h; simp [h]
  | cons a r ih =>
    simp only [hostLine] at h
    split at h
    · cases h
    · rw [if_neg (by simp)] at h
      split at h
      · rename_i hn
        split at h
        · rename_i hm
          cases h
          simp only [Bool.false_eq_true, false_iff]
          rintro ⟨-, h2⟩
          have := h2 a (by simp) hn
          rw [this] at hm; cases hm
        · rename_i hm
          rw [ih h]
          simp only [List.mem_cons, exists_eq_or_imp, forall_eq_or_imp, hn, ne_eq, not_true_eq_false, false_and, false_or, forall_const]
          simp only [Bool.not_eq_true] at hm
          simp only [hm, true_and]
      · rename_i hn
        rw [ih h]
        simp only [List.mem_cons, exists_eq_or_imp, forall_eq_or_imp, hn, ne_eq, not_false_eq_true, true_and, Bool.or_eq_true, false_implies, or_assoc]

/-! ### Match lines -/

theorem critHolds_truth {W : World} {o : Opts} {host x : Bytes} {so : Bool} {c : Crit} {b : Bool} {cmds : List Bytes}
    (h : critHolds W o host so c x = some (b, cmds)) (hs : c = .exec → so = true) : b = true ↔ Truth W o host c x := by
  cases c <;> simp only [critHolds, Option.some.injEq, Prod.mk.injEq] at h <;>
    try first | (rw [← h.1, decide_eq_true_eq]; rfl) | (rw [← h.1]; rfl)
  · split at h
    · cases h; simp [Truth]
    · cases h
  · have hso := hs rfl
    subst hso
    split at h
    · cases h
    · rename_i cmd hc
      simp only [if_true, Option.map_eq_some_iff, Prod.mk.injEq] at h
      obtain ⟨b', h1, rfl, -⟩ := h
      simp [Truth, commandOf, hc, h1]

theorem critHolds_cmds {W : World} {o : Opts} {host x : Bytes} {so : Bool} {c : Crit} {b : Bool} {cmds : List Bytes}
    (h : critHolds W o host so c x = some (b, cmds)) (cmd : Bytes) :
    cmd ∈ cmds ↔ so = true ∧ c = .exec ∧ commandOf W o host x = some cmd := by
  cases c <;> simp only [critHolds, Option.some.injEq, Prod.mk.injEq] at h <;>
    try (rw [← h.2]; simp; done)
  · split at h
    · cases h; simp
    · cases h
  · split at h
    · cases h
    · rename_i cmd' hc
      split at h
      · rename_i hso
        simp only [Option.map_eq_some_iff, Prod.mk.injEq] at h
        obtain ⟨b', h1, rfl, rfl⟩ := h
        simp [commandOf, hc, hso, eq_comm]
      · rename_i hso
        cases h; simp [hso]

theorem note_holds {W : World} {o : Opts} {host x : Bytes} {so neg : Bool} {c : Crit} {b : Bool} {cmds : List Bytes}
    (h : critHolds W o host so c x = some (b, cmds)) :
    note so neg c b = true ↔ so = true ∧ Holds W o host (.crit neg c x) := by
  cases so with
  | false => simp [note]
  | true =>
    have ht := critHolds_truth h (fun _ => rfl)
    simp only [note, Bool.not_true, Bool.false_eq_true, and_false, if_false, Bool.true_and, Holds, true_and]
    cases neg <;> cases b <;> simp_all

theorem eqForm_some {a name arg : Bytes} (h : eqForm a = some (name, arg)) : a = name ++ 61 :: arg ∧
    ∀ c x, critOf name arg = some (c, x) → c ≠ .sessionType := by
  simp only [eqForm] at h
  split at h
  · cases h
  · rename_i hne
    split at h
    · rename_i hany
      cases h
      constructor
      · have h1 : a = a.takeWhile (· ≠ 61) ++ a.dropWhile (· ≠ 61) := (List.takeWhile_append_dropWhile).symm
        cases hd : a.dropWhile (· ≠ 61) with
        | nil => exact absurd hd hne
        | cons y ys =>
          have hy : y = 61 := by
            have := List.head?_dropWhile_not (fun c : UInt8 => decide (c ≠ 61)) a
            rw [hd] at this; simpa using this
          rw [hd, hy] at h1
          simpa using h1
      · rintro c x hc rfl
        simp only [critOf] at hc
        split at hc
        · cases hc
        · rename_i y hy
          split at hc
          · cases hc
          · split at hc
            · cases hc
            · simp only [Option.some.injEq, Prod.mk.injEq] at hc
              have hp := List.find?_some hy
              have hm := List.mem_of_find?_eq_some hy
              simp only [List.any_eq_true, Bool.and_eq_true, decide_eq_true_eq] at hany
              obtain ⟨z, hz, hz1, hz2⟩ := hany
              simp only [same, decide_eq_true_eq] at hp hz2
              have : z.1 = y.1 := hz2.symm.trans hp
              simp only [critNames, List.mem_cons, List.not_mem_nil, or_false] at hm hz
              rcases hm with rfl | rfl | rfl | rfl | rfl | rfl | rfl | rfl | rfl | rfl <;> first | (exact absurd hc.1 (by decide)) | skip
              rcases hz with rfl | rfl | rfl | rfl | rfl | rfl | rfl | rfl | rfl | rfl <;> first | (exact absurd this (by decide)) | (exact hz1 rfl)
    · cases h

theorem criteria_takeCrit {a : Bytes} {r r' : List Bytes} {c : Crit} {x : Bytes} {cs : List Item} (ha : a.head? ≠ some 35)
    (h : takeCrit (attrOf a) r = some (c, x, r')) (hc : Criteria r' cs) : Criteria (a :: r) (.crit (negOf a) c x :: cs) := by
  simp only [takeCrit] at h
  split at h
  · rename_i name arg he
    simp only [Option.map_eq_some_iff, Prod.mk.injEq] at h
    obtain ⟨⟨c', x'⟩, h1, rfl, rfl, rfl⟩ := h
    have := eqForm_some he
    exact .equals ha this.1 (by rw [h1]; rfl) (this.2 _ _ h1) hc
  · cases r with
    | nil => cases h
    | cons arg r =>
      simp only [Option.map_eq_some_iff, Prod.mk.injEq] at h
      obtain ⟨⟨c', x'⟩, h1, rfl, rfl, rfl⟩ := h
      exact .word ha (by rw [h1]; rfl) hc

/-- The loop, with the criteria `pre` read. -/
theorem matchLoop_sel {W : World} {o : Opts} {host : Bytes} {fuel n : Nat} {so b : Bool} {ran ran' : List Bytes} {args : List Bytes}
    (h : matchLoop W o host fuel n so ran args = some (b, ran', [])) :
    ∃ cs, Criteria args cs ∧ (n = 0 → cs ≠ []) ∧ (b = true ↔ so = true ∧ ∀ i ∈ cs, Holds W o host i) ∧
      (∀ pre neg post, cs = pre ++ .all neg :: post → n + pre.length ≤ 1 ∧ post = []) ∧
      (∀ cmd, cmd ∈ ran' ↔ cmd ∈ ran ∨ (so = true ∧ ∃ pre neg x post, cs = pre ++ .crit neg .exec x :: post ∧
        (∀ i ∈ pre, Holds W o host i) ∧ commandOf W o host x = some cmd)) := by
  induction fuel generalizing n so ran args with
  | zero => simp [matchLoop] at h
  | succ fuel ih =>
    cases args with
    | nil =>
      simp only [matchLoop] at h
      split at h
      · cases h
      · cases h
        refine ⟨[], .nil, fun h0 => absurd h0 (by assumption), by simp, by simp, by simp⟩
    | cons a r =>
      simp only [matchLoop] at h
      split at h
      · rename_i hc
        split at h
        · cases h
        · cases h
          exact ⟨[], .comment hc, fun h0 => absurd h0 (by assumption), by simp, by simp, by simp⟩
      · rename_i hc
        split at h
        · rename_i hall
          simp only [Option.map_eq_some_iff, Prod.mk.injEq] at h
          obtain ⟨r', h1, rfl, rfl, rfl⟩ := h
          have hcs : Criteria (a :: r) [.all (negOf a)] ∧ n ≤ 1 := by
            simp only [afterAll] at h1
            split at h1
            · cases h1
            · rename_i hn
              refine ⟨?_, by omega⟩
              cases r with
              | nil => exact .all hc hall
              | cons y r =>
                simp only at h1
                split at h1
                · cases h1; exact .allComment hc hall (.inl ⟨by assumption, rfl⟩)
                · split at h1
                  · exact .allComment hc hall (.inr (by assumption))
                  · cases h1
          refine ⟨_, hcs.1, by simp, by simp [Holds], ?_, ?_⟩
          · rintro pre neg post he
            cases pre with
            | nil => simp only [List.nil_append, List.cons.injEq] at he; exact ⟨by simpa using hcs.2, he.2.symm⟩
            | cons y ys => simp at he
          · intro cmd
            constructor
            · exact .inl
            · rintro (h | ⟨-, pre, neg, x, post, he, -⟩)
              · exact h
              · cases pre with
                | nil => simp at he
                | cons y ys => simp at he
        · split at h
          · rename_i hfin
            obtain ⟨cs, h1, h2, h3, h4, h5⟩ := ih h
            refine ⟨.final (negOf a) :: cs, .final hc hfin h1, by simp, ?_, ?_, ?_⟩
            · rw [h3]; simp [Holds, and_assoc]
            · rintro pre neg post he
              cases pre with
              | nil => simp at he
              | cons y ys =>
                simp only [List.cons_append, List.cons.injEq] at he
                have := h4 ys neg post he.2
                exact ⟨by simp only [List.length_cons]; omega, this.2⟩
            · intro cmd
              rw [h5 cmd]
              constructor
              · rintro (h | ⟨hs, pre, neg, x, post, he, hp, hx⟩)
                · exact .inl h
                · simp only [Bool.and_eq_true, bne_iff_ne, ne_eq] at hs
                  refine .inr ⟨hs.1, .final (negOf a) :: pre, neg, x, post, by simp [he], ?_, hx⟩
                  simp only [List.mem_cons, forall_eq_or_imp]
                  exact ⟨by simpa [Holds] using hs.2, hp⟩
              · rintro (h | ⟨hs, pre, neg, x, post, he, hp, hx⟩)
                · exact .inl h
                · cases pre with
                  | nil => simp at he
                  | cons y ys =>
                    simp only [List.cons_append, List.cons.injEq] at he
                    refine .inr ⟨?_, ys, neg, x, post, he.2, fun i hi => hp i (by simp [hi]), hx⟩
                    have := hp y (by simp)
                    rw [← he.1] at this
                    simp only [Holds] at this
                    simp [hs, this]
          · cases ht : takeCrit (attrOf a) r with
            | none => rw [ht] at h; cases h
            | some y =>
              obtain ⟨c, x, r'⟩ := y
              rw [ht] at h; simp only at h
              cases hh : critHolds W o host so c x with
              | none => rw [hh] at h; cases h
              | some z =>
                obtain ⟨bb, cmds⟩ := z
                rw [hh] at h; simp only at h
                obtain ⟨cs, h1, h2, h3, h4, h5⟩ := ih h
                have hn := note_holds (neg := negOf a) hh
                refine ⟨.crit (negOf a) c x :: cs, criteria_takeCrit hc ht h1, by simp, ?_, ?_, ?_⟩
                · rw [h3, hn]; simp [and_assoc]
                · rintro pre neg post he
                  cases pre with
                  | nil => simp at he
                  | cons y ys =>
                    simp only [List.cons_append, List.cons.injEq] at he
                    have := h4 ys neg post he.2
                    exact ⟨by simp only [List.length_cons]; omega, this.2⟩
                · intro cmd
                  rw [h5 cmd, List.mem_append, critHolds_cmds hh cmd]
                  constructor
                  · rintro ((h | ⟨hs, rfl, hx⟩) | ⟨hs, pre, neg, x', post, he, hp, hx⟩)
                    · exact .inl h
                    · exact .inr ⟨hs, [], negOf a, x, cs, rfl, by simp, hx⟩
                    · have hs' := hn.1 hs
                      refine .inr ⟨hs'.1, .crit (negOf a) c x :: pre, neg, x', post, by simp [he], ?_, hx⟩
                      simp only [List.mem_cons, forall_eq_or_imp]
                      exact ⟨hs'.2, hp⟩
                  · rintro (h | ⟨hs, pre, neg, x', post, he, hp, hx⟩)
                    · exact .inl (.inl h)
                    · cases pre with
                      | nil =>
                        simp only [List.nil_append, List.cons.injEq, Item.crit.injEq] at he
                        obtain ⟨⟨-, rfl, rfl⟩, -⟩ := he
                        exact .inl (.inr ⟨hs, rfl, hx⟩)
                      | cons y ys =>
                        simp only [List.cons_append, List.cons.injEq] at he
                        have := hp y (by simp)
                        rw [← he.1] at this
                        exact .inr ⟨hn.2 ⟨hs, this⟩, ys, neg, x', post, he.2, fun i hi => hp i (by simp [hi]), hx⟩

theorem matchLine_sel {W : World} {o : Opts} {args : List Bytes} {b : Bool} {ran : List Bytes}
    (h : matchLine W o args = some (b, ran, [])) : MatchSel W o args b ran := by
  simp only [matchLine] at h
  split at h
  · cases h
  · rename_i host hh
    obtain ⟨cs, h1, h2, h3, h4, h5⟩ := matchLoop_sel h
    exact ⟨host, cs, hh, h1, h2 rfl, by simpa using h3, by simpa using h4, by simpa using h5⟩

/-! ### Files -/

/-- The reader's state and the log. -/
structure Follows (s : St) (t : At) : Prop where
  o : s.o = view t.log
  act : s.active = t.act
  ran : s.ran = t.ran
  ok : LogOk t.log

theorem kindOf_name {ig : Option Bytes} {kw : Bytes} {k : Kind} (h : kindOf ig kw = some k) :
    (k = .host → kw = b!"host") ∧ (k = .match_ → kw = b!"match") ∧ (k = .incl → kw = b!"include") := by
  simp only [kindOf] at h
  cases hf : keywords.find? (fun x => x.1 = kw) with
  | some x =>
    rw [hf] at h; simp only [Option.some.injEq] at h
    have hm := List.mem_of_find?_eq_some hf
    have hp := List.find?_some hf
    simp only [decide_eq_true_eq] at hp
    have key : ∀ y ∈ keywords, (y.2 = .host → y.1 = b!"host") ∧ (y.2 = .match_ → y.1 = b!"match") ∧
        (y.2 = .incl → y.1 = b!"include") := by
      simp [keywords, flag]
    have := key x hm
    rw [← h, ← hp]; exact this
  | none =>
    rw [hf] at h
    cases ig with
    | none => cases h
    | some p =>
      simp only at h
      split at h
      · cases h; simp
      · cases h

section
variable {E : Env} (hE : E.Sane) {W : World} {user : Bool}
include hE

/-- What is needed of included files. -/
def IncOk (E : Env) (W : World) (user : Bool) (n : Nat) (inc : Bool → List Bytes → St → Option St) : Prop :=
  ∀ never lines s u t, Follows s t → inc never lines s = some u →
    ∃ n', n = n' + 1 ∧ ∃ v, Follows u v ∧ Lines E W user n' never lines t v

omit hE in
theorem includeFiles_ok {n : Nat} {inc : Bool → List Bytes → St → Option St} (hi : IncOk E W user n inc) {never : Bool}
    {fs : List Bytes} {s u : St} {t : At} (hf : Follows s t) (h : includeFiles inc W never s.active fs s = some u) :
    ∃ v, Follows u v ∧ Files E W user n never fs t v := by
  induction fs generalizing s t with
  | nil => simp only [includeFiles, Option.some.injEq] at h; subst h; exact ⟨t, hf, .nil⟩
  | cons f fs ih =>
    simp only [includeFiles] at h
    split at h
    · cases h
    · rename_i hfile
      obtain ⟨v, h1, h2⟩ := ih hf h
      exact ⟨v, h1, .missing hfile h2⟩
    · rename_i lines hfile
      split at h
      · cases h
      · rename_i w hw
        obtain ⟨n', rfl, v, h1, h2⟩ := hi _ _ _ _ t hf hw
        have hf' : Follows { w with active := s.active } { v with act := t.act } :=
          ⟨h1.o, hf.act, h1.ran, h1.ok⟩
        obtain ⟨v', h3, h4⟩ := ih hf' h
        rw [hf.act] at h2
        exact ⟨v', h3, .file hfile h2 h4⟩

omit hE in
theorem includeArgs_ok {n : Nat} {inc : Bool → List Bytes → St → Option St} (hi : IncOk E W user n inc) {never : Bool}
    {args : List Bytes} {s u : St} {t : At} (hf : Follows s t) (h : includeArgs inc W never user args s = some u) :
    ∃ v, Follows u v ∧ Includes E W user n never args t v := by
  induction args generalizing s t with
  | nil => simp only [includeArgs, Option.some.injEq] at h; subst h; exact ⟨t, hf, .nil⟩
  | cons a r ih =>
    simp only [includeArgs] at h
    split at h
    · cases h
    · split at h
      · cases h
      · rename_i host hh
        split at h
        · cases h
        · rename_i fs hg
          split at h
          · cases h
          · rename_i w hw
            obtain ⟨v, h1, h2⟩ := includeFiles_ok hi hf hw
            obtain ⟨v', h3, h4⟩ := ih h1 h
            rw [hf.o] at hh hg
            exact ⟨v', h3, .cons hh hg h2 h4⟩

theorem step_ok {n : Nat} {inc : Bool → List Bytes → St → Option St} (hi : IncOk E W user n inc) {never : Bool}
    {l : Bytes} {s u : St} {t : At} (hf : Follows s t) (h : step inc E W never user s l = some u) :
    ∃ v, Follows u v ∧ Line E W user n never l t v := by
  simp only [step] at h
  split at h
  · cases h; rename_i hr; exact ⟨t, hf, .blank hr⟩
  · cases h
  · rename_i kw str hr
    split at h
    · rename_i args hk ha
      simp only [Option.map_eq_some_iff] at h
      obtain ⟨b, hb, rfl⟩ := h
      refine ⟨{ t with act := b }, ⟨hf.o, rfl, hf.ran, hf.ok⟩, .host hr ((kindOf_name hk).1 rfl) ha ?_⟩
      cases never with
      | true => simp [hostLine_never hb]
      | false => rw [hostLine_sel hb]; simp [HostSel]
    · rename_i args hk ha
      split at h
      · rename_i b ran hm
        cases h
        rw [hf.o] at hm
        refine ⟨{ t with act := b && !never, ran := t.ran ++ ran }, ⟨hf.o, rfl, by rw [hf.ran], hf.ok⟩, ?_⟩
        exact .matches hr ((kindOf_name hk).2.1 rfl) ha (matchLine_sel hm)
      · cases h
    · rename_i args hk ha
      obtain ⟨v, h1, h2⟩ := includeArgs_ok hi hf h
      exact ⟨v, h1, .incl hr ((kindOf_name hk).2.2 rfl) ha h2⟩
    · rename_i k args h1 h2 h3 hk ha
      simp only [Option.bind_eq_some_iff, Option.map_eq_some_iff] at h
      obtain ⟨sets, hset, o', ho, rfl⟩ := h
      rw [hf.o] at ho hk
      have := applyAll_view (settings_ok hE (kindOf_ok hk) hset) hf.ok ho
      refine ⟨{ t with log := t.log ++ sets.map fun x => (t.act, x) }, ⟨?_, hf.act, hf.ran, ?_⟩, .sets hr hk ha hset⟩
      · rw [← hf.act]; exact this.1
      · rw [← hf.act]; exact this.2
    · cases h

theorem lines_ok {n : Nat} {inc : Bool → List Bytes → St → Option St} (hi : IncOk E W user n inc) {never : Bool}
    {ls : List Bytes} {s u : St} {t : At} (hf : Follows s t) (h : ls.foldlM (fun s l => step inc E W never user s l) s = some u) :
    ∃ v, Follows u v ∧ Lines E W user n never ls t v := by
  induction ls generalizing s t with
  | nil => simp only [List.foldlM_nil] at h; cases h; exact ⟨t, hf, .nil⟩
  | cons l ls ih =>
    simp only [List.foldlM_cons, Option.bind_eq_bind, Option.bind_eq_some_iff] at h
    obtain ⟨w, h1, h2⟩ := h
    obtain ⟨v, h3, h4⟩ := step_ok hE hi hf h1
    obtain ⟨v', h5, h6⟩ := ih h3 h2
    exact ⟨v', h5, .cons h4 h6⟩

theorem readLines_ok (n : Nat) : IncOk E W user n (readLines E W user n) := by
  induction n with
  | zero => intro never lines s u t hf h; cases h
  | succ n ih =>
    intro never lines s u t hf h
    obtain ⟨v, h1, h2⟩ := lines_ok hE ih hf h
    exact ⟨n, rfl, v, h1, h2⟩

end

end Verif.Conf
