/-
C25 and C26: combining options, and accepting certificates.
-/
import Verif.KeyOpts.Cert

namespace Verif.KeyOpts

open Spec

/-! ### What option texts can set -/

theorem tryFlags_inv {P : Opts → Prop} {s : Bytes} {o o' : Opts} {r : Bytes} :
    ∀ (fs : List (Bytes × Bool × (Bool → Opts → Opts))), (∀ e ∈ fs, ∀ v o, P o → P (e.2.2 v o)) → P o →
      tryFlags s o fs = some (o', r) → P o' := by
  intro fs
  induction fs with
  | nil => intro _ _ h; simp [tryFlags] at h
  | cons e fs ih =>
    obtain ⟨n, neg, f⟩ := e
    intro hf ho h
    simp only [tryFlags] at h
    split at h
    · simp only [Option.some.injEq, Prod.mk.injEq] at h
      rw [← h.1]
      exact hf (n, neg, f) (by simp) _ _ ho
    · exact ih (fun e he => hf e (List.mem_cons_of_mem _ he)) ho h

theorem tryClauses_inv {P : Opts → Prop} {s : Bytes} {o o' : Opts} {r : Bytes} :
    ∀ (cs : List (Bytes × (Bytes → Opts → Option Opts))), (∀ e ∈ cs, ∀ v o o', P o → e.2 v o = some o' → P o') → P o →
      tryClauses s o cs = some (some (o', r)) → P o' := by
  intro cs
  induction cs with
  | nil => intro _ _ h; simp [tryClauses] at h
  | cons e cs ih =>
    obtain ⟨n, f⟩ := e
    intro hf ho h
    simp only [tryClauses] at h
    split at h
    · split at h
      · simp at h
      · rename_i v r' _
        simp only [Option.some.injEq, Option.map_eq_some_iff, Prod.mk.injEq] at h
        obtain ⟨o1, h1, h2, -⟩ := h
        rw [← h2]
        exact hf (n, f) (by simp) _ _ _ ho h1
    · exact ih (fun e he => hf e (List.mem_cons_of_mem _ he)) ho h

/-- Induction over the options of a line. -/
theorem parse_inv {w : World} {P : Opts → Prop} (h0 : P keysDefaults)
    (hf : ∀ e ∈ flags, ∀ v o, P o → P (e.2.2 v o))
    (hc : ∀ e ∈ clauses w, ∀ v o o', P o → e.2 v o = some o' → P o')
    {s : Option Bytes} {o : Opts} (h : parse w s = some o) : P o := by
  cases s with
  | none => simp only [parse, Option.some.injEq] at h; rw [← h]; exact h0
  | some s =>
    simp only [parse, Option.map_eq_some_iff] at h
    obtain ⟨⟨o1, r⟩, h, rfl⟩ := h
    suffices H : ∀ (fuel : Nat) (s : Bytes) (o : Opts), P o → ∀ o' r, parseLoop w fuel s o = some (o', r) → P o' from
      H _ _ _ h0 _ _ h
    intro fuel
    induction fuel with
    | zero => intro s o _ o' r h; simp [parseLoop] at h
    | succ k ih =>
      intro s o ho o' r h
      cases s with
      | nil => simp only [parseLoop, Option.some.injEq, Prod.mk.injEq] at h; rw [← h.1]; exact ho
      | cons c t =>
        simp only [parseLoop] at h
        split at h
        · simp only [Option.some.injEq, Prod.mk.injEq] at h; rw [← h.1]; exact ho
        · have hone : ∀ o1 r1, parseOne w (c :: t) o = some (o1, r1) → P o1 := by
            intro o1 r1 h1
            unfold parseOne at h1
            split at h1
            · rename_i x hx
              simp only [Option.some.injEq] at h1
              subst h1
              exact tryFlags_inv _ hf ho hx
            · split at h1
              · rename_i x hx
                subst h1
                exact tryClauses_inv _ hc ho hx
              · simp only [Option.some.injEq, Prod.mk.injEq] at h1
                rw [← h1.1]; exact ho
          split at h
          · simp at h
          · rename_i o1 h1
            simp only [Option.some.injEq, Prod.mk.injEq] at h
            rw [← h.1]; exact hone _ _ h1
          · rename_i o1 d r1 h1
            split at h
            · simp only [Option.some.injEq, Prod.mk.injEq] at h
              rw [← h.1]; exact hone _ _ h1
            · split at h
              · simp at h
              · split at h
                · simp at h
                · exact ih _ _ (hone _ _ h1) _ _ h

/-- Option texts never set the restriction that only certificates carry. -/
theorem parse_fromCert {w : World} {s : Option Bytes} {o : Opts} (h : parse w s = some o) : o.fromCert = none := by
  refine parse_inv (P := fun o => o.fromCert = none) rfl ?_ ?_ h
  · intro e he v o ho
    simp only [flags, List.mem_cons, List.not_mem_nil, or_false] at he
    rcases he with rfl | rfl | rfl | rfl | rfl | rfl | rfl | rfl | rfl <;> exact ho
  · intro e he v o o' ho h
    simp only [clauses, List.mem_cons, List.not_mem_nil, or_false] at he
    rcases he with rfl | rfl | rfl | rfl | rfl | rfl | rfl | rfl
    · simp only [once] at h; split at h <;> simp at h; rw [← h]; exact ho
    · simp only [once] at h; split at h <;> simp at h; rw [← h]; exact ho
    · simp only [once] at h; split at h <;> simp at h; rw [← h]; exact ho
    · simp only [setExpiry] at h
      split at h
      · simp at h
      · split at h
        · simp at h
        · split at h <;> simp only [Option.some.injEq] at h <;> rw [← h] <;> exact ho
    · simp only [setEnv] at h
      split at h
      · simp at h
      · split at h
        · simp at h
        · split at h
          · simp at h
          · split at h <;> simp only [Option.some.injEq] at h <;> rw [← h] <;> exact ho
    · simp only [Option.map_eq_some_iff] at h; obtain ⟨e, -, rfl⟩ := h; exact ho
    · simp only [Option.map_eq_some_iff] at h; obtain ⟨e, -, rfl⟩ := h; exact ho
    · simp only [Option.map_eq_some_iff] at h; obtain ⟨e, -, rfl⟩ := h; exact ho

/-- Certificates set nothing but the flags, the command, the source address and "verify-required". -/
theorem fromCert_blank {w : World} {c : Cert} {o : Opts} (h : fromCert w c = some o) :
    o.validBefore = 0 ∧ o.tun = -1 ∧ o.env = [] ∧ o.permitopen = [] ∧ o.permitlisten = [] ∧ o.fromKeys = none ∧
      o.principals = none ∧ o.certAuthority = false ∧ o.restricted = false := by
  obtain ⟨-, lc, le, o1, -, -, h1, h2⟩ := fromCert_some h
  have e1 := (entries_critical h1).1
  have e2 := (entries_extensions h2).1
  rw [e2, e1]
  exact ⟨rfl, rfl, rfl, rfl, rfl, rfl, rfl, rfl, rfl⟩

/-! ### C25 -/

theorem mergeCommand_some {p a r : Option Bytes} (h : mergeCommand p a = some r) :
    (∀ c, p = some c → r = some c) ∧ (∀ c, a = some c → r = some c) ∧ (r = none → p = none ∧ a = none) := by
  unfold mergeCommand at h
  split at h
  · split at h
    · rename_i heq
      subst heq
      simp only [Option.some.injEq] at h
      subst h
      simp
    · simp at h
  · simp only [Option.some.injEq] at h
    subst h; simp
  · simp only [Option.some.injEq] at h
    subst h; simp

/-- **C25: a permission is granted exactly when both grant it**, whatever the two sets of options. -/
theorem C25_both_grant {p a r : Opts} (h : merge p a = some r) : BothGrant r p a := by
  unfold merge at h
  split at h
  · simp at h
  · simp only [Option.some.injEq] at h
    subst h
    constructor <;> simp

/-- **C25: nothing the first set restricts is lost.** -/
theorem C25_primary {p a r : Opts} (h : merge p a = some r) : Tighter r p := by
  unfold merge at h
  split at h
  · simp at h
  · rename_i cmd hc
    simp only [Option.some.injEq] at h
    subst h
    obtain ⟨h1, h2, h3⟩ := mergeCommand_some hc
    constructor
    all_goals try (simp only [Bool.and_eq_true, Bool.or_eq_true])
    · exact fun h => h.1
    · exact fun h => h.1
    · exact fun h => h.1
    · exact fun h => h.1
    · exact fun h => h.1
    · exact fun h => h.1
    · exact fun h => .inl h
    · exact h1
    · intro l hl; simp [hl]
    · intro l hl; simp [hl]
    · intro hp
      simp only [mergeExpiry]
      split <;> omega
    · intro hp
      simp [preferList, List.length_pos_iff.2 hp]
    · intro hp
      simp [preferList, List.length_pos_iff.2 hp]
    · intro hp; simp [hp]

/-- **C25 for any two sets of options, as far as it goes**: the second set's restrictions are in
force too, except that its expiry time is dropped and that its lists (`from`, `source-address`,
permitopen, permitlisten, tunnel) give way to lists of the first.  The full claim, `Tighter r a`, is
false: see `C25_expiry_lost` and `C25_lists_lost`.  It is true wherever a certificate is combined with
the line that admits it: `C25_key_cert`. -/
theorem C25_additional_partial {p a r : Opts} (h : merge p a = some r) (he : a.validBefore = 0 ∨ p.validBefore ≠ 0)
    (h1 : p.fromKeys = none ∨ a.fromKeys = none ∨ p.fromKeys = a.fromKeys)
    (h2 : p.fromCert = none ∨ a.fromCert = none ∨ p.fromCert = a.fromCert)
    (h3 : p.permitopen = [] ∨ a.permitopen = [] ∨ p.permitopen = a.permitopen)
    (h4 : p.permitlisten = [] ∨ a.permitlisten = [] ∨ p.permitlisten = a.permitlisten)
    (h5 : p.tun = -1 ∨ a.tun = -1 ∨ p.tun = a.tun) : Tighter r a := by
  unfold merge at h
  split at h
  · simp at h
  · rename_i cmd hc
    simp only [Option.some.injEq] at h
    subst h
    obtain ⟨_, hcmd, _⟩ := mergeCommand_some hc
    constructor
    all_goals try (simp only [Bool.and_eq_true, Bool.or_eq_true])
    · exact fun h => h.2
    · exact fun h => h.2
    · exact fun h => h.2
    · exact fun h => h.2
    · exact fun h => h.2
    · exact fun h => h.2
    · exact fun h => .inr h
    · exact hcmd
    · intro l hl
      rcases h1 with h | h | h
      · simp [h, hl]
      · rw [hl] at h; simp at h
      · simp [h, hl]
    · intro l hl
      rcases h2 with h | h | h
      · simp [h, hl]
      · rw [hl] at h; simp at h
      · simp [h, hl]
    · intro hp
      simp only [mergeExpiry]
      split <;> omega
    · intro hp
      rcases h3 with h | h | h
      · simp [h, preferList]
      · exact absurd h hp
      · rw [h]; simp [preferList]
    · intro hp
      rcases h4 with h | h | h
      · simp [h, preferList]
      · exact absurd h hp
      · rw [h]; simp [preferList]
    · intro hp
      rcases h5 with h | h | h
      · simp [h]
      · exact absurd h hp
      · simp [h]

/-- **C25**: the options written on a line (of authorized_keys or of a principals file), combined with
those of a certificate: what results is at least as restrictive as either, and grants a permission
exactly when both do. -/
theorem C25_key_cert {w : World} {s : Option Bytes} {c : Cert} {p a r : Opts} (hp : parse w s = some p)
    (ha : fromCert w c = some a) (h : merge p a = some r) : Tighter r p ∧ Tighter r a ∧ BothGrant r p a := by
  obtain ⟨b1, b2, b3, b4, b5, b6, -⟩ := fromCert_blank ha
  exact ⟨C25_primary h, C25_additional_partial h (.inl b1) (.inr (.inl b6)) (.inl (parse_fromCert hp))
    (.inr (.inl b4)) (.inr (.inl b5)) (.inr (.inl b2)), C25_both_grant h⟩

/-- **C25**: the combination is refused exactly when both force a command and the commands differ. -/
theorem C25_refused_iff (p a : Opts) :
    merge p a = none ↔ ∃ c d, p.command = some c ∧ a.command = some d ∧ c ≠ d := by
  unfold merge mergeCommand
  cases hp : p.command <;> cases ha : a.command <;> simp
  rename_i c d
  split
  · rename_i he
    split at he
    · simp at he
    · rename_i hne; simp [hne]
  · rename_i cmd he
    split at he
    · rename_i hne; simp [hne]
    · simp at he

/-- Finding: an expiry time on the second set is forgotten when the first has none
(auth-options.c:617-622: the comparison is with the 0 of "no expiry"). -/
theorem C25_expiry_lost : ∃ (w : World) (s : Bytes) (a r : Opts), parse w (some s) = some a ∧ a.validBefore = 20270101 ∧
    activate keysDefaults a = some r ∧ r.validBefore = 0 :=
  ⟨⟨fun _ => none, fun _ => none, fun _ => some 20270101⟩, b!"expiry-time=\"20270101\"", { keysDefaults with validBefore := 20270101 },
    keysDefaults, by decide +kernel, rfl, by decide +kernel, rfl⟩

/-- Finding: when two keys are required, each with its own permitopen list, only the first key's list is
in force, so a destination the second key does not permit may be opened. -/
theorem C25_lists_lost : ∃ (w : World) (s t : Bytes) (p a q r : Opts), parse w (some s) = some p ∧
    parse w (some t) = some a ∧ activate keysDefaults p = some q ∧ activate q a = some r ∧
    a.permitopen = [b!"b:80"] ∧ r.permitopen = [b!"a:80"] :=
  ⟨⟨fun _ => none, fun _ => none, fun _ => none⟩, b!"permitopen=\"a:80\"", b!"permitopen=\"b:80\"",
    { keysDefaults with permitopen := [b!"a:80"] }, { keysDefaults with permitopen := [b!"b:80"] },
    { keysDefaults with permitopen := [b!"a:80"] }, { keysDefaults with permitopen := [b!"a:80"] },
    by decide +kernel, by decide +kernel, by decide +kernel, by decide +kernel, rfl, rfl⟩

/-- The options of a session after keys with options `ks` were accepted one after the other. -/
def session : List Opts → Option Opts
  | ks => ks.foldlM activate keysDefaults

/-- **C25 over a whole login**: however many keys were needed, a permission is granted only if every one
of them grants it, user verification is required if one of them requires it, and a command forced by
one of them is the command that runs. -/
theorem C25_session {ks : List Opts} {r : Opts} (h : session ks = some r) :
    (r.portFwd = true ↔ ∀ k ∈ ks, k.portFwd = true) ∧ (r.agentFwd = true ↔ ∀ k ∈ ks, k.agentFwd = true) ∧
    (r.x11 = true ↔ ∀ k ∈ ks, k.x11 = true) ∧ (r.pty = true ↔ ∀ k ∈ ks, k.pty = true) ∧
    (r.userRc = true ↔ ∀ k ∈ ks, k.userRc = true) ∧ (r.verify = true ↔ ∃ k ∈ ks, k.verify = true) ∧
    (∀ k ∈ ks, ∀ c, k.command = some c → r.command = some c) := by
  suffices H : ∀ (ks : List Opts) (o r : Opts), ks.foldlM activate o = some r →
      (r.portFwd = true ↔ o.portFwd = true ∧ ∀ k ∈ ks, k.portFwd = true) ∧
      (r.agentFwd = true ↔ o.agentFwd = true ∧ ∀ k ∈ ks, k.agentFwd = true) ∧
      (r.x11 = true ↔ o.x11 = true ∧ ∀ k ∈ ks, k.x11 = true) ∧
      (r.pty = true ↔ o.pty = true ∧ ∀ k ∈ ks, k.pty = true) ∧
      (r.userRc = true ↔ o.userRc = true ∧ ∀ k ∈ ks, k.userRc = true) ∧
      (r.verify = true ↔ o.verify = true ∨ ∃ k ∈ ks, k.verify = true) ∧
      (∀ c, o.command = some c → r.command = some c) ∧
      (∀ k ∈ ks, ∀ c, k.command = some c → r.command = some c) by
    obtain ⟨a1, a2, a3, a4, a5, a6, -, a8⟩ := H ks _ r h
    simp only [keysDefaults, true_and, Bool.false_eq_true, false_or] at a1 a2 a3 a4 a5 a6
    exact ⟨a1, a2, a3, a4, a5, a6, a8⟩
  intro ks
  induction ks with
  | nil => intro o r h; simp only [List.foldlM_nil] at h; injection h with h; subst h; simp
  | cons k ks ih =>
    intro o r h
    rw [List.foldlM_cons] at h
    cases hm : activate o k with
    | none => rw [hm] at h; simp at h
    | some q =>
      rw [hm] at h
      obtain ⟨a1, a2, a3, a4, a5, a6, a7, a8⟩ := ih q r h
      have g := C25_both_grant hm
      have hq : q.verify = true ↔ o.verify = true ∨ k.verify = true := by
        unfold activate merge at hm
        split at hm
        · simp at hm
        · simp only [Option.some.injEq] at hm; rw [← hm]; simp
      have hc : (∀ c, o.command = some c → q.command = some c) ∧ (∀ c, k.command = some c → q.command = some c) := by
        unfold activate merge at hm
        split at hm
        · simp at hm
        · rename_i cmd hcmd
          simp only [Option.some.injEq] at hm; rw [← hm]
          exact ⟨(mergeCommand_some hcmd).1, (mergeCommand_some hcmd).2.1⟩
      refine ⟨?_, ?_, ?_, ?_, ?_, ?_, fun c hoc => a7 c (hc.1 c hoc), ?_⟩
      · rw [a1, g.portFwd]; simp [and_assoc]
      · rw [a2, g.agentFwd]; simp [and_assoc]
      · rw [a3, g.x11]; simp [and_assoc]
      · rw [a4, g.pty]; simp [and_assoc]
      · rw [a5, g.userRc]; simp [and_assoc]
      · rw [a6, hq]; simp [or_assoc]
      · intro k' hk c hkc
        rcases List.mem_cons.1 hk with rfl | hk
        · exact a7 c (hc.2 c hkc)
        · exact a8 k' hk c hkc

/-! ### C26 -/

theorem authorise_iff {w : World} {now : Int} {o : Opts} {ca : Bool} {ip host : Bytes} :
    authorise w now o ca ip host = true ↔ Permitted w now o ca ip host := by
  unfold authorise
  by_cases e1 : o.validBefore ≠ 0 ∧ now > 0 ∧ (o.validBefore : Int) < now
  · rw [if_pos e1]
    refine ⟨fun h => by simp at h, fun h => ?_⟩
    have := h.notExpired e1.1 e1.2.1
    omega
  rw [if_neg e1]
  by_cases e2 : o.principals ≠ none ∧ o.certAuthority = false
  · rw [if_pos e2]
    refine ⟨fun h => by simp at h, fun h => ?_⟩
    have := h.principals e2.1
    rw [e2.2] at this; simp at this
  rw [if_neg e2]
  by_cases e3 : ca = false ∧ o.certAuthority = true
  · rw [if_pos e3]
    refine ⟨fun h => by simp at h, fun h => ?_⟩
    have := h.ca e3.2
    rw [e3.1] at this; simp at this
  rw [if_neg e3]
  by_cases e4 : fromOk w ip host o.fromKeys = false
  · rw [if_pos e4]
    refine ⟨fun h => by simp at h, fun h => ?_⟩
    cases hk : o.fromKeys with
    | none => rw [hk] at e4; simp [fromOk] at e4
    | some l =>
      rw [hk] at e4
      simp [fromOk, h.fromKeys l hk] at e4
  rw [if_neg e4]
  by_cases e5 : sourceOk w ip o.fromCert = false
  · rw [if_pos e5]
    refine ⟨fun h => by simp at h, fun h => ?_⟩
    cases hk : o.fromCert with
    | none => rw [hk] at e5; simp [sourceOk] at e5
    | some l =>
      rw [hk] at e5
      simp [sourceOk, h.source l hk] at e5
  rw [if_neg e5]
  refine ⟨fun _ => ?_, fun _ => rfl⟩
  constructor
  · intro h1 h2
    by_cases h3 : now ≤ o.validBefore
    · exact h3
    · exact absurd ⟨h1, h2, by omega⟩ e1
  · intro h
    cases hc : o.certAuthority with
    | true => rfl
    | false => exact absurd ⟨h, hc⟩ e2
  · intro h
    cases hc : ca with
    | true => rfl
    | false => exact absurd ⟨hc, h⟩ e3
  · intro l hl
    rw [hl] at e4
    simpa [fromOk] using e4
  · intro l hl
    rw [hl] at e5
    simpa [sourceOk] using e5

theorem certCheckNow_iff {c : Cert} {wantHost req wild : Bool} {now : Int} {name : Option Bytes} :
    certCheckNow c wantHost req wild now name = true ↔
      c.type = (if wantHost then .host else .user) ∧ InWindow c now ∧ nameOk req wild c.principals name = true := by
  unfold certCheckNow certCheck InWindow
  by_cases h0 : now < 0
  · rw [if_pos h0]
    refine ⟨fun h => by simp at h, fun ⟨_, h, _⟩ => by omega⟩
  rw [if_neg h0]
  by_cases h1 : c.type ≠ (if wantHost then .host else .user)
  · rw [if_pos h1]
    exact ⟨fun h => by simp at h, fun ⟨h, _⟩ => absurd h h1⟩
  rw [if_neg h1]
  by_cases h2 : now.toNat < c.validAfter
  · rw [if_pos h2]
    exact ⟨fun h => by simp at h, fun ⟨_, h, _⟩ => by omega⟩
  rw [if_neg h2]
  by_cases h3 : now.toNat ≥ c.validBefore
  · rw [if_pos h3]
    exact ⟨fun h => by simp at h, fun ⟨_, h, _⟩ => by omega⟩
  rw [if_neg h3]
  simp only [ne_eq, Decidable.not_not] at h1
  constructor
  · exact fun h => ⟨h1, by omega, h⟩
  · exact fun h => h.2.2

theorem certCheckNow_false {c : Cert} {wantHost req wild : Bool} {now : Int} {name : Option Bytes} :
    certCheckNow c wantHost req wild now name = false ↔
      ¬ (c.type = (if wantHost then .host else .user) ∧ InWindow c now ∧ nameOk req wild c.principals name = true) := by
  rw [← certCheckNow_iff]; simp

theorem authorise_false {w : World} {now : Int} {o : Opts} {ca : Bool} {ip host : Bytes} :
    authorise w now o ca ip host = false ↔ ¬ Permitted w now o ca ip host := by
  rw [← authorise_iff]; simp

/-- The certificate names somebody the line lets in: with a `principals=` list one of the list,
otherwise the user; and a certificate without names is taken to be for everybody. -/
def NamedOnLine (l : Option Bytes) (user : Bytes) (c : Cert) : Prop :=
  match l with
  | some l => ∃ p ∈ c.principals, ∃ n ∈ listed p, n ∈ (listed l).take 40
  | none => c.principals = [] ∨ user ∈ c.principals

theorem principalsOption_iff {l : Bytes} {c : Cert} :
    principalsOption l c = true ↔ ∃ p ∈ c.principals, ∃ n ∈ listed p, n ∈ (listed l).take 40 := by
  unfold principalsOption
  rw [List.any_eq_true]
  constructor
  · rintro ⟨p, hp, h⟩
    rw [Option.isSome_iff_exists] at h
    obtain ⟨n, h⟩ := h
    rw [Match.C07_match_list] at h
    refine ⟨p, hp, n, List.mem_of_find?_eq_some h, ?_⟩
    have h9 := List.find?_some h
    exact of_decide_eq_true h9
  · rintro ⟨p, hp, n, h1, h2⟩
    refine ⟨p, hp, ?_⟩
    rw [Match.C07_match_list, List.find?_isSome]
    exact ⟨n, h1, decide_eq_true h2⟩

/-- **C26, certificates admitted by a line of authorized_keys**: exactly the conditions.  The line must
carry the signing key and "cert-authority", its options and those of the certificate must let this
client in now, the certificate must be a user certificate within its validity interval, and it must
name somebody the line lets in. -/
theorem C26_line {w : World} {read : Bytes → Option Nat} {now : Int} {user ip host line : Bytes} {c : Cert} {r : Opts} :
    checkLine w read now user ip host (.cert c) line = some r ↔
      ∃ s p a, splitLine read line = some (s, c.ca) ∧ parse w s = some p ∧ fromCert w c = some a ∧ merge p a = some r ∧
        p.certAuthority = true ∧ Permitted w now p true ip host ∧ Permitted w now a false ip host ∧
        c.type = .user ∧ InWindow c now ∧ NamedOnLine p.principals user c := by
  unfold checkLine
  cases hs : splitLine read line with
  | none => simp
  | some x =>
    obtain ⟨s, found⟩ := x
    simp only [Option.some.injEq, Prod.mk.injEq]
    cases hp : parse w s with
    | none =>
      simp only [reduceCtorEq, false_iff, not_exists]
      rintro s' p a ⟨⟨rfl, -⟩, h, -⟩
      rw [hp] at h; simp at h
    | some p =>
      by_cases h1 : found ≠ c.ca ∨ p.certAuthority = false
      · simp only [if_pos h1, reduceCtorEq, false_iff, not_exists]
        rintro s' p' a ⟨⟨rfl, hf⟩, h, -, -, hca, -⟩
        rw [hp] at h; injection h with h; subst h
        rcases h1 with h1 | h1
        · exact h1 hf
        · rw [hca] at h1; simp at h1
      simp only [if_neg h1]
      by_cases h2 : authorise w now p true ip host = false
      · simp only [if_pos h2, reduceCtorEq, false_iff, not_exists]
        rintro s' p' a ⟨⟨rfl, hf⟩, h, -, -, -, hper, -⟩
        rw [hp] at h; injection h with h; subst h
        exact authorise_false.1 h2 hper
      simp only [if_neg h2]
      have h1' : found = c.ca ∧ p.certAuthority = true := by
        constructor
        · by_cases h : found = c.ca
          · exact h
          · exact absurd (.inl h) h1
        · cases h : p.certAuthority with
          | true => rfl
          | false => exact absurd (.inr h) h1
      have h2' : Permitted w now p true ip host := by
        rw [← authorise_iff]; simpa using h2
      have key : caLine w now user ip host p c = some r ↔
          ∃ a, fromCert w c = some a ∧ merge p a = some r ∧ Permitted w now a false ip host ∧
            c.type = .user ∧ InWindow c now ∧ NamedOnLine p.principals user c := by
        unfold caLine
        cases ha : fromCert w c with
        | none => simp
        | some a =>
          by_cases h3 : authorise w now a false ip host = false
          · simp only [if_pos h3, reduceCtorEq, false_iff, not_exists, Option.some.injEq]
            rintro a' ⟨rfl, -, hper, -⟩
            exact authorise_false.1 h3 hper
          simp only [if_neg h3]
          have h3' : Permitted w now a false ip host := by
            rw [← authorise_iff]; simpa using h3
          cases hm : merge p a with
          | none =>
            simp only [reduceCtorEq, Option.some.injEq, false_iff, not_exists]
            rintro a' ⟨rfl, h, -⟩
            rw [hm] at h; simp at h
          | some final =>
            cases hl : p.principals with
            | some l =>
              simp only [Option.some.injEq]
              by_cases h4 : principalsOption l c = false
              · rw [if_pos h4]
                simp only [reduceCtorEq, false_iff, not_exists]
                rintro a' ⟨rfl, -, -, -, -, hn⟩
                have := principalsOption_iff.2 hn
                rw [h4] at this; simp at this
              rw [if_neg h4]
              have h4' : NamedOnLine (some l) user c := principalsOption_iff.1 (by simpa using h4)
              by_cases h5 : certCheckNow c false false false now none = false
              · rw [if_pos h5]
                simp only [reduceCtorEq, false_iff, not_exists]
                rintro a' ⟨rfl, -, -, ht, hw, -⟩
                refine certCheckNow_false.1 h5 ⟨by simpa using ht, hw, ?_⟩
                simp [nameOk]
              rw [if_neg h5]
              have h5' := certCheckNow_iff.1 (by simpa using h5 : certCheckNow c false false false now none = true)
              constructor
              · intro h
                injection h with h
                exact ⟨a, rfl, by rw [hm, h], h3', by simpa using h5'.1, h5'.2.1, h4'⟩
              · rintro ⟨a', rfl, h, -⟩
                rw [hm] at h; exact h
            | none =>
              simp only [Option.some.injEq]
              have hno : nameOk false false c.principals (some user) = true ↔ NamedOnLine none user c := by
                unfold nameOk NamedOnLine
                by_cases h : c.principals = []
                · simp [h]
                · rw [if_neg h]
                  simp [h, List.any_eq_true]
              by_cases h5 : certCheckNow c false false false now (some user) = false
              · rw [if_pos h5]
                simp only [reduceCtorEq, false_iff, not_exists]
                rintro a' ⟨rfl, -, -, ht, hw, hn⟩
                exact certCheckNow_false.1 h5 ⟨by simpa using ht, hw, hno.2 hn⟩
              rw [if_neg h5]
              have h5' := certCheckNow_iff.1 (by simpa using h5 : certCheckNow c false false false now (some user) = true)
              constructor
              · intro h
                injection h with h
                exact ⟨a, rfl, by rw [hm, h], h3', by simpa using h5'.1, h5'.2.1, hno.1 h5'.2.2⟩
              · rintro ⟨a', rfl, h, -⟩
                rw [hm] at h; exact h
      rw [key]
      constructor
      · rintro ⟨a, q1, q2, q3, q4, q5, q6⟩
        exact ⟨s, p, a, ⟨rfl, h1'.1⟩, hp, q1, q2, h1'.2, h2', q3, q4, q5, q6⟩
      · rintro ⟨s', p', a, ⟨rfl, -⟩, hp', q1, q2, -, -, q3, q4, q5, q6⟩
        rw [hp] at hp'; injection hp' with hp'; subst hp'
        exact ⟨a, q1, q2, q3, q4, q5, q6⟩

/-- **C26: every critical option is understood and in force**; extensions only add the permissions they
name. -/
theorem C26_options {w : World} {c : Cert} {o : Opts} (h : fromCert w c = some o) :
    c.type = .user ∧ ∃ lc le, Encodes lc c.critical ∧ Encodes le c.extensions ∧ (∀ e ∈ lc, Understood w e) ∧
      (o.verify = true ↔ ∃ d, (b!"verify-required", d) ∈ lc) ∧
      (∀ v, o.command = some v ↔ ∃ d, (b!"force-command", d) ∈ lc ∧ Holds d v) ∧
      (∀ v, o.fromCert = some v ↔ ∃ d, (b!"source-address", d) ∈ lc ∧ Holds d v) ∧
      (o.portFwd = true ↔ ∃ d, (b!"permit-port-forwarding", d) ∈ le) ∧
      (o.agentFwd = true ↔ ∃ d, (b!"permit-agent-forwarding", d) ∈ le) ∧
      (o.x11 = true ↔ ∃ d, (b!"permit-X11-forwarding", d) ∈ le) ∧
      (o.pty = true ↔ ∃ d, (b!"permit-pty", d) ∈ le) ∧
      (o.userRc = true ↔ ∃ d, (b!"permit-user-rc", d) ∈ le) ∧
      (o.noPresence = true ↔ ∃ d, (b!"no-touch-required", d) ∈ le) := by
  obtain ⟨ht, lc, le, o1, hc, he, h1, h2⟩ := fromCert_some h
  obtain ⟨a1, a2, a3, a4, a5, -, -⟩ := entries_critical h1
  obtain ⟨b1, b2, b3, b4, b5, b6, b7⟩ := entries_extensions h2
  have e1 : o.verify = o1.verify := by rw [b1]
  have e2 : o.command = o1.command := by rw [b1]
  have e3 : o.fromCert = o1.fromCert := by rw [b1]
  have f1 : o1.x11 = false := by rw [a1]; rfl
  have f2 : o1.agentFwd = false := by rw [a1]; rfl
  have f3 : o1.portFwd = false := by rw [a1]; rfl
  have f4 : o1.pty = false := by rw [a1]; rfl
  have f5 : o1.userRc = false := by rw [a1]; rfl
  have f6 : o1.noPresence = false := by rw [a1]; rfl
  refine ⟨ht, lc, le, hc, he, a2, ?_, ?_, ?_, ?_, ?_, ?_, ?_, ?_, ?_⟩
  · rw [e1, a3]; simp [new]
  · intro v; rw [e2, a4]; simp [new]
  · intro v; rw [e3, a5]; simp [new]
  · rw [b4, f3]; simp
  · rw [b3, f2]; simp
  · rw [b2, f1]; simp
  · rw [b5, f4]; simp
  · rw [b6, f5]; simp
  · rw [b7, f6]; simp

/-- **C26: a certificate with a critical option the server does not understand is refused**, by every
route. -/
theorem C26_unknown_refused {w : World} {c : Cert} {l : List (Bytes × Bytes)} (hl : Encodes l c.critical)
    {e : Bytes × Bytes} (he : e ∈ l) (hu : ¬ Understood w e) :
    fromCert w c = none ∧
      (∀ read now user ip host line, checkLine w read now user ip host (.cert c) line = none) ∧
      (∀ trusted s now user ip host, trustedCert w trusted s now user ip host c = none) := by
  have h0 : fromCert w c = none := by
    cases hf : fromCert w c with
    | none => rfl
    | some o =>
      obtain ⟨-, lc, -, hc, -, ha, -⟩ := C26_options hf
      rw [Encodes_unique hl hc] at he
      exact absurd (ha e he) hu
  refine ⟨h0, ?_, ?_⟩
  · intro read now user ip host line
    cases hc : checkLine w read now user ip host (.cert c) line with
    | none => rfl
    | some r =>
      obtain ⟨s, p, a, -, -, ha, -⟩ := C26_line.1 hc
      rw [h0] at ha; simp at ha
  · intro trusted s now user ip host
    unfold trustedCert
    split
    · rfl
    · split
      · split
        · rfl
        · split
          · rfl
          · simp [trustedCertOpts, h0]
      · split
        · rfl
        · simp [trustedCertOpts, h0]

/-- **C26: certificates signed by a key of TrustedUserCAKeys**: exactly the conditions. -/
theorem C26_trusted {w : World} {trusted : Nat → Bool} {s : Sources} {now : Int} {user ip host : Bytes} {c : Cert}
    {r : Opts} :
    trustedCert w trusted s now user ip host c = some r ↔
      trusted c.ca = true ∧ c.type = .user ∧ InWindow c now ∧ c.principals ≠ [] ∧
      ∃ a, fromCert w c = some a ∧ Permitted w now a false ip host ∧
        ((s.files = none ∧ s.command = none ∧ user ∈ c.principals ∧ r = a) ∨
         (¬ (s.files = none ∧ s.command = none) ∧
          ∃ p, findPrincipal w c s = some p ∧ Permitted w now p false ip host ∧ merge p a = some r)) := by
  have hused : s.used = true ↔ ¬ (s.files = none ∧ s.command = none) := by
    unfold Sources.used
    cases s.files <;> cases s.command <;> simp
  have hopts : ∀ po, trustedCertOpts w now ip host c po = some r ↔
      ∃ a, fromCert w c = some a ∧ Permitted w now a false ip host ∧
        ((po = none ∧ r = a) ∨ ∃ p, po = some p ∧ Permitted w now p false ip host ∧ merge p a = some r) := by
    intro po
    unfold trustedCertOpts
    cases ha : fromCert w c with
    | none => simp
    | some a =>
      by_cases h3 : authorise w now a false ip host = false
      · simp only [if_pos h3, reduceCtorEq, false_iff, not_exists, Option.some.injEq]
        rintro a' ⟨rfl, hper, -⟩
        exact authorise_false.1 h3 hper
      simp only [if_neg h3]
      have h3' : Permitted w now a false ip host := by
        rw [← authorise_iff]; simpa using h3
      cases po with
      | none =>
        simp only [Option.some.injEq, reduceCtorEq, true_and, false_and, exists_false, or_false]
        constructor
        · rintro rfl; exact ⟨a, rfl, h3', rfl⟩
        · rintro ⟨a', rfl, -, rfl⟩; rfl
      | some po =>
        simp only [Option.some.injEq, reduceCtorEq, false_and, false_or]
        by_cases h4 : authorise w now po false ip host = false
        · simp only [if_pos h4, reduceCtorEq, false_iff, not_exists]
          rintro a' ⟨rfl, -, p, rfl, hper, -⟩
          exact authorise_false.1 h4 hper
        simp only [if_neg h4]
        have h4' : Permitted w now po false ip host := by
          rw [← authorise_iff]; simpa using h4
        constructor
        · intro h; exact ⟨a, rfl, h3', po, rfl, h4', h⟩
        · rintro ⟨a', rfl, -, p, rfl, -, h⟩; exact h
  unfold trustedCert
  by_cases h1 : trusted c.ca = false
  · rw [if_pos h1]
    simp only [reduceCtorEq, false_iff]
    rintro ⟨h, -⟩
    rw [h1] at h; simp at h
  rw [if_neg h1]
  have h1' : trusted c.ca = true := by simpa using h1
  by_cases h2 : s.used = true
  · rw [if_pos h2]
    have h2' := hused.1 h2
    cases hf : findPrincipal w c s with
    | none =>
      simp only [reduceCtorEq, false_iff]
      rintro ⟨-, -, -, -, a, -, -, h | ⟨-, p, hp, -⟩⟩
      · exact h2' ⟨h.1, h.2.1⟩
      · simp at hp
    | some po =>
      simp only
      by_cases h3 : certCheckNow c false true false now none = false
      · rw [if_pos h3]
        simp only [reduceCtorEq, false_iff]
        rintro ⟨-, ht, hw, hn, -⟩
        exact certCheckNow_false.1 h3 ⟨by simpa using ht, hw, by simp [nameOk, hn]⟩
      rw [if_neg h3, hopts]
      have h3' := certCheckNow_iff.1 (by simpa using h3 : certCheckNow c false true false now none = true)
      have hne : c.principals ≠ [] := by
        intro h
        have := h3'.2.2
        simp [nameOk, h] at this
      constructor
      · rintro ⟨a, q1, q2, ⟨h, -⟩ | ⟨p, q3, q4, q5⟩⟩
        · simp at h
        · exact ⟨h1', by simpa using h3'.1, h3'.2.1, hne, a, q1, q2, .inr ⟨h2', p, q3, q4, q5⟩⟩
      · rintro ⟨-, -, -, -, a, q1, q2, ⟨h, h', -⟩ | ⟨-, p, q3, q4, q5⟩⟩
        · exact absurd ⟨h, h'⟩ h2'
        · exact ⟨a, q1, q2, .inr ⟨p, q3, q4, q5⟩⟩
  · rw [if_neg h2]
    have h2' : s.files = none ∧ s.command = none := by
      by_cases h : s.files = none ∧ s.command = none
      · exact h
      · exact absurd (hused.2 h) h2
    by_cases h3 : certCheckNow c false true false now (some user) = false
    · rw [if_pos h3]
      simp only [reduceCtorEq, false_iff]
      rintro ⟨-, ht, hw, hn, a, -, -, ⟨-, -, hu, -⟩ | ⟨h, -⟩⟩
      · refine certCheckNow_false.1 h3 ⟨by simpa using ht, hw, ?_⟩
        simp only [nameOk, if_neg hn, List.any_eq_true]
        exact ⟨user, hu, by simp⟩
      · exact h h2'
    rw [if_neg h3, hopts]
    have h3' := certCheckNow_iff.1 (by simpa using h3 : certCheckNow c false true false now (some user) = true)
    have hne : c.principals ≠ [] := by
      intro h
      have := h3'.2.2
      simp [nameOk, h] at this
    have hu : user ∈ c.principals := by
      have := h3'.2.2
      simp only [nameOk, if_neg hne, List.any_eq_true] at this
      obtain ⟨p, hp, h⟩ := this
      simp at h
      rw [h]; exact hp
    constructor
    · rintro ⟨a, q1, q2, ⟨-, q3⟩ | ⟨p, h, -⟩⟩
      · exact ⟨h1', by simpa using h3'.1, h3'.2.1, hne, a, q1, q2, .inl ⟨h2'.1, h2'.2, hu, q3⟩⟩
      · simp at h
    · rintro ⟨-, -, -, -, a, q1, q2, ⟨-, -, -, q3⟩ | ⟨h, -⟩⟩
      · exact ⟨a, q1, q2, .inl ⟨rfl, q3⟩⟩
      · exact absurd h2' h

/-- **C26: host certificates** are accepted exactly when they are host certificates, valid now, carry no
critical option at all, were signed with an acceptable algorithm, and name the host (or nobody). -/
theorem C26_host {c : Cert} {now : Int} {host : Bytes} {wild sigOk : Bool} :
    certCheckHost c now host wild sigOk = true ↔
      c.type = .host ∧ InWindow c now ∧ c.critical = [] ∧ sigOk = true ∧
      (c.principals = [] ∨ ∃ p ∈ c.principals, if wild then Match.matchPattern p host = true else p = host) := by
  have hn : nameOk false wild c.principals (some host) = true ↔
      (c.principals = [] ∨ ∃ p ∈ c.principals, if wild then Match.matchPattern p host = true else p = host) := by
    unfold nameOk
    by_cases h : c.principals = []
    · simp [h]
    · rw [if_neg h]
      simp only [List.any_eq_true, h, false_or]
      cases wild
      · simp only [Bool.false_eq_true, if_false, decide_eq_true_eq]
        exact ⟨fun ⟨p, a, b⟩ => ⟨p, a, b.symm⟩, fun ⟨p, a, b⟩ => ⟨p, a, b.symm⟩⟩
      · simp
  unfold certCheckHost
  by_cases h1 : certCheckNow c true false wild now (some host) = false
  · rw [if_pos h1]
    simp only [Bool.false_eq_true, false_iff]
    rintro ⟨a, b, -, -, d⟩
    exact certCheckNow_false.1 h1 ⟨by simpa using a, b, hn.2 d⟩
  rw [if_neg h1]
  have h1' := certCheckNow_iff.1 (by simpa using h1 : certCheckNow c true false wild now (some host) = true)
  by_cases h2 : c.critical.length ≠ 0
  · rw [if_pos h2]
    simp only [Bool.false_eq_true, false_iff]
    rintro ⟨-, -, a, -⟩
    simp [a] at h2
  rw [if_neg h2]
  have h2' : c.critical = [] := by simpa using h2
  constructor
  · exact fun h => ⟨by simpa using h1'.1, h1'.2.1, h2', h, hn.1 h1'.2.2⟩
  · exact fun h => h.2.2.2.1

/-- **C26: plain keys** are accepted by a line exactly when the line carries the key, is not marked as an
authority, and its options let this client in now. -/
theorem C26_plain {w : World} {read : Bytes → Option Nat} {now : Int} {user ip host line : Bytes} {id : Nat} {r : Opts} :
    checkLine w read now user ip host (.plain id) line = some r ↔
      ∃ s, splitLine read line = some (s, id) ∧ parse w s = some r ∧ r.certAuthority = false ∧
        Permitted w now r false ip host := by
  unfold checkLine
  cases hs : splitLine read line with
  | none => simp
  | some x =>
    obtain ⟨s, found⟩ := x
    simp only [Option.some.injEq, Prod.mk.injEq]
    cases hp : parse w s with
    | none =>
      simp only [reduceCtorEq, false_iff, not_exists]
      rintro s' ⟨⟨rfl, -⟩, h, -⟩
      rw [hp] at h; simp at h
    | some p =>
      by_cases h1 : found ≠ id ∨ p.certAuthority = true
      · simp only [if_pos h1, reduceCtorEq, false_iff, not_exists]
        rintro s' ⟨⟨rfl, hf⟩, h, hca, -⟩
        rw [hp] at h; injection h with h; subst h
        rcases h1 with h1 | h1
        · exact h1 hf
        · rw [hca] at h1; simp at h1
      simp only [if_neg h1]
      by_cases h2 : authorise w now p false ip host = false
      · simp only [if_pos h2, reduceCtorEq, false_iff, not_exists]
        rintro s' ⟨⟨rfl, hf⟩, h, -, hper⟩
        rw [hp] at h; injection h with h; subst h
        exact authorise_false.1 h2 hper
      simp only [if_neg h2, Option.some.injEq]
      have h2' : Permitted w now p false ip host := by rw [← authorise_iff]; simpa using h2
      have h1' : found = id ∧ p.certAuthority = false := by
        constructor
        · by_cases h : found = id
          · exact h
          · exact absurd (.inl h) h1
        · cases h : p.certAuthority with
          | false => rfl
          | true => exact absurd (.inr h) h1
      constructor
      · rintro rfl
        exact ⟨s, ⟨rfl, h1'.1⟩, hp, h1'.2, h2'⟩
      · rintro ⟨s', ⟨rfl, -⟩, h, -⟩
        rw [hp] at h; injection h

/-- A file lets a key in only through one of its lines, comments excepted, and then with the options of
the first such line. -/
theorem C26_file {w : World} {read : Bytes → Option Nat} {now : Int} {user ip host : Bytes} {key : Key} {r : Opts}
    {ls : List Bytes} :
    checkFile w read now user ip host key ls = some r ↔
      ∃ u l v, ls = u ++ l :: v ∧ checkLine w read now user ip host key (skipSpace l) = some r ∧
        (skipSpace l ≠ [] ∧ (skipSpace l).head? ≠ some 10 ∧ (skipSpace l).head? ≠ some 35) ∧
        ∀ x ∈ u, skipSpace x = [] ∨ (skipSpace x).head? = some 10 ∨ (skipSpace x).head? = some 35 ∨
          checkLine w read now user ip host key (skipSpace x) = none := by
  induction ls with
  | nil => simp [checkFile]
  | cons l ls ih =>
    simp only [checkFile]
    by_cases hc : skipSpace l = [] ∨ (skipSpace l).head? = some 10 ∨ (skipSpace l).head? = some 35
    · rw [if_pos hc, ih]
      constructor
      · rintro ⟨u, x, v, rfl, h1, h2, h3⟩
        refine ⟨l :: u, x, v, rfl, h1, h2, ?_⟩
        intro y hy
        rcases List.mem_cons.1 hy with rfl | hy
        · rcases hc with h | h | h
          · exact .inl h
          · exact .inr (.inl h)
          · exact .inr (.inr (.inl h))
        · exact h3 y hy
      · rintro ⟨u, x, v, he, h1, h2, h3⟩
        cases u with
        | nil =>
          simp only [List.nil_append, List.cons.injEq] at he
          obtain ⟨rfl, rfl⟩ := he
          rcases hc with h | h | h
          · exact absurd h h2.1
          · exact absurd h h2.2.1
          · exact absurd h h2.2.2
        | cons y u =>
          simp only [List.cons_append, List.cons.injEq] at he
          obtain ⟨rfl, rfl⟩ := he
          exact ⟨u, x, v, rfl, h1, h2, fun z hz => h3 z (List.mem_cons_of_mem _ hz)⟩
    · rw [if_neg hc]
      have hc' : skipSpace l ≠ [] ∧ (skipSpace l).head? ≠ some 10 ∧ (skipSpace l).head? ≠ some 35 :=
        ⟨fun h => hc (.inl h), fun h => hc (.inr (.inl h)), fun h => hc (.inr (.inr h))⟩
      cases hl : checkLine w read now user ip host key (skipSpace l) with
      | some o =>
        simp only [Option.some.injEq]
        constructor
        · rintro rfl
          exact ⟨[], l, ls, rfl, hl, hc', by simp⟩
        · rintro ⟨u, x, v, he, h1, h2, h3⟩
          cases u with
          | nil =>
            simp only [List.nil_append, List.cons.injEq] at he
            obtain ⟨rfl, rfl⟩ := he
            rw [hl] at h1; injection h1
          | cons y u =>
            simp only [List.cons_append, List.cons.injEq] at he
            obtain ⟨rfl, rfl⟩ := he
            rcases h3 l (by simp) with h | h | h | h
            · exact absurd h hc'.1
            · exact absurd h hc'.2.1
            · exact absurd h hc'.2.2
            · rw [hl] at h; simp at h
      | none =>
        simp only [ih]
        constructor
        · rintro ⟨u, x, v, rfl, h1, h2, h3⟩
          refine ⟨l :: u, x, v, rfl, h1, h2, ?_⟩
          intro y hy
          rcases List.mem_cons.1 hy with rfl | hy
          · exact .inr (.inr (.inr hl))
          · exact h3 y hy
        · rintro ⟨u, x, v, he, h1, h2, h3⟩
          cases u with
          | nil =>
            simp only [List.nil_append, List.cons.injEq] at he
            obtain ⟨rfl, rfl⟩ := he
            rw [hl] at h1; simp at h1
          | cons y u =>
            simp only [List.cons_append, List.cons.injEq] at he
            obtain ⟨rfl, rfl⟩ := he
            exact ⟨u, x, v, rfl, h1, h2, fun z hz => h3 z (List.mem_cons_of_mem _ hz)⟩

/-! ### Findings and examples -/

def exWorld : World := ⟨fun _ => none, fun _ => none, fun _ => none⟩

/-- key 7 is written `K` -/
def exRead (s : Bytes) : Option Nat := if s = b!"K" then some 7 else none

def exCert (names : List Bytes) : Cert :=
  { type := .user, principals := names, validAfter := 100, validBefore := 200, critical := [],
    extensions := Wire.str b!"permit-pty" ++ Wire.str [], ca := 7 }

/-- Non-vacuity: such a certificate is accepted for its user and not for another. -/
example : (checkLine exWorld exRead 150 b!"alice" b!"h" b!"h" (.cert (exCert [b!"alice"])) b!"cert-authority K").isSome = true ∧
    checkLine exWorld exRead 150 b!"root" b!"h" b!"h" (.cert (exCert [b!"alice"])) b!"cert-authority K" = none ∧
    checkLine exWorld exRead 200 b!"alice" b!"h" b!"h" (.cert (exCert [b!"alice"])) b!"cert-authority K" = none := by
  decide +kernel

/-- Finding: a `principals=` list is compared with the parts of a certificate's name between commas
(auth2-pubkeyfile.c:154-155 passes the name as a list), so a certificate for the one name
"mallory,root" is let in by a line for "root". -/
theorem C26_comma_in_name : ∃ (w : World) (read : Bytes → Option Nat) (c : Cert) (line : Bytes),
    b!"root" ∉ c.principals ∧
    (checkLine w read 150 b!"root" b!"h" b!"h" (.cert c) line).isSome = true ∧
    line = b!"cert-authority,principals=\"root\" K" :=
  ⟨exWorld, exRead, exCert [b!"mallory,root"], _, by decide, by decide +kernel, rfl⟩

/-- Finding: a certificate without names is let in for every user by a "cert-authority" line without
`principals=`. -/
theorem C26_nameless : ∃ (w : World) (read : Bytes → Option Nat) (c : Cert) (line : Bytes), c.principals = [] ∧
    ∀ user, (checkLine w read 150 user b!"h" b!"h" (.cert c) line).isSome = true := by
  refine ⟨exWorld, exRead, exCert [], b!"cert-authority K", rfl, fun user => ?_⟩
  have h : checkLine exWorld exRead 150 user b!"h" b!"h" (.cert (exCert [])) b!"cert-authority K" =
      checkLine exWorld exRead 150 [] b!"h" b!"h" (.cert (exCert [])) b!"cert-authority K" := by
    unfold checkLine caLine certCheckNow certCheck nameOk
    rfl
  rw [h]
  decide +kernel

/-- Non-vacuity of `C26_trusted`, with and without a principals file. -/
example : (trustedCert exWorld (· == 7) ⟨none, none⟩ 150 b!"alice" b!"h" b!"h" (exCert [b!"alice"])).isSome = true ∧
    trustedCert exWorld (· == 7) ⟨none, none⟩ 150 b!"alice" b!"h" b!"h" (exCert []) = none ∧
    (trustedCert exWorld (· == 7) ⟨some [[b!"# x\n", b!"no-pty ops\n"]], none⟩ 150 b!"root" b!"h" b!"h" (exCert [b!"ops"])).isSome
      = true := by
  decide +kernel

/-- Non-vacuity of `C26_unknown_refused`. -/
example : ∃ l e, Encodes l (Wire.str b!"no-such-option" ++ (Wire.str [] ++ [])) ∧ e ∈ l ∧ ¬ Understood exWorld e :=
  ⟨[(b!"no-such-option", [])], (b!"no-such-option", []), .cons (by decide) (by decide) (by decide) .nil, by simp, by
    intro h; generalize he : ((b!"no-such-option", []) : Bytes × Bytes) = e at h
    cases h <;> simp at he⟩

/-- Non-vacuity of `C25_key_cert`. -/
example : ∃ p a r, parse exWorld (some b!"restrict,pty,command=\"ls\"") = some p ∧ fromCert exWorld (exCert []) = some a ∧
    merge p a = some r ∧ r.pty = true ∧ r.portFwd = false ∧ r.command = some b!"ls" := by
  refine ⟨{ restricted := true, pty := true, command := some b!"ls" }, { pty := true }, { pty := true, command := some b!"ls" },
    by decide +kernel, by decide +kernel, by decide +kernel, rfl, rfl, rfl⟩

end Verif.KeyOpts
