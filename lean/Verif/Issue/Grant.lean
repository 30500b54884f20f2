/-
C142: what the server makes of a certificate that was issued.
-/
import Verif.Issue.Props
import Verif.KeyOpts.Cert

namespace Verif.Issue
open Verif
open _root_.Verif.Wire
open _root_.Verif.KeyOpts (World Opts Entry setEntry setExtension setCritical afterEntry certOptionList CertType Cert fromCert entries entryStep loop_encodes)
open _root_.Verif.KeyOpts.Spec (Encodes)

/-! ### The order of entries -/

theorem insert_sorted {e : Ext} : ∀ {l : List Ext}, l.Pairwise Before → (insert e l).Pairwise Before := by
  intro l
  induction l with
  | nil => intro _; simp [insert]
  | cons x l ih =>
    intro h
    obtain ⟨h1, h2⟩ := List.pairwise_cons.1 h
    rw [insert]
    split
    · rename_i hle
      refine List.pairwise_cons.2 ⟨fun y hy => ?_, h⟩
      rcases List.mem_cons.1 hy with rfl | hy
      · exact le_before hle
      · exact before_trans (le_before hle) (h1 y hy)
    · rename_i hle
      refine List.pairwise_cons.2 ⟨fun y hy => ?_, ih h2⟩
      rcases List.mem_cons.1 ((insert_perm e l).subset hy) with rfl | hy
      · exact not_le_before hle
      · exact h1 y hy

theorem sort_sorted (l : List Ext) : (sort l).Pairwise Before := by
  induction l with
  | nil => exact .nil
  | cons e l ih => exact insert_sorted ih

/-- What is asked for, before it is put in order: own entries, then the rest -/
def asked (a : Ask) : List Ext :=
  a.exts ++ (ifThen a.command.isSome ⟨b!"force-command", a.command, true⟩ ++ (ifThen a.source.isSome ⟨b!"source-address", a.source, true⟩ ++
    (ifThen (a.flags .verify) ⟨b!"verify-required", none, true⟩ ++ (ifThen (a.flags .x11) ⟨b!"permit-X11-forwarding", none, false⟩ ++
    (ifThen (a.flags .agent) ⟨b!"permit-agent-forwarding", none, false⟩ ++ (ifThen (a.flags .port) ⟨b!"permit-port-forwarding", none, false⟩ ++
    (ifThen (a.flags .pty) ⟨b!"permit-pty", none, false⟩ ++ (ifThen (a.flags .userRc) ⟨b!"permit-user-rc", none, false⟩ ++
    ifThen (a.flags .noPresence) ⟨b!"no-touch-required", none, false⟩))))))))

/-- the entries of one kind, as texts -/
def pairs (crit : Bool) (l : List Ext) : List (Bytes × Bytes) := (l.filter (fun e => e.crit == crit)).map fun e => (e.key, data e.val)

theorem pairs_cons (crit : Bool) (e : Ext) (l : List Ext) : pairs crit (e :: l) = if e.crit ≠ crit then pairs crit l else (e.key, data e.val) :: pairs crit l := by
  unfold pairs
  rw [List.filter_cons]
  by_cases h : e.crit = crit <;> simp [h]

/-- C142: in a certificate the entries of either kind stand in the order of their names, none is lost and none is added. -/
theorem C142_ordered (crit : Bool) (a : Ask) :
    ∃ l : List Ext, (if crit then (issue a).1 else (issue a).2) = (l.map fun e => str e.key ++ str (data e.val)).flatten ∧
      l.Perm ((asked a).filter fun e => e.crit == crit) ∧ l.Pairwise fun x y => strcmp x.key y.key ≠ .gt := by
  refine ⟨(finalise a).filter fun e => e.crit == crit, ?_, (sort_perm _).filter _, ?_⟩
  · have : (if crit then (issue a).1 else (issue a).2) = prepare crit (finalise a) := by cases crit <;> rfl
    rw [this]
    generalize finalise a = l
    induction l with
    | nil => rfl
    | cons e l ih =>
      rw [prepare, List.filter_cons]
      by_cases h : e.crit = crit <;> simp [h, ih]
  · have h := (sort_sorted (asked a)).filter (fun e => e.crit == crit)
    refine List.Pairwise.imp_of_mem (fun {x y} hx hy hb => ?_) h
    have h1 : x.crit = crit := by simpa using (List.mem_filter.1 hx).2
    have h2 : y.crit = crit := by simpa using (List.mem_filter.1 hy).2
    rcases hb with ⟨h3, h4⟩ | ⟨_, h4⟩
    · rw [h1] at h3
      rw [h2, h3] at h4
      cases h4
    · exact h4

/-! ### What the server reads -/

/-- fits into a message -/
def Fits (e : Ext) : Prop := (0 : UInt8) ∉ e.key ∧ e.key.length ≤ maxString ∧ (data e.val).length ≤ maxString

theorem prepare_encodes (crit : Bool) : ∀ (l : List Ext), (∀ e ∈ l, Fits e) → Encodes (pairs crit l) (prepare crit l) := by
  intro l
  induction l with
  | nil => intro _; exact .nil
  | cons e l ih =>
    intro h
    rw [pairs_cons, prepare]
    split
    · exact ih (fun x hx => h x (by simp [hx]))
    · obtain ⟨h1, h2, h3⟩ := h e (by simp)
      exact .cons (cstr_of_no_nul h1) h2 h3 (ih fun x hx => h x (by simp [hx]))

/-- how often a name stands there -/
def occurs (k : Bytes) (l : List (Bytes × Bytes)) : Nat := l.countP fun e => e.1 == k

/-- whether it does -/
def has (k : Bytes) (l : List (Bytes × Bytes)) : Bool := decide (0 < occurs k l)

theorem has_cons_same (k d : Bytes) (l) : has k ((k, d) :: l) = true := by simp [has, occurs]

theorem has_cons_ne {k n : Bytes} (d : Bytes) (l) (h : n ≠ k) : has k ((n, d) :: l) = has k l := by
  have : occurs k ((n, d) :: l) = occurs k l := by simp [occurs, h]
  unfold has
  rw [this]

theorem ext_entries (w : World) : ∀ (l : List (Bytes × Bytes)) (o : Opts), (∀ e ∈ l, e.1 ∈ knownExtensions → e.2 = []) →
    entries w false l o = some { o with
      noPresence := o.noPresence || has b!"no-touch-required" l, x11 := o.x11 || has b!"permit-X11-forwarding" l,
      agentFwd := o.agentFwd || has b!"permit-agent-forwarding" l, portFwd := o.portFwd || has b!"permit-port-forwarding" l,
      pty := o.pty || has b!"permit-pty" l, userRc := o.userRc || has b!"permit-user-rc" l } := by
  intro l
  induction l with
  | nil => intro o _; simp [entries, has, occurs]
  | cons e l ih =>
    intro o h
    obtain ⟨n, d⟩ := e
    have ht := fun x hx => h x (List.mem_cons_of_mem _ hx)
    rw [entries]
    by_cases hk : n ∈ knownExtensions
    · have hd : d = [] := h (n, d) (by simp) hk
      subst hd
      simp only [knownExtensions, List.mem_cons, List.not_mem_nil, or_false] at hk
      rcases hk with rfl | rfl | rfl | rfl | rfl | rfl
      all_goals
        simp [entryStep, setEntry, setExtension, afterEntry, ih _ ht, has_cons_same, has_cons_ne]
    · simp only [knownExtensions, List.mem_cons, List.not_mem_nil, or_false, not_or] at hk
      obtain ⟨h1, h2, h3, h4, h5, h6⟩ := hk
      simp only [entryStep, setEntry, setExtension, if_neg h1, if_neg h2, if_neg h3, if_neg h4, if_neg h5, if_neg h6, afterEntry, Bool.false_eq_true,
        if_false, Option.bind_some, ih _ ht]
      rw [has_cons_ne _ _ h1, has_cons_ne _ _ h2, has_cons_ne _ _ h3, has_cons_ne _ _ h4, has_cons_ne _ _ h5, has_cons_ne _ _ h6]

theorem crit_unknown (w : World) {n d : Bytes} (h : n ∉ knownCritical) (o : Opts) : entryStep w true o (n, d) = none := by
  simp only [knownCritical, List.mem_cons, List.not_mem_nil, or_false, not_or] at h
  simp only [entryStep, setEntry, setCritical, if_true, if_neg h.1, if_neg h.2.1, if_neg h.2.2, afterEntry]

theorem entries_none (w : World) (crit : Bool) {e : Bytes × Bytes} (he : ∀ o, entryStep w crit o e = none) :
    ∀ (l : List (Bytes × Bytes)) (o : Opts), e ∈ l → entries w crit l o = none := by
  intro l
  induction l with
  | nil => intro o h; cases h
  | cons x l ih =>
    intro o h
    rw [entries]
    rcases List.mem_cons.1 h with rfl | h
    · rw [he]; rfl
    · cases entryStep w crit o x with
      | none => rfl
      | some o' => exact ih o' h

theorem crit_entries (w : World) (c s : Bytes) :
    ∀ (l : List (Bytes × Bytes)) (o : Opts),
      (∀ e ∈ l, e = (b!"verify-required", []) ∨ (e = (b!"force-command", str c) ∧ (0 : UInt8) ∉ c ∧ c.length + 4 ≤ maxString) ∨
        (e = (b!"source-address", str s) ∧ (0 : UInt8) ∉ s ∧ s.length + 4 ≤ maxString ∧ Addr.matchCidrList w.pton none s = 0)) →
      occurs b!"force-command" l + (if o.command = none then 0 else 1) ≤ 1 → occurs b!"source-address" l + (if o.fromCert = none then 0 else 1) ≤ 1 →
    entries w true l o = some { o with
      verify := o.verify || has b!"verify-required" l, command := if has b!"force-command" l then some c else o.command,
      fromCert := if has b!"source-address" l then some s else o.fromCert } := by
  have hg : ∀ v : Bytes, (0 : UInt8) ∉ v → v.length + 4 ≤ maxString → getCstr (str v) = some (v, []) := by
    intro v h0 h1
    have := getCstr_append v [] h0 (by omega)
    rwa [List.append_nil] at this
  intro l
  induction l with
  | nil => intro o _ _ _; simp [entries, has, occurs]
  | cons e l ih =>
    intro o h h1 h2
    have ht := fun x hx => h x (List.mem_cons_of_mem _ hx)
    rw [entries]
    rcases h e (by simp) with rfl | ⟨rfl, hc⟩ | ⟨rfl, hs⟩
    · have e1 : entryStep w true o (b!"verify-required", []) = some { o with verify := true } := by
        simp [entryStep, setEntry, setCritical, afterEntry]
      rw [e1, Option.bind_some, ih _ ht (by simpa [occurs] using h1) (by simpa [occurs] using h2), has_cons_same, has_cons_ne _ _ (by decide),
        has_cons_ne _ _ (by decide)]
      simp
    · have hn : o.command = none := by
        by_cases hh : o.command = none
        · exact hh
        · simp [occurs, hh] at h1
      have e1 : entryStep w true o (b!"force-command", str c) = some { o with command := some c } := by
        simp [entryStep, setEntry, setCritical, afterEntry, hg c hc.1 hc.2, hn]
      have h0 : occurs b!"force-command" l = 0 := by
        simp only [occurs, List.countP_cons, beq_self_eq_true, if_true] at h1 ⊢
        omega
      rw [e1, Option.bind_some, ih _ ht (by simp [h0]) (by simpa [occurs] using h2), has_cons_same, has_cons_ne _ _ (by decide),
        has_cons_ne _ _ (by decide)]
      simp
    · have hn : o.fromCert = none := by
        by_cases hh : o.fromCert = none
        · exact hh
        · simp [occurs, hh] at h2
      have e1 : entryStep w true o (b!"source-address", str s) = some { o with fromCert := some s } := by
        simp [entryStep, setEntry, setCritical, afterEntry, hg s hs.1 hs.2.1, hn, hs.2.2]
      have h0 : occurs b!"source-address" l = 0 := by
        simp only [occurs, List.countP_cons, beq_self_eq_true, if_true] at h2 ⊢
        omega
      rw [e1, Option.bind_some, ih _ ht (by simpa [occurs] using h1) (by simp [h0]), has_cons_same, has_cons_ne _ _ (by decide),
        has_cons_ne _ _ (by decide)]
      simp

/-- what is counted is counted before sorting as well -/
theorem occurs_finalise (k : Bytes) (crit : Bool) (a : Ask) : occurs k (pairs crit (finalise a)) = occurs k (pairs crit (asked a)) :=
  (((sort_perm (asked a)).filter _).map _).countP_eq _

theorem occurs_append (k : Bytes) (crit : Bool) (l m : List Ext) : occurs k (pairs crit (l ++ m)) = occurs k (pairs crit l) + occurs k (pairs crit m) := by
  simp [occurs, pairs]

theorem occurs_ifThen (k : Bytes) (crit c : Bool) (e : Ext) :
    occurs k (pairs crit (ifThen c e)) = if c = true ∧ e.crit = crit ∧ e.key = k then 1 else 0 := by
  cases c with
  | false => simp [ifThen, occurs, pairs]
  | true =>
    simp only [ifThen, if_true, pairs_cons]
    by_cases h : e.crit = crit
    · by_cases h2 : e.key = k <;> simp [h, h2, occurs, pairs]
    · simp [h, occurs, pairs]

theorem occurs_zero {k : Bytes} {crit : Bool} {l : List Ext} (h : ∀ e ∈ l, e.crit = crit → e.key ≠ k) : occurs k (pairs crit l) = 0 := by
  unfold occurs
  rw [List.countP_eq_zero]
  intro p hp
  obtain ⟨e, he, rfl⟩ := List.mem_map.1 hp
  obtain ⟨h1, h2⟩ := List.mem_filter.1 he
  simpa using h e h1 (by simpa using h2)

/-- Own entries that the server does not know and need not know -/
def Harmless (a : Ask) : Prop := ∀ e ∈ a.exts, e.crit = false ∧ e.key ∉ knownExtensions

/-- What a server is to grant -/
def granted (a : Ask) : Opts where
  x11 := a.flags .x11
  agentFwd := a.flags .agent
  portFwd := a.flags .port
  pty := a.flags .pty
  userRc := a.flags .userRc
  noPresence := a.flags .noPresence
  verify := a.flags .verify
  command := a.command
  fromCert := a.source

theorem mem_ifThen {c : Bool} {e x : Ext} (h : x ∈ ifThen c e) : c = true ∧ x = e := by
  cases c with
  | false => cases h
  | true => exact ⟨rfl, List.mem_singleton.1 h⟩

theorem asked_cases {a : Ask} {e : Ext} (h : e ∈ asked a) : e ∈ a.exts ∨ (∃ c, a.command = some c ∧ e = ⟨b!"force-command", some c, true⟩) ∨
    (∃ c, a.source = some c ∧ e = ⟨b!"source-address", some c, true⟩) ∨ e = ⟨b!"verify-required", none, true⟩ ∨
    (e.key ∈ knownExtensions ∧ e.val = none ∧ e.crit = false) := by
  simp only [asked, List.mem_append] at h
  rcases h with h | h | h | h | h | h | h | h | h | h
  · exact .inl h
  · obtain ⟨h1, h2⟩ := mem_ifThen h
    obtain ⟨c, hc⟩ := Option.isSome_iff_exists.1 h1
    exact .inr (.inl ⟨c, hc, by rw [h2, hc]⟩)
  · obtain ⟨h1, h2⟩ := mem_ifThen h
    obtain ⟨c, hc⟩ := Option.isSome_iff_exists.1 h1
    exact .inr (.inr (.inl ⟨c, hc, by rw [h2, hc]⟩))
  · exact .inr (.inr (.inr (.inl (mem_ifThen h).2)))
  all_goals
    rw [(mem_ifThen h).2]
    exact .inr (.inr (.inr (.inr ⟨by decide, rfl, rfl⟩)))

theorem fits_asked {w : World} {a : Ask} (hi : Inv w a) : ∀ e ∈ asked a, Fits e := by
  intro e he
  rcases asked_cases he with h | ⟨c, hc, rfl⟩ | ⟨c, hc, rfl⟩ | rfl | ⟨h1, h2, h3⟩
  · exact hi.exts e h
  · have := (hi.command c hc).2
    refine ⟨by simp, by simp, ?_⟩
    simp only [data, str, List.length_append, be_length]
    omega
  · have := (hi.source c hc).2.1
    refine ⟨by simp, by simp, ?_⟩
    simp only [data, str, List.length_append, be_length]
    omega
  · exact ⟨by decide, by decide, by decide⟩
  · have : ∀ k ∈ knownExtensions, (0 : UInt8) ∉ k ∧ k.length ≤ maxString := by decide
    refine ⟨(this _ h1).1, (this _ h1).2, ?_⟩
    rw [h2]
    decide

theorem start_inv (w : World) : Inv w start := ⟨(fun _ h => by cases h), (fun _ h => by cases h), (fun _ h => by cases h)⟩

theorem read_back {w : World} {a : Ask} (hi : Inv w a) (crit : Bool) (o : Opts) :
    certOptionList w crit ((prepare crit (finalise a)).length + 1) (prepare crit (finalise a)) o = entries w crit (pairs crit (finalise a)) o :=
  loop_encodes (prepare_encodes crit _ fun e he => fits_asked hi e ((sort_perm _).subset he)) _ _ (Nat.lt_succ_self _)

theorem mem_pairs {crit : Bool} {a : Ask} {p : Bytes × Bytes} (h : p ∈ pairs crit (finalise a)) : ∃ e ∈ asked a, e.crit = crit ∧ p = (e.key, data e.val) := by
  obtain ⟨e, he, rfl⟩ := List.mem_map.1 h
  obtain ⟨h1, h2⟩ := List.mem_filter.1 he
  exact ⟨e, (sort_perm _).subset h1, by simpa using h2, rfl⟩

theorem has_asked (k : Bytes) (crit : Bool) (a : Ask) (h : ∀ e ∈ a.exts, e.crit = crit → e.key ≠ k) :
    has k (pairs crit (finalise a)) = decide (0 < occurs k (pairs crit (asked ⟨a.flags, a.command, a.source, []⟩))) := by
  unfold has
  rw [occurs_finalise]
  simp only [asked, occurs_append, occurs_zero h, List.nil_append]
  simp

theorem read_harmless {w : World} {a : Ask} (hi : Inv w a) (hh : Harmless a) (ps : List Bytes) (va vb ca : Nat) :
    fromCert w ⟨.user, ps, va, vb, (issue a).1, (issue a).2, ca⟩ = some (granted a) := by
  have hc : ∀ k, ∀ e ∈ a.exts, e.crit = true → e.key ≠ k := fun k e he h => by
    rw [(hh e he).1] at h
    cases h
  have hx : ∀ k ∈ knownExtensions, ∀ e ∈ a.exts, e.crit = false → e.key ≠ k := fun k hk e he _ h => (hh e he).2 (h ▸ hk)
  have tF : occurs b!"force-command" (pairs true (finalise a)) = if a.command.isSome then 1 else 0 := by
    rw [occurs_finalise]
    simp only [asked, occurs_append, occurs_zero (hc _), occurs_ifThen]
    simp
  have tS : occurs b!"source-address" (pairs true (finalise a)) = if a.source.isSome then 1 else 0 := by
    rw [occurs_finalise]
    simp only [asked, occurs_append, occurs_zero (hc _), occurs_ifThen]
    simp
  have tV : occurs b!"verify-required" (pairs true (finalise a)) = if a.flags .verify then 1 else 0 := by
    rw [occurs_finalise]
    simp only [asked, occurs_append, occurs_zero (hc _), occurs_ifThen]
    simp
  have hE : ∀ k ∈ knownExtensions, occurs k (pairs false (finalise a)) =
      (if a.flags .x11 = true ∧ b!"permit-X11-forwarding" = k then 1 else 0) + ((if a.flags .agent = true ∧ b!"permit-agent-forwarding" = k then 1 else 0) +
      ((if a.flags .port = true ∧ b!"permit-port-forwarding" = k then 1 else 0) + ((if a.flags .pty = true ∧ b!"permit-pty" = k then 1 else 0) +
      ((if a.flags .userRc = true ∧ b!"permit-user-rc" = k then 1 else 0) + (if a.flags .noPresence = true ∧ b!"no-touch-required" = k then 1 else 0))))) := by
    intro k hk
    rw [occurs_finalise]
    simp only [asked, occurs_append, occurs_zero (hx k hk), occurs_ifThen]
    simp
  have crit : certOptionList w true ((issue a).1.length + 1) (issue a).1 KeyOpts.new =
      some { verify := a.flags .verify, command := a.command, fromCert := a.source } := by
    rw [issue, read_back hi]
    rw [crit_entries w (a.command.getD []) (a.source.getD [])]
    · simp only [has, tF, tS, tV, KeyOpts.new, Bool.false_or]
      cases a.command <;> cases a.source <;> cases a.flags .verify <;> rfl
    · intro p hp
      obtain ⟨e, he, h1, rfl⟩ := mem_pairs hp
      rcases asked_cases he with h | ⟨c, hc', rfl⟩ | ⟨c, hc', rfl⟩ | rfl | ⟨_, _, h3⟩
      · exact absurd rfl (hc _ e h h1)
      · refine .inr (.inl ?_)
        rw [hc']
        exact ⟨rfl, hi.command c hc'⟩
      · refine .inr (.inr ?_)
        rw [hc']
        exact ⟨rfl, hi.source c hc'⟩
      · exact .inl rfl
      · rw [h1] at h3
        cases h3
    · rw [tF]
      cases a.command <;> simp [KeyOpts.new]
    · rw [tS]
      cases a.source <;> simp [KeyOpts.new]
  simp only [fromCert, ne_eq, not_true_eq_false, if_false, crit]
  rw [issue, read_back hi, ext_entries]
  · simp only [has]
    rw [hE _ (by decide), hE _ (by decide), hE _ (by decide), hE _ (by decide), hE _ (by decide), hE _ (by decide)]
    have hb : ∀ b : Bool, decide (0 < if b = true then 1 else 0) = b := by decide
    simp [granted, hb]
  · intro p hp hk
    obtain ⟨e, he, h1, rfl⟩ := mem_pairs hp
    rcases asked_cases he with h | ⟨c, hc', rfl⟩ | ⟨c, hc', rfl⟩ | rfl | ⟨_, h2, _⟩
    · exact absurd hk (hh e h).2
    · cases h1
    · cases h1
    · cases h1
    · simp only [h2, data]

/-- C142: a server that is shown the certificate grants exactly what was asked for when it was issued: each permission, the forced command,
the addresses, whether touch is waived and whether verification is needed. Own extensions whose names it does not know change nothing. -/
theorem C142_granted {w : World} {opts : List Bytes} {a : Ask} (h : addAll w opts start = some a)
    (ho : ∀ o ∈ opts, (0 : UInt8) ∉ o ∧ o.length + 4 ≤ maxString) (hh : Harmless a) (ps : List Bytes) (va vb ca : Nat) :
    fromCert w ⟨.user, ps, va, vb, (issue a).1, (issue a).2, ca⟩ = some (granted a) :=
  read_harmless (addAll_inv ho (start_inv w) h) hh ps va vb ca

/-- C142: with no options for permissions of one's own, what a permission is in the end is the last word on the command line, and that is what the server
grants. -/
theorem C142_permission {w : World} {opts : List Bytes} {a : Ask} (h : addAll w opts start = some a)
    (ho : ∀ o ∈ opts, (0 : UInt8) ∉ o ∧ o.length + 4 ≤ maxString) (hh : Harmless a) (ps : List Bytes) (va vb ca : Nat) :
    ∃ o, fromCert w ⟨.user, ps, va, vb, (issue a).1, (issue a).2, ca⟩ = some o ∧
      o.x11 = lastSaid .x11 opts true ∧ o.agentFwd = lastSaid .agent opts true ∧ o.portFwd = lastSaid .port opts true ∧
      o.pty = lastSaid .pty opts true ∧ o.userRc = lastSaid .userRc opts true ∧ o.noPresence = lastSaid .noPresence opts false ∧
      o.verify = lastSaid .verify opts false ∧ o.validBefore = 0 ∧ o.fromKeys = none ∧ o.env = [] ∧ o.tun = -1 :=
  ⟨_, C142_granted h ho hh ps va vb ca, C142_last h .x11, C142_last h .agent, C142_last h .port, C142_last h .pty, C142_last h .userRc,
    C142_last h .noPresence, C142_last h .verify, rfl, rfl, rfl, rfl⟩

/-- C142: a critical option of one's own that the server does not know makes it refuse the certificate. -/
theorem C142_refused {w : World} {opts : List Bytes} {a : Ask} (h : addAll w opts start = some a)
    (ho : ∀ o ∈ opts, (0 : UInt8) ∉ o ∧ o.length + 4 ≤ maxString) {e : Ext} (he : e ∈ a.exts) (hc : e.crit = true) (hk : e.key ∉ knownCritical)
    (ps : List Bytes) (va vb ca : Nat) : fromCert w ⟨.user, ps, va, vb, (issue a).1, (issue a).2, ca⟩ = none := by
  have hi := addAll_inv ho (start_inv w) h
  have hm : (e.key, data e.val) ∈ pairs true (finalise a) :=
    List.mem_map.2 ⟨e, List.mem_filter.2 ⟨(sort_perm _).symm.subset (List.mem_append.2 (.inl he)), by simp [hc]⟩, rfl⟩
  simp only [fromCert, ne_eq, not_true_eq_false, if_false]
  rw [issue, read_back hi, entries_none w true (crit_unknown w hk) _ _ hm]

end Verif.Issue
