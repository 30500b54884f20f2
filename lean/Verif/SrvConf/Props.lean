/- The server's configuration: which value is in force. -/
import Verif.SrvConf.Effects

namespace Verif.SrvConf
open Verif Match
open _root_.Verif.Conf (Raw same)

/-! ### A file says one thing -/

theorem Line.eq {l kw str args kw' str' args'} (h : Line l kw str args) (h' : Line l kw' str' args') :
    kw = kw' ∧ str = str' ∧ args = args' := by
  obtain ⟨a, b⟩ := h
  obtain ⟨a', b'⟩ := h'
  rw [a] at a'
  simp only [Raw.line.injEq] at a'
  obtain ⟨e1, e2⟩ := a'
  subst e1; subst e2
  rw [b] at b'
  cases b'
  exact ⟨rfl, rfl, rfl⟩

theorem Line.not_blank {l kw str args} (h : Line l kw str args) (h' : rawLine l = .blank) : False := by
  rw [h.1] at h'; cases h'

theorem may_match : MayMatch b!"match" := ⟨.match_, by rfl⟩
theorem may_incl : MayMatch b!"include" := ⟨.incl, by rfl⟩
theorem says_match {k} (h : Says b!"match" k) : False := by
  obtain ⟨b, h1, h2, _⟩ := h
  have : kindOf b!"match" = some (.match_, true) := by rfl
  rw [this] at h1
  cases h1
  exact h2 rfl
theorem says_incl {k} (h : Says b!"include" k) : False := by
  obtain ⟨b, h1, _, h2⟩ := h
  have : kindOf b!"include" = some (.incl, true) := by rfl
  rw [this] at h1
  cases h1
  exact h2 rfl
theorem Says.eq {kw k k'} (h : Says kw k) (h' : Says kw k') : k = k' := by
  obtain ⟨b, h1, _⟩ := h
  obtain ⟨b', h2, _⟩ := h'
  rw [h1] at h2
  cases h2
  rfl

theorem old_or {ci : Option Conn} {p : Place} {kw : Bytes} (h1 : ci.isSome) (h2 : p.counts true = false) (h3 : ¬ MayMatch kw)
    (h : p.counts ci.isSome ∨ MayMatch kw) : False := by
  rcases h with h | h
  · rw [h1, h2] at h; cases h
  · exact h3 h

mutual
theorem Reads.unique {E : Env} {W : World} {ci : Option Conn} {n : Nat} {p : Place} {lines : List Bytes} {g g' : List Setting}
    (h : Reads E W ci n p lines g) (h' : Reads E W ci n p lines g') : g = g' :=
  match h with
  | .done _ _ => by cases h'; rfl
  | .blank _ _ _ _ _ e h => by
    cases h' with
    | blank _ _ _ _ _ _ h2 => exact h.unique h2
    | old _ _ _ _ _ _ _ _ hl => exact (hl.not_blank e).elim
    | says _ _ _ _ _ _ _ _ _ _ hl => exact (hl.not_blank e).elim
    | match_ _ _ _ _ _ _ _ _ hl => exact (hl.not_blank e).elim
    | incl _ _ _ _ _ _ _ _ _ hl => exact (hl.not_blank e).elim
  | .old _ _ _ _ _ _ _ _ hl c1 c2 c3 h => by
    cases h' with
    | blank _ _ _ _ _ e _ => exact (hl.not_blank e).elim
    | old _ _ _ _ _ _ _ _ _ _ _ _ h2 => exact h.unique h2
    | says _ _ _ _ _ _ _ _ _ _ hl' _ _ c4 _ =>
      obtain ⟨rfl, rfl, rfl⟩ := hl.eq hl'
      exact (old_or c1 c2 c3 c4).elim
    | match_ _ _ _ _ _ _ _ _ hl' => obtain ⟨rfl, rfl, rfl⟩ := hl.eq hl'; exact (c3 may_match).elim
    | incl _ _ _ _ _ _ _ _ _ hl' => obtain ⟨rfl, rfl, rfl⟩ := hl.eq hl'; exact (c3 may_incl).elim
  | .says _ _ _ _ _ _ _ _ _ _ hl k1 k2 c4 h => by
    cases h' with
    | blank _ _ _ _ _ e _ => exact (hl.not_blank e).elim
    | old _ _ _ _ _ _ _ _ hl' c1 c2 c3 _ =>
      obtain ⟨rfl, rfl, rfl⟩ := hl.eq hl'
      exact (old_or c1 c2 c3 c4).elim
    | says _ _ _ _ _ _ _ _ _ _ hl' k3 k4 _ h2 =>
      obtain ⟨rfl, rfl, rfl⟩ := hl.eq hl'
      obtain rfl := k1.eq k3
      rw [k2] at k4
      cases k4
      rw [h.unique h2]
    | match_ _ _ _ _ _ _ _ _ hl' => obtain ⟨rfl, rfl, rfl⟩ := hl.eq hl'; exact (says_match k1).elim
    | incl _ _ _ _ _ _ _ _ _ hl' => obtain ⟨rfl, rfl, rfl⟩ := hl.eq hl'; exact (says_incl k1).elim
  | .match_ _ _ _ _ _ _ _ _ hl m h => by
    cases h' with
    | blank _ _ _ _ _ e _ => exact (hl.not_blank e).elim
    | old _ _ _ _ _ _ _ _ hl' _ _ c3 _ => obtain ⟨rfl, rfl, rfl⟩ := hl.eq hl'; exact (c3 may_match).elim
    | says _ _ _ _ _ _ _ _ _ _ hl' k1 => obtain ⟨rfl, rfl, rfl⟩ := hl.eq hl'; exact (says_match k1).elim
    | match_ _ _ _ _ _ _ _ _ hl' m' h2 =>
      obtain ⟨_, rfl, rfl⟩ := hl.eq hl'
      rw [m] at m'
      cases m'
      exact h.unique h2
    | incl _ _ _ _ _ _ _ _ _ hl' => exact absurd (hl.eq hl').1 (by decide)
  | .incl _ _ _ _ _ _ _ _ _ hl _ f h1 h2 => by
    cases h' with
    | blank _ _ _ _ _ e _ => exact (hl.not_blank e).elim
    | old _ _ _ _ _ _ _ _ hl' _ _ c3 _ => obtain ⟨rfl, rfl, rfl⟩ := hl.eq hl'; exact (c3 may_incl).elim
    | says _ _ _ _ _ _ _ _ _ _ hl' k1 => obtain ⟨rfl, rfl, rfl⟩ := hl.eq hl'; exact (says_incl k1).elim
    | match_ _ _ _ _ _ _ _ _ hl' => exact absurd (hl.eq hl').1 (by decide)
    | incl _ _ _ _ _ _ _ _ _ hl' _ f' h1' h2' =>
      obtain ⟨_, rfl, rfl⟩ := hl.eq hl'
      rw [f] at f'
      cases f'
      rw [h1.unique h1', h2.unique h2']
theorem ReadsAll.unique {E : Env} {W : World} {ci : Option Conn} {n : Nat} {p : Place} {fs : List Bytes} {g g' : List Setting}
    (h : ReadsAll E W ci n p fs g) (h' : ReadsAll E W ci n p fs g') : g = g' :=
  match h with
  | .done _ _ => by cases h'; rfl
  | .file _ _ _ _ _ _ h1 h2 => by
    cases h' with
    | file _ _ _ _ _ _ h1' h2' => rw [h1.unique h1', h2.unique h2']
end

theorem Given.unique {E : Env} {cmd : List Bytes} {g g' : List Setting} (h : Given E cmd g) (h' : Given E cmd g') : g = g' := by
  induction h generalizing g' with
  | done => cases h'; rfl
  | blank _ _ _ e _ ih =>
    cases h' with
    | blank _ _ _ _ h2 => exact ih h2
    | says _ _ _ _ _ _ _ _ hl => exact (hl.not_blank e).elim
  | says _ _ _ _ _ _ _ _ hl k1 k2 _ ih =>
    cases h' with
    | blank _ _ _ e _ => exact (hl.not_blank e).elim
    | says _ _ _ _ _ _ _ _ hl' k3 k4 h2 =>
      obtain ⟨rfl, rfl, rfl⟩ := hl.eq hl'
      obtain rfl := k1.eq k3
      rw [k2] at k4
      cases k4
      rw [ih h2]

/-! ### C77: the value in force -/

/-- What the command line, the file outside of blocks, and the blocks that apply to the connection say. -/
structure Says3 (E : Env) (W : World) (cmd : List Bytes) (raw : Bytes) (ci : Conn) (a g m : List Setting) : Prop where
  cmd : Given E cmd a
  start : Reads E W none 17 .global (loadConfig raw) g
  conn : Reads E W (some ci) 17 .global (loadConfig raw) m

/-- C77: a server that goes on has read the command line and the file to the end. -/
theorem C77_read {E : Env} {W : World} {D : Opts} {cmd : List Bytes} {raw : Bytes} {ci : Conn} {o : Opts}
    (h : serve E W D cmd raw ci = .ok o) : ∃ a g m, Says3 E W cmd raw ci a g m := by
  simp only [serve] at h
  cases h1 : cmd.foldlM (cmdLine E) {} with
  | none => rw [h1] at h; cases h
  | some o0 =>
    rw [h1] at h; simp only at h
    cases h2 : readConfig E W none raw o0 with
    | none => rw [h2] at h; cases h
    | some o1 =>
      rw [h2] at h; simp only at h
      cases h3 : readConfig E W (some ci) raw {} with
      | none => rw [h3] at h; cases h
      | some o2 =>
        obtain ⟨a, ha, _⟩ := cmd_ok cmd h1
        obtain ⟨g, hg, _⟩ := readConfig_ok h2
        obtain ⟨m, hm, _⟩ := readConfig_ok h3
        exact ⟨a, g, m, ha, hg, hm⟩

theorem serve_ok {E : Env} {W : World} {D : Opts} {cmd : List Bytes} {raw : Bytes} {ci : Conn} {a g m : List Setting}
    (hs : Says3 E W cmd raw ci a g m) {o : Opts} (h : serve E W D cmd raw ci = .ok o) :
    ∃ o1 o2, applyAll true (a ++ g) {} = some o1 ∧ applyAll true m {} = some o2 ∧ overlay (fill D o1) o2 = some o := by
  simp only [serve] at h
  cases h1 : cmd.foldlM (cmdLine E) {} with
  | none => rw [h1] at h; cases h
  | some o0 =>
    rw [h1] at h; simp only at h
    cases h2 : readConfig E W none raw o0 with
    | none => rw [h2] at h; cases h
    | some o1 =>
      rw [h2] at h; simp only at h
      cases h3 : readConfig E W (some ci) raw {} with
      | none => rw [h3] at h; cases h
      | some o2 =>
        rw [h3] at h; simp only at h
        obtain ⟨a', ha, ha'⟩ := cmd_ok cmd h1
        obtain ⟨g', hg, hg'⟩ := readConfig_ok h2
        obtain ⟨m', hm, hm'⟩ := readConfig_ok h3
        obtain rfl := hs.cmd.unique ha
        obtain rfl := hs.start.unique hg
        obtain rfl := hs.conn.unique hm
        refine ⟨o1, o2, by rw [applyAll_append, ha']; exact hg', hm', ?_⟩
        cases h4 : overlay (fill D o1) o2 with
        | none => rw [h4] at h; cases h
        | some o' => rw [h4] at h; cases h; rfl

theorem numbers_facts : ∀ k ∈ numbers, k ∉ lastKeys ∧ k ≠ .sourceMask6 ∧ k ≠ .penaltyOn ∧ k ≠ .unusedTimeout ∧ k ≠ .overflow6 ∧
    (k ∈ copiedInts ↔ k ∈ overridable) := by decide +kernel

theorem Says3.ok {E : Env} (hE : Sane E) {W : World} {cmd : List Bytes} {raw : Bytes} {ci : Conn} {a g m : List Setting}
    (hs : Says3 E W cmd raw ci a g m) : (∀ s ∈ a ++ g, s.Ok) ∧ ∀ s ∈ m, s.Ok := by
  refine ⟨fun s h => ?_, hs.conn.ok hE⟩
  rcases List.mem_append.mp h with h | h
  · exact hs.cmd.ok hE s h
  · exact hs.start.ok hE s h

theorem firstInt_ne {k : Key} {g : List Setting} (hok : ∀ s ∈ g, s.Ok) {v : Int} (h : firstInt k g = some v) : v ≠ -1 := by
  obtain ⟨s, h2, h3⟩ := List.exists_of_findSome?_eq_some h
  have := hok s h2
  cases s with
  | int j w => simp only [Setting.int?] at h3; split at h3 <;> simp_all [Setting.Ok]
  | penalty j w => simp only [Setting.int?] at h3; split at h3 <;> simp_all [Setting.Ok]
  | userEnv w p => simp only [Setting.int?] at h3; split at h3 <;> simp_all [Setting.Ok]
  | _ => cases h3

theorem overlay_int {dst src o : Opts} (h : overlay dst src = some o) (k : Key) :
    o.int k = if k ∈ copiedInts ∧ src.int k ≠ -1 then src.int k else dst.int k := by
  simp only [overlay, Option.map_eq_some_iff] at h
  obtain ⟨l, _, h⟩ := h
  subst h; rfl

/-- C77: an option that is a number has the first value of a matching block, else the first one from the command line and
outside of blocks, else the default.  Only the options meant for it can be changed by a block. -/
theorem C77_number {E : Env} (hE : Sane E) {W : World} {D : Opts} {cmd : List Bytes} {raw : Bytes} {ci : Conn} {a g m : List Setting}
    (hs : Says3 E W cmd raw ci a g m) {o : Opts} (h : serve E W D cmd raw ci = .ok o) (k : Key) (hk : k ∈ numbers) :
    o.int k = (inForce k (firstInt k m) (firstInt k (a ++ g))).getD (D.int k) := by
  obtain ⟨o1, o2, h1, h2, h3⟩ := serve_ok hs h
  obtain ⟨f1, f2, f3, f4, f5, f6⟩ := numbers_facts k hk
  obtain ⟨k1, k2⟩ := hs.ok hE
  have e1 := applyAll_int f1 f2 f3 f4 _ k1 h1
  have e2 := applyAll_int f1 f2 f3 f4 _ k2 h2
  simp only [ne_eq, not_true_eq_false, if_false] at e1 e2
  rw [overlay_int h3, e2]
  simp only [fill, f5, if_false, e1, f6, inForce]
  cases hm : firstInt k m with
  | none =>
    cases hg : firstInt k (a ++ g) with
    | none => simp
    | some v => simp [firstInt_ne k1 hg]
  | some w =>
    cases hg : firstInt k (a ++ g) with
    | none => by_cases ho : k ∈ overridable <;> simp [ho, firstInt_ne k2 hm]
    | some v => by_cases ho : k ∈ overridable <;> simp [ho, firstInt_ne k2 hm, firstInt_ne k1 hg]

theorem last_facts : ∀ k ∈ lastKeys, k ≠ .overflow6 ∧ (k ∈ copiedInts ↔ k ∈ overridable) := by decide +kernel

/-- C77: for MaxStartups, IPQoS, StreamLocalBindMask, FingerprintHash and the first number of PerSourceNetBlockSize it is the last
value instead. -/
theorem C77_last {E : Env} (hE : Sane E) {W : World} {D : Opts} {cmd : List Bytes} {raw : Bytes} {ci : Conn} {a g m : List Setting}
    (hs : Says3 E W cmd raw ci a g m) {o : Opts} (h : serve E W D cmd raw ci = .ok o) (k : Key) (hk : k ∈ lastKeys) :
    o.int k = (inForce k (lastInt k m) (lastInt k (a ++ g))).getD (D.int k) := by
  obtain ⟨o1, o2, h1, h2, h3⟩ := serve_ok hs h
  obtain ⟨f5, f6⟩ := last_facts k hk
  obtain ⟨k1, k2⟩ := hs.ok hE
  have e1 := applyAll_last hk _ k1 h1
  have e2 := applyAll_last hk _ k2 h2
  rw [overlay_int h3, e2]
  simp only [fill, f5, if_false, e1, f6, inForce]
  cases hm : lastInt k m with
  | none =>
    cases hg : lastInt k (a ++ g) with
    | none => simp
    | some v => simp [lastInt_ne hk k1 hg]
  | some w =>
    cases hg : lastInt k (a ++ g) with
    | none => by_cases ho : k ∈ overridable <;> simp [ho, lastInt_ne hk k2 hm]
    | some v => by_cases ho : k ∈ overridable <;> simp [ho, lastInt_ne hk k2 hm, lastInt_ne hk k1 hg]

theorem texts_facts : ∀ k ∈ texts, k ≠ .userEnvList ∧ (k ∈ copiedStrs ↔ k ∈ overridable) := by decide +kernel

theorem overlay_str {dst src o : Opts} (h : overlay dst src = some o) (k : Key) :
    o.str k = if k = .forceCommand ∨ k = .chroot then noneStr ((src.str k).or (dst.str k))
        else if k ∈ copiedStrs then (src.str k).or (dst.str k) else dst.str k := by
  simp only [overlay, Option.map_eq_some_iff] at h
  obtain ⟨l, _, h⟩ := h
  subst h; rfl

theorem noneStr_eq (v : Option Bytes) : noneStr v = notNone v := by
  cases v with
  | none => rfl
  | some x => cases h : same x b!"none" <;> simp [noneStr, notNone, h, Option.filter]

theorem notNone_twice (v : Option Bytes) : notNone (notNone v) = notNone v := by
  cases v with
  | none => rfl
  | some x => cases h : same x b!"none" <;> simp [notNone, h, Option.filter]

theorem clearable_eq : clearable = noneKeys := rfl

/-- C77: an option that is a text has the first value of a matching block, else the first one from elsewhere, else the default;
where "none" means that there is none, it is so.  Missing: a block that says "none", other than for ForceCommand and
ChrootDirectory. -/
theorem C77_text_partial {E : Env} (hE : Sane E) {W : World} {D : Opts} {cmd : List Bytes} {raw : Bytes} {ci : Conn} {a g m : List Setting}
    (hs : Says3 E W cmd raw ci a g m) {o : Opts} (h : serve E W D cmd raw ci = .ok o) (k : Key) (hk : k ∈ texts)
    (hn : k ∈ noneKeys → k ≠ .forceCommand → k ≠ .chroot → ∀ v, firstStr k m = some v → same v b!"none" = false) :
    o.str k = (if k ∈ noneKeys then notNone else id) ((inForce k (firstStr k m) (firstStr k (a ++ g))).or (D.str k)) := by
  obtain ⟨o1, o2, h1, h2, h3⟩ := serve_ok hs h
  obtain ⟨f1, f2⟩ := texts_facts k hk
  obtain ⟨k1, k2⟩ := hs.ok hE
  have e1 := applyAll_str f1 _ k1 h1
  have e2 := applyAll_str f1 _ k2 h2
  simp only [Option.none_or] at e1 e2
  rw [overlay_str h3, e2]
  simp only [fill, e1, f2, inForce, clearable_eq, noneStr_eq]
  by_cases hf : k = .forceCommand ∨ k = .chroot
  · have ho : k ∈ overridable := by rcases hf with rfl | rfl <;> decide
    have hc : k ∈ noneKeys := by rcases hf with rfl | rfl <;> decide
    simp only [hf, if_true, ho, hc]
    cases firstStr k m with
    | none => simp only [Option.none_or, notNone_twice]
    | some v => simp
  · rw [if_neg hf]
    by_cases ho : k ∈ overridable
    · rw [if_pos ho, if_pos ho]
      by_cases hc : k ∈ noneKeys
      · rw [if_pos hc, if_pos hc]
        cases hm : firstStr k m with
        | none => simp
        | some v => simp [notNone, Option.filter, hn hc (fun e => hf (.inl e)) (fun e => hf (.inr e)) v hm]
      · rw [if_neg hc, if_neg hc]
        simp [Option.or_assoc]
    · rw [if_neg ho, if_neg ho]
      split <;> simp

theorem lists_facts : ∀ k ∈ lists, k ∉ growing ∧ (k ∈ copiedLists ↔ k ∈ overridable) := by decide +kernel

theorem overlay_list {dst src o : Opts} (h : overlay dst src = some o) (k : Key) :
    o.list k = if k ∈ copiedLists ∧ src.list k ≠ [] then src.list k else dst.list k := by
  simp only [overlay, Option.map_eq_some_iff] at h
  obtain ⟨l, _, h⟩ := h
  subst h; rfl

theorem one_true {l : List Bytes} {w : Bytes} : (l.map (same · w) = [true]) ↔ (l.length = 1 ∧ l.all (same · w) = true) := by
  cases l with
  | nil => simp
  | cons a r => cases r <;> simp

theorem fill_list {D o : Opts} {k : Key} (h : o.list k ≠ []) : (fill D o).list k = notList k (o.list k) := by
  simp only [fill, if_neg h, one_true, notList]

/-- C77: a list is that of the first line in a matching block, else the first from elsewhere, else the default.  Missing: a
block that says "none" or "any". -/
theorem C77_list_partial {E : Env} (hE : Sane E) {W : World} {D : Opts} {cmd : List Bytes} {raw : Bytes} {ci : Conn} {a g m : List Setting}
    (hs : Says3 E W cmd raw ci a g m) {o : Opts} (h : serve E W D cmd raw ci = .ok o) (k : Key) (hk : k ∈ lists)
    (hn : ∀ v, firstList k m = some v → notList k v = v) :
    o.list k = ((inForce k (firstList k m) (firstList k (a ++ g))).map (notList k)).getD (D.list k) := by
  obtain ⟨o1, o2, h1, h2, h3⟩ := serve_ok hs h
  obtain ⟨f1, f2⟩ := lists_facts k hk
  obtain ⟨k1, k2⟩ := hs.ok hE
  have e1 := applyAll_list f1 _ k1 h1
  have e2 := applyAll_list f1 _ k2 h2
  simp only [ne_eq, not_true_eq_false, if_false] at e1 e2
  rw [overlay_list h3, e2]
  simp only [f2, inForce]
  have hfill : (fill D o1).list k = ((firstList k (a ++ g)).map (notList k)).getD (D.list k) := by
    cases hg : firstList k (a ++ g) with
    | none => rw [hg] at e1; simp only [Option.getD_none] at e1; simp [fill, e1]
    | some v =>
      rw [hg] at e1
      simp only [Option.getD_some] at e1
      have hv : v ≠ [] := firstList_ne k1 hg
      rw [fill_list (by rw [e1]; exact hv), e1]; rfl
  rw [hfill]
  cases hm : firstList k m with
  | none => simp
  | some w =>
    have hw : w ≠ [] := firstList_ne k2 hm
    by_cases ho : k ∈ overridable <;> simp [ho, hw, hn w hm]

theorem growing_facts : ∀ k ∈ growing, k ≠ .channelTimeouts ∧ k ≠ .authMethods ∧ (k ∈ copiedLists ↔ k ∈ overridable) := by decide +kernel

/-- C77: AllowUsers and the like, AcceptEnv, ports, addresses and host keys collect what all lines say: all lines of the
matching blocks if they say anything, else all lines elsewhere, else the default. -/
theorem C77_growing {E : Env} (hE : Sane E) {W : World} {D : Opts} {cmd : List Bytes} {raw : Bytes} {ci : Conn} {a g m : List Setting}
    (hs : Says3 E W cmd raw ci a g m) {o : Opts} (h : serve E W D cmd raw ci = .ok o) (k : Key) (hk : k ∈ growing) :
    o.list k = if k ∈ overridable ∧ allOf k m ≠ [] then allOf k m else if allOf k (a ++ g) ≠ [] then allOf k (a ++ g) else D.list k := by
  obtain ⟨o1, o2, h1, h2, h3⟩ := serve_ok hs h
  obtain ⟨f1, f2, f3⟩ := growing_facts k hk
  obtain ⟨k1, k2⟩ := hs.ok hE
  have e1 := applyAll_more hk _ k1 h1
  have e2 := applyAll_more hk _ k2 h2
  simp only [List.nil_append] at e1 e2
  rw [overlay_list h3, e2]
  simp only [f3, fill, e1, f1, f2, false_and, if_false]
  by_cases hg : allOf k (a ++ g) = [] <;> simp [hg]

/-- C77: what may not stand in a Match block is refused there when the server starts. -/
theorem C77_refused (E : Env) (W : World) (n : Nat) (line kw str : Bytes) (args : List Bytes) (r : List Bytes) (g : List Setting)
    (hl : Line line kw str args) (hk : ¬ MayMatch kw) : ¬ Reads E W none n (.block false) (line :: r) g := by
  intro h
  cases h with
  | blank _ _ _ _ _ e _ => exact hl.not_blank e
  | old _ _ _ _ _ _ _ _ _ c1 => cases c1
  | says _ _ _ _ _ _ _ _ _ _ hl' _ _ c _ =>
    obtain ⟨rfl, rfl, rfl⟩ := hl.eq hl'
    rcases c with c | c
    · cases c
    · exact hk c
  | match_ _ _ _ _ _ _ _ _ hl' => obtain ⟨rfl, rfl, rfl⟩ := hl.eq hl'; exact hk may_match
  | incl _ _ _ _ _ _ _ _ _ hl' => obtain ⟨rfl, rfl, rfl⟩ := hl.eq hl'; exact hk may_incl

/-! ### C77: blocks -/

theorem said_eq {E : Env} {line kw str args k s} (hl : Line line kw str args) (h1 : Says kw k) (h2 : settings E k str args = some s) :
    said E line = s := by
  obtain ⟨b, h3, _⟩ := h1
  simp [said, hl.1, hl.2, h3, h2]

theorem Plain.not {line kw str args} (h : Plain line) (hl : Line line kw str args) : kw ≠ b!"match" ∧ kw ≠ b!"include" := by
  rcases h with h | ⟨kw', str', h, h'⟩
  · exact (hl.not_blank h).elim
  · rw [hl.1] at h
    cases h
    exact h'

theorem reads_plain {E : Env} {W : World} {ci : Option Conn} {n : Nat} {p : Place} (ls : List Bytes) (hp : ∀ l ∈ ls, Plain l) :
    ∀ {r g}, Reads E W ci n p (ls ++ r) g →
      ∃ g', Reads E W ci n p r g' ∧ g = (if p.counts ci.isSome then ls.flatMap (said E) else []) ++ g' := by
  induction ls with
  | nil => intro r g h; exact ⟨g, h, by simp⟩
  | cons l ls ih =>
    intro r g h
    have ih := @ih (fun x hx => hp x (List.mem_cons_of_mem _ hx))
    have hl := hp l (by simp)
    cases h with
    | blank _ _ _ _ _ e h =>
      obtain ⟨g', h1, h2⟩ := ih h
      refine ⟨g', h1, ?_⟩
      rw [h2]
      split
      · simp [said, e]
      · rfl
    | old _ _ _ _ _ _ _ _ _ c1 c2 _ h =>
      obtain ⟨g', h1, h2⟩ := ih h
      refine ⟨g', h1, ?_⟩
      rw [h2, c1, c2]
      simp
    | says _ _ _ _ _ _ _ _ _ _ hl' k1 k2 _ h =>
      obtain ⟨g', h1, h2⟩ := ih h
      refine ⟨g', h1, ?_⟩
      rw [h2]
      split
      · simp [said_eq hl' k1 k2]
      · rfl
    | match_ _ _ _ _ _ _ _ _ hl' => exact ((hl.not hl').1 rfl).elim
    | incl _ _ _ _ _ _ _ _ _ hl' => exact ((hl.not hl').2 rfl).elim

theorem reads_blocks {E : Env} {W : World} {ci : Option Conn} {n : Nat} (bs : List Block)
    (hb : ∀ b ∈ bs, (∃ str, rawLine b.line = .line b!"match" str) ∧ ∀ l ∈ b.body, Plain l) :
    ∀ {p g}, p ≠ .off → Reads E W ci n p (bs.flatMap fun b => b.line :: b.body) g →
      g = bs.flatMap fun b => if applies E W ci b.line then b.body.flatMap (said E) else [] := by
  induction bs with
  | nil => intro p g _ h; cases h; rfl
  | cons b bs ih =>
    intro p g hp h
    obtain ⟨⟨str, hs⟩, hpl⟩ := hb b (by simp)
    simp only [List.flatMap_cons, List.cons_append] at h
    have hline : ∀ {kw str' args}, Line b.line kw str' args → kw = b!"match" := by
      intro kw str' args hl
      have := hl.1
      rw [hs] at this
      cases this
      rfl
    cases h with
    | blank _ _ _ _ _ e _ => rw [hs] at e; cases e
    | old _ _ _ _ _ _ _ _ hl' _ _ c3 _ => obtain rfl := hline hl'; exact (c3 may_match).elim
    | says _ _ _ _ _ _ _ _ _ _ hl' k1 => obtain rfl := hline hl'; exact (says_match k1).elim
    | incl _ _ _ _ _ _ _ _ _ hl' => exact absurd (hline hl') (by decide)
    | match_ _ _ _ str' args b' _ _ hl' hm h =>
      have hsee : p.sees ci = ci := by cases p <;> first | rfl | exact (hp rfl).elim
      have hent : p.enter b' = .block b' := by cases p <;> first | rfl | exact (hp rfl).elim
      rw [hsee] at hm
      rw [hent] at h
      obtain ⟨g', h1, h2⟩ := reads_plain b.body hpl h
      rw [h2, ih (fun x hx => hb x (List.mem_cons_of_mem _ hx)) (by simp) h1]
      have ha : applies E W ci b.line = b' := by simp [applies, hl'.1, hl'.2, hm]
      simp only [List.flatMap_cons, ha]
      cases b' <;> rfl

/-- C77: a file of plain lines and Match blocks, without Include: what stands outside of blocks counts at the start, and a block
counts if its criteria apply. -/
theorem C77_blocks {E : Env} {W : World} {ci : Option Conn} {n : Nat} (ls : List Bytes) (bs : List Block)
    (hl : ∀ l ∈ ls, Plain l) (hb : ∀ b ∈ bs, (∃ str, rawLine b.line = .line b!"match" str) ∧ ∀ l ∈ b.body, Plain l) {g : List Setting}
    (h : Reads E W ci n .global (ls ++ bs.flatMap fun b => b.line :: b.body) g) :
    g = (if ci.isSome then [] else ls.flatMap (said E)) ++
      bs.flatMap fun b => if applies E W ci b.line then b.body.flatMap (said E) else [] := by
  obtain ⟨g', h1, h2⟩ := reads_plain ls hl h
  rw [h2, reads_blocks bs hb (by simp) h1]
  cases ci <;> rfl

/-! ### C79: included files -/

mutual
/-- C79: a file that is included from a block that does not apply sets nothing. -/
theorem C79_off {E : Env} {W : World} {ci : Option Conn} {n : Nat} {p : Place} {lines : List Bytes} {g : List Setting}
    (h : Reads E W ci n p lines g) (hp : p = .off) : g = [] :=
  match h with
  | .done _ _ => rfl
  | .blank _ _ _ _ _ _ h => C79_off h hp
  | .old _ _ _ _ _ _ _ _ _ _ _ _ h => C79_off h hp
  | .says _ _ _ _ _ _ _ _ _ _ _ _ _ _ h => by
    have := C79_off h hp
    subst hp
    simp [this, Place.counts]
  | .match_ _ _ _ _ _ _ _ _ _ _ h => C79_off h (by subst hp; rfl)
  | .incl _ _ _ _ _ _ _ _ _ _ _ _ h1 h2 => by
    have a := C79_off_all h1 (by subst hp; rfl)
    have b := C79_off h2 hp
    simp [a, b]
theorem C79_off_all {E : Env} {W : World} {ci : Option Conn} {n : Nat} {p : Place} {fs : List Bytes} {g : List Setting}
    (h : ReadsAll E W ci n p fs g) (hp : p = .off) : g = [] :=
  match h with
  | .done _ _ => rfl
  | .file _ _ _ _ _ _ h1 h2 => by
    have a := C79_off h1 hp
    have b := C79_off_all h2 hp
    simp [a, b]
end

/-- C79: reading a file sets what it says, read in this way, in this order, and nothing else. -/
theorem C79_reads {E : Env} {W : World} {ci : Option Conn} {raw : Bytes} {o o' : Opts} (h : readConfig E W ci raw o = some o') :
    ∃ g, Reads E W ci 17 .global (loadConfig raw) g ∧ applyAll true g o = some o' := readConfig_ok h

/-- C79: after an Include line, the block of the including file goes on as before, whatever Match lines are in the files. -/
theorem C79_block_kept {E : Env} {W : World} {ci : Option Conn} {n : Nat} {p : Place} {line str : Bytes} {args r : List Bytes} {g : List Setting}
    (hl : Line line b!"include" str args) (h : Reads E W ci n p (line :: r) g) :
    ∃ fs g₁ g₂, filesOf W args = some fs ∧ ReadsAll E W ci (n - 1) p.within fs g₁ ∧ Reads E W ci n p r g₂ ∧ g = g₁ ++ g₂ := by
  cases h with
  | blank _ _ _ _ _ e _ => exact (hl.not_blank e).elim
  | old _ _ _ _ _ _ _ _ hl' _ _ c3 _ => obtain ⟨rfl, rfl, rfl⟩ := hl.eq hl'; exact (c3 may_incl).elim
  | says _ _ _ _ _ _ _ _ _ _ hl' k1 => obtain ⟨rfl, rfl, rfl⟩ := hl.eq hl'; exact (says_incl k1).elim
  | match_ _ _ _ _ _ _ _ _ hl' => exact absurd (hl.eq hl').1 (by decide)
  | incl _ _ _ _ _ fs g₁ _ g₂ hl' _ f' h1' h2' =>
    obtain ⟨_, rfl, rfl⟩ := hl.eq hl'
    exact ⟨fs, g₁, g₂, f', h1', h2', rfl⟩

end Verif.SrvConf
