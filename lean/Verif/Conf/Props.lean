/- The client's configuration: what is proved. -/
import Verif.Conf.Refine

namespace Verif.Conf
open Verif Match

/-! ### The log only grows -/

mutual
theorem Line.grows {E : Env} {W : World} {user : Bool} {n : Nat} {never : Bool} {l : Bytes} {s t : At} :
    Line E W user n never l s t → s.log <+: t.log
  | .blank _ => List.prefix_refl _
  | .sets _ _ _ _ => List.prefix_append _ _
  | .host _ _ _ _ => List.prefix_refl _
  | .matches _ _ _ _ => List.prefix_refl _
  | .incl _ _ _ h => Includes.grows h

theorem Includes.grows {E : Env} {W : World} {user : Bool} {n : Nat} {never : Bool} {l : List Bytes} {s t : At} :
    Includes E W user n never l s t → s.log <+: t.log
  | .nil => List.prefix_refl _
  | .cons _ _ h1 h2 => (Files.grows h1).trans (Includes.grows h2)

theorem Files.grows {E : Env} {W : World} {user : Bool} {n : Nat} {never : Bool} {l : List Bytes} {s t : At} :
    Files E W user n never l s t → s.log <+: t.log
  | .nil => List.prefix_refl _
  | .missing _ h => Files.grows h
  | .file _ h1 h2 => (Lines.grows h1).trans (by have h := Files.grows h2; exact h)

theorem Lines.grows {E : Env} {W : World} {user : Bool} {n : Nat} {never : Bool} {l : List Bytes} {s t : At} :
    Lines E W user n never l s t → s.log <+: t.log
  | .nil => List.prefix_refl _
  | .cons h1 h2 => (Line.grows h1).trans (Lines.grows h2)
end

/-- The options of the command line, each of which applies. -/
inductive CmdLines (E : Env) : List Bytes → Log → Log → Prop where
  | nil {log} : CmdLines E [] log log
  | blank {l ls log log'} : rawLine l = .blank → CmdLines E ls log log' → CmdLines E (l :: ls) log log'
  | sets {l ls log log' kw str k args sets} : rawLine l = .line kw str →
      kindOf ((view log).str .ignoreUnknown) kw = some k → Misc.Argv.argvSplit str true = some args →
      settings E true k str args = some sets → CmdLines E ls (log ++ sets.map fun x => (true, x)) log' →
      CmdLines E (l :: ls) log log'

theorem CmdLines.grows {E : Env} {ls : List Bytes} {log log' : Log} (h : CmdLines E ls log log') : log <+: log' := by
  induction h with
  | nil => exact List.prefix_refl _
  | blank _ _ ih => exact ih
  | sets _ _ _ _ _ ih => exact (List.prefix_append _ _).trans ih

theorem cmd_ok {E : Env} (hE : E.Sane) {ls : List Bytes} {s u : St} {t : At} (hf : Follows s t) (ha : t.act = true)
    (h : ls.foldlM (cmdLine E) s = some u) : ∃ v, Follows u v ∧ CmdLines E ls t.log v.log ∧ v.ran = t.ran := by
  induction ls generalizing s t with
  | nil => simp only [List.foldlM_nil] at h; cases h; exact ⟨t, hf, .nil, rfl⟩
  | cons l ls ih =>
    simp only [List.foldlM_cons, Option.bind_eq_bind, Option.bind_eq_some_iff] at h
    obtain ⟨w, h1, h2⟩ := h
    simp only [cmdLine] at h1
    split at h1
    · cases h1
      rename_i hr
      obtain ⟨v, h3, h4, h5⟩ := ih hf ha h2
      exact ⟨v, h3, .blank hr h4, h5⟩
    · cases h1
    · rename_i kw str hr
      split at h1
      · rename_i k args hk hargs
        simp only [Option.bind_eq_some_iff, Option.map_eq_some_iff] at h1
        obtain ⟨sets, hset, o', ho, rfl⟩ := h1
        rw [hf.o] at ho hk
        have := applyAll_view (settings_ok hE (kindOf_ok hk) hset) hf.ok ho
        obtain ⟨v, h3, h4, h5⟩ := ih (s := { s with o := o' }) (t := { t with log := t.log ++ sets.map fun x => (true, x) })
          ⟨this.1, hf.act, hf.ran, this.2⟩ ha h2
        exact ⟨v, h3, .sets hr hk hargs hset h4, h5⟩
      · cases h1

theorem view_nil : view [] = {} := by
  refine Opts.ext ?_ ?_ ?_ ?_
  · funext k
    simp only [view, viewInt, said, firstInt, first, wayInt, List.filterMap_nil, List.map_nil]
    split
    · rfl
    · split
      · rfl
      · split <;> rfl
  · funext k
    simp only [view, viewStr, said, first, List.filterMap_nil]
    split
    · rfl
    · rfl
  · funext k
    simp only [view, viewList, said, first, List.filterMap_nil]
    split
    · rfl
    · split <;> rfl
  · rfl

/-- C45: the options are those of what was said, in the order of the command line, the user's file and the system's. -/
theorem C45_follows {E : Env} (hE : E.Sane) {W : World} {cmd user sys : List Bytes} {o : Opts}
    (h : readAll E W cmd user sys = some o) :
    ∃ lc tu ts, CmdLines E cmd [] lc ∧ Lines E W true 16 false user ⟨lc, true, []⟩ tu ∧
      Lines E W false 16 false sys ⟨tu.log, true, tu.ran⟩ ts ∧ o = view ts.log := by
  simp only [readAll] at h
  split at h
  · cases h
  · rename_i s hs
    obtain ⟨v, h1, h2, h3⟩ := cmd_ok hE (t := ⟨[], true, []⟩)
      ⟨view_nil.symm, rfl, rfl, by intro x hx; cases hx⟩ rfl hs
    split at h
    · cases h
    · rename_i t ht
      obtain ⟨n, hn, tu, h4, h5⟩ := readLines_ok hE 17 false user { s with active := true } t ⟨v.log, true, v.ran⟩
        ⟨h1.o, rfl, h1.ran, h1.ok⟩ ht
      simp only [Option.map_eq_some_iff] at h
      obtain ⟨u, hu, rfl⟩ := h
      obtain ⟨n', hn', ts, h6, h7⟩ := readLines_ok hE 17 false sys { t with active := true } u ⟨tu.log, true, tu.ran⟩
        ⟨h4.o, rfl, h4.ran, h4.ok⟩ hu
      cases hn; cases hn'
      rw [show v.ran = [] from h3] at h5
      exact ⟨v.log, tu, ts, h2, h5, h7, h6.o⟩

/-- C45: for each option but three numbers and the way to the server, the first value that applies is used: that of the
command line, else of the user's file, else of the system's. -/
theorem C45_first {E : Env} (hE : E.Sane) {W : World} {cmd user sys : List Bytes} {o : Opts}
    (h : readAll E W cmd user sys = some o) :
    ∃ lc lu ls tu ts, CmdLines E cmd [] lc ∧ Lines E W true 16 false user ⟨lc, true, []⟩ tu ∧ tu.log = lc ++ lu ∧
      Lines E W false 16 false sys ⟨tu.log, true, tu.ran⟩ ts ∧ ts.log = tu.log ++ ls ∧
      (∀ k, ordinary k = true → o.int k =
        (((firstInt k (said lc)).or (firstInt k (said lu))).or (firstInt k (said ls))).getD (-1)) ∧
      (∀ k, ordinaryStr k = true → o.str k =
        ((first (saysStr k) (said lc)).or (first (saysStr k) (said lu))).or (first (saysStr k) (said ls))) ∧
      (∀ k, k ≠ .sendEnv → k ≠ .localForward → k ≠ .remoteForward → o.list k =
        (((first (saysList k) (said lc)).or (first (saysList k) (said lu))).or (first (saysList k) (said ls))).getD []) := by
  obtain ⟨lc, tu, ts, h1, h2, h3, rfl⟩ := C45_follows hE h
  obtain ⟨lu, hu⟩ := h2.grows
  obtain ⟨ls, hs⟩ := h3.grows
  refine ⟨lc, lu, ls, tu, ts, h1, h2, hu.symm, h3, hs.symm, ?_, ?_, ?_⟩
  · intro k hk
    rw [← hs, ← show lc ++ lu = tu.log from hu]
    simp [view, viewInt, hk, said_append, firstInt_append]
  · intro k hk
    rw [← hs, ← show lc ++ lu = tu.log from hu]
    simp [view, viewStr, hk, said_append, first_append, Option.or_assoc]
  · intro k h1 h2 h3
    rw [← hs, ← show lc ++ lu = tu.log from hu]
    simp [view, viewList, h1, h2, h3, said_append, first_append, Option.or_assoc]

/-- C45: ProxyCommand and ProxyJump are one option, of which the first counts; the other has no say. -/
theorem C45_way {E : Env} (hE : E.Sane) {W : World} {cmd user sys : List Bytes} {o : Opts}
    (h : readAll E W cmd user sys = some o) :
    ∃ lc tu ts, CmdLines E cmd [] lc ∧ Lines E W true 16 false user ⟨lc, true, []⟩ tu ∧
      Lines E W false 16 false sys ⟨tu.log, true, tu.ran⟩ ts ∧
      (∀ c, first saysWay (said ts.log) = some (.command c) → o.str .proxyCommand = some c ∧ o.str .jumpHost = none) ∧
      (∀ hst u p e, first saysWay (said ts.log) = some (.jump hst u p e) → o.str .proxyCommand = some b!"none" ∧
        o.str .jumpHost = some hst ∧ o.str .jumpUser = u ∧ o.int .jumpPort = p ∧ o.str .jumpExtra = e) ∧
      (first saysWay (said ts.log) = some .noJump → o.str .proxyCommand = none ∧ o.str .jumpHost = some b!"none") ∧
      (first saysWay (said ts.log) = none → o.str .proxyCommand = none ∧ o.str .jumpHost = none) := by
  obtain ⟨lc, tu, ts, h1, h2, h3, rfl⟩ := C45_follows hE h
  refine ⟨lc, tu, ts, h1, h2, h3, ?_, ?_, ?_, ?_⟩
  · intro c hc; simp [viewStr_way, ordinaryStr, hc, wayStr]
  · intro hst u p e hc; simp [viewStr_way, viewInt_port, ordinaryStr, hc, wayStr, wayInt]
  · intro hc; simp [viewStr_way, ordinaryStr, hc, wayStr]
  · intro hc; simp [viewStr_way, ordinaryStr, hc, wayStr]

/-- C45: forwardings, identity files and variables to send add up, each once or as they come. -/
theorem C45_lists {E : Env} (hE : E.Sane) {W : World} {cmd user sys : List Bytes} {o : Opts}
    (h : readAll E W cmd user sys = some o) :
    ∃ lc tu ts, CmdLines E cmd [] lc ∧ Lines E W true 16 false user ⟨lc, true, []⟩ tu ∧
      Lines E W false 16 false sys ⟨tu.log, true, tu.ran⟩ ts ∧
      o.list .localForward = once ((said ts.log).filterMap (saysForward .localForward)) ∧
      o.list .remoteForward = once ((said ts.log).filterMap (saysForward .remoteForward)) ∧
      o.files .identityFile = once ((said ts.log).filterMap (saysFile .identityFile)) ∧
      o.files .certificateFile = once ((said ts.log).filterMap (saysFile .certificateFile)) ∧
      o.list .sendEnv = ((said ts.log).filterMap saysEnv).flatten.foldl envArg [] := by
  obtain ⟨lc, tu, ts, h1, h2, h3, rfl⟩ := C45_follows hE h
  exact ⟨lc, tu, ts, h1, h2, h3, by simp [view, viewList], by simp [view, viewList], rfl, rfl, by simp [view, viewList]⟩

/-- What an option has been given stays, whatever files are read afterwards. -/
theorem C45_kept {E : Env} (hE : E.Sane) {W : World} {user : Bool} {lines : List Bytes} {s u : St} {t : At} (hf : Follows s t)
    (h : readFile E W user lines s = some u) :
    (∀ k, ordinary k = true → s.o.int k ≠ -1 → u.o.int k = s.o.int k) ∧
    (∀ k, ordinaryStr k = true → s.o.str k ≠ none → u.o.str k = s.o.str k) := by
  obtain ⟨n, -, v, h1, h2⟩ := readLines_ok hE 17 false lines { s with active := true } u ⟨t.log, true, t.ran⟩ ⟨hf.o, rfl, hf.ran, hf.ok⟩ h
  obtain ⟨m, hm⟩ := h2.grows
  rw [h1.o, hf.o, ← hm]
  constructor
  · intro k hk hn
    simp only [view, viewInt, hk, if_true, said_append, firstInt_append] at hn ⊢
    cases hc : firstInt k (said t.log) with
    | none => rw [hc] at hn; exact absurd rfl hn
    | some v => rfl
  · intro k hk hn
    simp only [view, viewStr, hk, if_true, said_append, first_append] at hn ⊢
    cases hc : first (saysStr k) (said t.log) with
    | none => rw [hc] at hn; exact absurd rfl hn
    | some v => rfl

/-! ### Host blocks -/

/-- C74: after a Host line the block applies just if some pattern matches the host and no negated one does. -/
theorem C74_host {inc : Bool → List Bytes → St → Option St} {E : Env} {W : World} {user : Bool} {s u : St} {l str : Bytes}
    {args : List Bytes} (hr : rawLine l = .line b!"host" str) (ha : Misc.Argv.argvSplit str true = some args)
    (h : step inc E W false user s l = some u) :
    u.o = s.o ∧ (u.active = true ↔ HostSel W.host args) := by
  have hk : ∀ ig, kindOf ig b!"host" = some .host := fun ig => by
    simp only [kindOf, show keywords.find? (fun x => x.1 = b!"host") = some (b!"host", .host) from by rfl]
  simp only [step, hr, hk, ha, Option.map_eq_some_iff] at h
  obtain ⟨b, hb, rfl⟩ := h
  refine ⟨rfl, ?_⟩
  have := hostLine_sel hb
  simpa [HostSel] using this

/-! ### Match lines -/

/-- C75: after a Match line the block applies just if every criterion holds, and the commands run are those all of whose
predecessors hold. -/
theorem C75_match {inc : Bool → List Bytes → St → Option St} {E : Env} {W : World} {user : Bool} {s u : St} {l str : Bytes}
    {args : List Bytes} (hr : rawLine l = .line b!"match" str) (ha : Misc.Argv.argvSplit str true = some args)
    (h : step inc E W false user s l = some u) :
    u.o = s.o ∧ ∃ ran, u.ran = s.ran ++ ran ∧ MatchSel W s.o args u.active ran := by
  have hk : ∀ ig, kindOf ig b!"match" = some .match_ := fun ig => by
    simp only [kindOf, show keywords.find? (fun x => x.1 = b!"match") = some (b!"match", .match_) from by rfl]
  simp only [step, hr, hk, ha] at h
  split at h
  · rename_i b ran hm
    cases h
    exact ⟨rfl, ran, rfl, by simpa using matchLine_sel hm⟩
  · cases h

/-! ### Included files -/

/-- The options but for two agree. -/
structure Same (o p : Opts) : Prop where
  int : ∀ k, k ≠ .logFacility → k ≠ .bindMask → o.int k = p.int k
  str : o.str = p.str
  list : o.list = p.list
  files : o.files = p.files

theorem Same.refl (o : Opts) : Same o o := ⟨fun _ _ _ => rfl, rfl, rfl, rfl⟩

theorem Same.trans {o p q : Opts} (h : Same o p) (h' : Same p q) : Same o q :=
  ⟨fun k a b => (h.int k a b).trans (h'.int k a b), h.str.trans h'.str, h.list.trans h'.list, h.files.trans h'.files⟩

theorem apply_inactive {s : Setting} {o p : Opts} (h : apply false s o = some p) : Same p o := by
  cases s with
  | facility v =>
    simp only [apply, Option.some.injEq] at h
    subst h
    refine ⟨fun k hk _ => ?_, ?_, ?_, ?_⟩
    · simp only [setInt]; split <;> simp [upd, hk]
    all_goals (simp only [setInt]; split <;> rfl)
  | mask v =>
    simp only [apply, Option.some.injEq] at h
    subst h
    exact ⟨fun k _ hk => by simp [upd, hk], rfl, rfl, rfl⟩
  | _ =>
    simp [apply, setInt, setStr, setList] at h
    subst h; exact Same.refl _

theorem applyAll_inactive {l : List Setting} {o p : Opts} (h : applyAll false l o = some p) : Same p o := by
  induction l generalizing o with
  | nil => simp only [applyAll, List.foldlM_nil] at h; cases h; exact Same.refl _
  | cons s l ih =>
    simp only [applyAll, List.foldlM_cons, Option.bind_eq_bind, Option.bind_eq_some_iff] at h
    obtain ⟨q, h1, h2⟩ := h
    exact (ih h2).trans (apply_inactive h1)

/-- Reading where no block applies. -/
def Inert (inc : Bool → List Bytes → St → Option St) : Prop :=
  ∀ lines s u, s.active = false → inc true lines s = some u → u.active = false ∧ Same u.o s.o

theorem includeFiles_inert {inc : Bool → List Bytes → St → Option St} (hi : Inert inc) {W : World} {never : Bool} {fs : List Bytes}
    {s u : St} (ha : s.active = false) (h : includeFiles inc W never false fs s = some u) : u.active = false ∧ Same u.o s.o := by
  induction fs generalizing s with
  | nil => simp only [includeFiles, Option.some.injEq] at h; subst h; exact ⟨ha, .refl _⟩
  | cons f fs ih =>
    simp only [includeFiles] at h
    split at h
    · cases h
    · exact ih ha h
    · split at h
      · cases h
      · rename_i w hw
        rw [show (never || !false) = true from by simp] at hw
        have h1 := hi _ _ _ ha hw
        have h2 := ih (s := { w with active := false }) rfl h
        exact ⟨h2.1, h2.2.trans h1.2⟩

theorem includeArgs_inert {inc : Bool → List Bytes → St → Option St} (hi : Inert inc) {W : World} {never user : Bool}
    {args : List Bytes} {s u : St} (ha : s.active = false) (h : includeArgs inc W never user args s = some u) :
    u.active = false ∧ Same u.o s.o := by
  induction args generalizing s with
  | nil => simp only [includeArgs, Option.some.injEq] at h; subst h; exact ⟨ha, .refl _⟩
  | cons a r ih =>
    simp only [includeArgs] at h
    split at h
    · cases h
    · split at h
      · cases h
      · split at h
        · cases h
        · split at h
          · cases h
          · rename_i w hw
            rw [ha] at hw
            have h1 := includeFiles_inert hi ha hw
            have h2 := ih h1.1 h
            exact ⟨h2.1, h2.2.trans h1.2⟩

theorem step_inert {inc : Bool → List Bytes → St → Option St} (hi : Inert inc) {E : Env} {W : World} {user : Bool}
    {l : Bytes} {s u : St} (ha : s.active = false) (h : step inc E W true user s l = some u) :
    u.active = false ∧ Same u.o s.o := by
  simp only [step] at h
  split at h
  · cases h; exact ⟨ha, .refl _⟩
  · cases h
  · split at h
    · simp only [Option.map_eq_some_iff] at h
      obtain ⟨b, hb, rfl⟩ := h
      exact ⟨hostLine_never hb, .refl _⟩
    · split at h
      · cases h; exact ⟨by simp, .refl _⟩
      · cases h
    · exact includeArgs_inert hi ha h
    · simp only [Option.bind_eq_some_iff, Option.map_eq_some_iff] at h
      obtain ⟨sets, -, o', ho, rfl⟩ := h
      rw [ha] at ho
      exact ⟨ha, applyAll_inactive ho⟩
    · cases h

theorem readLines_inert (E : Env) (W : World) (user : Bool) (n : Nat) : Inert (readLines E W user n) := by
  induction n with
  | zero => intro lines s u ha h; cases h
  | succ n ih =>
    intro lines s u ha h
    simp only [readLines] at h
    induction lines generalizing s with
    | nil => simp only [List.foldlM_nil] at h; cases h; exact ⟨ha, .refl _⟩
    | cons l ls ihl =>
      simp only [List.foldlM_cons, Option.bind_eq_bind, Option.bind_eq_some_iff] at h
      obtain ⟨w, h1, h2⟩ := h
      have h3 := step_inert ih ha h1
      have h4 := ihl w h3.1 h2
      exact ⟨h4.1, h4.2.trans h3.2⟩

theorem includeFiles_active {inc : Bool → List Bytes → St → Option St} {W : World} {never : Bool} {fs : List Bytes}
    {s u : St} (h : includeFiles inc W never s.active fs s = some u) : u.active = s.active := by
  induction fs generalizing s with
  | nil => simp only [includeFiles, Option.some.injEq] at h; subst h; rfl
  | cons f fs ih =>
    simp only [includeFiles] at h
    split at h
    · cases h
    · exact ih h
    · split at h
      · cases h
      · rename_i w hw
        exact ih (s := { w with active := s.active }) h

theorem includeArgs_active {inc : Bool → List Bytes → St → Option St} {W : World} {never user : Bool}
    {args : List Bytes} {s u : St} (h : includeArgs inc W never user args s = some u) : u.active = s.active := by
  induction args generalizing s with
  | nil => simp only [includeArgs, Option.some.injEq] at h; subst h; rfl
  | cons a r ih =>
    simp only [includeArgs] at h
    split at h
    · cases h
    · split at h
      · cases h
      · split at h
        · cases h
        · split at h
          · cases h
          · rename_i w hw
            exact (ih h).trans (includeFiles_active hw)

theorem step_include {inc : Bool → List Bytes → St → Option St} {E : Env} {W : World} {never user : Bool} {s u : St} {l str : Bytes}
    {args : List Bytes} (hr : rawLine l = .line b!"include" str) (ha : Misc.Argv.argvSplit str true = some args)
    (h : step inc E W never user s l = some u) : includeArgs inc W never user args s = some u := by
  have hk : ∀ ig, kindOf ig b!"include" = some .incl := fun ig => by
    simp only [kindOf, show keywords.find? (fun x => x.1 = b!"include") = some (b!"include", .incl) from by rfl]
  simpa only [step, hr, hk, ha] using h

/-- C76: whatever blocks an included file opens, the block it is included in goes on after it. -/
theorem C76_block_kept {inc : Bool → List Bytes → St → Option St} {E : Env} {W : World} {never user : Bool} {s u : St} {l str : Bytes}
    {args : List Bytes} (hr : rawLine l = .line b!"include" str) (ha : Misc.Argv.argvSplit str true = some args)
    (h : step inc E W never user s l = some u) : u.active = s.active :=
  includeArgs_active (step_include hr ha h)

/-- C76, but for two options: a file included where the block does not apply sets nothing, whatever blocks it opens and
files it includes. -/
theorem C76_inactive_partial {E : Env} {W : World} {n : Nat} {never user : Bool} {s u : St} {l str : Bytes}
    {args : List Bytes} (hr : rawLine l = .line b!"include" str) (ha : Misc.Argv.argvSplit str true = some args)
    (hs : s.active = false) (h : step (readLines E W user n) E W never user s l = some u) : Same u.o s.o :=
  (includeArgs_inert (readLines_inert E W user n) hs (step_include hr ha h)).2

/-- C45: a line that is not understood, in the user's file at least, refuses the whole. -/
theorem C45_refused {E : Env} {W : World} {cmd user sys : List Bytes} {l : Bytes} (hm : l ∈ user) (hb : rawLine l = .bad) :
    readAll E W cmd user sys = none := by
  have key : ∀ s n, readLines E W true n false user s = none := by
    intro s n
    cases n with
    | zero => rfl
    | succ n =>
      simp only [readLines]
      induction user generalizing s with
      | nil => cases hm
      | cons x xs ih =>
        simp only [List.foldlM_cons, Option.bind_eq_bind]
        rcases List.mem_cons.1 hm with rfl | hx
        · simp [step, hb]
        · cases hst : step (readLines E W true n) E W false true s x with
          | none => rfl
          | some w => exact ih hx w
  simp only [readAll]
  split
  · rfl
  · simp [readFile, key]

/-! ### Where the first word does not count -/

/-- Conversions that accept all there is, for the examples. -/
def demoEnv : Env where
  serv _ := none
  ciphersValid _ := true
  macValid _ := true
  kexValid _ := true
  keysValid _ _ := true
  scaled _ := some 1024
  level _ := some 3
  facility a := a.map fun x => x.length
  digest _ := some 2
  ipqos _ := some 8
  tun _ := some (0, 0)
  forward _ _ a := some a
  openSpec _ := true
  agentPath _ := true
  domain _ := true
  interval _ := true
  hop a := some (a, none, 22)
  mask a := some a.length

theorem demo_sane : demoEnv.Sane :=
  ⟨fun a v h => by cases h; decide, fun a v h => by cases h; decide⟩

/-- ssh example.com, with one file to include. -/
def demoWorld : World where
  host := b!"example.com"
  original := b!"example.com"
  command := none
  localUser := b!"me"
  final := false
  release := b!"OpenSSH_10.0"
  netValid _ := true
  localNet _ := false
  expand _ _ _ _ _ x := some x
  run _ := some true
  glob _ _ _ _ _ _ x := some [x]
  file f := if f = b!"inc" then some (some [b!"Host *\n", b!"User root\n", b!"Match exec \"touch /tmp/x\"\n", b!"Port 77\n",
    b!"SyslogFacility AUTH\n"]) else some none

/-- "none" for a time is "not set": a later value counts. -/
theorem C45_none_false : ∃ E W user, Env.Sane E ∧
    (readAll E W [] user []).map (fun o => o.int .connectTimeout) = some 10 ∧
    user = [b!"ConnectTimeout none\n", b!"ConnectTimeout 10\n"] :=
  ⟨demoEnv, demoWorld, _, demo_sane, by decide +kernel, rfl⟩

/-- SyslogFacility counts in a block that does not apply. -/
theorem C45_facility_false : ∃ E W user, Env.Sane E ∧
    (readAll E W [] user []).map (fun o => o.int .logFacility) = some 4 ∧
    (readAll E W [] user []).map (fun o => o.str .user) = some none ∧
    user = [b!"Host other\n", b!"User root\n", b!"SyslogFacility AUTH\n"] :=
  ⟨demoEnv, demoWorld, _, demo_sane, by decide +kernel, by decide +kernel, rfl⟩

/-- The last StreamLocalBindMask counts, in whatever block. -/
theorem C45_mask_false : ∃ E W user, Env.Sane E ∧
    (readAll E W [] user []).map (fun o => o.int .bindMask) = some 4 ∧
    user = [b!"StreamLocalBindMask 077\n", b!"Host other\n", b!"StreamLocalBindMask 0777\n"] :=
  ⟨demoEnv, demoWorld, _, demo_sane, by decide +kernel, rfl⟩

/-- After "ForwardAgent yes" a later line still names the socket that is forwarded. -/
theorem C45_agent_false : ∃ E W user, Env.Sane E ∧
    (readAll E W [] user []).map (fun o => (o.int .forwardAgent, o.str .agentSock)) = some (1, some b!"/tmp/sock") ∧
    user = [b!"ForwardAgent yes\n", b!"ForwardAgent /tmp/sock\n"] :=
  ⟨demoEnv, demoWorld, _, demo_sane, by decide +kernel, rfl⟩

/-- A file included where the block does not apply: its commands are run, and its SyslogFacility counts. -/
theorem C76_inactive_false : ∃ E W user, Env.Sane E ∧
    (readFile E W true user {}).map (fun s => (s.ran, s.o.int .logFacility, s.o.int .port, s.o.str .user)) =
      some ([b!"touch /tmp/x"], 4, -1, none) ∧
    user = [b!"Host other\n", b!"Include inc\n"] :=
  ⟨demoEnv, demoWorld, _, demo_sane, by decide +kernel, rfl⟩

/-! ### Examples -/

/-- A configuration with blocks, an included file, and an order of precedence. -/
example : (readAll demoEnv demoWorld [b!"Port 1"] [b!"Host *.org !example.com\n", b!"  User a\n", b!"Host *.com\n", b!"  User=b\n",
    b!"  Port 2\n", b!"Match user b,c\n", b!"IdentityFile \"my key\"\n", b!"IdentityFile k2\n", b!"IdentityFile k2 # twice\n"]
    [b!"User c\n", b!"Compression yes\n", b!"Include inc nothing\n", b!"Tag t\n"]).map
      (fun o => decide (o.int .port = 1 ∧ o.int .compression = 2 ∧ o.str .user = some b!"b" ∧ o.str .tag = some b!"t" ∧
        o.files .identityFile = [(b!"my key", true), (b!"k2", true)])) = some true := by decide +kernel

/-- ProxyCommand, then ProxyJump. -/
example : (readAll demoEnv demoWorld [] [b!"ProxyCommand nc %h %p\n", b!"ProxyJump a,b\n"] []).map
    (fun o => (o.str .proxyCommand, o.str .jumpHost)) = some (some b!"nc %h %p", none) := by decide +kernel

example : (readAll demoEnv demoWorld [] [b!"ProxyJump a,b\n", b!"ProxyCommand nc %h %p\n"] []).map
    (fun o => (o.str .proxyCommand, o.str .jumpHost, o.str .jumpExtra)) = some (some b!"none", some b!"b", some b!"a") := by
  decide +kernel

example : HostSel b!"example.com" [b!"*.org", b!"*.com", b!"!bad.com"] := by
  refine ⟨⟨b!"*.com", by simp, by decide, by decide +kernel⟩, ?_⟩
  intro a ha hn
  simp only [List.mem_cons, List.not_mem_nil, or_false] at ha
  rcases ha with rfl | rfl | rfl
  · cases hn
  · cases hn
  · decide +kernel

/-- A command is run only if what precedes it holds. -/
example : (matchLine demoWorld {} [b!"host", b!"*.org", b!"exec", b!"a"]).map (fun x => (x.1, x.2.1)) = some (false, []) := by
  decide +kernel
example : (matchLine demoWorld {} [b!"!host=*.org", b!"exec", b!"a", b!"localuser", b!"you"]).map (fun x => (x.1, x.2.1)) =
    some (false, [b!"a"]) := by decide +kernel
example : matchLine demoWorld {} [b!"host", b!"*", b!"user", b!"me", b!"all"] = none := by decide +kernel
example : (rawLine b!"  Frob", (readAll demoEnv demoWorld [] [b!"Port\n"] []).isNone) = (.bad, true) := by decide +kernel

end Verif.Conf
