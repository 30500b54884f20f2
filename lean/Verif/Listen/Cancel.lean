/-
C135: ports, answers, and cancelling.
-/
import Verif.Listen.Props

namespace Verif.Listen
open Verif

theorem try_some {E : Env} {i port p : Nat} (h : try? E i port = some p) : E.bind i port = some p ∧ E.listen i = true := by
  unfold try? at h
  split at h
  · split at h
    · cases hb : E.bind i port with
      | none => simp [hb] at h
      | some q =>
        simp only [hb] at h
        split at h
        · rename_i hl
          exact ⟨h, hl⟩
        · cases h
    · cases h
  · cases h

/-- The port that belongs to a request: the one asked for, or the one that was allocated -/
def portOf (port n : Nat) : Nat := if port = 0 then n else port

theorem addresses_any {E : Env} (hE : Posix E) {O : Opts} (hb : O.bugPort = false) {f : Fwd} (hf : f.listenPort = 0) {path : Bytes} :
    ∀ (l : List Ai) (i alloc : Nat), (∀ a ∈ l, a.port = 0) →
    (0 < alloc → (addresses E O false f path l i alloc).2 = alloc) ∧
    ((addresses E O false f path l i alloc).1 ≠ [] → 0 < (addresses E O false f path l i alloc).2) ∧
    ∀ c ∈ (addresses E O false f path l i alloc).1, c.port = (addresses E O false f path l i alloc).2 ∧
      ∃ ip, c.sock = .tcp ip (addresses E O false f path l i alloc).2 := by
  intro l
  induction l with
  | nil => intro i alloc _; simp [addresses]
  | cons a l ih =>
    intro i alloc ha
    have hl : ∀ a ∈ l, a.port = 0 := fun b h => ha b (List.mem_cons_of_mem _ h)
    rw [addresses]
    by_cases ho : a.fam = .other
    · rw [if_pos ho]; exact ih _ _ hl
    · rw [if_neg ho]
      cases ht : try? E i (portFor false f alloc a) with
      | none => simp only []; exact ih _ _ hl
      | some p =>
        simp only []
        obtain ⟨b1, b2, b3⟩ := hE.bound _ _ _ (try_some ht).1
        have hp : allocate false f alloc p = p ∧ (0 < alloc → p = alloc) := by
          by_cases h0 : alloc = 0
          · simp [allocate, hf, h0]
          · have e : portFor false f alloc a = alloc := by simp [portFor, hf]; omega
            have := b3 (by rw [e]; exact h0)
            rw [e] at this
            simp [allocate, h0, this]
        obtain ⟨hp1, hp2⟩ := hp
        rw [hp1]
        obtain ⟨i1, i2, i3⟩ := ih (i + 1) p hl
        have i1 := i1 b1
        rw [i1] at i3 ⊢
        refine ⟨hp2, fun _ => b1, fun c hc => ?_⟩
        rcases List.mem_cons.1 hc with rfl | hc
        · exact ⟨by simp [chanFor, hf, hb], a.ip, rfl⟩
        · exact i3 c hc

theorem addresses_port {E : Env} {O : Opts} {f : Fwd} (hf : f.listenPort ≠ 0) {path : Bytes} :
    ∀ (l : List Ai) (i alloc : Nat), (addresses E O false f path l i alloc).2 = alloc := by
  intro l
  induction l with
  | nil => intro i alloc; rfl
  | cons a l ih =>
    intro i alloc
    rw [addresses]
    split
    · exact ih ..
    · split
      · exact ih ..
      · simp only [ih]
        simp [allocate, hf]

/-- C135: an answer says whether anything listens. All that listens does so at one port: the one that was asked for, or that which the answer
tells; and nothing listens that is not permitted. -/
theorem C135_answer (C : Permit.Cfg) (P : Permit.PermSet) {O : Opts} (hb : O.bugPort = false) {s : St} (ha : s.alive = true) {host : Bytes}
    {port : Nat} (hp : port ≤ 65535) {want : Bool} {E : Env} (hE : Posix E)
    (hl : (step C P O s (.listen host port want E)).alive = true) :
    ∃ new b n, (step C P O s (.listen host port want E)).chans = s.chans ++ new ∧
      (step C P O s (.listen host port want E)).answers = s.answers ++ [(b, n)] ∧ (b = true ↔ new ≠ []) ∧
      (b = true → Permit.tcpipForward C P host port want = true ∧ 0 < portOf port n) ∧
      ∀ c ∈ new, At host (portOf port n) c ∧ ∃ ip, c.sock = .tcp ip (portOf port n) := by
  have hno : step C P O s (.listen host port want E) = s.result .refused → ∃ new b n,
      (step C P O s (.listen host port want E)).chans = s.chans ++ new ∧
      (step C P O s (.listen host port want E)).answers = s.answers ++ [(b, n)] ∧ (b = true ↔ new ≠ []) ∧
      (b = true → Permit.tcpipForward C P host port want = true ∧ 0 < portOf port n) ∧
      ∀ c ∈ new, At host (portOf port n) c ∧ ∃ ip, c.sock = .tcp ip (portOf port n) := by
    intro h
    rw [h]
    exact ⟨[], false, 0, by simp [St.result], rfl, by simp, by simp, by simp⟩
  by_cases hpm : Permit.tcpipForward C P host port want = true
  · have hst : step C P O s (.listen host port want E) = s.result (setup E O false ⟨some host, port, none, none, 0, none⟩) := by
      simp [step, ha, hpm]
    cases hx : setup E O false ⟨some host, port, none, none, 0, none⟩ with
    | refused => exact hno (by rw [hst, hx])
    | disconnect =>
      rw [hst, hx] at hl
      cases hl
    | ok new n =>
      have hx' : setupTcp E O false ⟨some host, port, none, none, 0, none⟩ = .ok new n := hx
      have hpath : ∀ c ∈ new, c.kind = .rport ∧ c.path = host := by
        intro c hc
        obtain ⟨path, l, h1, -, a, -, j, al, al', p, -, rfl⟩ := mem_setupTcp hx' hc
        refine ⟨rfl, ?_⟩
        have h2 : (some host).filter (fun h => decide (h.length < maxHost)) = some path := by simpa [pathOf] using h1
        exact (Option.some.inj (Option.filter_eq_some_iff.1 h2).1).symm
      rw [hst, hx]
      refine ⟨new, decide (new ≠ []), n, rfl, rfl, by simp, ?_⟩
      unfold setupTcp at hx'
      cases hpo : pathOf false ⟨some host, port, none, none, 0, none⟩ with
      | none => simp [hpo] at hx'
      | some path =>
        simp only [hpo] at hx'
        cases hg : E.gai (bindAddr O false (some host)).1 (bindAddr O false (some host)).2 port with
        | none =>
          simp only [hg] at hx'
          split at hx' <;> cases hx'
        | some l =>
          simp only [hg, Res.ok.injEq] at hx'
          have hports := hE.port _ _ _ _ hp hg
          by_cases h0 : port = 0
          · subst h0
            obtain ⟨-, k2, k3⟩ := addresses_any hE (O := O) hb (f := ⟨some host, 0, none, none, 0, none⟩) (path := path) rfl l 0 0 hports
            rw [hx'.1, hx'.2] at k3
            rw [hx'.1, hx'.2] at k2
            refine ⟨fun hn => ⟨hpm, k2 (by simpa using hn)⟩, fun c hc => ?_⟩
            exact ⟨⟨(hpath c hc).1, (hpath c hc).2, (k3 c hc).1⟩, (k3 c hc).2⟩
          · refine ⟨fun _ => ⟨hpm, by simp [portOf, h0]; omega⟩, fun c hc => ?_⟩
            rw [← hx'.1] at hc
            obtain ⟨a, hal, j, al, al', p, -, ht, e⟩ := mem_addresses hc
            have e1 : portFor false ⟨some host, port, none, none, 0, none⟩ al a = port := by simp [portFor, h0, hports a hal]
            rw [e1] at ht
            have e2 := (hE.bound _ _ _ (try_some ht).1).2.2 h0
            refine ⟨⟨(hpath c (by rw [← hx'.1]; exact hc)).1, (hpath c (by rw [← hx'.1]; exact hc)).2, ?_⟩, a.ip, ?_⟩
            · rw [e]; simp [chanFor, h0, portOf]
            · rw [e, e2]; simp [chanFor, portOf, h0]
  · exact hno (by simp [step, ha, hpm])

theorem isRemote_iff {host : Bytes} {port : Nat} (hp : port ≤ 65535) (c : Chan) : isRemote host port c = true ↔ At host port c := by
  unfold isRemote At
  rw [Nat.mod_eq_of_lt (by omega)]
  simp [and_assoc]

/-- C135: a request to cancel closes all listeners for an address and a port, and nothing else; the answer says whether there was one. -/
theorem C135_cancel (C : Permit.Cfg) (P : Permit.PermSet) (O : Opts) {s : St} (ha : s.alive = true) (host : Bytes) {port : Nat}
    (hp : port ≤ 65535) :
    (∀ c, c ∈ (step C P O s (.cancel host port)).chans ↔ c ∈ s.chans ∧ ¬ At host port c) ∧
    ∃ b, (step C P O s (.cancel host port)).answers = s.answers ++ [(b, 0)] ∧ (b = true ↔ ∃ c ∈ s.chans, At host port c) := by
  have hst : step C P O s (.cancel host port) =
      ⟨s.alive, (cancel (isRemote host port) s.chans).1, s.answers ++ [((cancel (isRemote host port) s.chans).2, 0)]⟩ := by
    have : port ≤ 0x7fffffff := by omega
    simp [step, ha, this]
  rw [hst]
  refine ⟨fun c => ?_, _, rfl, ?_⟩
  · simp only [cancel, List.mem_filter, Bool.not_eq_true', ← Bool.not_eq_true, isRemote_iff hp]
  · simp only [cancel, List.any_eq_true, isRemote_iff hp]

/-- C135: what was asked for can be taken back: after the request and its cancelling there is what there was before, but for listeners at
the same address and port. Missing: ports above 65535, for which it is false (`C135_undone_original_false`). -/
theorem C135_undone_partial (C : Permit.Cfg) (P : Permit.PermSet) {O : Opts} (hb : O.bugPort = false) {s : St} (ha : s.alive = true) {host : Bytes}
    {port : Nat} (hp : port ≤ 65535) {want : Bool} {E : Env} (hE : Posix E)
    (hl : (step C P O s (.listen host port want E)).alive = true) {n : Nat} (hn : n ≤ 65535)
    (hans : (step C P O s (.listen host port want E)).answers = s.answers ++ [(true, n)]) :
    (∀ c, c ∈ (run C P O s [.listen host port want E, .cancel host (portOf port n)]).chans ↔ c ∈ s.chans ∧ ¬ At host (portOf port n) c) ∧
    (run C P O s [.listen host port want E, .cancel host (portOf port n)]).answers = s.answers ++ [(true, n), (true, 0)] := by
  obtain ⟨new, b, m, h1, h2, h3, -, h5⟩ := C135_answer C P hb ha hp hE hl
  rw [hans] at h2
  have h2 := List.append_cancel_left h2
  simp only [List.cons.injEq, Prod.mk.injEq, and_true] at h2
  obtain ⟨rfl, rfl⟩ := h2
  obtain ⟨k1, b, k2, k3⟩ := C135_cancel C P O hl host (port := portOf port n) (by unfold portOf; split <;> omega)
  refine ⟨fun c => ?_, ?_⟩
  · show c ∈ (step C P O _ _).chans ↔ _
    rw [k1, h1, List.mem_append]
    constructor
    · rintro ⟨h | h, h'⟩
      · exact ⟨h, h'⟩
      · exact absurd (h5 c h).1 h'
    · exact fun h => ⟨.inl h.1, h.2⟩
  · show (step C P O _ _).answers = _
    have hne := h3.1 rfl
    have : b = true := by
      cases new with
      | nil => exact absurd rfl hne
      | cons c l => exact k3.2 ⟨c, by rw [h1]; simp, (h5 c (List.mem_cons_self ..)).1⟩
    rw [k2, this, hans]
    simp

/-! ### Where listeners come from -/

/-- A request that is permitted and that this listener can stem from -/
def Source (C : Permit.Cfg) (P : Permit.PermSet) (c : Chan) (r : Req) : Prop :=
  (∃ host port want E, r = .listen host port want E ∧ Permit.tcpipForward C P host port want = true ∧ c.kind = .rport ∧ c.path = host ∧
    (port ≠ 0 → c.port = (port : Int))) ∨
  ∃ path E, r = .listenPath path E ∧ Permit.streamlocalForward C P path = true ∧ c.kind = .runix ∧ c.path = path ∧
    ∃ mask unlink, c.sock = .unix path mask unlink

/-- A request to close this listener -/
def Closes (c : Chan) (r : Req) : Prop :=
  (∃ port, port ≤ 65535 ∧ r = .cancel c.path port ∧ At c.path port c) ∨ (c.kind = .runix ∧ r = .cancelPath c.path)

theorem step_from (C : Permit.Cfg) (P : Permit.PermSet) (O : Opts) (s : St) (ha : s.alive = true) (r : Req) {c : Chan}
    (hc : c ∈ (step C P O s r).chans) : (c ∈ s.chans ∧ ¬ Closes c r) ∨ Source C P c r := by
  unfold step at hc
  rw [if_neg (by simp [ha])] at hc
  have ncl : (∀ h p, r ≠ .cancel h p) → (∀ p, r ≠ .cancelPath p) → ¬ Closes c r := by
    rintro h1 h2 (⟨p, -, h, -⟩ | ⟨-, h⟩)
    · exact h1 _ _ h
    · exact h2 _ h
  cases r with
  | listen host port want E =>
    simp only [] at hc
    have hn := ncl (fun _ _ h => by cases h) (fun _ h => by cases h)
    split at hc
    · rename_i hpm
      cases hx : setup E O false ⟨some host, port, none, none, 0, none⟩ with
      | refused => rw [hx] at hc; exact .inl ⟨hc, hn⟩
      | disconnect => rw [hx] at hc; exact .inl ⟨hc, hn⟩
      | ok new n =>
        rw [hx] at hc
        rcases List.mem_append.1 hc with hc | hc
        · exact .inl ⟨hc, hn⟩
        · right; left
          have hx' : setupTcp E O false ⟨some host, port, none, none, 0, none⟩ = .ok new n := hx
          obtain ⟨path, l, h1, -, a, -, j, al, al', p, -, rfl⟩ := mem_setupTcp hx' hc
          have h2 : (some host).filter (fun h => decide (h.length < maxHost)) = some path := by simpa [pathOf] using h1
          have h3 := Option.some.inj (Option.filter_eq_some_iff.1 h2).1
          exact ⟨host, port, want, E, rfl, hpm, rfl, h3.symm, fun h0 => by simp [chanFor, h0]⟩
    · exact .inl ⟨hc, hn⟩
  | cancel host port =>
    simp only [] at hc
    left
    split at hc
    · have hc := List.mem_filter.1 hc
      refine ⟨hc.1, ?_⟩
      rintro (⟨p, hp, h, hat⟩ | ⟨-, h⟩)
      · cases h
        rw [(isRemote_iff hp c).2 hat] at hc
        exact absurd hc.2 (by simp)
      · cases h
    · rename_i hbig
      refine ⟨hc, ?_⟩
      rintro (⟨p, hp, h, -⟩ | ⟨-, h⟩)
      · cases h
        omega
      · cases h
  | listenPath path E =>
    simp only [] at hc
    have hn := ncl (fun _ _ h => by cases h) (fun _ h => by cases h)
    split at hc
    · rename_i hpm
      cases hx : setup E O false ⟨none, 0, some path, none, 0, none⟩ with
      | refused => rw [hx] at hc; exact .inl ⟨hc, hn⟩
      | disconnect => rw [hx] at hc; exact .inl ⟨hc, hn⟩
      | ok new n =>
        rw [hx] at hc
        rcases List.mem_append.1 hc with hc | hc
        · exact .inl ⟨hc, hn⟩
        · right; right
          have hx' : setupUnix E O false ⟨none, 0, some path, none, 0, none⟩ = .ok new n := hx
          simp only [setupUnix, Bool.false_eq_true, if_false] at hx'
          split at hx'
          · cases hx'
          · split at hx'
            · cases hx'
            · simp only [Res.ok.injEq] at hx'
              rw [← hx'.1, List.mem_singleton] at hc
              subst hc
              exact ⟨path, E, rfl, hpm, rfl, rfl, _, _, rfl⟩
    · exact .inl ⟨hc, hn⟩
  | cancelPath path =>
    left
    have hc := List.mem_filter.1 hc
    refine ⟨hc.1, ?_⟩
    rintro (⟨p, hp, h, hat⟩ | ⟨hk, h⟩)
    · cases h
    · cases h
      have := hc.2
      simp [isRemotePath, hk] at this

/-- C135: whatever listens does so because of a request that was permitted and that nobody has cancelled since. -/
theorem run_from (C : Permit.Cfg) (P : Permit.PermSet) (O : Opts) : ∀ (rs : List Req) (s : St) {c : Chan},
    (run C P O s rs).alive = true → c ∈ (run C P O s rs).chans →
    (c ∈ s.chans ∧ ∀ r ∈ rs, ¬ Closes c r) ∨ ∃ pre r post, rs = pre ++ r :: post ∧ Source C P c r ∧ ∀ r' ∈ post, ¬ Closes c r' := by
  intro rs
  induction rs with
  | nil => intro s c _ hc; exact .inl ⟨hc, by simp⟩
  | cons r rs ih =>
    intro s c hal hc
    have ha : s.alive = true := by
      cases h : s.alive with
      | true => rfl
      | false =>
        have dead : ∀ (l : List Req) (t : St), t.alive = false → (run C P O t l).alive = false := by
          intro l
          induction l with
          | nil => exact fun t h => h
          | cons r l ih => exact fun t h => ih _ (by simp [step, h])
        rw [dead _ s h] at hal
        cases hal
    rcases ih _ hal hc with ⟨h1, h2⟩ | ⟨pre, r', post, e, h⟩
    · rcases step_from C P O s ha r h1 with ⟨h3, h4⟩ | h3
      · left
        refine ⟨h3, fun r' hr' => ?_⟩
        rcases List.mem_cons.1 hr' with rfl | hr'
        · exact h4
        · exact h2 r' hr'
      · exact .inr ⟨[], r, rs, rfl, h3, h2⟩
    · exact .inr ⟨r :: pre, r', post, by rw [e]; rfl, h⟩

/-- C135: whatever listens does so because of a request that was permitted and that nobody has cancelled since. -/
theorem C135_permitted (C : Permit.Cfg) (P : Permit.PermSet) (O : Opts) {rs : List Req} {c : Chan}
    (ha : (run C P O init rs).alive = true) (hc : c ∈ (run C P O init rs).chans) :
    ∃ pre r post, rs = pre ++ r :: post ∧ Source C P c r ∧ ∀ r' ∈ post, ¬ Closes c r' := by
  rcases run_from C P O rs init ha hc with ⟨h, -⟩ | h
  · simp [init] at h
  · exact h

/-- C135: a client that takes back a forwarding closes all that listens for it. Missing: that it closes nothing else, which is false
(`C135_local_original_false`); and ports above 65535. -/
theorem C135_local_partial {E : Env} {O : Opts} {f : Fwd} (hl : f.listenPath = none) (hp : f.listenPort ≤ 65535) {new : List Chan}
    {n : Nat} (h : setup E O true f = .ok new n) (l : List Chan) :
    (cancel (isLocal O f.listenHost f.listenPort (some f.connectPort)) (l ++ new)).1 =
      (cancel (isLocal O f.listenHost f.listenPort (some f.connectPort)) l).1 := by
  have : ∀ c ∈ new, isLocal O f.listenHost f.listenPort (some f.connectPort) c = true := by
    intro c hc
    unfold setup at h
    rw [hl] at h
    obtain ⟨path, l, -, -, a, -, j, al, al', p, -, rfl⟩ := mem_setupTcp (by simpa using h) hc
    have e : f.listenPort % 65536 = f.listenPort := Nat.mod_eq_of_lt (by omega)
    simp [isLocal, chanFor, e]
  have e : new.filter (fun c => !isLocal O f.listenHost f.listenPort (some f.connectPort) c) = [] :=
    List.filter_eq_nil_iff.2 fun c hc => by simp [this c hc]
  simp only [cancel, List.filter_append, e, List.append_nil]

end Verif.Listen
