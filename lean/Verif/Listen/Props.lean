/-
C134: which addresses are listened on.
-/
import Verif.Listen.Spec

namespace Verif.Listen
open Verif

theorem mem_addresses {E : Env} {O : Opts} {client : Bool} {f : Fwd} {path : Bytes} : ∀ {l : List Ai} {i alloc : Nat} {c : Chan},
    c ∈ (addresses E O client f path l i alloc).1 →
    ∃ a ∈ l, ∃ j al al' p, a.fam ≠ .other ∧ try? E j (portFor client f al a) = some p ∧ c = chanFor O client f path al' a p := by
  intro l
  induction l with
  | nil => intro i alloc c h; simp [addresses] at h
  | cons a l ih =>
    intro i alloc c h
    rw [addresses] at h
    by_cases hf : a.fam = .other
    · rw [if_pos hf] at h
      obtain ⟨b, hb, r⟩ := ih h
      exact ⟨b, List.mem_cons_of_mem _ hb, r⟩
    · rw [if_neg hf] at h
      cases ht : try? E i (portFor client f alloc a) with
      | none =>
        simp only [ht] at h
        obtain ⟨b, hb, r⟩ := ih h
        exact ⟨b, List.mem_cons_of_mem _ hb, r⟩
      | some p =>
        simp only [ht, List.mem_cons] at h
        rcases h with rfl | h
        · exact ⟨a, List.mem_cons_self .., i, alloc, _, p, hf, ht, rfl⟩
        · obtain ⟨b, hb, r⟩ := ih h
          exact ⟨b, List.mem_cons_of_mem _ hb, r⟩

theorem mem_setupTcp {E : Env} {O : Opts} {client : Bool} {f : Fwd} {new : List Chan} {n : Nat} (h : setupTcp E O client f = .ok new n)
    {c : Chan} (hc : c ∈ new) :
    ∃ path l, pathOf client f = some path ∧
      E.gai (bindAddr O client f.listenHost).1 (bindAddr O client f.listenHost).2 f.listenPort = some l ∧
      ∃ a ∈ l, ∃ j al al' p, try? E j (portFor client f al a) = some p ∧ c = chanFor O client f path al' a p := by
  unfold setupTcp at h
  cases hp : pathOf client f with
  | none => simp [hp] at h
  | some path =>
    simp only [hp] at h
    cases hg : E.gai (bindAddr O client f.listenHost).1 (bindAddr O client f.listenHost).2 f.listenPort with
    | none =>
      simp only [hg] at h
      split at h <;> cases h
    | some l =>
      simp only [hg, Res.ok.injEq] at h
      rw [← h.1] at hc
      obtain ⟨a, ha, j, al, al', p, -, ht, e⟩ := mem_addresses hc
      exact ⟨path, l, rfl, rfl, a, ha, j, al, al', p, ht, e⟩

/-! ### The client -/

/-- C134: where a client listens for -L and -D: at the address given; at all of them if it is empty or `*`; if none is given, at all of them
with GatewayPorts and otherwise, as for `localhost`, only for the machine itself. -/
theorem C134_client {E : Env} (hE : Posix E) {O : Opts} {f : Fwd} (hp : f.listenPath = none) {new : List Chan} {n : Nat}
    (h : setup E O true f = .ok new n) {c : Chan} (hc : c ∈ new) :
    ∃ ip port, c.sock = .tcp ip port ∧ c.kind = .port ∧
      (f.listenHost = none → O.gateway = 0 → Loopback ip) ∧
      (f.listenHost = none → O.gateway ≠ 0 → AnyAddr ip) ∧
      (f.listenHost = some b!"localhost" → Loopback ip) ∧
      (f.listenHost = some [] ∨ f.listenHost = some b!"*" → AnyAddr ip) ∧
      (∀ x, f.listenHost = some x → Loopback x → ip = x) ∧
      ∀ x, f.listenHost = some x → x ≠ [] → x ≠ b!"*" → x ≠ b!"localhost" → NamedBy E x f.listenPort ip := by
  unfold setup at h
  rw [hp] at h
  obtain ⟨path, l, -, hg, a, ha, j, al, al', p, -, rfl⟩ := mem_setupTcp (by simpa using h) hc
  refine ⟨a.ip, p, rfl, rfl, ?_, ?_, ?_, ?_, ?_, ?_⟩
  · intro h1 h2
    rw [h1] at hg
    simp only [bindAddr, h2, ne_eq, not_true_eq_false, decide_false] at hg
    exact hE.loop _ _ hg a ha
  · intro h1 h2
    rw [h1] at hg
    simp only [bindAddr, h2, ne_eq, not_false_eq_true, decide_true] at hg
    exact hE.any _ _ hg a ha
  · intro h1
    rw [h1] at hg
    rw [show bindAddr O true (some b!"localhost") = (none, false) by simp [bindAddr]] at hg
    exact hE.loop _ _ hg a ha
  · intro h1
    have : bindAddr O true f.listenHost = (none, true) := by
      rcases h1 with h1 | h1 <;> rw [h1] <;> simp [bindAddr]
    rw [this] at hg
    exact hE.any _ _ hg a ha
  · intro x h1 h2
    have : bindAddr O true f.listenHost = (some x, false) := by
      rw [h1]
      rcases h2 with rfl | rfl <;> simp [bindAddr]
    rw [this] at hg
    exact hE.numeric _ _ _ h2 hg a ha
  · intro x h1 h2 h3 h4
    have : bindAddr O true f.listenHost = (some x, false) := by
      rw [h1]
      simp [bindAddr, h2, h3, h4]
    rw [this] at hg
    exact ⟨l, hg, a, ha, rfl⟩

/-! ### The server -/

/-- Something that holds of all listeners that requests make holds of all there are. -/
theorem run_inv {C : Permit.Cfg} {P : Permit.PermSet} {O : Opts} {Q : Chan → Prop} :
    ∀ (rs : List Req) (s : St), (∀ c ∈ s.chans, Q c) →
    (∀ r ∈ rs, ∀ E, r.env = some E → ∀ f new n, setup E O false f = .ok new n → ∀ c ∈ new, Q c) → ∀ c ∈ (run C P O s rs).chans, Q c := by
  intro rs
  induction rs with
  | nil => exact fun s h _ => h
  | cons r rs ih =>
    intro s hs hr
    refine ih _ ?_ fun r' h' => hr r' (List.mem_cons_of_mem _ h')
    have hr := hr r (List.mem_cons_self ..)
    have hres : ∀ E, r.env = some E → ∀ f, ∀ c ∈ (s.result (setup E O false f)).chans, Q c := by
      intro E hE f c hc
      cases hx : setup E O false f with
      | refused => rw [hx] at hc; exact hs c hc
      | disconnect => rw [hx] at hc; exact hs c hc
      | ok new n =>
        rw [hx] at hc
        rcases List.mem_append.1 hc with hc | hc
        · exact hs c hc
        · exact hr E hE f new n hx c hc
    unfold step
    split
    · exact hs
    · cases r with
      | listen host port want E =>
        simp only []
        split
        · exact hres E rfl _
        · exact hs
      | cancel host port =>
        simp only []
        split
        · exact fun c hc => hs c ((List.mem_filter.1 hc).1)
        · exact hs
      | listenPath path E =>
        simp only []
        split
        · exact hres E rfl _
        · exact hs
      | cancelPath path => exact fun c hc => hs c ((List.mem_filter.1 hc).1)

theorem setup_server {E : Env} {O : Opts} {f : Fwd} {new : List Chan} {n : Nat} (h : setup E O false f = .ok new n) {c : Chan} (hc : c ∈ new)
    (hk : c.kind = .rport) : f.listenHost = some c.path ∧
      ∃ l, E.gai (bindAddr O false (some c.path)).1 (bindAddr O false (some c.path)).2 f.listenPort = some l ∧ ∃ a ∈ l, ∃ p, c.sock = .tcp a.ip p := by
  unfold setup at h
  split at h
  · unfold setupUnix at h
    split at h
    · cases h
    · split at h
      · cases h
      · split at h
        · cases h
        · split at h
          · cases h
          · simp only [Res.ok.injEq] at h
            rw [← h.1, List.mem_singleton] at hc
            rw [hc] at hk
            cases hk
  · obtain ⟨path, l, h1, hg, a, ha, j, al, al', p, -, rfl⟩ := mem_setupTcp h hc
    have : f.listenHost = some path := by
      unfold pathOf at h1
      rw [if_neg (by simp)] at h1
      simp only [Bool.false_eq_true, if_false] at h1
      exact (Option.filter_eq_some_iff.1 h1).1
    have hp : (chanFor O false f path al' a p).path = path := rfl
    rw [hp]
    rw [this] at hg
    exact ⟨this, l, hg, a, ha, p, rfl⟩

/-- C134: without GatewayPorts a server listens for a client only for the machine itself, whatever the client asks for. -/
theorem C134_no (C : Permit.Cfg) (P : Permit.PermSet) {O : Opts} (hg : O.gateway = 0) {rs : List Req} (hE : AllPosix rs) :
    ∀ c ∈ (run C P O init rs).chans, c.kind = .rport → ∃ ip port, c.sock = .tcp ip port ∧ Loopback ip := by
  refine run_inv rs init (by simp [init]) fun r hr E he f new n hs c hc hk => ?_
  obtain ⟨h1, l, h2, a, ha, p, h3⟩ := setup_server hs hc hk
  refine ⟨a.ip, p, h3, ?_⟩
  by_cases hl : Loopback c.path
  · have : bindAddr O false (some c.path) = (some c.path, false) := by
      rcases hl with e | e <;> rw [e] <;> simp [bindAddr, hg]
    rw [this] at h2
    rw [(hE r hr E he).numeric _ _ _ hl h2 a ha]
    exact hl
  · have : bindAddr O false (some c.path) = (none, false) := by
      unfold Loopback at hl
      simp [bindAddr, hg, not_or.1 hl]
    rw [this] at h2
    exact (hE r hr E he).loop _ _ h2 a ha

/-- C134: with GatewayPorts a server listens for a client at all addresses, whatever the client asks for. -/
theorem C134_yes (C : Permit.Cfg) (P : Permit.PermSet) {O : Opts} (hg : O.gateway = 1) {rs : List Req} (hE : AllPosix rs) :
    ∀ c ∈ (run C P O init rs).chans, c.kind = .rport → ∃ ip port, c.sock = .tcp ip port ∧ AnyAddr ip := by
  refine run_inv rs init (by simp [init]) fun r hr E he f new n hs c hc hk => ?_
  obtain ⟨h1, l, h2, a, ha, p, h3⟩ := setup_server hs hc hk
  refine ⟨a.ip, p, h3, ?_⟩
  rw [show bindAddr O false (some c.path) = (none, true) by simp [bindAddr, hg]] at h2
  exact (hE r hr E he).any _ _ h2 a ha

/-- C134: with `GatewayPorts clientspecified` it listens where the client asks for. -/
theorem C134_specified (C : Permit.Cfg) (P : Permit.PermSet) {O : Opts} (hg : O.gateway = 2) (ho : O.oldAddr = false) {rs : List Req}
    (hE : AllPosix rs) :
    ∀ c ∈ (run C P O init rs).chans, c.kind = .rport → ∃ ip port, c.sock = .tcp ip port ∧
      (c.path = [] ∨ c.path = b!"*" → AnyAddr ip) ∧ (c.path = b!"localhost" → Loopback ip) ∧ (Loopback c.path → ip = c.path) ∧
      (c.path ≠ [] → c.path ≠ b!"*" → c.path ≠ b!"localhost" → ∃ r ∈ rs, ∃ E, r.env = some E ∧ ∃ lp, NamedBy E c.path lp ip) := by
  refine run_inv rs init (by simp [init]) fun r hr E he f new n hs c hc hk => ?_
  obtain ⟨h1, l, h2, a, ha, p, h3⟩ := setup_server hs hc hk
  refine ⟨a.ip, p, h3, fun h => ?_, fun h => ?_, fun h => ?_, fun h4 h5 h6 => ?_⟩
  · rw [show bindAddr O false (some c.path) = (none, true) by rcases h with h | h <;> rw [h] <;> simp [bindAddr, hg]] at h2
    exact (hE r hr E he).any _ _ h2 a ha
  · rw [show bindAddr O false (some c.path) = (none, false) by rw [h]; simp [bindAddr, hg, ho]] at h2
    exact (hE r hr E he).loop _ _ h2 a ha
  · rw [show bindAddr O false (some c.path) = (some c.path, false) by rcases h with h | h <;> rw [h] <;> simp [bindAddr, hg, ho]] at h2
    exact (hE r hr E he).numeric _ _ _ h h2 a ha
  · rw [show bindAddr O false (some c.path) = (some c.path, false) by simp [bindAddr, hg, ho, h4, h5, h6]] at h2
    exact ⟨r, hr, E, he, f.listenPort, l, h2, a, ha, rfl⟩

end Verif.Listen
