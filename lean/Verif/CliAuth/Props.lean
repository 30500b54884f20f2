/-
User authentication in the client: which methods are used, which keys are offered, what is signed, and what a server can
make the client do (C106-C109).
-/
import Verif.CliAuth.Step
import Verif.UserKey.Spec

namespace Verif.CliAuth
open Verif Wire Text
open _root_.Verif.PubKey (Key Kind Curve Pub sigalgByName toBlob fromBlob typeFromName)
open _root_.Verif.Match (names)
open scoped _root_.Verif.Match

/-! ### What is in the record -/

/-- Each act is an answer to some message, in a state that can be reached. -/
theorem reach_acts {C : Conf} {W : World} {s : St} (h : Reach C W s) : ∀ a ∈ s.out,
    a = .packet 5 (str b!"ssh-userauth") ∨ ∃ u m, Reach C W u ∧ u.status = .running ∧ Answers C W u m a := by
  induction h with
  | start b answers =>
    intro a ha
    have ha' : a ∈ [Act.packet 5 (str b!"ssh-userauth")] := ha
    simp only [List.mem_singleton] at ha'
    exact .inl ha'
  | @step s m hs ih =>
    intro a ha
    by_cases hr : s.status = .running
    · obtain ⟨l, h1, h2⟩ := (step_stepped (reach_inv hs) hr m).grows
      rw [h1] at ha
      rcases List.mem_append.1 ha with ha | ha
      · exact ih a ha
      · exact .inr ⟨s, m, hs, hr, h2 a ha⟩
    · rw [step_stopped hr] at ha
      exact ih a ha

/-! ### C106: methods -/

/-- The method in use is the first of the preferred ones that the configuration allows, the server offers, and that has not run
out. -/
theorem C106_first {C : Conf} {W : World} {s : St} (h : Reach C W s) (hr : s.status = .running) (hm : s.method ≠ .nothing) :
    First C s.off s.authlist s.method := by
  rcases (reach_inv h).turn hr with h | h
  · exact absurd h hm
  · exact h

theorem Turn.configured {C : Conf} {al : Option Bytes} {m : Meth} (h : Turn C al m) :
    Configured C m ∧ m.name ∈ names (preferredList C) ∧ m.name ∈ offered C al := by
  obtain ⟨off, hf⟩ := h
  refine ⟨hf.fresh.2, ?_⟩
  obtain ⟨b, a, h1, ⟨h2, -⟩, -⟩ := hf
  exact ⟨by rw [h1]; simp, h2⟩

/-- When the server says what can continue, the client sends exactly one packet, or it is over. -/
theorem C106_progress {C : Conf} {W : World} {s : St} (h : Reach C W s) (hr : s.status = .running) (hst : s.started = true)
    {v list : Bytes} (hv : Named v list) (hl : v.length ≤ maxString) (p : UInt8) (seq : Nat)
    (hr' : (step C W s ⟨51, seq, str v ++ [p]⟩).status = .running) :
    ∃ l, (step C W s ⟨51, seq, str v ++ [p]⟩).out = s.out ++ l ∧ packets l = 1 ∧
      (step C W s ⟨51, seq, str v ++ [p]⟩).authlist = some list := by
  have hs : step C W s ⟨51, seq, str v ++ [p]⟩ = failure C W s (str v ++ [p]) := by
    unfold step
    rw [if_neg (by rw [hr]; simp), if_neg (by simp), if_neg (by simp), if_pos ⟨rfl, hst⟩]
  have hf : failure C W s (str v ++ [p]) = if p.toNat ≠ 0 then userauth C W { resetKeys s with authlist := some list }
      else userauth C W { s with authlist := some list } := by
    unfold failure
    rw [getCstr_of_named hv [p] hl]
    simp only [getInt_cons]
    simp
  have hc := (reach_inv h).core
  have hfin : ∀ s1 : St, Core C W s1 → s1.status = .running → s1.out = s.out → s1.authlist = some list →
      (userauth C W s1).status = .running →
      ∃ l, (userauth C W s1).out = s.out ++ l ∧ packets l = 1 ∧ (userauth C W s1).authlist = some list := by
    intro s1 h1 h2 h3 h4 h5
    have ht := userauth_tried h1 h2
    obtain ⟨l, g1, -⟩ := ht.grows
    have hp := (ht.running h5).2.2
    refine ⟨l, by rw [g1, h3], ?_, ht.authlist.trans h4⟩
    rw [g1] at hp
    unfold packets at hp ⊢
    rw [List.countP_append] at hp
    omega
  rw [hs, hf] at hr' ⊢
  split
  · rename_i hp
    rw [if_pos hp] at hr'
    refine hfin _ ?_ hr rfl rfl hr'
    refine ⟨hc.methods.same rfl rfl rfl rfl, ?_, ?_, ?_, hc.host, hc.ktypes, hc.active, hc.pw, hc.kb, hc.hb, hc.crash⟩
    · intro id hid
      have hid' : id ∈ s.keys.map fun id => { id with tried := false } := hid
      simp only [List.mem_map] at hid'
      obtain ⟨x, hx, rfl⟩ := hid'
      exact (hc.keys x hx).tried false
    · intro hx
      show s.keys.map _ = []
      rw [hc.fresh hx]; rfl
    · show (s.keys.map _).length ≤ _
      rw [List.length_map]; exact hc.len
  · rename_i hp
    rw [if_neg hp] at hr'
    exact hfin _ ⟨hc.methods.same rfl rfl rfl rfl, hc.keys, hc.fresh, hc.len, hc.host, hc.ktypes, hc.active, hc.pw, hc.kb, hc.hb,
      hc.crash⟩ hr rfl rfl hr'

/-- The client gives up on the methods only when none can be used any more; otherwise it is over because of a key. -/
theorem C106_gives_up {C : Conf} {W : World} {s : St} (h : Reach C W s) (hr : s.status = .running) (hst : s.started = true)
    {v list : Bytes} (hv : Named v list) (hl : v.length ≤ maxString) (p : UInt8) (seq : Nat)
    (hr' : (step C W s ⟨51, seq, str v ++ [p]⟩).status = .ended) :
    (∀ n ∈ names (preferredList C), ¬ Usable C (step C W s ⟨51, seq, str v ++ [p]⟩).off (some list) n) ∨
      (step C W s ⟨51, seq, str v ++ [p]⟩).method = .publickey := by
  have hs : step C W s ⟨51, seq, str v ++ [p]⟩ = failure C W s (str v ++ [p]) := by
    unfold step
    rw [if_neg (by rw [hr]; simp), if_neg (by simp), if_neg (by simp), if_pos ⟨rfl, hst⟩]
  have hf : failure C W s (str v ++ [p]) = if p.toNat ≠ 0 then userauth C W { resetKeys s with authlist := some list }
      else userauth C W { s with authlist := some list } := by
    unfold failure
    rw [getCstr_of_named hv [p] hl]
    simp only [getInt_cons]
    simp
  have hc := (reach_inv h).core
  have hfin : ∀ s1 : St, Core C W s1 → s1.status = .running → s1.authlist = some list → (userauth C W s1).status = .ended →
      (∀ n ∈ names (preferredList C), ¬ Usable C (userauth C W s1).off (some list) n) ∨ (userauth C W s1).method = .publickey := by
    intro s1 h1 h2 h4 h5
    have ht := userauth_tried h1 h2
    have := ht.gaveUp h5
    rw [ht.authlist, h4] at this
    exact this
  rw [hs, hf] at hr' ⊢
  split
  · rename_i hp
    rw [if_pos hp] at hr'
    refine hfin _ ?_ hr rfl hr'
    refine ⟨hc.methods.same rfl rfl rfl rfl, ?_, ?_, ?_, hc.host, hc.ktypes, hc.active, hc.pw, hc.kb, hc.hb, hc.crash⟩
    · intro id hid
      have hid' : id ∈ s.keys.map fun id => { id with tried := false } := hid
      simp only [List.mem_map] at hid'
      obtain ⟨x, hx, rfl⟩ := hid'
      exact (hc.keys x hx).tried false
    · intro hx
      show s.keys.map _ = []
      rw [hc.fresh hx]; rfl
    · show (s.keys.map _).length ≤ _
      rw [List.length_map]; exact hc.len
  · rename_i hp
    rw [if_neg hp] at hr'
    exact hfin _ ⟨hc.methods.same rfl rfl rfl rfl, hc.keys, hc.fresh, hc.len, hc.host, hc.ktypes, hc.active, hc.pw, hc.kb, hc.hb,
      hc.crash⟩ hr rfl hr'

/-- The number of attempts is limited, whatever the server says. -/
theorem C106_attempts {C : Conf} {W : World} {s : St} (h : Reach C W s) :
    passwords C s.out ≤ C.prompts ∧ kbdints C s.out ≤ C.prompts ∧ hostbaseds C s.out ≤ C.hostKeys.countP (·.isSome) := by
  have hc := (reach_inv h).core
  refine ⟨hc.pw.1, hc.kb.1, ?_⟩
  have := hc.hb
  omega

theorem method_configured {C : Conf} {W : World} {s : St} (h : Reach C W s) (hr : s.status = .running) {m : Meth}
    (hm : s.method = m) (hn : m ≠ .nothing) : Configured C m := by
  have := C106_first h hr (by rw [hm]; exact hn)
  rw [hm] at this
  exact this.fresh.2

/-- In batch mode the user is asked for nothing but the PIN of a security key. -/
theorem C106_batch_partial {C : Conf} {W : World} {s : St} (h : Reach C W s) (hb : C.batch = true) {a : Act} (ha : a ∈ s.out)
    (hp : isPrompt a) : isPinPrompt a := by
  have hprove : ∀ {sa hb' f k}, Proves C W sa hb' f k a → isPinPrompt a := by
    intro sa hb' f k hpr
    cases hpr with
    | passphrase t hn => rw [hb] at hn; cases hn
    | pin g q hsk hs => exact ⟨sshKeyName q ++ (b!" key " ++ (g ++ b!": ")), by simp [List.append_assoc]⟩
    | load g p hf => exact absurd hp (by simp [isPrompt])
    | sign who d al h1 h2 h3 => exact absurd hp (by simp [isPrompt])
    | send d al sg p e rest h1 h2 h3 h4 h5 => exact absurd hp (by simp [isPrompt])
  have hdoes : ∀ {al sa hb'}, Does C W al sa hb' a → isPinPrompt a := by
    intro al sa hb' hd
    cases hd with
    | askPassword ht =>
      have : C.password = true ∧ C.batch = false := ht.configured.1
      rw [hb] at this; cases this.2
    | passphrase t ht hn => rw [hb] at hn; cases hn
    | prove f k _ ht hf h1 h2 hpr => exact hprove hpr
    | password pw ht => exact absurd hp (by simp [isPrompt, request])
    | kbdint ht => exact absurd hp (by simp [isPrompt, request])
    | offer f k ext agent alg blob h1 h2 h3 h4 h5 => exact absurd hp (by simp [isPrompt, request])
    | load g p h1 h2 => exact absurd hp (by simp [isPrompt])
    | keysign k alg blob ln h1 h2 => exact absurd hp (by simp [isPrompt])
    | hostbased k alg blob ln sig h1 h2 => exact absurd hp (by simp [isPrompt, request])
  rcases reach_acts h a ha with rfl | ⟨u, m, hu, hr, hans⟩
  · exact absurd hp (by simp [isPrompt])
  · cases hans with
    | bare h => exact absurd hp (by simp [isPrompt, request])
    | unknown h => exact absurd hp (by simp [isPrompt])
    | next _ v l p h1 h2 h3 h4 h5 => exact hdoes h5
    | banner v t r h1 h2 h3 h4 => exact absurd hp (by simp [isPrompt])
    | prove alg blob f key k ext agent _ h1 h2 h3 h4 h5 h6 h7 h8 => exact hprove h8
    | other _ h1 h2 h3 => exact hdoes h3
    | change _ h1 h2 h3 =>
      have : C.password = true ∧ C.batch = false := method_configured hu hr h2 (by simp)
      rw [hb] at this; cases this.2
    | inform _ h1 h2 h3 =>
      have : C.kbdint = true ∧ C.batch = false := method_configured hu hr h2 (by simp)
      rw [hb] at this; cases this.2

/-- Each request with something in it is by a method that the configuration allows and prefers. -/
theorem C106_requests {C : Conf} {W : World} {s : St} (h : Reach C W s) {a : Act} (ha : a ∈ s.out) {n body : Bytes}
    (hn : requestOf C a = some (n, body)) (hb : body ≠ []) :
    ∃ m, Configured C m ∧ m.name ∈ names (preferredList C) ∧
      (n = m.name ∨ (m = .publickey ∧ n = b!"publickey-hostbound-v00@openssh.com")) := by
  have hreq : ∀ {n' body'} , n'.length ≤ maxString → a = request C n' body' → n = n' := by
    intro n' body' hl he
    rw [he, requestOf_request C n' body' hl] at hn
    cases hn; rfl
  have hpub : ∀ {sa hb' f k}, Proves C W sa hb' f k a → n = b!"publickey" ∨ n = b!"publickey-hostbound-v00@openssh.com" := by
    intro sa hb' f k hpr
    cases hpr with
    | send d al sg p e rest h1 h2 h3 h4 h5 =>
      obtain ⟨m, r, hp, hm⟩ := h2.packet h3
      have hml : m.length ≤ maxString := by rcases hm with rfl | rfl <;> decide
      rw [hreq hml (by rw [hp]; rfl)]
      exact hm
    | passphrase t h => simp [requestOf] at hn
    | pin g q hsk hs => simp [requestOf] at hn
    | load g p hf => simp [requestOf] at hn
    | sign who d al h1 h2 h3 => simp [requestOf] at hn
  have hpk : Configured C .publickey ∧ Meth.publickey.name ∈ names (preferredList C) →
      (n = b!"publickey" ∨ n = b!"publickey-hostbound-v00@openssh.com") →
      ∃ m, Configured C m ∧ m.name ∈ names (preferredList C) ∧
        (n = m.name ∨ (m = .publickey ∧ n = b!"publickey-hostbound-v00@openssh.com")) := by
    rintro ⟨h1, h2⟩ (h3 | h3)
    · exact ⟨.publickey, h1, h2, .inl h3⟩
    · exact ⟨.publickey, h1, h2, .inr ⟨rfl, h3⟩⟩
  have hdoes : ∀ {al sa hb'}, Does C W al sa hb' a → ∃ m, Configured C m ∧ m.name ∈ names (preferredList C) ∧
      (n = m.name ∨ (m = .publickey ∧ n = b!"publickey-hostbound-v00@openssh.com")) := by
    intro al sa hb' hd
    cases hd with
    | password pw ht => exact ⟨.password, ht.configured.1, ht.configured.2.1, .inl (hreq (by decide) rfl)⟩
    | kbdint ht => exact ⟨.kbdint, ht.configured.1, ht.configured.2.1, .inl (hreq (by decide) rfl)⟩
    | offer f k ext agent alg blob ht h2 h3 h4 h5 =>
      exact ⟨.publickey, ht.configured.1, ht.configured.2.1, .inl (hreq (by decide) rfl)⟩
    | prove f k _ ht hf h1 h2 hpr => exact hpk ⟨ht.configured.1, ht.configured.2.1⟩ (hpub hpr)
    | hostbased k alg blob ln sig ht h2 => exact ⟨.hostbased, ht.configured.1, ht.configured.2.1, .inl (hreq (by decide) rfl)⟩
    | askPassword ht => simp [requestOf] at hn
    | passphrase t ht h => simp [requestOf] at hn
    | load g p h1 h2 => simp [requestOf] at hn
    | keysign k alg blob ln h1 h2 => simp [requestOf] at hn
  have hmeth : ∀ {u : St} {m : Meth}, Reach C W u → u.status = .running → u.method = m → m ≠ .nothing →
      Configured C m ∧ m.name ∈ names (preferredList C) := by
    intro u m hu hr hm hne
    have := C106_first hu hr (by rw [hm]; exact hne)
    rw [hm] at this
    exact ⟨this.turn.configured.1, this.turn.configured.2.1⟩
  rcases reach_acts h a ha with rfl | ⟨u, m, hu, hr, hans⟩
  · simp [requestOf] at hn
  · cases hans with
    | bare h =>
      rw [requestOf_request C _ _ (by cases u.method <;> decide)] at hn
      cases hn
      exact absurd rfl hb
    | unknown h => simp [requestOf] at hn
    | next _ v l p h1 h2 h3 h4 h5 => exact hdoes h5
    | banner v t r h1 h2 h3 h4 => simp [requestOf] at hn
    | prove alg blob f key k ext agent _ h1 h2 h3 h4 h5 h6 h7 h8 => exact hpk (hmeth hu hr h2 (by simp)) (hpub h8)
    | other _ h1 h2 h3 => exact hdoes h3
    | change _ h1 h2 h3 =>
      obtain ⟨i1, i2⟩ := hmeth hu hr h2 (by simp)
      cases h3 with
      | send old new => exact ⟨.password, i1, i2, .inl (hreq (by decide) rfl)⟩
      | shown t => simp [requestOf] at hn
      | old => simp [requestOf] at hn
      | new => simp [requestOf] at hn
      | again => simp [requestOf] at hn
    | inform _ h1 h2 h3 =>
      cases h3 with
      | shown t => simp [requestOf] at hn
      | prompt t e => simp [requestOf] at hn
      | send l hl => simp [requestOf] at hn

/-! ### C107: keys -/

/-- The list of keys holds only what the configuration permits. -/
theorem C107_listed {C : Conf} {W : World} {s : St} (h : Reach C W s) {id : Ident} (hid : id ∈ s.keys) : Listed C W id :=
  (reach_inv h).core.keys id hid

/-- A key that is offered comes from the configuration or, if that is allowed, the agent; its type is accepted, and the algorithm
is one that is accepted for it and, as far as they have been told, that the server knows. -/
theorem C107_offered {C : Conf} {W : World} {s : St} (h : Reach C W s) {m : Msg} {l : List Act}
    (hl : (step C W s m).out = s.out ++ l) {a : Act} (ha : a ∈ l) {rest : Bytes}
    (hn : requestOf C a = some (b!"publickey", 0 :: rest)) :
    ∃ f k ext agent alg blob, Origin C W (some k) f ext agent ∧ TypeAccepted C k ∧ AlgOk C s.sigAlgs k alg ∧
      toBlob k false = some blob ∧ rest = str alg ++ str blob := by
  have hrun : s.status = .running := by
    refine Decidable.byContradiction fun hr => ?_
    rw [step_stopped hr] at hl
    have : l = [] := by simpa using congrArg List.length hl
    rw [this] at ha
    cases ha
  have hans : Answers C W s m a := by
    obtain ⟨l', h1, h2⟩ := (step_stepped (reach_inv h) hrun m).grows
    rw [h1] at hl
    exact h2 a (by rw [List.append_cancel_left hl]; exact ha)
  have hreq : ∀ {n' body'} , n'.length ≤ maxString → a = request C n' body' → b!"publickey" = n' ∧ 0 :: rest = body' := by
    intro n' body' hl he
    rw [he, requestOf_request C n' body' hl] at hn
    simp only [Option.some.injEq, Prod.mk.injEq] at hn
    exact ⟨hn.1.symm, hn.2.symm⟩
  have hpub : ∀ {sa hb' f k}, Proves C W sa hb' f k a → False := by
    intro sa hb' f k hpr
    cases hpr with
    | send d al sg p e rest h1 h2 h3 h4 h5 =>
      obtain ⟨m, r, hp, hm⟩ := h2.packet h3
      have hml : m.length ≤ maxString := by rcases hm with rfl | rfl <;> decide
      have := (hreq hml (by rw [hp]; rfl)).2
      simp at this
    | passphrase t h => simp [requestOf] at hn
    | pin g q hsk hs => simp [requestOf] at hn
    | load g p hf => simp [requestOf] at hn
    | sign who d al h1 h2 h3 => simp [requestOf] at hn
  have hdoes : ∀ {al}, Does C W al s.sigAlgs s.hasHostbound a → ∃ f k ext agent alg blob, Origin C W (some k) f ext agent ∧
      TypeAccepted C k ∧ AlgOk C s.sigAlgs k alg ∧ toBlob k false = some blob ∧ rest = str alg ++ str blob := by
    intro al hd
    cases hd with
    | offer f k ext agent alg blob ht h2 h3 h4 h5 =>
      have := (hreq (by decide) rfl).2
      simp only [List.cons.injEq, true_and] at this
      exact ⟨f, k, ext, agent, alg, blob, h2, h3, h4, h5, this⟩
    | password pw ht => have := (hreq (by decide) rfl).1; simp at this
    | kbdint ht => have := (hreq (by decide) rfl).1; simp at this
    | prove f k _ ht hf h1 h2 hpr => exact (hpub hpr).elim
    | hostbased k alg blob ln sig ht h2 => have := (hreq (by decide) rfl).1; simp at this
    | askPassword ht => simp [requestOf] at hn
    | passphrase t ht h => simp [requestOf] at hn
    | load g p h1 h2 => simp [requestOf] at hn
    | keysign k alg blob ln h1 h2 => simp [requestOf] at hn
  cases hans with
  | bare h =>
    rw [requestOf_request C _ _ (by cases s.method <;> decide)] at hn
    simp at hn
  | unknown h => simp [requestOf] at hn
  | next _ v l p h1 h2 h3 h4 h5 => exact hdoes h5
  | banner v t r h1 h2 h3 h4 => simp [requestOf] at hn
  | prove alg blob f key k ext agent _ h1 h2 h3 h4 h5 h6 h7 h8 => exact (hpub h8).elim
  | other _ h1 h2 h3 => exact hdoes h3
  | change _ h1 h2 h3 =>
    cases h3 with
    | send old new => have := (hreq (by decide) rfl).1; simp at this
    | shown t => simp [requestOf] at hn
    | old => simp [requestOf] at hn
    | new => simp [requestOf] at hn
    | again => simp [requestOf] at hn
  | inform _ h1 h2 h3 =>
    cases h3 with
    | shown t => simp [requestOf] at hn
    | prompt t e => simp [requestOf] at hn
    | send l hl => simp [requestOf] at hn

/-- With IdentitiesOnly each key is one of a configured file, or a configured certificate. -/
theorem C107_identities_only {C : Conf} {W : World} {k : Key} {f : Bytes} {ext agent : Bool} (h : Origin C W (some k) f ext agent)
    (hi : C.identitiesOnly = true) :
    ((∃ f' k' ext', (f', some (k', ext')) ∈ C.idFiles ∧ (k' = k ∧ f' = f)) ∨ ∃ ext', (f, k, ext') ∈ C.certFiles ∧ k.cert ≠ none) ∧
      ForUsers k := by
  cases h with
  | file _ _ _ _ h1 h2 h3 h4 h5 => exact ⟨.inl ⟨f, k, ext, h1, rfl, rfl⟩, h2⟩
  | cert _ _ _ h1 h2 h3 h4 => exact ⟨.inr ⟨ext, h1, h2⟩, h3⟩
  | agent _ _ l h1 h2 h3 h4 => rw [hi] at h1; cases h1

/-- Keys are offered once each, and again only when the server says that a method has succeeded. -/
theorem C107_once (C : Conf) (W : World) (b : Before) (answers : List (Option Bytes)) (l : List Msg) (parts : Msg → Bool)
    (hp : ∀ m ∈ l, isPartial m → parts m = true) :
    offers C (run C W (init C b answers) l).out ≤ total C W * (1 + l.countP parts) := by
  have key : ∀ (l : List Msg) (s : St), (∀ m ∈ l, isPartial m → parts m = true) → Inv C W s →
      potential C W (run C W s l) ≤ potential C W s + total C W * l.countP parts := by
    intro l
    induction l with
    | nil => intro s _ _; simp [run]
    | cons m l ih =>
      intro s hp hs
      rw [run]
      have hp' := fun x hx => hp x (List.mem_cons_of_mem _ hx)
      by_cases hr : s.status = .running
      · have hst := step_stepped hs hr m
        have h1 := ih _ hp' hst.inv
        have hle : potential C W (step C W s m) ≤ potential C W s + total C W * (if parts m = true then 1 else 0) := by
          by_cases hm : isPartial m
          · rw [if_pos (hp m List.mem_cons_self hm), Nat.mul_one]
            exact hst.potential.1
          · exact Nat.le_trans (hst.potential.2 hm) (Nat.le_add_right _ _)
        rw [List.countP_cons, Nat.mul_add]
        omega
      · rw [step_stopped hr]
        have h1 := ih s hp' hs
        rw [List.countP_cons, Nat.mul_add]
        exact Nat.le_trans h1 (by omega)
  have h := key l _ hp (init_inv C W b answers)
  have h0 : potential C W (init C b answers) = total C W := by
    have hu : Uncounted C (.packet 5 (str b!"ssh-userauth")) := uncounted_ty (by decide)
    unfold potential
    show offers C [.packet 5 (str b!"ssh-userauth")] + untried [] + total C W = total C W
    unfold offers
    rw [List.countP_singleton, hu.2.2.2]
    simp [untried]
  rw [h0] at h
  have h2 : offers C (run C W (init C b answers) l).out ≤ potential C W (run C W (init C b answers) l) := by
    unfold potential; omega
  rw [Nat.mul_add, Nat.mul_one]
  omega

/-! ### C108: signatures -/

theorem new_answers {C : Conf} {W : World} {s : St} (h : Reach C W s) {m : Msg} {l : List Act}
    (hl : (step C W s m).out = s.out ++ l) {a : Act} (ha : a ∈ l) : s.status = .running ∧ Answers C W s m a := by
  have hrun : s.status = .running := by
    refine Decidable.byContradiction fun hr => ?_
    rw [step_stopped hr] at hl
    have : l = [] := by simpa using congrArg List.length hl
    rw [this] at ha
    cases ha
  refine ⟨hrun, ?_⟩
  obtain ⟨l', h1, h2⟩ := (step_stepped (reach_inv h) hrun m).grows
  rw [h1] at hl
  exact h2 a (by rw [List.append_cancel_left hl]; exact ha)

/-- The acts of proving that are not of another kind. -/
theorem proves_of {C : Conf} {W : World} {s : St} {m : Msg} {a : Act} (h : Answers C W s m a)
    (ha : (∃ who d alg, a = .sign who d alg) ∨ ∃ n body, requestOf C a = some (n, 1 :: body) ∧
      (n = b!"publickey" ∨ n = b!"publickey-hostbound-v00@openssh.com")) :
    ∃ f k, Mine C W f k ∧ Proves C W s.sigAlgs s.hasHostbound f k a := by
  have hreq : ∀ n' body', n'.length ≤ maxString → a = request C n' body' →
      (n' = b!"publickey" ∨ n' = b!"publickey-hostbound-v00@openssh.com") ∧ ∃ b, body' = 1 :: b := by
    intro n' body' hl he
    rcases ha with ⟨w, d, al, rfl⟩ | ⟨n, b, h1, h2⟩
    · cases he
    · rw [he, requestOf_request C n' body' hl] at h1
      simp only [Option.some.injEq, Prod.mk.injEq] at h1
      obtain ⟨rfl, rfl⟩ := h1
      exact ⟨h2, b, rfl⟩
  have hno : ∀ {P : Prop}, ((∃ t e, a = .prompt t e) ∨ (∃ t, a = .shown t) ∨ (∃ g p, a = .load g p) ∨ (∃ k d, a = .keysign k d) ∨
      ∃ ty b, a = .packet ty b ∧ ty ≠ 50) → P := by
    intro P hx
    rcases ha with ⟨w, d, al, rfl⟩ | ⟨n, b, h1, h2⟩
    · simp at hx
    · rcases hx with ⟨t, e, rfl⟩ | ⟨t, rfl⟩ | ⟨g, p, rfl⟩ | ⟨k, d, rfl⟩ | ⟨ty, b, rfl, hty⟩ <;> simp [requestOf] at h1
      exact absurd h1.1.1 hty
  have hdoes : ∀ {al}, Does C W al s.sigAlgs s.hasHostbound a → ∃ f k, Mine C W f k ∧ Proves C W s.sigAlgs s.hasHostbound f k a := by
    intro al hd
    cases hd with
    | prove f k _ ht hf h1 h2 hpr => exact ⟨f, k, .inr ⟨hf, h1, h2⟩, hpr⟩
    | offer f k ext agent alg blob ht h2 h3 h4 h5 =>
      obtain ⟨-, b, hb⟩ := hreq _ _ (by decide) rfl
      simp at hb
    | password pw ht => have := (hreq _ _ (by decide) rfl).1; simp at this
    | kbdint ht => have := (hreq _ _ (by decide) rfl).1; simp at this
    | hostbased k alg blob ln sig ht h2 => have := (hreq _ _ (by decide) rfl).1; simp at this
    | askPassword ht => exact hno (.inl ⟨_, _, rfl⟩)
    | passphrase t ht h => exact hno (.inl ⟨_, _, rfl⟩)
    | load g p h1 h2 => exact hno (.inr (.inr (.inl ⟨_, _, rfl⟩)))
    | keysign k alg blob ln h1 h2 => exact hno (.inr (.inr (.inr (.inl ⟨_, _, rfl⟩))))
  cases h with
  | bare h =>
    obtain ⟨-, b, hb⟩ := hreq _ _ (by cases s.method <;> decide) rfl
    simp at hb
  | unknown h => exact hno (.inr (.inr (.inr (.inr ⟨_, _, rfl, by decide⟩))))
  | next _ v l p h1 h2 h3 h4 h5 =>
    cases h5 with
    | prove f k _ ht hf h1 h2 hpr => exact ⟨f, k, .inr ⟨hf, h1, h2⟩, hpr⟩
    | offer f k ext agent alg blob ht h2 h3 h4 h5 =>
      obtain ⟨-, b, hb⟩ := hreq _ _ (by decide) rfl
      simp at hb
    | password pw ht => have := (hreq _ _ (by decide) rfl).1; simp at this
    | kbdint ht => have := (hreq _ _ (by decide) rfl).1; simp at this
    | hostbased k alg blob ln sig ht h2 => have := (hreq _ _ (by decide) rfl).1; simp at this
    | askPassword ht => exact hno (.inl ⟨_, _, rfl⟩)
    | passphrase t ht h => exact hno (.inl ⟨_, _, rfl⟩)
    | load g p h1 h2 => exact hno (.inr (.inr (.inl ⟨_, _, rfl⟩)))
    | keysign k alg blob ln h1 h2 => exact hno (.inr (.inr (.inr (.inl ⟨_, _, rfl⟩))))
  | banner v t r h1 h2 h3 h4 => exact hno (.inr (.inl ⟨_, rfl⟩))
  | prove alg blob f key k ext agent _ h1 h2 h3 h4 h5 h6 h7 h8 => exact ⟨f, k, .inl ⟨ext, agent, h6, h7⟩, h8⟩
  | other _ h1 h2 h3 => exact hdoes h3
  | change _ h1 h2 h3 =>
    cases h3 with
    | send old new => have := (hreq _ _ (by decide) rfl).1; simp at this
    | shown t => exact hno (.inr (.inl ⟨_, rfl⟩))
    | old => exact hno (.inl ⟨_, _, rfl⟩)
    | new => exact hno (.inl ⟨_, _, rfl⟩)
    | again => exact hno (.inl ⟨_, _, rfl⟩)
  | inform _ h1 h2 h3 =>
    cases h3 with
    | shown t => exact hno (.inr (.inl ⟨_, rfl⟩))
    | prompt t e => exact hno (.inl ⟨_, _, rfl⟩)
    | send l hl => exact hno (.inr (.inr (.inr (.inr ⟨_, _, rfl, by decide⟩))))

/-- Whatever is signed is a request of this session, for this user, with this key, by an algorithm that may be used for it; and
it is signed by the key that it names.  What is missing: a certificate's private key may be one that is known by the name of its
file only. -/
theorem C108_signs_partial {C : Conf} {W : World} {s : St} (h : Reach C W s) {m : Msg} {l : List Act}
    (hl : (step C W s m).out = s.out ++ l) {who : Signer} {data alg : Bytes} (ha : Act.sign who data alg ∈ l) :
    ∃ f k, Mine C W f k ∧ AlgOk C s.sigAlgs k alg ∧ Signed C s.hasHostbound k alg data ∧ Signs C W f k who := by
  obtain ⟨f, k, h1, h2⟩ := proves_of (new_answers h hl ha).2 (.inl ⟨who, data, alg, rfl⟩)
  cases h2 with
  | sign _ _ _ i1 i2 i3 => exact ⟨f, k, h1, i1, i2, i3⟩

/-- A request with a signature is what has been signed, and the signature is by the algorithm that it names. -/
theorem C108_sent {C : Conf} {W : World} {s : St} (h : Reach C W s) {m : Msg} {l : List Act}
    (hl : (step C W s m).out = s.out ++ l) {a : Act} (ha : a ∈ l) {n body : Bytes} (hn : requestOf C a = some (n, 1 :: body))
    (hm : n = b!"publickey" ∨ n = b!"publickey-hostbound-v00@openssh.com") :
    ∃ f k data alg sig p e rest, Mine C W f k ∧ AlgOk C s.sigAlgs k alg ∧ Signed C s.hasHostbound k alg data ∧ a = .packet 50 p ∧
      (if C.oldId then C.sessionId else str C.sessionId) ++ [50] ++ p = data ++ str sig ∧
      sigalgByName alg = some e ∧ getCstr sig = some (e, rest) := by
  obtain ⟨f, k, h1, h2⟩ := proves_of (new_answers h hl ha).2 (.inr ⟨n, body, hn, hm⟩)
  cases h2 with
  | send data _ sig p e rest i1 i2 i3 i4 i5 => exact ⟨f, k, data, _, sig, p, e, rest, h1, i1, i2, rfl, i3, i4, i5⟩
  | passphrase t h => simp [requestOf] at hn
  | pin g q hsk hs => simp [requestOf] at hn
  | load g p hf => simp [requestOf] at hn
  | sign who d al h1 h2 h3 => simp [requestOf] at hn

/-- What the client signs is what the server in the same session, for the same user, takes the signature to be over. -/
theorem C108_agrees {C : Conf} {hb : Bool} {k : Key} {alg data : Bytes} (h : Signed C hb k alg data)
    (K : UserKey.KeyWorld) (u : UserKey.Session) (hi : u.id = C.sessionId) (ho : u.oldId = C.oldId) (hu : u.user = C.user)
    (hs : u.style = none) (hv : u.service = b!"ssh-connection")
    (hk : ∀ hk hkb, C.hostKey = some hk → toBlob hk false = some hkb → K.hostBlob = hkb) :
    ∃ blob method, toBlob k false = some blob ∧
      method = (if hb = true ∧ C.pubkey / 2 % 2 = 1 then b!"publickey-hostbound-v00@openssh.com" else b!"publickey") ∧
      UserKey.Signed K u method 1 alg blob data := by
  have hid : ∀ i, i = (if C.oldId then C.sessionId else str C.sessionId) →
      (i = str u.id ∧ u.oldId = false ∨ i = u.id ∧ u.oldId = true) := by
    intro i hi2
    rw [ho, hi]
    cases hx : C.oldId with
    | true => rw [hx] at hi2; exact .inr ⟨hi2, rfl⟩
    | false => rw [hx] at hi2; exact .inl ⟨hi2, rfl⟩
  obtain ⟨blob, hb1, ⟨hn, hd⟩ | ⟨hy, hz, q, qb, hq, hqb, hd⟩⟩ := h
  · refine ⟨blob, _, hb1, rfl, ?_⟩
    rw [if_neg hn, hd]
    have := UserKey.Signed.mk (K := K) (s := u) (method := b!"publickey") (h := 1) (alg := alg) (blob := blob)
      (hid _ rfl) (.inl ⟨rfl, hs⟩) (t := []) (.inl ⟨rfl, by simp [UserKey.Hostbound]⟩)
    rw [List.append_nil, hu, hv] at this
    exact this
  · refine ⟨blob, _, hb1, rfl, ?_⟩
    rw [if_pos ⟨hy, hz⟩, hd]
    have := UserKey.Signed.mk (K := K) (s := u) (method := b!"publickey-hostbound-v00@openssh.com") (h := 1) (alg := alg)
      (blob := blob) (hid _ rfl) (.inl ⟨rfl, hs⟩) (t := str K.hostBlob) (.inr ⟨rfl, rfl⟩)
    rw [hu, hv, hk q qb hq hqb] at this
    exact this

/-- The client crashes only if a certificate goes with a private key by the name of its file. -/
theorem C108_crash_partial {C : Conf} {W : World} {s : St} (h : Reach C W s) (hc : s.status = .crashed) : ByName C W :=
  (reach_inv h).core.crash hc

/-! ### C109: what the server can bring about -/

/-- Whatever the client does when a message comes is an answer to that message. -/
theorem C109_answers {C : Conf} {W : World} {s : St} (h : Reach C W s) (m : Msg) :
    ∃ l, (step C W s m).out = s.out ++ l ∧ (∀ a ∈ l, Answers C W s m a) ∧ packets l ≤ 1 := by
  by_cases hr : s.status = .running
  · have hst := step_stepped (reach_inv h) hr m
    obtain ⟨l, h1, h2⟩ := hst.grows
    refine ⟨l, h1, h2, ?_⟩
    have := hst.packets
    rw [h1] at this
    unfold packets at this ⊢
    rw [List.countP_append] at this
    omega
  · exact ⟨[], by rw [step_stopped hr]; simp, by simp, Nat.zero_le _⟩

/-- The client is authenticated when the server says so, after it has accepted the service, and not otherwise. -/
theorem C109_success {C : Conf} {W : World} {s : St} (h : Reach C W s) (hr : s.status = .running) (m : Msg) :
    (step C W s m).status = .success ↔ m.ty = 52 ∧ s.started = true := by
  constructor
  · exact (step_stepped (reach_inv h) hr m).success
  · rintro ⟨h1, h2⟩
    unfold step
    rw [if_neg (by rw [hr]; simp), if_neg (by rw [h1]; simp), if_neg (by rw [h1]; simp), if_neg (by rw [h1]; simp), if_pos ⟨h1, h2⟩]

/-- A run that ends in success has the two messages in it, in this order. -/
theorem C109_order {C : Conf} {W : World} {b : Before} {answers : List (Option Bytes)} {l : List Msg}
    (h : (run C W (init C b answers) l).status = .success) :
    ∃ l1 m1 l2 m2 l3, l = l1 ++ m1 :: (l2 ++ m2 :: l3) ∧ m1.ty = 6 ∧ m2.ty = 52 := by
  have stay : ∀ (l : List Msg) (s : St), s.status ≠ .running → run C W s l = s := by
    intro l
    induction l with
    | nil => intro s _; rfl
    | cons m l ih => intro s hs; rw [run, step_stopped hs]; exact ih s hs
  have second : ∀ (l : List Msg) (s : St), Inv C W s → s.status = .running → (run C W s l).status = .success →
      ∃ l2 m2 l3, l = l2 ++ m2 :: l3 ∧ m2.ty = 52 ∧ (s.started = true ∨ ∃ m1 ∈ l2, m1.ty = 6) := by
    intro l
    induction l with
    | nil => intro s _ hr hs; rw [run, hr] at hs; cases hs
    | cons m l ih =>
      intro s hi hr hs
      rw [run] at hs
      have hst := step_stepped hi hr m
      by_cases hr2 : (step C W s m).status = .running
      · obtain ⟨l2, m2, l3, h1, h2, h3⟩ := ih _ hst.inv hr2 hs
        refine ⟨m :: l2, m2, l3, by rw [h1]; rfl, h2, ?_⟩
        rcases h3 with h3 | ⟨x, hx, hx6⟩
        · rcases hst.started h3 with h4 | h4
          · exact .inl h4
          · exact .inr ⟨m, List.mem_cons_self, h4⟩
        · exact .inr ⟨x, List.mem_cons_of_mem _ hx, hx6⟩
      · rw [stay l _ hr2] at hs
        obtain ⟨h1, h2⟩ := hst.success hs
        exact ⟨[], m, l, rfl, h1, .inl h2⟩
  obtain ⟨l2, m2, l3, h1, h2, h3⟩ := second l _ (init_inv C W b answers) rfl h
  rcases h3 with h3 | ⟨m1, hm1, h6⟩
  · cases h3
  · obtain ⟨a, c, hac⟩ := List.append_of_mem hm1
    exact ⟨a, m1, c, m2, l3, by rw [h1, hac]; simp, h6, h2⟩

/-- A message that has no business there ends the connection, and nothing is done. -/
theorem C109_unexpected {C : Conf} {W : World} {s : St} (hr : s.status = .running) (m : Msg)
    (hm : (m.ty ∉ [6, 7, 51, 52, 53, 60]) ∨ (m.ty ∈ [51, 52, 53] ∧ s.started = false) ∨ (m.ty = 60 ∧ s.slot = .none)) :
    step C W s m = { s with status := .ended } := by
  unfold step
  rw [if_neg (by rw [hr]; simp)]
  rcases hm with h | ⟨h, hs⟩ | ⟨h, hs⟩
  · simp only [List.mem_cons, List.not_mem_nil, or_false, not_or] at h
    obtain ⟨h1, h2, h3, h4, h5, h6⟩ := h
    rw [if_neg h1, if_neg h2, if_neg (fun h => h3 h.1), if_neg (fun h => h4 h.1), if_neg (fun h => h5 h.1), if_neg h6]
  · simp only [List.mem_cons, List.not_mem_nil, or_false] at h
    have hs' : ¬ s.started = true := by rw [hs]; simp
    have h60 : m.ty ≠ 60 ∧ m.ty ≠ 6 ∧ m.ty ≠ 7 := by omega
    rw [if_neg h60.2.1, if_neg h60.2.2, if_neg (fun h => hs' h.2), if_neg (fun h => hs' h.2), if_neg (fun h => hs' h.2), if_neg h60.1]
  · rw [if_neg (by omega), if_neg (by omega), if_neg (by omega), if_neg (by omega), if_neg (by omega), if_pos h, hs]

end Verif.CliAuth
