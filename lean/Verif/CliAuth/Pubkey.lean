/-
Public keys are offered, and the methods tried in turn.
-/
import Verif.CliAuth.Inv

namespace Verif.CliAuth
open Verif Wire Text
open _root_.Verif.PubKey (Key Kind Curve Pub sigalgByName toBlob)
open _root_.Verif.Match (names)
open scoped _root_.Verif.Match

theorem DoesIn.same {C : Conf} {W : World} {s t : St} (h : Same s t) (a : Act) : DoesIn C W t a ↔ DoesIn C W s a := by
  unfold DoesIn
  rw [h.authlist, h.sigAlgs, h.hasHostbound]

theorem After.trans {C : Conf} {W : World} {s t : St} {r : Res} (hs : Same s t) (hg : Grows (DoesIn C W s) s t)
    (hp : potential C W t ≤ potential C W s) (hk : packets t.out = packets s.out) (h : After C W t r) : After C W s r := by
  have hd : ∀ a, DoesIn C W t a → DoesIn C W s a := fun a => (DoesIn.same hs a).1
  cases r with
  | sent u =>
    obtain ⟨h1, h2, h3, h4, h5, h6, h7⟩ := h
    exact ⟨h1, hs.trans h2, hg.trans (h3.mono hd), h4, h5, Nat.le_trans h6 hp, by rw [h7, hk]⟩
  | unsent u =>
    obtain ⟨h1, h2, h3, h4, h5, h6, h7⟩ := h
    exact ⟨h1, hs.trans h2, hg.trans (h3.mono hd), h4, h5, Nat.le_trans h6 hp, by rw [h7, hk]⟩
  | stop u =>
    obtain ⟨h1, h2, h3, h4, h6, h7⟩ := h
    exact ⟨h1, hs.trans h2, hg.trans (h3.mono hd), h4, Nat.le_trans h6 hp, by rw [h7, hk]⟩

theorem listed_keysOk {C : Conf} {W : World} {l : List Ident} (h : ∀ id ∈ l, Listed C W id) : KeysOk C W l := by
  intro p hp
  obtain ⟨key, ext, agent, file, tried, priv⟩ := p
  obtain ⟨ho, -, -⟩ := h _ hp
  refine ⟨fun hn => ?_, fun ha => ?_⟩
  · simp only at hn ho
    subst hn
    cases ho with
    | private_ _ hf => exact ⟨hf, rfl⟩
  · simp only at ha ho
    subst ha
    exact ⟨_, _, ho⟩

/-- After an attempt to sign. -/
def SignAfter (C : Conf) (W : World) (id : Ident) (k : Key) (s : St) : Res → Prop
  | .sent t => Core C W t ∧ Same s t ∧ Grows (Proves C W s.sigAlgs s.hasHostbound id.file k) s t ∧ SlotOk t ∧ t.status = .running ∧
      potential C W t ≤ potential C W s ∧ packets t.out = packets s.out + 1
  | .unsent t => Core C W t ∧ Same s t ∧ Grows (Proves C W s.sigAlgs s.hasHostbound id.file k) s t ∧ t.slot = s.slot ∧
      t.status = .running ∧ t.prepared = s.prepared ∧ potential C W t ≤ potential C W s ∧ packets t.out = packets s.out
  | .stop t => Core C W t ∧ Same s t ∧ Grows (Proves C W s.sigAlgs s.hasHostbound id.file k) s t ∧
      (t.status ≠ .running ∧ t.status ≠ .success) ∧
      potential C W t ≤ potential C W s ∧ packets t.out = packets s.out

/-- What signing does to the state. -/
theorem sign_after {C : Conf} {W : World} {s : St} {id : Ident} {k : Key} {r : Res} (h : Core C W s) (hr : s.status = .running)
    (hm : s.method = .publickey) (hsl : s.slot = .none ∨ s.slot = .pkOk) 
    (hby : id.isPrivate = false → Origin C W (some k) id.file id.ext id.agent) (hs : SignRes C W id k s r) :
    SignAfter C W id k s r := by
  cases r with
  | unsent t =>
    have hq : Quiet (Proves' C W s.sigAlgs s.hasHostbound id.file k) s t := hs
    obtain ⟨h1, h2, h3⟩ := h.quiet hq (fun a ha => ha.2)
    refine ⟨h1, hq.Same, (hq.grows.mono fun a ha => ha.1), ?_, ?_, ?_, Nat.le_of_eq h2, h3⟩
    all_goals obtain ⟨a, l, rfl, -⟩ := hq
    · rfl
    · exact hr
    · rfl
  | stop t =>
    obtain ⟨u, st, hq, rfl, hst⟩ := hs
    obtain ⟨h1, h2, h3⟩ := h.quiet hq (fun a ha => ha.2)
    refine ⟨⟨h1.methods.same rfl rfl rfl rfl, h1.keys, h1.fresh, h1.len, h1.host, h1.ktypes, h1.active, h1.pw, h1.kb, h1.hb, ?_⟩,
      ⟨hq.Same.1, hq.Same.2, hq.Same.3, hq.Same.4, hq.Same.5, hq.Same.6⟩, ?_, ?_, Nat.le_of_eq h2, h3⟩
    · intro hc
      rcases hst with rfl | ⟨rfl, hcert, hpv, hag, g, hg, hfg⟩
      · cases hc
      · exact ⟨id.file, g, k, ⟨id.ext, hag ▸ hby hpv⟩, hcert, hg, hfg⟩
    · obtain ⟨l, hl, hl2⟩ := hq.grows
      exact ⟨l, hl, fun x hx => (hl2 x hx).1⟩
    · rcases hst with rfl | ⟨rfl, -⟩ <;> exact ⟨fun h => (by cases h), fun h => (by cases h)⟩
  | sent t =>
    obtain ⟨u, p, hq, rfl, hp, m, hro, hmm⟩ := hs
    obtain ⟨a, l, rfl, hl⟩ := hq
    have hn : ∀ x ∈ l, NoPacket x := fun x hx => (hl x hx).2
    have c1 := count_request (out := s.out) hn hro b!"password" (fun b => b.head? = some 0)
    have c2 := count_request (out := s.out) hn hro b!"keyboard-interactive" (fun b => b ≠ [])
    have c3 := count_request (out := s.out) hn hro b!"hostbased" (fun b => b ≠ [])
    have c4 := count_request (out := s.out) hn hro b!"publickey" (fun b => b.head? = some 0)
    rw [if_neg (by rcases hmm with rfl | rfl <;> simp), Nat.add_zero] at c1 c2 c3
    rw [if_neg (by simp), Nat.add_zero] at c4
    refine ⟨⟨h.methods.same rfl rfl rfl rfl, h.keys, h.fresh, h.len, h.host, h.ktypes, h.active, ?_, ?_, ?_, h.crash⟩,
      ⟨rfl, rfl, rfl, rfl, rfl, rfl⟩, ⟨l ++ [_], List.append_assoc _ _ _, ?_⟩, ?_, hr, ?_, ?_⟩
    · show passwords C (s.out ++ l ++ [_]) ≤ C.prompts ∧ passwords C (s.out ++ l ++ [_]) ≤ s.attemptPw
      unfold passwords; rw [c1]; exact h.pw
    · show kbdints C (s.out ++ l ++ [_]) ≤ C.prompts ∧ kbdints C (s.out ++ l ++ [_]) ≤ s.attemptKbd
      unfold kbdints; rw [c2]; exact h.kb
    · show hostbaseds C (s.out ++ l ++ [_]) + s.hostKeys.countP _ ≤ _
      unfold hostbaseds; rw [c3]; exact h.hb
    · intro x hx
      rcases List.mem_append.1 hx with hx | hx
      · exact (hl x hx).1
      · simp only [List.mem_singleton] at hx
        subst hx
        exact hp
    · refine ⟨fun _ => hm, fun h => ?_, fun h => ?_⟩
      all_goals
        have h' : s.slot = _ := h
        rcases hsl with h2 | h2 <;> rw [h2] at h' <;> cases h'
    · show offers C (s.out ++ l ++ [_]) + untried s.keys + _ ≤ _
      unfold offers; rw [c4]; exact Nat.le_refl _
    · exact packets_add hn _ _

theorem pubkeyTest_cases (C : Conf) (k : Key) (s : St) : pubkeyTest C k s = .unsent s ∨
    ∃ alg blob, sigAlgorithm C s true k = some alg ∧ toBlob k false = some blob ∧ pubkeyTest C k s =
      .sent { s.act (.packet 50 (reqHead C s.method.name ++ be 1 0 ++ str alg ++ str blob)) with slot := .pkOk } := by
  unfold pubkeyTest
  cases h1 : sigAlgorithm C s true k with
  | none => exact .inl rfl
  | some alg =>
    cases h2 : toBlob k false with
    | none => exact .inl rfl
    | some blob => exact .inr ⟨alg, blob, rfl, rfl, rfl⟩

theorem untried_rotate {id : Ident} {l : List Ident} (h : id.tried = false) :
    untried (id :: l) = untried (l ++ [{ id with tried := true }]) + 1 := by
  unfold untried
  rw [List.countP_cons, List.countP_append]
  simp [h]

theorem Listed.tried {C : Conf} {W : World} {id : Ident} (h : Listed C W id) (b : Bool) : Listed C W { id with tried := b } :=
  ⟨h.1, h.2, h.3⟩

theorem pubkeyGo_after {C : Conf} {W : World} : ∀ (n : Nat) {s : St}, Core C W s → s.prepared = true → s.method = .publickey →
    Turn C s.authlist .publickey → s.slot = .none → s.status = .running → After C W s (pubkeyGo C W n s) := by
  intro n
  induction n with
  | zero =>
    intro s h _ _ _ hs hr
    exact ⟨h, Same.refl s, Grows.refl _ s, hs, hr, Nat.le_refl _, rfl⟩
  | succ n ih =>
    intro s h hpr hm ht hs hr
    have hun : After C W s (.unsent s) := ⟨h, Same.refl s, Grows.refl _ s, hs, hr, Nat.le_refl _, rfl⟩
    rw [pubkeyGo]
    split
    · exact hun
    · rename_i id l hkeys
      split
      · exact hun
      · rename_i htr
        have htr : id.tried = false := by simpa using htr
        have hid : Listed C W id := h.keys id (by rw [hkeys]; exact List.mem_cons_self)
        have hl : ∀ x ∈ l, Listed C W x := fun x hx => h.keys x (by rw [hkeys]; exact List.mem_cons_of_mem _ hx)
        have hall : ∀ x ∈ l ++ [{ id with tried := true }], Listed C W x := by
          intro x hx
          rcases List.mem_append.1 hx with hx | hx
          · exact hl x hx
          · simp only [List.mem_singleton] at hx
            subst hx
            exact hid.tried true
        have hC : Core C W { s with keys := l ++ [{ id with tried := true }] } := by
          refine ⟨h.methods.same rfl rfl rfl rfl, hall, fun hx => ?_, ?_, h.host, h.ktypes, h.active, h.pw, h.kb, h.hb, h.crash⟩
          · have hx' : s.prepared = false := hx
            rw [hpr] at hx'; cases hx'
          · have := h.len
            rw [hkeys] at this
            simpa using this
        have hpot : potential C W { s with keys := l ++ [{ id with tried := true }] } + 1 = potential C W s := by
          unfold potential
          rw [hkeys, untried_rotate htr]
          show offers C s.out + untried (l ++ [_]) + (if s.prepared then 0 else total C W) + 1 = _
          omega
        split
        · rename_i k hkey
          have hun1 : After C W s (pubkeyGo C W n { s with keys := l ++ [{ id with tried := true }] }) :=
            After.trans (t := { s with keys := l ++ [{ id with tried := true }] }) ⟨rfl, rfl, rfl, rfl, rfl, rfl⟩
              ⟨[], by simp, by simp⟩ (by omega) rfl (ih hC hpr hm ht hs hr)
          rcases pubkeyTest_cases C k { s with keys := l ++ [{ id with tried := true }] } with hc | ⟨alg, blob, halg, hblob, hc⟩
          · rw [hc]
            exact hun1
          · rw [hc]
            have halgok : AlgOk C s.sigAlgs k alg := sigAlgorithm_ok halg
            have hpk : Act.packet 50 (reqHead C s.method.name ++ be 1 0 ++ str alg ++ str blob) =
                request C b!"publickey" (0 :: (str alg ++ str blob)) := by
              rw [hm, be_zero, ← reqHead_eq]
              simp only [List.append_assoc]; rfl
            have hro : requestOf C (Act.packet 50 (reqHead C s.method.name ++ be 1 0 ++ str alg ++ str blob)) =
                some (b!"publickey", 0 :: (str alg ++ str blob)) := by
              rw [hpk]; exact requestOf_request C _ _ (by decide)
            have hn : ∀ x ∈ ([] : List Act), NoPacket x := by simp
            have c1 := count_request (out := s.out) hn hro b!"password" (fun b => b.head? = some 0)
            have c2 := count_request (out := s.out) hn hro b!"keyboard-interactive" (fun b => b ≠ [])
            have c3 := count_request (out := s.out) hn hro b!"hostbased" (fun b => b ≠ [])
            have c4 := count_request (out := s.out) hn hro b!"publickey" (fun b => b.head? = some 0)
            rw [if_neg (by simp), Nat.add_zero] at c1 c2 c3
            rw [if_pos ⟨rfl, by rfl⟩] at c4
            simp only [List.append_nil] at c1 c2 c3 c4
            refine ⟨⟨h.methods.same rfl rfl rfl rfl, hC.keys, hC.fresh, hC.len, h.host, h.ktypes, h.active, ?_, ?_, ?_, h.crash⟩,
              ⟨rfl, rfl, rfl, rfl, rfl, rfl⟩, ⟨[_], rfl, ?_⟩, ?_, hr, ?_, ?_⟩
            · show passwords C (s.out ++ [_]) ≤ C.prompts ∧ passwords C (s.out ++ [_]) ≤ s.attemptPw
              unfold passwords; rw [c1]; exact h.pw
            · show kbdints C (s.out ++ [_]) ≤ C.prompts ∧ kbdints C (s.out ++ [_]) ≤ s.attemptKbd
              unfold kbdints; rw [c2]; exact h.kb
            · show hostbaseds C (s.out ++ [_]) + s.hostKeys.countP _ ≤ _
              unfold hostbaseds; rw [c3]; exact h.hb
            · intro x hx
              simp only [List.mem_singleton] at hx
              subst hx
              rw [hpk]
              exact .offer id.file k id.ext id.agent alg blob ht (hkey ▸ hid.origin) (hid.accepted k hkey) halgok hblob
            · exact ⟨fun _ => hm, fun h => (by cases h), fun h => (by cases h)⟩
            · unfold potential at hpot ⊢
              unfold offers at hpot ⊢
              show List.countP _ (s.out ++ [_]) + untried (l ++ [_]) + _ ≤ _
              rw [c4]
              have hpot' : List.countP (isRequest C b!"publickey" fun b => b.head? = some 0) s.out +
                  untried (l ++ [{ id with tried := true }]) + (if s.prepared then 0 else total C W) + 1 =
                List.countP (isRequest C b!"publickey" fun b => b.head? = some 0) s.out + untried s.keys +
                  (if s.prepared then 0 else total C W) := hpot
              show _ + untried (l ++ [{ id with tried := true }]) + (if s.prepared then 0 else total C W) ≤ _
              omega
            · have := packets_add (out := s.out) hn 50 (reqHead C s.method.name ++ be 1 0 ++ str alg ++ str blob)
              rw [List.append_nil] at this
              exact this
        · rename_i hkey
          have hfile : (id.file, none) ∈ C.idFiles := by
            have := hid.origin
            rw [hkey] at this
            generalize id.ext = e, id.agent = a at this
            cases this with
            | private_ _ hf => exact hf
          have hq := loadFile_quiet C W id.file { s with keys := l ++ [{ id with tried := true }] }
          have hlk := fun k => @loadFile_key C W id.file { s with keys := l ++ [{ id with tried := true }] } k
          cases hx : loadFile C W id.file { s with keys := l ++ [{ id with tried := true }] } with
          | mk o u =>
            rw [hx] at hq hlk
            have hnp : ∀ a, LoadAct C id.file a → NoPacket a := by
              rintro a (⟨t, rfl, -⟩ | ⟨p, rfl⟩) <;> intro ty q hq <;> cases hq
            obtain ⟨hu1, hu2, hu3⟩ := hC.quiet hq hnp
            have hsame : Same s u := Same.trans (t := { s with keys := l ++ [{ id with tried := true }] })
              ⟨rfl, rfl, rfl, rfl, rfl, rfl⟩ hq.Same
            have hgr : Grows (DoesIn C W s) s u := by
              refine Grows.trans (t := { s with keys := l ++ [{ id with tried := true }] }) ⟨[], by simp, by simp⟩
                (hq.grows.mono ?_)
              rintro a (⟨t, rfl, hb⟩ | ⟨p, rfl⟩)
              · exact .passphrase t ht hb
              · exact .load _ p ht hfile
            have hup : u.prepared = true ∧ u.slot = .none ∧ u.status = .running := by
              obtain ⟨a, l, rfl, -⟩ := hq
              exact ⟨hpr, hs, hr⟩
            have hum : u.method = .publickey := by rw [hsame.method]; exact hm
            have hut : Turn C u.authlist .publickey := by rw [hsame.authlist]; exact ht
            cases o with
            | none =>
              simp only
              exact After.trans hsame hgr (by rw [hu2]; omega) hu3 (ih hu1 hup.1 hum hut hup.2.1 hup.2.2)
            | some k =>
              simp only
              obtain ⟨hle, hsk⟩ := hlk k rfl
              have hko : KeysOk C W (l ++ [{ id with tried := true, key := some k, isPrivate := true }]) := by
                intro p hp
                rcases List.mem_append.1 hp with hp | hp
                · exact listed_keysOk hl p hp
                · simp only [List.mem_singleton] at hp
                  subst hp
                  exact ⟨fun h => (by cases h), fun _ => ⟨none, false, .private_ _ hfile⟩⟩
              have hsign := signAndSend_spec (W := W) hko (id := { id with tried := true, key := some k, isPrivate := true })
                (k := k) (by simp) rfl u
              have hts := hsame.sigAlgs
              have hth := hsame.hasHostbound
              generalize hr1 : signAndSend C W (l ++ [{ id with tried := true, key := some k, isPrivate := true }])
                { id with tried := true, key := some k, isPrivate := true } k u = r1 at hsign ⊢
              have hfin := sign_after hu1 hup.2.2 hum (.inl hup.2.1) (fun h => by cases h) hsign
              unfold SignAfter at hfin
              rw [hts, hth] at hfin
              have hdo : ∀ a, Proves C W s.sigAlgs s.hasHostbound id.file k a → DoesIn C W s a :=
                fun a ha => .prove id.file k a ht hfile hle hsk ha
              cases r1 with
              | unsent v =>
                obtain ⟨i1, i2, i3, i4, i5, i6, i7, i8⟩ := hfin
                have hsv := hsame.trans i2
                exact After.trans hsv (hgr.trans (i3.mono hdo)) (by omega) (by rw [i8]; exact hu3)
                  (ih i1 (i6.trans hup.1) (by rw [hsv.method]; exact hm) (by rw [hsv.authlist]; exact ht) (i4.trans hup.2.1) i5)
              | sent v =>
                obtain ⟨i1, i2, i3, i4, i5, i6, i7⟩ := hfin
                exact ⟨i1, hsame.trans i2, hgr.trans (i3.mono hdo), i4, i5, by omega, by rw [i7]; exact congrArg (· + 1) hu3⟩
              | stop v =>
                obtain ⟨i1, i2, i3, i4, i6, i7⟩ := hfin
                exact ⟨i1, hsame.trans i2, hgr.trans (i3.mono hdo), i4, by omega, by rw [i7]; exact hu3⟩

end Verif.CliAuth
