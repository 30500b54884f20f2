/-
What is signed, and by whom.
-/
import Verif.CliAuth.Keys

namespace Verif.CliAuth
open Verif Wire Text
open _root_.Verif.PubKey (Key Kind Curve Pub sigalgByName toBlob)

theorem and_two (n : Nat) : n &&& 2 ≠ 0 ↔ n / 2 % 2 = 1 := by
  have h2 : n.testBit 1 = decide (n / 2 % 2 = 1) := by
    rw [Nat.testBit_succ]
    exact Nat.testBit_zero _
  constructor
  · intro h
    obtain ⟨i, hi⟩ := Nat.exists_testBit_of_ne_zero h
    rw [Nat.testBit_and] at hi
    simp only [Bool.and_eq_true] at hi
    have h3 : i = 1 := by
      have := hi.2
      rw [show (2 : Nat) = 2 ^ 1 from rfl, Nat.testBit_two_pow] at this
      simpa using (by simpa using this : 1 = i).symm
    subst h3
    rw [h2] at hi
    simpa using hi.1
  · intro h h0
    have := congrArg (fun x => x.testBit 1) h0
    simp only [Nat.testBit_and, h2, h] at this
    revert this
    decide

theorem hostbound_iff (C : Conf) (s : St) : hostbound C s = true ↔ s.hasHostbound = true ∧ C.pubkey / 2 % 2 = 1 := by
  unfold hostbound
  simp only [decide_eq_true_eq, and_two]

theorem be_fifty : be 1 50 = [50] := by decide
theorem be_one : be 1 1 = [1] := by decide
theorem be_zero : be 1 0 = [0] := by decide

theorem signedData_spec {C : Conf} {s : St} {k : Key} {alg data : Bytes} (h : signedData C s k alg = some data) :
    Signed C s.hasHostbound k alg data ∧ ∃ p, data = idPart C ++ 50 :: p := by
  unfold signedData at h
  split at h
  · simp at h
  · rename_i blob hb
    by_cases hh : hostbound C s = true
    · rw [if_pos hh] at h
      have h2 := (hostbound_iff C s).1 hh
      split at h
      · simp at h
      · rename_i hkb hk
        simp only [Option.some.injEq] at h
        subst h
        have hm : pkMethod C s = b!"publickey-hostbound-v00@openssh.com" := by unfold pkMethod; rw [if_pos hh]
        rw [hm, be_fifty, be_one]
        constructor
        · refine ⟨blob, hb, .inr ⟨h2.1, h2.2, ?_⟩⟩
          cases hC : C.hostKey with
          | none => rw [hC] at hk; simp at hk
          | some q =>
            rw [hC] at hk
            exact ⟨q, hkb, rfl, hk, rfl⟩
        · exact ⟨_, by simp only [List.append_assoc, List.cons_append, List.nil_append]; rfl⟩
    · rw [if_neg hh] at h
      simp only [Option.some.injEq] at h
      subst h
      have hm : pkMethod C s = b!"publickey" := by unfold pkMethod; rw [if_neg hh]
      rw [hm, be_fifty, be_one]
      constructor
      · exact ⟨blob, hb, .inl ⟨fun h2 => hh ((hostbound_iff C s).2 h2), rfl⟩⟩
      · exact ⟨_, by simp only [List.append_assoc, List.cons_append, List.nil_append]; rfl⟩

/-- The list of keys at hand while something is signed. -/
def KeysOk (C : Conf) (W : World) (keys : List Ident) : Prop :=
  ∀ p ∈ keys, (p.key = none → (p.file, none) ∈ C.idFiles ∧ p.agent = false) ∧ (p.agent = false → FileOf C W p.file)

theorem signIdent_spec (keys : List Ident) (id : Ident) (k : Key) (hk : id.key = some k) :
    (∃ q, (signIdent keys id k).key = some q ∧ q.pub = k.pub ∧ (signIdent keys id k ∈ keys ∨ signIdent keys id k = id)) ∨
    (k.cert ≠ none ∧ id.isPrivate = false ∧ id.agent = false ∧ id.ext = false ∧ signIdent keys id k ∈ keys ∧
      (signIdent keys id k).key = none ∧ fileMatches id.file (signIdent keys id k).file = true) := by
  unfold signIdent
  split
  · rename_i hc
    split
    · rename_i p hp
      have h1 := List.find?_some hp
      have h2 := List.mem_of_find?_eq_some hp
      cases hq : p.key with
      | none => simp [hq] at h1
      | some q =>
        simp only [hq, Option.any_some, equalPublic, decide_eq_true_eq] at h1
        exact .inl ⟨q, rfl, h1.1.symm, .inl h2⟩
    · split
      · rename_i hi
        cases hf : keys.find? fun p => p.key.isNone ∧ fileMatches id.file p.file with
        | none => exact .inl ⟨k, hk, rfl, .inr rfl⟩
        | some p =>
          have h1 := List.find?_some hf
          have h2 := List.mem_of_find?_eq_some hf
          simp only [decide_eq_true_eq, Option.isNone_iff_eq_none] at h1
          refine .inr ⟨?_, hi.1, hi.2.1, hi.2.2, h2, h1.1, h1.2⟩
          intro hn; simp [hn] at hc
      · exact .inl ⟨k, hk, rfl, .inr rfl⟩
  · exact .inl ⟨k, hk, rfl, .inr rfl⟩

theorem fileMatches_spec {f g : Bytes} (h : fileMatches f g = true) :
    f = g ∨ (g ≠ [] ∧ (f = g ++ b!".pub" ∨ f = g ++ b!"-cert.pub")) := by
  unfold fileMatches at h
  simpa using h

/-- Nothing is sent. -/
def NoPacket (a : Act) : Prop := ∀ ty p, a ≠ .packet ty p

def Proves' (C : Conf) (W : World) (sa : Option Bytes) (hb : Bool) (f : Bytes) (k : Key) (a : Act) : Prop :=
  Proves C W sa hb f k a ∧ NoPacket a

/-- What comes of an attempt to sign: `id` is the entry and `k` its key. -/
def SignRes (C : Conf) (W : World) (id : Ident) (k : Key) (s : St) : Res → Prop
  | .unsent t => Quiet (Proves' C W s.sigAlgs s.hasHostbound id.file k) s t
  | .sent t => ∃ u p, Quiet (Proves' C W s.sigAlgs s.hasHostbound id.file k) s u ∧ t = u.act (.packet 50 p) ∧
      Proves C W s.sigAlgs s.hasHostbound id.file k (.packet 50 p) ∧
      ∃ m, requestOf C (.packet 50 p) = some (m, 1 :: p.drop ((reqHead C m).length + 1)) ∧
        (m = b!"publickey" ∨ m = b!"publickey-hostbound-v00@openssh.com")
  | .stop t => ∃ u st, Quiet (Proves' C W s.sigAlgs s.hasHostbound id.file k) s u ∧ t = { u with status := st } ∧
      (st = .ended ∨ (st = .crashed ∧ k.cert ≠ none ∧ id.isPrivate = false ∧ id.agent = false ∧ ∃ g, (g, none) ∈ C.idFiles ∧
        (id.file = g ∨ (g ≠ [] ∧ (id.file = g ++ b!".pub" ∨ id.file = g ++ b!"-cert.pub")))))

/-- Nothing but the answers and the acts has changed. -/
theorem Quiet.fields {P : Act → Prop} {s t : St} (h : Quiet P s t) :
    t.sigAlgs = s.sigAlgs ∧ t.hasHostbound = s.hasHostbound ∧ t.keys = s.keys ∧ t.method = s.method := by
  obtain ⟨a, l, rfl, -⟩ := h
  exact ⟨rfl, rfl, rfl, rfl⟩

theorem signed_same {C : Conf} {s t : St} (h : t.hasHostbound = s.hasHostbound) : hostbound C t = hostbound C s := by
  unfold hostbound; rw [h]

theorem str_requestOf (C : Conf) (m body : Bytes) (hm : m.length ≤ maxString) :
    requestOf C (.packet 50 (str C.user ++ str b!"ssh-connection" ++ str m ++ body)) = some (m, body) := by
  unfold requestOf
  have hp : (str C.user ++ str b!"ssh-connection").isPrefixOf (str C.user ++ str b!"ssh-connection" ++ str m ++ body) = true := by
    rw [List.isPrefixOf_iff_prefix]
    rw [List.append_assoc (str C.user ++ str b!"ssh-connection")]
    exact List.prefix_append _ _
  simp only [hp, and_self, if_true]
  rw [List.append_assoc (str C.user ++ str b!"ssh-connection"), List.drop_left' rfl]
  exact getStr_append _ _ hm

theorem Signed.packet {C : Conf} {hb : Bool} {k : Key} {alg data sig p : Bytes} (h : Signed C hb k alg data)
    (he : (if C.oldId then C.sessionId else str C.sessionId) ++ [50] ++ p = data ++ str sig) :
    ∃ m r, p = str C.user ++ str b!"ssh-connection" ++ str m ++ 1 :: r ∧
      (m = b!"publickey" ∨ m = b!"publickey-hostbound-v00@openssh.com") := by
  obtain ⟨blob, -, ⟨-, hd⟩ | ⟨-, -, hk, hkb, -, -, hd⟩⟩ := h
  · refine ⟨b!"publickey", str alg ++ str blob ++ str sig, ?_, .inl rfl⟩
    rw [hd] at he
    have : ((if C.oldId then C.sessionId else str C.sessionId) ++ [50]) ++ p =
        ((if C.oldId then C.sessionId else str C.sessionId) ++ [50]) ++
          (str C.user ++ str b!"ssh-connection" ++ str b!"publickey" ++ 1 :: (str alg ++ str blob ++ str sig)) := by
      rw [he]; simp [List.append_assoc]
    exact List.append_cancel_left this
  · refine ⟨b!"publickey-hostbound-v00@openssh.com", str alg ++ str blob ++ str hkb ++ str sig, ?_, .inr rfl⟩
    rw [hd] at he
    have : ((if C.oldId then C.sessionId else str C.sessionId) ++ [50]) ++ p =
        ((if C.oldId then C.sessionId else str C.sessionId) ++ [50]) ++
          (str C.user ++ str b!"ssh-connection" ++ str b!"publickey-hostbound-v00@openssh.com" ++
            1 :: (str alg ++ str blob ++ str hkb ++ str sig)) := by
      rw [he]; simp [List.append_assoc]
    exact List.append_cancel_left this

theorem trySign_spec {C : Conf} {W : World} {keys : List Ident} {id : Ident} {k : Key} (hkeys : KeysOk C W keys)
    (hid : id ∈ keys) (hk : id.key = some k) (w : Bool) (again : St → Res) (s : St)
    (hagain : ∀ t, Quiet (Proves' C W s.sigAlgs s.hasHostbound id.file k) s t → SignRes C W id k s (again t)) (s0 : St)
    (h0 : Quiet (Proves' C W s.sigAlgs s.hasHostbound id.file k) s s0) :
    SignRes C W id k s (trySign C W (signIdent keys id k) k w again s0) := by
  obtain ⟨f1, f2, -, -⟩ := h0.fields
  unfold trySign
  split
  · exact h0
  · rename_i alg halg
    have hA : AlgOk C s.sigAlgs k alg := by rw [← f1]; exact sigAlgorithm_ok halg
    split
    · exact ⟨s0, .ended, h0, rfl, .inl rfl⟩
    · rename_i data hdata
      obtain ⟨hS, p, hp⟩ := signedData_spec hdata
      rw [f2] at hS
      have hspec := signIdent_spec keys id k hk
      have hmem : signIdent keys id k ∈ keys := by
        rcases hspec with ⟨q, -, -, h | h⟩ | ⟨-, -, -, -, h, -, -⟩
        · exact h
        · rw [h]; exact hid
        · exact h
      have hwho : ∀ who, SignsFor C (signIdent keys id k) who → Signs C W id.file k who := by
        intro who hw
        rcases hspec with ⟨q, hq, hqk, -⟩ | ⟨hc, -, -, -, hm, hn, hfm⟩
        · cases who with
          | agent x =>
            have hx := hw.2
            rw [hq] at hx; cases hx
            exact .agent _ hqk
          | held x =>
            have hx : (signIdent keys id k).key = some x := hw
            rw [hq] at hx; cases hx
            exact .held _ hqk
          | file g x =>
            obtain ⟨rfl, h1, h2, h3⟩ := hw
            exact .file _ x ((h3 q hq).trans hqk) h1 h2
        · cases who with
          | agent x => have hx := hw.2; rw [hn] at hx; cases hx
          | held x => have hx : (signIdent keys id k).key = some x := hw; rw [hn] at hx; cases hx
          | file g x =>
            obtain ⟨rfl, h1, h2, -⟩ := hw
            exact .named _ x hc ((hkeys _ hm).1 hn).1 (fileMatches_spec hfm) h1 h2
      have hq : Quiet (Proves' C W s.sigAlgs s.hasHostbound id.file k) s0
          (identitySign C W (signIdent keys id k) data alg s0).2 := by
        refine (identitySign_quiet C W (signIdent keys id k) data alg s0).mono (fun a ha => ?_)
        rcases ha with ⟨ha, hmay⟩ | ⟨q, rfl, hsk, hw⟩ | ⟨who, rfl, hw⟩
        · have hfile : FileOf C W (signIdent keys id k).file := by
            refine (hkeys _ hmem).2 ?_
            rcases hmay with h | h
            · exact h
            · exact ((hkeys _ hmem).1 h).2
          rcases ha with ⟨t, rfl, hb⟩ | ⟨p, rfl⟩
          · exact ⟨.passphrase t hb, by intro ty p h; cases h⟩
          · exact ⟨.load _ p hfile, by intro ty p h; cases h⟩
        · exact ⟨.pin _ q hsk (hwho _ hw), by intro ty p h; cases h⟩
        · exact ⟨.sign who data alg hA hS (hwho who hw), by intro ty p h; cases h⟩
      cases hx : identitySign C W (signIdent keys id k) data alg s0 with
      | mk r t =>
        rw [hx] at hq
        have hq' := h0.trans hq
        cases r with
        | ok sig =>
          obtain ⟨e, rest, h1, h2⟩ := identitySign_ok hx
          have hpk : (data ++ str sig).drop ((idPart C).length + 1) = p ++ str sig := by
            rw [hp, List.append_assoc]
            rw [show (idPart C ++ (50 :: p ++ str sig)) = (idPart C ++ [50]) ++ (p ++ str sig) by simp]
            exact List.drop_left' (by simp)
          have he : (if C.oldId then C.sessionId else str C.sessionId) ++ [50] ++ (p ++ str sig) = data ++ str sig := by
            rw [hp]; simp [idPart, List.append_assoc]
          obtain ⟨m, r, hpe, hm⟩ := hS.packet he
          have hml : m.length ≤ maxString := by rcases hm with rfl | rfl <;> decide
          refine ⟨t, p ++ str sig, hq', ?_, .send data alg sig _ e rest hA hS he h1 h2, m, ?_, hm⟩
          · show t.act _ = _
            rw [hpk]
          · rw [hpe, str_requestOf C m _ hml]
            congr 2
            rw [show str C.user ++ str b!"ssh-connection" ++ str m ++ 1 :: r =
              (str C.user ++ str b!"ssh-connection" ++ str m ++ [1]) ++ r by simp]
            have hl : (str C.user ++ str b!"ssh-connection" ++ str m ++ [1]).length = (reqHead C m).length + 1 := by
              rw [reqHead, show service = b!"ssh-connection" from rfl]
              simp only [List.length_append, List.length_singleton]
            rw [List.drop_left' hl]
        | notFound => exact hq'
        | wrongPin => exact hq'
        | error => exact hq'
        | algUnsupported =>
          show SignRes C W id k s (if w then _ else _)
          split
          · split
            · rename_i hc
              refine ⟨t, .crashed, hq', rfl, .inr ⟨rfl, ?_⟩⟩
              rcases hspec with ⟨q, hq2, -, -⟩ | ⟨hc2, hpv, hag, -, hm, hn, hfm⟩
              · rw [hq2] at hc; simp at hc
              · exact ⟨hc2, hpv, hag, _, ((hkeys _ hm).1 hn).1, fileMatches_spec hfm⟩
            · exact hagain t hq'
          · exact hq'

theorem signAndSend_spec {C : Conf} {W : World} {keys : List Ident} {id : Ident} {k : Key} (hkeys : KeysOk C W keys)
    (hid : id ∈ keys) (hk : id.key = some k) (s : St) : SignRes C W id k s (signAndSend C W keys id k s) := by
  unfold signAndSend
  split
  · exact Quiet.refl _ s
  · refine trySign_spec hkeys hid hk true _ s (fun t ht => ?_) s (Quiet.refl _ s)
    exact trySign_spec hkeys hid hk false .unsent s (fun t ht => ht) t ht

end Verif.CliAuth
