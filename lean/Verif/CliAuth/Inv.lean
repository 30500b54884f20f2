/-
What holds in every state of the client, and what each method does to it.
-/
import Verif.CliAuth.Sign
import Verif.CliAuth.Methods

namespace Verif.CliAuth
open Verif Wire Text
open _root_.Verif.PubKey (typeFromName sshName Key Kind Curve Pub sigalgByName toBlob)
open scoped _root_.Verif.Match

/-! ### Counting -/

def isPacket : Act → Bool
  | .packet _ _ => true
  | _ => false

def packets (out : List Act) : Nat := out.countP isPacket

theorem noPacket_request {C : Conf} {a : Act} (h : NoPacket a) (m : Bytes) (p : Bytes → Bool) : isRequest C m p a = false := by
  cases a with
  | packet ty b => exact absurd rfl (h ty b)
  | _ => rfl

theorem noPacket_packet {a : Act} (h : NoPacket a) : isPacket a = false := by
  cases a with
  | packet ty b => exact absurd rfl (h ty b)
  | _ => rfl

theorem count_quiet {C : Conf} {l : List Act} (h : ∀ x ∈ l, NoPacket x) (m : Bytes) (p : Bytes → Bool) :
    l.countP (isRequest C m p) = 0 := by
  rw [List.countP_eq_zero]
  intro x hx
  simp [noPacket_request (h x hx)]

theorem packets_quiet {l : List Act} (h : ∀ x ∈ l, NoPacket x) : l.countP isPacket = 0 := by
  rw [List.countP_eq_zero]
  intro x hx
  simp [noPacket_packet (h x hx)]

/-- The counts, when something quiet and then a request is added. -/
theorem count_request {C : Conf} {out l : List Act} {a : Act} {n body : Bytes} (h : ∀ x ∈ l, NoPacket x)
    (ha : requestOf C a = some (n, body)) (m : Bytes) (p : Bytes → Bool) :
    (out ++ l ++ [a]).countP (isRequest C m p) = out.countP (isRequest C m p) + if n = m ∧ p body = true then 1 else 0 := by
  rw [List.countP_append, List.countP_append, count_quiet h, List.countP_singleton]
  have : isRequest C m p a = decide (n = m ∧ p body = true) := by
    unfold isRequest
    rw [ha]
    rfl
  rw [this]
  simp only [Nat.add_zero, decide_eq_true_eq]

theorem count_append_quiet {C : Conf} {out l : List Act} (h : ∀ x ∈ l, NoPacket x) (m : Bytes) (p : Bytes → Bool) :
    (out ++ l).countP (isRequest C m p) = out.countP (isRequest C m p) := by
  rw [List.countP_append, count_quiet h, Nat.add_zero]

def untried (l : List Ident) : Nat := l.countP fun id => !id.tried

/-- As many keys can be in the list. -/
def total (C : Conf) (W : World) : Nat := C.idFiles.length + C.certFiles.length + (W.agent.getD []).length

/-- How many keys have been offered and can be offered yet. -/
def potential (C : Conf) (W : World) (s : St) : Nat :=
  offers C s.out + untried s.keys + if s.prepared then 0 else total C W

theorem untried_le (l : List Ident) : untried l ≤ l.length := List.countP_le_length

theorem takeFile_length {k : Key} {l l' : List Ident} {id : Ident} (h : takeFile k l = some (id, l')) :
    l.length = l'.length + 1 := by
  induction l generalizing l' with
  | nil => simp [takeFile] at h
  | cons a l ih =>
    rw [takeFile] at h
    split at h
    · simp only [Option.some.injEq, Prod.mk.injEq] at h
      obtain ⟨rfl, rfl⟩ := h
      rfl
    · split at h
      · simp at h
      · rename_i x l2 h2
        simp only [Option.some.injEq, Prod.mk.injEq] at h
        obtain ⟨rfl, rfl⟩ := h
        have := ih h2
        simp only [List.length_cons]
        omega

theorem agentGo_length (C : Conf) : ∀ (l : List (Key × Bytes)) (files pref other : List Ident),
    (agentGo C l files pref other).1.length + (agentGo C l files pref other).2.length ≤
      l.length + files.length + pref.length + other.length := by
  intro l
  induction l with
  | nil => intro files pref other; simp only [agentGo, List.length_append, List.length_nil]; omega
  | cons a l ih =>
    obtain ⟨k, comment⟩ := a
    intro files pref other
    rw [agentGo]
    simp only [List.length_cons]
    split
    · have := ih files pref other; omega
    · split
      · rename_i id files' ht
        have := takeFile_length ht
        have := ih files' (pref ++ [{ id with agent := true }]) other
        simp only [List.length_append, List.length_singleton] at this
        omega
      · split
        · have := ih files pref other; omega
        · have := ih files pref (other ++ [⟨some k, false, true, comment, false, false⟩])
          simp only [List.length_append, List.length_singleton] at this
          omega

theorem tokenGo_length (C : Conf) : ∀ (l pref done : List Ident),
    (tokenGo C pref done l).1.length + (tokenGo C pref done l).2.length ≤ l.length + pref.length + done.length := by
  intro l
  induction l with
  | nil => intro pref done; simp only [tokenGo, List.length_nil]; omega
  | cons id l ih =>
    intro pref done
    rw [tokenGo]
    simp only [List.length_cons]
    split
    · have := ih pref (done ++ [id])
      simp only [List.length_append, List.length_singleton] at this
      omega
    · split
      · have := ih (pref ++ [id]) done
        simp only [List.length_append, List.length_singleton] at this
        omega
      · split
        · have := ih pref done; omega
        · have := ih pref (done ++ [id])
          simp only [List.length_append, List.length_singleton] at this
          omega

theorem prepare_length (C : Conf) (W : World) (s : St) : (prepare C W s).length ≤ total C W := by
  unfold prepare
  have hw : (withAgent C W).1.length + (withAgent C W).2.length ≤ total C W := by
    have h1 := List.length_filterMap_le (fromFile C) C.idFiles
    have h2 := List.length_filterMap_le (fromCert C) C.certFiles
    unfold withAgent total
    split
    · simp only; omega
    · rename_i l hl
      have := agentGo_length C l (C.idFiles.filterMap (fromFile C)) (C.certFiles.filterMap (fromCert C)) []
      simp only [hl, Option.getD_some, List.length_nil] at this ⊢
      omega
  cases hx : withAgent C W with
  | mk files pref =>
    rw [hx] at hw
    have ht := tokenGo_length C files pref []
    cases hy : tokenGo C pref [] files with
    | mk p f =>
      rw [hy] at ht
      simp only [hy]
      have := List.length_filter_le (keyAllowed C s) (p ++ f)
      simp only [List.length_append, List.length_nil] at this ht hw
      omega

/-! ### The invariant -/

structure Core (C : Conf) (W : World) (s : St) : Prop where
  methods : MethodInv C s
  keys : ∀ id ∈ s.keys, Listed C W id
  fresh : s.prepared = false → s.keys = []
  len : s.keys.length ≤ total C W
  host : ∀ k, some k ∈ s.hostKeys → some k ∈ C.hostKeys
  ktypes : ∀ b, s.ktypes = some b → ∀ t ∈ split COMMA b, t ∈ split COMMA C.hostAccepted
  active : ∀ t, s.activeKtype = some t → t ∈ split COMMA C.hostAccepted
  pw : passwords C s.out ≤ C.prompts ∧ passwords C s.out ≤ s.attemptPw
  kb : kbdints C s.out ≤ C.prompts ∧ kbdints C s.out ≤ s.attemptKbd
  hb : hostbaseds C s.out + s.hostKeys.countP (·.isSome) ≤ C.hostKeys.countP (·.isSome)
  crash : s.status = .crashed → ByName C W

/-- What does not change while a method is tried. -/
structure Same (s t : St) : Prop where
  authlist : t.authlist = s.authlist
  sigAlgs : t.sigAlgs = s.sigAlgs
  hasHostbound : t.hasHostbound = s.hasHostbound
  method : t.method = s.method
  off : t.off = s.off
  started : t.started = s.started

theorem Same.refl (s : St) : Same s s := ⟨rfl, rfl, rfl, rfl, rfl, rfl⟩

theorem Same.trans {s t u : St} (h : Same s t) (k : Same t u) : Same s u :=
  ⟨k.1.trans h.1, k.2.trans h.2, k.3.trans h.3, k.4.trans h.4, k.5.trans h.5, k.6.trans h.6⟩

theorem Quiet.Same {P : Act → Prop} {s t : St} (h : Quiet P s t) : Same s t := by
  obtain ⟨a, l, rfl, -⟩ := h
  exact ⟨rfl, rfl, rfl, rfl, rfl, rfl⟩

/-- Acts with the property are added. -/
def Grows (P : Act → Prop) (s t : St) : Prop := ∃ l, t.out = s.out ++ l ∧ ∀ x ∈ l, P x

theorem Grows.refl (P : Act → Prop) (s : St) : Grows P s s := ⟨[], by simp, by simp⟩

theorem Grows.trans {P : Act → Prop} {s t u : St} (h : Grows P s t) (k : Grows P t u) : Grows P s u := by
  obtain ⟨l, h1, h2⟩ := h
  obtain ⟨m, k1, k2⟩ := k
  refine ⟨l ++ m, by rw [k1, h1, List.append_assoc], fun x hx => ?_⟩
  rcases List.mem_append.1 hx with hx | hx
  · exact h2 x hx
  · exact k2 x hx

theorem Grows.mono {P Q : Act → Prop} {s t : St} (h : Grows P s t) (k : ∀ a, P a → Q a) : Grows Q s t := by
  obtain ⟨l, h1, h2⟩ := h
  exact ⟨l, h1, fun x hx => k x (h2 x hx)⟩

theorem Quiet.grows {P : Act → Prop} {s t : St} (h : Quiet P s t) : Grows P s t := by
  obtain ⟨a, l, rfl, hl⟩ := h
  exact ⟨l, rfl, hl⟩

/-- The handler of message 60 fits the method. -/
def SlotOk (s : St) : Prop :=
  (s.slot = .pkOk → s.method = .publickey) ∧ (s.slot = .changeReq → s.method = .password) ∧
    (s.slot = .infoReq → s.method = .kbdint)

/-- What the client does in the state, when a method is tried. -/
abbrev DoesIn (C : Conf) (W : World) (s : St) : Act → Prop := Does C W s.authlist s.sigAlgs s.hasHostbound

/-- After a method has been tried. -/
def After (C : Conf) (W : World) (s : St) : Res → Prop
  | .sent t => Core C W t ∧ Same s t ∧ Grows (DoesIn C W s) s t ∧ SlotOk t ∧ t.status = .running ∧
      potential C W t ≤ potential C W s ∧ packets t.out = packets s.out + 1
  | .unsent t => Core C W t ∧ Same s t ∧ Grows (DoesIn C W s) s t ∧ t.slot = .none ∧ t.status = .running ∧
      potential C W t ≤ potential C W s ∧ packets t.out = packets s.out
  | .stop t => Core C W t ∧ Same s t ∧ Grows (DoesIn C W s) s t ∧ (t.status ≠ .running ∧ t.status ≠ .success) ∧
      potential C W t ≤ potential C W s ∧ packets t.out = packets s.out

/-- Only answers are used up and acts other than packets are added: nothing of the invariant is touched. -/
theorem Core.quiet {C : Conf} {W : World} {P : Act → Prop} {s t : St} (h : Core C W s) (hq : Quiet P s t)
    (hP : ∀ a, P a → NoPacket a) : Core C W t ∧ potential C W t = potential C W s ∧ packets t.out = packets s.out := by
  obtain ⟨a, l, rfl, hl⟩ := hq
  have hn : ∀ x ∈ l, NoPacket x := fun x hx => hP x (hl x hx)
  refine ⟨⟨h.methods.same rfl rfl rfl rfl, h.keys, h.fresh, h.len, h.host, h.ktypes, h.active, ?_, ?_, ?_, h.crash⟩, ?_, ?_⟩
  · simpa only [passwords, count_append_quiet hn] using h.pw
  · simpa only [kbdints, count_append_quiet hn] using h.kb
  · simpa only [hostbaseds, count_append_quiet hn] using h.hb
  · simp only [potential, offers, count_append_quiet hn]
  · simp only [packets, List.countP_append, packets_quiet hn, Nat.add_zero]

theorem requestOf_request (C : Conf) (m body : Bytes) (hm : m.length ≤ maxString) :
    requestOf C (request C m body) = some (m, body) := str_requestOf C m body hm

theorem reqHead_eq (C : Conf) (m body : Bytes) : Act.packet 50 (reqHead C m ++ body) = request C m body := by
  unfold request reqHead service; rfl

theorem packets_add {out l : List Act} (h : ∀ x ∈ l, NoPacket x) (ty : Nat) (b : Bytes) :
    packets (out ++ l ++ [.packet ty b]) = packets out + 1 := by
  unfold packets
  rw [List.countP_append, List.countP_append, packets_quiet h, List.countP_singleton]
  rfl

/-! ### Each method -/

theorem passwd_after {C : Conf} {W : World} {s : St} (h : Core C W s) (hm : s.method = .password)
    (ht : Turn C s.authlist .password) (hs : s.slot = .none) (hr : s.status = .running) : After C W s (userauthPasswd C s) := by
  unfold userauthPasswd
  split
  · refine ⟨?_, ⟨rfl, rfl, rfl, rfl, rfl, rfl⟩, ⟨[], by simp, by simp⟩, hs, hr, Nat.le_refl _, rfl⟩
    exact ⟨h.methods.same rfl rfl rfl rfl, h.keys, h.fresh, h.len, h.host, h.ktypes, h.active,
      ⟨h.pw.1, Nat.le_succ_of_le h.pw.2⟩, h.kb, h.hb, h.crash⟩
  · rename_i hlt
    have hq : Quiet (fun a => a = .prompt (C.user ++ b!"@" ++ hostName C ++ b!"'s password: ") false)
        { s with attemptPw := s.attemptPw + 1 }
        (read { s with attemptPw := s.attemptPw + 1 } (C.user ++ b!"@" ++ hostName C ++ b!"'s password: ") false).2 :=
      read_quiet _ rfl
    cases hx : read { s with attemptPw := s.attemptPw + 1 } (C.user ++ b!"@" ++ hostName C ++ b!"'s password: ") false with
    | mk pw u =>
      rw [hx] at hq
      obtain ⟨a, l, rfl, hl⟩ := hq
      have hn : ∀ x ∈ l, NoPacket x := by
        intro x hx ty p hxp
        rw [hl x hx] at hxp; cases hxp
      have hpk : Act.packet 50 (reqHead C s.method.name ++ be 1 0 ++ str pw) = request C b!"password" (0 :: str pw) := by
        rw [hm, be_zero, ← reqHead_eq, List.append_assoc]; rfl
      have hro : requestOf C (Act.packet 50 (reqHead C s.method.name ++ be 1 0 ++ str pw)) = some (b!"password", 0 :: str pw) := by
        rw [hpk]; exact requestOf_request C _ _ (by decide)
      have h1 := count_request (out := s.out) hn hro b!"password" (fun b => b.head? = some 0)
      have h2 := count_request (out := s.out) hn hro b!"keyboard-interactive" (fun b => b ≠ [])
      have h3 := count_request (out := s.out) hn hro b!"hostbased" (fun b => b ≠ [])
      have h4 := count_request (out := s.out) hn hro b!"publickey" (fun b => b.head? = some 0)
      rw [if_pos ⟨rfl, by rfl⟩] at h1
      rw [if_neg (by simp), Nat.add_zero] at h2 h3 h4
      have hpw := h.pw
      simp only [ge_iff_le, Nat.not_le] at hlt
      refine ⟨⟨h.methods.same rfl rfl rfl rfl, h.keys, h.fresh, h.len, h.host, h.ktypes, h.active, ?_, ?_, ?_, h.crash⟩,
        ⟨rfl, rfl, rfl, rfl, rfl, rfl⟩, ?_, ?_, hr, ?_, ?_⟩
      · show passwords C (s.out ++ l ++ [_]) ≤ C.prompts ∧ passwords C (s.out ++ l ++ [_]) ≤ s.attemptPw + 1
        unfold passwords at hpw ⊢
        rw [h1]; omega
      · show kbdints C (s.out ++ l ++ [_]) ≤ C.prompts ∧ kbdints C (s.out ++ l ++ [_]) ≤ s.attemptKbd
        unfold kbdints; rw [h2]; exact h.kb
      · show hostbaseds C (s.out ++ l ++ [_]) + s.hostKeys.countP _ ≤ _
        unfold hostbaseds; rw [h3]; exact h.hb
      · refine ⟨l ++ [_], List.append_assoc _ _ _, fun x hx => ?_⟩
        rcases List.mem_append.1 hx with hx | hx
        · rw [hl x hx]
          exact .askPassword ht
        · simp only [List.mem_singleton] at hx
          subst hx
          show DoesIn C W s (Act.packet 50 (reqHead C s.method.name ++ be 1 0 ++ str pw))
          rw [hpk]
          exact .password pw ht
      · exact ⟨fun h => (by cases h), fun _ => hm, fun h => (by cases h)⟩
      · show offers C (s.out ++ l ++ [_]) + untried s.keys + _ ≤ _
        unfold offers; rw [h4]; exact Nat.le_refl _
      · exact packets_add hn _ _

theorem kbdint_after {C : Conf} {W : World} {s : St} (h : Core C W s) (hm : s.method = .kbdint)
    (ht : Turn C s.authlist .kbdint) (hs : s.slot = .none) (hr : s.status = .running) : After C W s (userauthKbdint C s) := by
  unfold userauthKbdint
  have hun : Core C W { s with attemptKbd := s.attemptKbd + 1 } :=
    ⟨h.methods.same rfl rfl rfl rfl, h.keys, h.fresh, h.len, h.host, h.ktypes, h.active,
      h.pw, ⟨h.kb.1, Nat.le_succ_of_le h.kb.2⟩, h.hb, h.crash⟩
  split
  · exact ⟨hun, ⟨rfl, rfl, rfl, rfl, rfl, rfl⟩, ⟨[], by simp, by simp⟩, hs, hr, Nat.le_refl _, rfl⟩
  · rename_i hlt
    split
    · refine ⟨⟨hun.methods.same rfl rfl rfl rfl, h.keys, h.fresh, h.len, h.host, h.ktypes, h.active,
        h.pw, hun.kb, h.hb, h.crash⟩, ⟨rfl, rfl, rfl, rfl, rfl, rfl⟩, ⟨[], by simp, by simp⟩, rfl, hr, Nat.le_refl _, rfl⟩
    · have hn : ∀ x ∈ ([] : List Act), NoPacket x := by simp
      have hpk : Act.packet 50 (reqHead C s.method.name ++ str [] ++ str C.devices) =
          request C b!"keyboard-interactive" (str [] ++ str C.devices) := by
        rw [hm, ← reqHead_eq, List.append_assoc]; rfl
      have hro : requestOf C (Act.packet 50 (reqHead C s.method.name ++ str [] ++ str C.devices)) =
          some (b!"keyboard-interactive", str [] ++ str C.devices) := by
        rw [hpk]; exact requestOf_request C _ _ (by decide)
      have h1 := count_request (out := s.out) hn hro b!"password" (fun b => b.head? = some 0)
      have h2 := count_request (out := s.out) hn hro b!"keyboard-interactive" (fun b => b ≠ [])
      have h3 := count_request (out := s.out) hn hro b!"hostbased" (fun b => b ≠ [])
      have h4 := count_request (out := s.out) hn hro b!"publickey" (fun b => b.head? = some 0)
      rw [if_pos ⟨rfl, by rfl⟩] at h2
      rw [if_neg (by simp), Nat.add_zero] at h1 h3 h4
      simp only [List.append_nil] at h1 h2 h3 h4
      have hkb := h.kb
      simp only [ge_iff_le, Nat.not_le] at hlt
      refine ⟨⟨h.methods.same rfl rfl rfl rfl, h.keys, h.fresh, h.len, h.host, h.ktypes, h.active, ?_, ?_, ?_, h.crash⟩,
        ⟨rfl, rfl, rfl, rfl, rfl, rfl⟩, ?_, ?_, hr, ?_, ?_⟩
      · show passwords C (s.out ++ [_]) ≤ C.prompts ∧ passwords C (s.out ++ [_]) ≤ s.attemptPw
        unfold passwords; rw [h1]; exact h.pw
      · show kbdints C (s.out ++ [_]) ≤ C.prompts ∧ kbdints C (s.out ++ [_]) ≤ s.attemptKbd + 1
        unfold kbdints at hkb ⊢
        rw [h2]; omega
      · show hostbaseds C (s.out ++ [_]) + s.hostKeys.countP _ ≤ _
        unfold hostbaseds; rw [h3]; exact h.hb
      · refine ⟨[_], rfl, fun x hx => ?_⟩
        simp only [List.mem_singleton] at hx
        subst hx
        rw [hpk]
        exact .kbdint ht
      · exact ⟨fun h => (by cases h), fun h => (by cases h), fun _ => hm⟩
      · show offers C (s.out ++ [_]) + untried s.keys + _ ≤ _
        unfold offers; rw [h4]; exact Nat.le_refl _
      · have := packets_add (out := s.out) hn 50 (reqHead C s.method.name ++ str [] ++ str C.devices)
        rw [List.append_nil] at this
        exact this

/-! Host-based authentication -/

theorem rsa_name {k : Key} {c : Bool} (h : typeFromName (sshKeyName k) = some (.rsa, c)) :
    k.pub.kind = .rsa ∧ k.cert.isSome = c := by
  have key : ∀ (a : Kind) (b : Bool) (n : Option Curve), typeFromName ((sshName a b n).getD b!"ssh-unknown") = some (.rsa, c) →
      a = .rsa ∧ b = c := by
    intro a b n
    cases c <;> cases a <;> cases b <;> (try (cases n)) <;> (try (rename_i n; cases n)) <;> decide
  exact key _ _ _ h

theorem keyMatches_ok {k : Key} {l : Bytes} (h : keyMatches k l = true) : TypeIn l k := by
  unfold keyMatches at h
  split at h
  · cases h
  · rename_i t ht
    split at h
    · cases h
    · split at h
      · rename_i he
        rw [he] at ht
        obtain ⟨h1, h2⟩ := rsa_name ht
        have h2 : k.cert = none := by simpa using h2
        simp only [decide_eq_true_eq] at h
        rcases h with h | h | h
        · exact ⟨_, h, .inr (.inl ⟨h1, h2, .inl rfl⟩)⟩
        · exact ⟨_, h, .inr (.inl ⟨h1, h2, .inr (.inl rfl)⟩)⟩
        · exact ⟨_, h, .inr (.inl ⟨h1, h2, .inr (.inr rfl)⟩)⟩
      · split at h
        · rename_i he
          rw [he] at ht
          obtain ⟨h1, h2⟩ := rsa_name ht
          have h2 : k.cert ≠ none := by simpa [Option.isSome_iff_ne_none] using h2
          simp only [decide_eq_true_eq] at h
          rcases h with h | h | h
          · exact ⟨_, h, .inr (.inr ⟨h1, h2, .inl rfl⟩)⟩
          · exact ⟨_, h, .inr (.inr ⟨h1, h2, .inr (.inl rfl)⟩)⟩
          · exact ⟨_, h, .inr (.inr ⟨h1, h2, .inr (.inr rfl)⟩)⟩
        · exact ⟨_, by simpa using h, .inl rfl⟩

theorem takeKey_spec {t : Bytes} {l l' : List (Option Key)} {k : Key} (h : takeKey t l = some (k, l')) :
    some k ∈ l ∧ keyMatches k t = true ∧ (∀ x, some x ∈ l' → some x ∈ l) ∧
      l.countP (·.isSome) = l'.countP (·.isSome) + 1 := by
  induction l generalizing l' with
  | nil => simp [takeKey] at h
  | cons a l ih =>
    cases a with
    | none =>
      rw [takeKey] at h
      split at h
      · simp at h
      · rename_i x l2 h2
        simp only [Option.some.injEq, Prod.mk.injEq] at h
        obtain ⟨rfl, rfl⟩ := h
        obtain ⟨i1, i2, i3, i4⟩ := ih h2
        refine ⟨List.mem_cons_of_mem _ i1, i2, fun y hy => ?_, ?_⟩
        · simp only [List.mem_cons, reduceCtorEq, false_or] at hy
          exact List.mem_cons_of_mem _ (i3 y hy)
        · simpa using i4
    | some q =>
      rw [takeKey] at h
      split at h
      · rename_i hq
        simp only [Option.some.injEq, Prod.mk.injEq] at h
        obtain ⟨rfl, rfl⟩ := h
        refine ⟨List.mem_cons_self, hq, fun y hy => ?_, by simp⟩
        simp only [List.mem_cons, reduceCtorEq, false_or] at hy
        exact List.mem_cons_of_mem _ hy
      · split at h
        · simp at h
        · rename_i x l2 h2
          simp only [Option.some.injEq, Prod.mk.injEq] at h
          obtain ⟨rfl, rfl⟩ := h
          obtain ⟨i1, i2, i3, i4⟩ := ih h2
          refine ⟨List.mem_cons_of_mem _ i1, i2, fun y hy => ?_, ?_⟩
          · rcases List.mem_cons.1 hy with hy | hy
            · rw [hy]; exact List.mem_cons_self
            · exact List.mem_cons_of_mem _ (i3 y hy)
          · simp only [List.countP_cons, Option.isSome_some, if_true]; omega

theorem popType_spec {o o' : Option Bytes} {t : Bytes} {all : List Bytes} (h : popType o = (some t, o'))
    (ho : ∀ b, o = some b → ∀ t ∈ split COMMA b, t ∈ all) :
    t ∈ all ∧ ∀ b, o' = some b → ∀ t ∈ split COMMA b, t ∈ all := by
  cases o with
  | none => simp [popType] at h
  | some b =>
    simp only [popType, Prod.mk.injEq, Option.some.injEq] at h
    obtain ⟨rfl, rfl⟩ := h
    have hall := ho b rfl
    rw [split_strsep] at hall
    refine ⟨hall _ List.mem_cons_self, fun c hc t ht => hall t ?_⟩
    rw [hc]
    exact List.mem_cons_of_mem _ ht

theorem pickKey_spec {keys keys' : List (Option Key)} {all : List Bytes} {t : Bytes} {o' : Option Bytes} {k : Key} :
    ∀ (n : Nat) (active o : Option Bytes), (∀ t, active = some t → t ∈ all) →
      (∀ b, o = some b → ∀ t ∈ split COMMA b, t ∈ all) → pickKey keys n active o = some (t, o', k, keys') →
      t ∈ all ∧ (∀ b, o' = some b → ∀ t ∈ split COMMA b, t ∈ all) ∧ takeKey t keys = some (k, keys') := by
  intro n
  induction n with
  | zero => intro active o _ _ h; simp [pickKey] at h
  | succ n ih =>
    intro active o ha ho h
    have hfin : ∀ x o2, (x ∈ all ∧ ∀ b, o2 = some b → ∀ t ∈ split COMMA b, t ∈ all) →
        (if x = [] then none else
          match takeKey x keys with
          | some (k, keys) => some (x, o2, k, keys)
          | none => pickKey keys n none o2) = some (t, o', k, keys') →
        t ∈ all ∧ (∀ b, o' = some b → ∀ t ∈ split COMMA b, t ∈ all) ∧ takeKey t keys = some (k, keys') := by
      intro x o2 hx h
      split at h
      · simp at h
      · split at h
        · rename_i q keys2 hk
          simp only [Option.some.injEq, Prod.mk.injEq] at h
          obtain ⟨rfl, rfl, rfl, rfl⟩ := h
          exact ⟨hx.1, hx.2, hk⟩
        · exact ih none o2 (by simp) hx.2 h
    cases active with
    | some a => exact hfin a o ⟨ha _ rfl, ho⟩ h
    | none =>
      cases hp : popType o with
      | mk x o2 =>
        cases x with
        | none =>
          simp only [pickKey, hp] at h
          cases h
        | some x =>
          simp only [pickKey, hp] at h
          exact hfin x o2 (popType_spec hp ho) h

theorem hostbased_after {C : Conf} {W : World} {s : St} (h : Core C W s) (hm : s.method = .hostbased)
    (ht : Turn C s.authlist .hostbased) (hs : s.slot = .none) (hr : s.status = .running) :
    After C W s (userauthHostbased C W s) := by
  unfold userauthHostbased
  cases hx : pickKey s.hostKeys (C.hostAccepted.length + (s.ktypes.getD []).length + 3) s.activeKtype
      (some (s.ktypes.getD C.hostAccepted)) with
  | none =>
    refine ⟨⟨h.methods.same rfl rfl rfl rfl, h.keys, h.fresh, h.len, h.host, by simp, by simp, h.pw, h.kb, h.hb, h.crash⟩,
      ⟨rfl, rfl, rfl, rfl, rfl, rfl⟩, ⟨[], by simp, by simp⟩, hs, hr, Nat.le_refl _, rfl⟩
  | some q =>
    obtain ⟨alg, o', k, keys'⟩ := q
    have hkt : ∀ b, some (s.ktypes.getD C.hostAccepted) = some b → ∀ t ∈ split COMMA b, t ∈ split COMMA C.hostAccepted := by
      intro b hb
      simp only [Option.some.injEq] at hb
      subst hb
      cases hk : s.ktypes with
      | none => exact fun t ht => ht
      | some c => exact h.ktypes c hk
    obtain ⟨h1, h2, h3⟩ := pickKey_spec _ _ _ h.active hkt hx
    obtain ⟨k1, k2, k3, k4⟩ := takeKey_spec h3
    have hb := h.hb
    have hC : ∀ l : List Act, (∀ x ∈ l, NoPacket x) → Core C W
        { s with ktypes := o', activeKtype := some alg, hostKeys := keys', out := s.out ++ l } := by
      intro l hn
      refine ⟨h.methods.same rfl rfl rfl rfl, h.keys, h.fresh, h.len, fun x hx => h.host x (k3 x hx), h2, ?_, ?_, ?_, ?_, h.crash⟩
      · intro t ht; cases ht; exact h1
      · simpa only [passwords, count_append_quiet hn] using h.pw
      · simpa only [kbdints, count_append_quiet hn] using h.kb
      · simp only [hostbaseds, count_append_quiet hn]
        simp only [hostbaseds] at hb
        omega
    show After C W s (hostSend C W alg k { s with ktypes := o', activeKtype := some alg, hostKeys := keys' })
    unfold hostSend
    split
    · rename_i _ _ blob1 lname blob hb1 hl hb2
      have hok : HostOk C W k alg blob lname := ⟨h.host k k1, h1, keyMatches_ok k2, hl, hb2⟩
      have hdata : str C.sessionId ++ be 1 50 ++ reqHead C s.method.name ++ hostBody C alg blob (lname ++ b!".") =
          str C.sessionId ++ [50] ++ str C.user ++ str b!"ssh-connection" ++ str b!"hostbased" ++ hostRequest C alg blob lname := by
        rw [hm, be_fifty]
        simp only [reqHead, hostBody, hostRequest, service, Meth.name, List.append_assoc]
      have hks : DoesIn C W s (.keysign k (str C.sessionId ++ be 1 50 ++ reqHead C s.method.name ++ hostBody C alg blob (lname ++ b!"."))) := by
        rw [hdata]
        exact .keysign k alg blob lname ht hok
      have hn : ∀ x ∈ [Act.keysign k (str C.sessionId ++ be 1 50 ++ reqHead C s.method.name ++ hostBody C alg blob (lname ++ b!"."))],
          NoPacket x := by
        intro x hx ty p hxp
        simp only [List.mem_singleton] at hx
        rw [hx] at hxp; cases hxp
      split
      · refine ⟨hC _ hn, ⟨rfl, rfl, rfl, rfl, rfl, rfl⟩, ⟨_, rfl, ?_⟩, hs, hr, ?_, ?_⟩
        · intro x hx
          simp only [List.mem_singleton] at hx
          subst hx
          exact hks
        · show offers C (s.out ++ _) + untried s.keys + _ ≤ _
          simp only [offers, count_append_quiet hn]
          exact Nat.le_refl _
        · show packets (s.out ++ _) = _
          simp only [packets, List.countP_append, packets_quiet hn, Nat.add_zero]
      · rename_i sig _
        have hpk : Act.packet 50 (reqHead C s.method.name ++ hostBody C alg blob (lname ++ b!".") ++ str sig) =
            request C b!"hostbased" (hostRequest C alg blob lname ++ str sig) := by
          rw [hm, ← reqHead_eq, List.append_assoc]; rfl
        have hro : requestOf C (Act.packet 50 (reqHead C s.method.name ++ hostBody C alg blob (lname ++ b!".") ++ str sig)) =
            some (b!"hostbased", hostRequest C alg blob lname ++ str sig) := by
          rw [hpk]; exact requestOf_request C _ _ (by decide)
        have c1 := count_request (out := s.out) hn hro b!"password" (fun b => b.head? = some 0)
        have c2 := count_request (out := s.out) hn hro b!"keyboard-interactive" (fun b => b ≠ [])
        have c3 := count_request (out := s.out) hn hro b!"hostbased" (fun b => b ≠ [])
        have c4 := count_request (out := s.out) hn hro b!"publickey" (fun b => b.head? = some 0)
        rw [if_neg (by simp), Nat.add_zero] at c1 c2 c4
        have c3' : List.countP (isRequest C b!"hostbased" fun b => b ≠ []) (s.out ++ [Act.keysign k (str C.sessionId ++ be 1 50 ++
            reqHead C s.method.name ++ hostBody C alg blob (lname ++ b!"."))] ++ [Act.packet 50 (reqHead C s.method.name ++
            hostBody C alg blob (lname ++ b!".") ++ str sig)]) ≤ hostbaseds C s.out + 1 := by
          rw [c3]; unfold hostbaseds; split <;> omega
        refine ⟨⟨h.methods.same rfl rfl rfl rfl, h.keys, h.fresh, h.len, fun x hx => h.host x (k3 x hx), h2, ?_, ?_, ?_, ?_, h.crash⟩,
          ⟨rfl, rfl, rfl, rfl, rfl, rfl⟩, ⟨[_, _], List.append_assoc _ _ _, ?_⟩, ?_, hr, ?_, ?_⟩
        · intro t ht; cases ht; exact h1
        · show passwords C (s.out ++ [_] ++ [_]) ≤ C.prompts ∧ passwords C (s.out ++ [_] ++ [_]) ≤ s.attemptPw
          unfold passwords; rw [c1]; exact h.pw
        · show kbdints C (s.out ++ [_] ++ [_]) ≤ C.prompts ∧ kbdints C (s.out ++ [_] ++ [_]) ≤ s.attemptKbd
          unfold kbdints; rw [c2]; exact h.kb
        · show hostbaseds C (s.out ++ [_] ++ [_]) + keys'.countP _ ≤ _
          have : hostbaseds C (s.out ++ [Act.keysign k (str C.sessionId ++ be 1 50 ++
            reqHead C s.method.name ++ hostBody C alg blob (lname ++ b!"."))] ++ [Act.packet 50 (reqHead C s.method.name ++
            hostBody C alg blob (lname ++ b!".") ++ str sig)]) ≤ hostbaseds C s.out + 1 := c3'
          exact Nat.le_trans (Nat.add_le_add_right this _) (by omega)
        · intro x hx
          simp only [List.mem_cons, List.not_mem_nil, or_false] at hx
          rcases hx with rfl | rfl
          · exact hks
          · rw [hpk]
            exact .hostbased k alg blob lname sig ht hok
        · refine ⟨fun h => ?_, fun h => ?_, fun h => ?_⟩
          all_goals
            have h' : s.slot = _ := h
            rw [hs] at h'; cases h'
        · show offers C (s.out ++ [_] ++ [_]) + untried s.keys + _ ≤ _
          unfold offers; rw [c4]; exact Nat.le_refl _
        · exact packets_add (out := s.out) hn _ _
    · have := hC [] (by simp)
      simp only [List.append_nil] at this
      exact ⟨this, ⟨rfl, rfl, rfl, rfl, rfl, rfl⟩, ⟨[], by simp, by simp⟩, hs, hr, Nat.le_refl _, rfl⟩

end Verif.CliAuth
