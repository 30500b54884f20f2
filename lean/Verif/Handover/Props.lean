/-
C140: options for a key, handed over. C141: the state of a connection, handed over.
-/
import Verif.Handover.Model

namespace Verif.Handover
open Verif
open _root_.Verif.Wire
open _root_.Verif.KeyOpts (Opts)

/-! ### Reading what was written -/

theorem putStr_some {v s : Bytes} (h : putStr v = some s) : s = str v ∧ v.length ≤ maxString := by
  unfold putStr at h
  split at h
  · cases h
  · exact ⟨(Option.some.inj h).symm, by omega⟩

theorem getFlag_append (b : Bool) (rest : Bytes) : getFlag (flag b ++ rest) = some (b, rest) := by
  cases b <;> simp [getFlag, flag, getInt, ofBE]

theorem getNullable_append {s : Option Bytes} {t : Bytes} (h : putNullable s = some t) (hz : ∀ x, s = some x → (0 : UInt8) ∉ x) (rest : Bytes) :
    getNullable (t ++ rest) = some (s, rest) := by
  unfold putNullable at h
  obtain ⟨u, hu, rfl⟩ := Option.map_eq_some_iff.1 h
  obtain ⟨rfl, hl⟩ := putStr_some hu
  have hz' : (0 : UInt8) ∉ s.getD [] := by
    cases s with
    | none => simp
    | some x => exact hz x rfl
  unfold getNullable
  rw [List.append_assoc, getFlag_append]
  simp only [bind, Option.bind_some]
  rw [getCstr_append _ _ hz' hl]
  cases s <;> rfl

theorem getAll_append : ∀ {a : List Bytes} {b : Bytes}, putAll a = some b → (∀ x ∈ a, (0 : UInt8) ∉ x) → getAll a.length b = some a := by
  intro a
  induction a with
  | nil => intro b _ _; rfl
  | cons x l ih =>
    intro b h hz
    simp only [putAll, bind, Option.bind_eq_some_iff, Option.some.injEq] at h
    obtain ⟨u, hu, v, hv, rfl⟩ := h
    obtain ⟨rfl, hl⟩ := putStr_some hu
    rw [List.length_cons, getAll, getCstr_append _ _ (hz x (by simp)) hl]
    simp only [bind, Option.bind_some, ih hv fun y hy => hz y (by simp [hy])]

theorem getArray_append {a : List Bytes} {t : Bytes} (h : putArray a = some t) (hz : ∀ x ∈ a, (0 : UInt8) ∉ x) (rest : Bytes) :
    getArray (t ++ rest) = some (a, rest) := by
  unfold putArray at h
  split at h
  · cases h
  · rename_i hn
    simp only [bind, Option.bind_eq_some_iff, Option.some.injEq] at h
    obtain ⟨b, hb, s, hs, rfl⟩ := h
    obtain ⟨rfl, hl⟩ := putStr_some hs
    unfold getArray
    rw [List.append_assoc, getInt_append _ _ _ (by omega)]
    simp only [bind, Option.bind_some]
    rw [getStr_append _ _ hl]
    simp only [Option.bind_some, if_neg hn, getAll_append hb hz]

/-! ### C140 -/

/-- Options as the code has them: strings without NUL, a time of 64 bits, a tunnel that is unset (-1) or a number -/
structure Sound (o : Opts) : Prop where
  principals : ∀ x, o.principals = some x → (0 : UInt8) ∉ x
  command : ∀ x, o.command = some x → (0 : UInt8) ∉ x
  fromCert : ∀ x, o.fromCert = some x → (0 : UInt8) ∉ x
  fromKeys : ∀ x, o.fromKeys = some x → (0 : UInt8) ∉ x
  env : ∀ x ∈ o.env, (0 : UInt8) ∉ x
  permitopen : ∀ x ∈ o.permitopen, (0 : UInt8) ∉ x
  permitlisten : ∀ x ∈ o.permitlisten, (0 : UInt8) ∉ x
  time : o.validBefore < 2 ^ 64
  tun : -1 ≤ o.tun ∧ o.tun < 2 ^ 31

theorem tun_back {t : Int} (h : -1 ≤ t ∧ t < 2 ^ 31) : (if (decide (t = -1)) = true then (-1 : Int) else toInt (if t < 0 then 0 else t.toNat)) = t := by
  by_cases h1 : t = -1
  · simp [h1]
  · have h0 : ¬t < 0 := by omega
    rw [if_neg (by simpa using h1), if_neg h0, toInt, if_pos (by omega)]
    omega

/-- C140: what is sent with trust arrives as it was, and what follows it is left. -/
theorem C140_kept {o : Opts} (h : Sound o) {s : Bytes} (hs : serialise o false = some s) (rest : Bytes) : deserialise (s ++ rest) = some (o, rest) := by
  simp only [serialise, bind, Option.bind_eq_some_iff, Option.some.injEq, Bool.false_eq_true, if_false] at hs
  obtain ⟨p, hp, c, hc, fc, hfc, fk, hfk, e, he, po, hpo, pl, hpl, rfl⟩ := hs
  have ht : (if o.tun < 0 then 0 else o.tun.toNat) < 256 ^ 4 := by
    have := h.tun
    split <;> omega
  unfold deserialise
  simp only [List.append_assoc, bind, getFlag_append, Option.bind_some, getInt_append _ _ _ (show o.validBefore < 256 ^ 8 from h.time),
    getInt_append _ _ _ ht, getNullable_append hp h.principals, getNullable_append hc h.command, getNullable_append hfc h.fromCert,
    getNullable_append hfk h.fromKeys, getArray_append he h.env, getArray_append hpo h.permitopen, getArray_append hpl h.permitlisten,
    tun_back h.tun]

/-- C140: to a process that is not trusted, flags and numbers are sent; of the strings and lists it gets neither what they are nor whether there are
any, but a forced command `true` and principals `yes`. -/
theorem C140_untrusted {o : Opts} (ht : o.validBefore < 2 ^ 64) (hn : -1 ≤ o.tun ∧ o.tun < 2 ^ 31) :
    ∃ s, serialise o true = some s ∧ ∀ rest, deserialise (s ++ rest) = some (⟨o.portFwd, o.agentFwd, o.x11, o.pty, o.userRc, o.restricted,
      o.validBefore, o.certAuthority, some b!"yes", o.tun, some b!"true", [], [], [], none, none, o.noPresence, o.verify⟩, rest) := by
  let o' : Opts := ⟨o.portFwd, o.agentFwd, o.x11, o.pty, o.userRc, o.restricted,
      o.validBefore, o.certAuthority, some b!"yes", o.tun, some b!"true", [], [], [], none, none, o.noPresence, o.verify⟩
  have e : serialise o true = serialise o' false := rfl
  have hs : Sound o' :=
    ⟨fun x hx => by injection hx with hx; subst hx; decide, fun x hx => by injection hx with hx; subst hx; decide,
      fun x hx => (by cases hx), fun x hx => (by cases hx), fun x hx => (by cases hx), fun x hx => (by cases hx), fun x hx => (by cases hx), ht, hn⟩
  have hsome : (serialise o' false).isSome = true := rfl
  obtain ⟨s, h⟩ := Option.isSome_iff_exists.1 hsome
  exact ⟨s, e.trans h, fun rest => C140_kept hs h rest⟩

/-- C140: so two sets of options that agree on flags and numbers look the same to it. -/
theorem C140_hidden {o o' : Opts} (hf : (o.portFwd, o.agentFwd, o.x11, o.pty, o.userRc, o.restricted, o.certAuthority, o.noPresence, o.verify) =
      (o'.portFwd, o'.agentFwd, o'.x11, o'.pty, o'.userRc, o'.restricted, o'.certAuthority, o'.noPresence, o'.verify))
    (ht : o.validBefore = o'.validBefore) (hn : o.tun = o'.tun) : serialise o true = serialise o' true := by
  simp only [Prod.mk.injEq] at hf
  obtain ⟨h1, h2, h3, h4, h5, h6, h7, h8, h9⟩ := hf
  simp only [serialise, if_true, h1, h2, h3, h4, h5, h6, h7, h8, h9, ht, hn]

theorem putAll_length : ∀ (l : List Bytes), (∀ x ∈ l, x.length ≤ maxString) → ∃ b, putAll l = some b ∧ b.length = (l.map fun x => x.length + 4).sum := by
  intro l
  induction l with
  | nil => intro _; exact ⟨[], rfl, rfl⟩
  | cons a l ih =>
    intro h
    obtain ⟨b, hb, hl⟩ := ih fun x hx => h x (by simp [hx])
    refine ⟨str a ++ b, ?_, ?_⟩
    · simp only [putAll, putStr, bind]
      rw [if_neg (by have := h a (by simp); omega)]
      simp only [Option.bind_some, hb]
    · simp only [List.length_append, str, be_length, hl, List.map_cons, List.sum_cons]
      omega

/-- C140: options are handed over if no string, and no list with 4 more for each of its strings, is longer than 128 MB less 4. -/
theorem C140_sent {o : Opts} (h : ∀ s ∈ [o.principals, o.command, o.fromCert, o.fromKeys], (s.getD []).length ≤ maxString)
    (hl : ∀ l ∈ [o.env, o.permitopen, o.permitlisten], (l.map fun x : Bytes => x.length + 4).sum ≤ maxString) : ∃ s, serialise o false = some s := by
  have hn : ∀ s : Option Bytes, (s.getD []).length ≤ maxString → ∃ t, putNullable s = some t := by
    intro s hs
    unfold putNullable putStr
    rw [if_neg (by omega)]
    exact ⟨_, rfl⟩
  have ha : ∀ l : List Bytes, (l.map fun x : Bytes => x.length + 4).sum ≤ maxString → ∃ t, putArray l = some t := by
    intro l hs
    have hm : ∀ (l : List Bytes), ∀ x ∈ l, x.length ≤ (l.map fun x : Bytes => x.length + 4).sum := by
      intro l
      induction l with
      | nil => intro x hx; cases hx
      | cons a l ih =>
        intro x hx
        simp only [List.map_cons, List.sum_cons]
        rcases List.mem_cons.1 hx with rfl | hx
        · omega
        · have := ih x hx
          omega
    have hc : ∀ (l : List Bytes), l.length ≤ (l.map fun x : Bytes => x.length + 4).sum := by
      intro l
      induction l with
      | nil => simp
      | cons a l ih =>
        simp only [List.map_cons, List.sum_cons, List.length_cons]
        omega
    obtain ⟨b, hb, hbl⟩ := putAll_length l fun x hx => Nat.le_trans (hm l x hx) hs
    unfold putArray putStr
    rw [if_neg (by have := hc l; omega), hb]
    simp only [bind, Option.bind_some]
    rw [if_neg (by omega)]
    exact ⟨_, rfl⟩
  obtain ⟨p, hp⟩ := hn _ (h o.principals (by simp))
  obtain ⟨c, hc⟩ := hn _ (h o.command (by simp))
  obtain ⟨fc, hfc⟩ := hn _ (h o.fromCert (by simp))
  obtain ⟨fk, hfk⟩ := hn _ (h o.fromKeys (by simp))
  obtain ⟨e, he⟩ := ha _ (hl o.env (by simp))
  obtain ⟨po, hpo⟩ := ha _ (hl o.permitopen (by simp))
  obtain ⟨pl, hpl⟩ := ha _ (hl o.permitlisten (by simp))
  simp only [serialise, bind, Bool.false_eq_true, if_false, hp, hc, hfc, hfk, he, hpo, hpl, Option.bind_some]
  exact ⟨_, rfl⟩

/-- C140: a copy is the same. -/
theorem C140_copy (o : Opts) : copy o = o := rfl

/-! ### C141 -/

structure KexSound (k : Kex) : Prop where
  alg : (0 : UInt8) ∉ k.alg
  weNeed : k.weNeed < 2 ^ 32
  keyType : k.keyType < 2 ^ 32
  nid : k.nid < 2 ^ 32
  kexType : k.kexType < 2 ^ 32
  strict : k.strict < 2 ^ 32
  flags : k.flags < 2 ^ 32

/-- A direction that is in use: its keys are those that its cipher runs with, and of the lengths of its algorithms -/
structure Running (w : World) (d : Dir) : Prop where
  cipher : ∃ c, w.cipher d.keys.cipher = some c ∧ c.keyLen ≤ d.keys.key.length ∧ c.ivLen ≤ d.ctx.iv.length ∧
    (c.authlen ≠ 0 → d.keys.mac = none) ∧
    (c.authlen = 0 → ∃ m a, d.keys.mac = some m ∧ w.mac m.name = some a ∧ m.key.length = a.keyLen ∧ (a.umac = true → a.keyLen = 16) ∧
      m.enabled = 1 ∧ (0 : UInt8) ∉ m.name)
  name : (0 : UInt8) ∉ d.keys.cipher
  enabled : d.keys.enabled < 2 ^ 32
  block : 0 < d.keys.block ∧ d.keys.block < 32
  ctx : d.ctx.cipher = d.keys.cipher ∧ d.ctx.key = d.keys.key
  comp : d.keys.compType < 2 ^ 32 ∧ (0 : UInt8) ∉ d.keys.compName
  count : d.count.seqnr < 2 ^ 32 ∧ d.count.blocks < 2 ^ 64 ∧ d.count.packets < 2 ^ 32 ∧ d.count.bytes < 2 ^ 64

theorem kexFrom_append {k : Kex} (h : KexSound k) {b : Bytes} (hb : kexTo k = some b) (rest : Bytes) : kexFrom (b ++ rest) = some (k, rest) := by
  simp only [kexTo, bind, Option.bind_eq_some_iff, Option.some.injEq] at hb
  obtain ⟨a, ha, my, hmy, peer, hpeer, cv, hcv, sv, hsv, sid, hsid, rfl⟩ := hb
  obtain ⟨rfl, la⟩ := putStr_some ha
  obtain ⟨rfl, l1⟩ := putStr_some hmy
  obtain ⟨rfl, l2⟩ := putStr_some hpeer
  obtain ⟨rfl, l3⟩ := putStr_some hcv
  obtain ⟨rfl, l4⟩ := putStr_some hsv
  obtain ⟨rfl, l5⟩ := putStr_some hsid
  unfold kexFrom
  simp only [List.append_assoc, bind, Option.bind_some, getInt_append _ _ _ (show k.weNeed < 256 ^ 4 from h.weNeed), getCstr_append _ _ h.alg la,
    getInt_append _ _ _ (show k.keyType < 256 ^ 4 from h.keyType), getInt_append _ _ _ (show k.nid < 256 ^ 4 from h.nid),
    getInt_append _ _ _ (show k.kexType < 256 ^ 4 from h.kexType), getInt_append _ _ _ (show k.strict < 256 ^ 4 from h.strict),
    getStr_append _ _ l1, getStr_append _ _ l2, getStr_append _ _ l3, getStr_append _ _ l4, getStr_append _ _ l5,
    getInt_append _ _ _ (show k.flags < 256 ^ 4 from h.flags)]

theorem countFrom_append {c : Count} (h : c.seqnr < 2 ^ 32 ∧ c.blocks < 2 ^ 64 ∧ c.packets < 2 ^ 32 ∧ c.bytes < 2 ^ 64) (rest : Bytes) :
    countFrom (countTo c ++ rest) = some (c, rest) := by
  unfold countFrom countTo
  simp only [List.append_assoc, bind, Option.bind_some, getInt_append _ _ _ (show c.seqnr < 256 ^ 4 from h.1),
    getInt_append _ _ _ (show c.blocks < 256 ^ 8 from h.2.1), getInt_append _ _ _ (show c.packets < 256 ^ 4 from h.2.2.1),
    getInt_append _ _ _ (show c.bytes < 256 ^ 8 from h.2.2.2)]

theorem macFrom_append {w : World} {m : Mac} {a : MacAlg} (ha : w.mac m.name = some a) (hk : m.key.length ≤ a.keyLen) (he : m.enabled < 2 ^ 32)
    (hz : (0 : UInt8) ∉ m.name) {b : Bytes} (hb : macTo m = some b) (rest : Bytes) : macFrom w (b ++ rest) = some (m, rest) := by
  simp only [macTo, bind, Option.bind_eq_some_iff, Option.some.injEq] at hb
  obtain ⟨n, hn, k, hk', rfl⟩ := hb
  obtain ⟨rfl, l1⟩ := putStr_some hn
  obtain ⟨rfl, l2⟩ := putStr_some hk'
  unfold macFrom
  simp only [List.append_assoc, bind, Option.bind_some, getCstr_append _ _ hz l1, ha, getInt_append _ _ _ (show m.enabled < 256 ^ 4 from he),
    getStr_append _ _ l2]
  rw [if_neg (by omega)]

theorem keysFrom_append {w : World} {d : Dir} (h : Running w d) {b : Bytes} (hb : keysTo w d = some b) (rest : Bytes) :
    keysFrom w (b ++ rest) = some (⟨d.keys.cipher, d.keys.enabled, d.keys.block, d.keys.key, d.ctx.iv, d.keys.mac, d.keys.compType, d.keys.compName⟩, rest) := by
  obtain ⟨c, hc, -, -, hm1, hm0⟩ := h.cipher
  simp only [keysTo, hc, bind, Option.bind_some] at hb
  split at hb
  · cases hb
  · simp only [Option.bind_eq_some_iff] at hb
    obtain ⟨n, hn, k, hk, iv, hiv, mac, hmac, cn, hcn, hb⟩ := hb
    obtain ⟨rfl, l⟩ := putStr_some hb
    obtain ⟨rfl, l1⟩ := putStr_some hn
    obtain ⟨rfl, l2⟩ := putStr_some hk
    obtain ⟨rfl, l3⟩ := putStr_some hiv
    obtain ⟨rfl, l4⟩ := putStr_some hcn
    unfold keysFrom
    have e4 := getCstr_append d.keys.compName [] h.comp.2 l4
    rw [List.append_nil] at e4
    simp only [bind, getStr_append _ _ l, Option.bind_some, getCstr_append _ _ h.name l1,
      getInt_append _ _ _ (show d.keys.enabled < 256 ^ 4 from h.enabled), getInt_append _ _ _ (show d.keys.block < 256 ^ 4 by have := h.block; omega),
      getStr_append _ _ l2, getStr_append _ _ l3, hc]
    by_cases ha : c.authlen = 0
    · obtain ⟨m, a, e1, e2, e3, -, e5, e6⟩ := hm0 ha
      rw [macPart, if_pos ha, e1] at hmac
      simp only [macRead, if_pos ha, macFrom_append e2 (by omega) (by omega) e6 hmac, Option.map_some, Option.bind_some,
        getInt_append _ _ _ (show d.keys.compType < 256 ^ 4 from h.comp.1), e4, e1]
      rfl
    · rw [macPart, if_neg ha] at hmac
      have := Option.some.inj hmac
      subst this
      simp only [macRead, if_neg ha, Option.bind_some, List.nil_append,
        getInt_append _ _ _ (show d.keys.compType < 256 ^ 4 from h.comp.1), e4, hm1 ha]
      rfl

theorem maxBlocks_ok {block : Nat} (h : 0 < block ∧ block < 32) (limit : Nat) : ∃ n, maxBlocks block limit = .ok n := by
  unfold maxBlocks
  split
  · rw [if_neg (by omega)]
    split <;> exact ⟨_, rfl⟩
  · rw [if_neg (by omega)]
    split <;> exact ⟨_, rfl⟩

/-- One direction goes on: the same cipher with its key and its next IV, the same MAC, sequence number and count of bytes -/
structure GoesOn (d d' : Dir) : Prop where
  ctx : d'.ctx = d.ctx
  mac : d'.keys.mac = d.keys.mac
  names : d'.keys.cipher = d.keys.cipher ∧ d'.keys.compType = d.keys.compType ∧ d'.keys.compName = d.keys.compName ∧ d'.keys.block = d.keys.block
  seqnr : d'.count.seqnr = d.count.seqnr
  bytes : d'.count.bytes = d.count.bytes
  fresh : d'.count.packets = 0 ∧ d'.count.blocks = 0
  comp : d'.compressing = true ↔ d.keys.compType = 2

theorem setNewkeys_goesOn {w : World} {d : Dir} (h : Running w d) (limit : Nat) :
    ∃ d', setNewkeys w ⟨d.keys.cipher, d.keys.enabled, d.keys.block, d.keys.key, d.ctx.iv, d.keys.mac, d.keys.compType, d.keys.compName⟩ d.count limit = .ok d' ∧
      GoesOn d (delayed d') := by
  obtain ⟨c, hc, h1, h2, hm1, hm0⟩ := h.cipher
  obtain ⟨mb, hmb⟩ := maxBlocks_ok h.block limit
  have hmac : macInit w d.keys.mac = .ok () ∧ (d.keys.mac.map fun m => (⟨m.name, 1, m.key⟩ : Mac)) = d.keys.mac := by
    by_cases ha : c.authlen = 0
    · obtain ⟨m, a, e1, e2, e3, e4, e5, -⟩ := hm0 ha
      rw [e1]
      simp only [macInit, e2]
      refine ⟨if_neg ?_, ?_⟩
      · rintro ⟨hu, hl⟩
        have := e4 hu
        omega
      · rw [Option.map_some, ← e5]
    · rw [hm1 ha]
      exact ⟨rfl, rfl⟩
  unfold setNewkeys
  simp only [hc, hmac.1, hmac.2, hmb]
  rw [if_neg (by omega)]
  refine ⟨_, rfl, ?_, rfl, ⟨rfl, rfl, rfl, rfl⟩, rfl, rfl, ⟨rfl, rfl⟩, by simp [delayed]⟩
  obtain ⟨e1, e2⟩ := h.ctx
  simp only [delayed, ← e1, ← e2]

/-- C141: the process that takes over goes on where the other one stopped: in both directions with the same cipher, key, next IV, MAC, sequence number
and count of bytes, and with the same session id, strictness and versions; what had come in but was not read, and what was to be sent, is not lost. Packets
and blocks are counted from 0, and the time to the next exchange of keys from now. -/
theorem C141_continues {w : World} {s : St} (hk : KexSound s.kex) (ho : Running w s.out) (hi : Running w s.inn) (hl : s.rekeyLimit < 2 ^ 64)
    (hv : s.rekeyInterval < 2 ^ 32) {b : Bytes} (hb : getState w s = some b) (now : Nat) :
    ∃ s', setState w now b = .ok s' ∧ s'.kex = s.kex ∧ GoesOn s.out s'.out ∧ GoesOn s.inn s'.inn ∧ s'.input = s.input ∧ s'.output = s.output ∧
      s'.rekeyLimit = s.rekeyLimit ∧ s'.rekeyInterval = s.rekeyInterval ∧ s'.rekeyTime = now ∧ s'.afterAuth = true ∧ s'.rekeying = false := by
  simp only [getState, bind, Option.bind_eq_some_iff, Option.some.injEq] at hb
  obtain ⟨k, hk', o, ho', i, hi', inp, hinp, outp, houtp, rfl⟩ := hb
  obtain ⟨rfl, l1⟩ := putStr_some hinp
  obtain ⟨rfl, l2⟩ := putStr_some houtp
  obtain ⟨do_, e1, g1⟩ := setNewkeys_goesOn ho s.rekeyLimit
  obtain ⟨di, e2, g2⟩ := setNewkeys_goesOn hi s.rekeyLimit
  have e4 := getStr_append s.output [] l2
  rw [List.append_nil] at e4
  unfold setState
  simp only [bind, kexFrom_append hk hk', keysFrom_append ho ho', keysFrom_append hi hi', Option.bind_some,
    getInt_append _ _ _ (show s.rekeyLimit < 256 ^ 8 from hl), getInt_append _ _ _ (show s.rekeyInterval < 256 ^ 4 from hv),
    countFrom_append ho.count, countFrom_append hi.count, e1, e2, getStr_append _ _ l1, e4]
  exact ⟨_, rfl, rfl, g1, g2, rfl, rfl, rfl, rfl, rfl, rfl, rfl⟩

/-- C141: whatever is sent, also by a process that an attacker has taken over, the session goes on only with the session id that the monitor has noted. -/
theorem C141_session {w : World} {now : Nat} {id m : Bytes} {s : St} (h : apply w now id m = .ok s) : s.kex.sessionId = id := by
  unfold apply at h
  split at h
  · split at h
    · cases h
    · split at h
      · cases h
      · rename_i t _ _ hne
        have e : t = s := by injection h
        subst e
        exact Decidable.of_not_not hne
  · cases h
  · cases h

/-- C141: and a state handed over with this id is accepted. -/
theorem C141_accepted {w : World} {s : St} (hk : KexSound s.kex) (ho : Running w s.out) (hi : Running w s.inn) (hl : s.rekeyLimit < 2 ^ 64)
    (hv : s.rekeyInterval < 2 ^ 32) {b : Bytes} (hb : getState w s = some b) (now : Nat) : ∃ s', apply w now s.kex.sessionId b = .ok s' ∧ s'.kex = s.kex := by
  obtain ⟨s', h1, h2, -⟩ := C141_continues hk ho hi hl hv hb now
  refine ⟨s', ?_, h2⟩
  unfold apply
  rw [h1]
  simp only [h2]
  rw [if_neg (fun h => h rfl), if_neg (fun h => h rfl)]

theorem setNewkeys_undefined {w : World} {k : Keys} {c : Count} {limit : Nat} (h : setNewkeys w k c limit = .undefined) :
    k.block = 0 ∨ 32 ≤ k.block ∨ ∃ m a, k.mac = some m ∧ w.mac m.name = some a ∧ a.umac = true ∧ m.key.length < 16 := by
  unfold setNewkeys at h
  split at h
  · cases h
  · split at h
    · cases h
    · rename_i hm
      unfold macInit at hm
      split at hm
      · cases hm
      · rename_i m hk
        split at hm
        · cases hm
        · rename_i a ha
          split at hm
          · rename_i hu
            exact .inr (.inr ⟨m, a, hk, ha, hu.1, hu.2⟩)
          · cases hm
    · split at h
      · cases h
      · split at h
        · cases h
        · cases h
        · rename_i hb
          unfold maxBlocks at hb
          split at hb
          · split at hb
            · rename_i h2
              right; left
              omega
            · split at hb <;> cases hb
          · split at hb
            · rename_i h0
              exact .inl h0
            · split at hb <;> cases hb

/-- C141, partial: what is sent is taken or refused without undefined behaviour, if the sizes of blocks in it are from 1 to 31 and keys for UMAC have
at least 16 bytes. Nothing checks this (`Examples.C141_safe_original_false`): a process taken over can send others. -/
theorem C141_safe_partial {w : World} {now : Nat} {m : Bytes} (h : setState w now m = .undefined) :
    ∃ k m1 o m2 i m3, kexFrom m = some (k, m1) ∧ keysFrom w m1 = some (o, m2) ∧ keysFrom w m2 = some (i, m3) ∧
      ∃ n ∈ [o, i], n.block = 0 ∨ 32 ≤ n.block ∨ ∃ mc a, n.mac = some mc ∧ w.mac mc.name = some a ∧ a.umac = true ∧ mc.key.length < 16 := by
  unfold setState at h
  split at h
  · cases h
  · rename_i k o i limit interval cs cr m' hp
    simp only [bind, Option.bind_eq_some_iff, Prod.exists, Option.some.injEq, Prod.mk.injEq] at hp
    obtain ⟨k0, m1, h1, o0, m2, h2, i0, m3, h3, l0, m4, -, v0, m5, -, c0, m6, -, c1, m7, -, rfl, rfl, rfl, rfl, rfl, rfl, rfl, rfl⟩ := hp
    refine ⟨_, _, _, _, _, _, h1, h2, h3, ?_⟩
    split at h
    · cases h
    · rename_i hu
      exact ⟨_, by simp, setNewkeys_undefined hu⟩
    · split at h
      · cases h
      · rename_i hu
        exact ⟨_, by simp, setNewkeys_undefined hu⟩
      · split at h <;> cases h

/-! ### Nothing may follow -/

theorem getInt_more {n : Nat} {l r : Bytes} {v : Nat} (h : getInt n l = some (v, r)) (x : Bytes) : getInt n (l ++ x) = some (v, r ++ x) := by
  obtain ⟨rfl, hv⟩ := getInt_some h
  rw [List.append_assoc, getInt_append _ _ _ hv]

theorem getStr_more {l v r : Bytes} (h : getStr l = some (v, r)) (x : Bytes) : getStr (l ++ x) = some (v, r ++ x) := by
  obtain ⟨rfl, hv⟩ := getStr_some h
  rw [List.append_assoc, getStr_append _ _ hv]

theorem getCstr_more {l v r : Bytes} (h : getCstr l = some (v, r)) (x : Bytes) : getCstr (l ++ x) = some (v, r ++ x) := by
  unfold getCstr at h ⊢
  split at h
  · cases h
  · rename_i u rest hs
    rw [getStr_more hs x]
    simp only []
    split at h
    · cases h
    · rename_i c hc
      simp only [Option.some.injEq, Prod.mk.injEq] at h
      rw [h.1, h.2]

theorem kexFrom_more {m r : Bytes} {k : Kex} (h : kexFrom m = some (k, r)) (x : Bytes) : kexFrom (m ++ x) = some (k, r ++ x) := by
  simp only [kexFrom, bind, Option.bind_eq_some_iff, Prod.exists, Option.some.injEq, Prod.mk.injEq] at h
  obtain ⟨a1, m1, h1, a2, m2, h2, a3, m3, h3, a4, m4, h4, a5, m5, h5, a6, m6, h6, a7, m7, h7, a8, m8, h8, a9, m9, h9, a10, m10, h10, a11, m11, h11, a12, m12, h12,
    rfl, rfl⟩ := h
  simp only [kexFrom, bind, getInt_more h1, getCstr_more h2, getInt_more h3, getInt_more h4, getInt_more h5, getInt_more h6, getStr_more h7, getStr_more h8,
    getStr_more h9, getStr_more h10, getStr_more h11, getInt_more h12, Option.bind_some]

theorem keysFrom_more {w : World} {m r : Bytes} {k : Keys} (h : keysFrom w m = some (k, r)) (x : Bytes) : keysFrom w (m ++ x) = some (k, r ++ x) := by
  simp only [keysFrom, bind, Option.bind_eq_some_iff, Prod.exists] at h
  obtain ⟨b, r', h1, n, b1, h2, e, b2, h3, bs, b3, h4, kk, b4, h5, iv, b5, h6, c, h7, mac, b6, h8, ct, b7, h9, cn, b8, h10, h⟩ := h
  split at h
  · cases h
  · rename_i hz
    simp only [Option.some.injEq, Prod.mk.injEq] at h
    obtain ⟨rfl, rfl⟩ := h
    simp only [keysFrom, bind, getStr_more h1, Option.bind_some, h2, h3, h4, h5, h6, h7, h8, h9, h10, if_neg hz]

theorem countFrom_more {m r : Bytes} {c : Count} (h : countFrom m = some (c, r)) (x : Bytes) : countFrom (m ++ x) = some (c, r ++ x) := by
  simp only [countFrom, bind, Option.bind_eq_some_iff, Prod.exists, Option.some.injEq, Prod.mk.injEq] at h
  obtain ⟨a1, m1, h1, a2, m2, h2, a3, m3, h3, a4, m4, h4, rfl, rfl⟩ := h
  simp only [countFrom, bind, getInt_more h1, getInt_more h2, getInt_more h3, getInt_more h4, Option.bind_some]

/-- C141: a state that is accepted is refused if anything follows it. -/
theorem C141_whole {w : World} {now : Nat} {m : Bytes} {s : St} (h : setState w now m = .ok s) {x : Bytes} (hx : x ≠ []) :
    setState w now (m ++ x) = .refused := by
  unfold setState at h
  split at h
  · cases h
  · rename_i k o i limit interval cs cr m' hp
    simp only [bind, Option.bind_eq_some_iff, Prod.exists, Option.some.injEq, Prod.mk.injEq] at hp
    obtain ⟨k0, m1, h1, o0, m2, h2, i0, m3, h3, l0, m4, h4, v0, m5, h5, c0, m6, h6, c1, m7, h7, rfl, rfl, rfl, rfl, rfl, rfl, rfl, rfl⟩ := hp
    split at h
    · cases h
    · cases h
    · rename_i di hdi
      split at h
      · cases h
      · cases h
      · rename_i do_ hdo
        split at h
        · cases h
        · rename_i inp outp ht
          simp only [bind, Option.bind_eq_some_iff, Prod.exists] at ht
          obtain ⟨a1, n1, t1, a2, n2, t2, t3⟩ := ht
          have hl : ¬(n2 ++ x).length = 0 := by
            rw [List.length_eq_zero_iff, List.append_eq_nil_iff]
            exact fun h => hx h.2
          unfold setState
          simp only [bind, kexFrom_more h1, keysFrom_more h2, keysFrom_more h3, getInt_more h4, getInt_more h5, countFrom_more h6, countFrom_more h7,
            Option.bind_some, hdi, hdo, getStr_more t1, getStr_more t2]
          rw [if_pos hl]

end Verif.Handover
