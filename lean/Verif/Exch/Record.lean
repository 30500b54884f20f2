/-
What is known about every exchange whose keys were derived: an invariant of all runs.
-/
import Verif.Exch.Strict
import Verif.Exch.Hash

namespace Verif.Exch
open Verif Wire Text
open scoped Verif.Match
open _root_.Verif.Kex (Support Flags Conf KeySet Err chooseConf wellFormed deriveKeys prop2buf buf2prop)

/-! ### What a record says -/

/-- Our KEXINIT and the peer's. -/
def Rec.own (server : Bool) (r : Rec) : Bytes := if server then r.is else r.ic
def Rec.peers (server : Bool) (r : Rec) : Bytes := if server then r.ic else r.is

/-- The method-specific part for kexgen.c. -/
def GenParts (E : Env) (sent hist : List (Nat × Bytes)) (r : Rec) : Prop :=
  ∃ qc qs, r.pub = some (qc, qs) ∧ r.gex = none ∧
    r.hash = E.H r.conf.kex (genHash r.vc r.vs r.ic r.is r.hostKey qc qs r.secret) ∧
    (30, str qc) ∈ (if E.server then hist else sent) ∧
    (31, str r.hostKey ++ str qs ++ str r.sig) ∈ (if E.server then sent else hist) ∧
    (if E.server then ∃ ρ, E.enc r.conf.kex ρ qc = some (qs, r.secret)
      else ∃ ρ priv, E.keypair r.conf.kex ρ = some (qc, priv) ∧ E.dec r.conf.kex priv qs = some r.secret)

/-- Three 32-bit numbers. -/
def request (min nbits max : Nat) : Bytes := be 4 min ++ be 4 nbits ++ be 4 max

/-- The method-specific part for group exchange.  A number received may have been encoded with leading
zeros. -/
def GexParts (E : Env) (sent hist : List (Nat × Bytes)) (r : Rec) : Prop :=
  ∃ min nbits max p g e f priv, r.pub = none ∧ r.gex = some (min, nbits, max, p, g, e, f) ∧
    r.hash = E.H r.conf.kex (gexHash r.vc r.vs r.ic r.is r.hostKey min nbits max p g e f r.secret) ∧
    (if E.server then
      min ≤ nbits ∧ nbits ≤ max ∧ 2048 ≤ max ∧ max < 4294967296 ∧
      (34, request min nbits max) ∈ hist ∧ (31, mpint p ++ mpint g) ∈ sent ∧
      (∃ d, ofBE d = e ∧ d.length ≤ 2049 ∧ (32, str d) ∈ hist) ∧
      (33, str r.hostKey ++ mpint f ++ str r.sig) ∈ sent ∧
      (∃ ρ, E.group (Nat.max 2048 min) (Nat.min 8192 (Nat.max 2048 nbits)) (Nat.min 8192 max) ρ = some (p, g)) ∧
      (∃ ρ, E.dhKey p g (r.conf.need * 8) ρ = some (f, priv)) ∧ E.dhShared p priv e = some r.secret
    else
      min = oldBound E 2048 ∧ nbits = gexBits E r.conf ∧ max = oldBound E 8192 ∧ 2048 ≤ numBits p ∧ numBits p ≤ 8192 ∧
      (34, request 2048 nbits 8192) ∈ sent ∧
      (∃ d d', ofBE d = p ∧ ofBE d' = g ∧ d'.length ≤ 2049 ∧ (31, str d ++ str d') ∈ hist) ∧
      (32, mpint e) ∈ sent ∧
      (∃ d, ofBE d = f ∧ d.length ≤ 2049 ∧ (33, str r.hostKey ++ str d ++ str r.sig) ∈ hist) ∧
      (∃ ρ, E.dhKey p g (r.conf.need * 8) ρ = some (e, priv)) ∧ E.dhShared p priv f = some r.secret)

/-- What is true of every record. -/
structure Good (E : Env) (vc vs : Bytes) (sent hist : List (Nat × Bytes)) (r : Rec) : Prop where
  vc : r.vc = vc
  vs : r.vs = vs
  conf : ∃ f q, chooseConf E.S E.server f q (r.own E.server) (r.peers E.server) = .ok r.conf
  own : (20, r.own E.server) ∈ sent
  peers : (20, r.peers E.server) ∈ hist
  parts : (E.method r.conf.kexType = some .gen ∧ GenParts E sent hist r) ∨
    (E.method r.conf.kexType = some .gex ∧ GexParts E sent hist r)
  keys : deriveKeys (E.H r.conf.kex) (E.mdsz r.conf.kex) E.server r.initial (if r.initial then [] else r.sid)
    r.conf.need r.hash r.secret = .ok (r.sid, r.keysIn, r.keysOut)
  auth : if E.server then
      E.hostKey r.conf.hostkeyType = some r.hostKey ∧ ∃ σ, E.sign r.hostKey r.hash r.conf.hostkey σ = some r.sig
    else
      E.keyType r.hostKey = some r.conf.hostkeyType ∧ E.trusted r.hostKey = true ∧
      E.verify r.hostKey r.sig r.hash r.conf.hostkey = true

/-- Sending or receiving more changes nothing. -/
theorem Good.mono {E : Env} {vc vs : Bytes} {sent hist sent' hist' : List (Nat × Bytes)} {r : Rec}
    (h : Good E vc vs sent hist r) (hs : ∀ x ∈ sent, x ∈ sent') (hh : ∀ x ∈ hist, x ∈ hist') :
    Good E vc vs sent' hist' r := by
  refine ⟨h.vc, h.vs, h.conf, hs _ h.own, hh _ h.peers, ?_, h.keys, h.auth⟩
  rcases h.parts with ⟨hm, hp⟩ | ⟨hm, hp⟩
  · refine Or.inl ⟨hm, ?_⟩
    obtain ⟨qc, qs, a1, a2, a3, a4, a5, a6⟩ := hp
    refine ⟨qc, qs, a1, a2, a3, ?_, ?_, a6⟩
    · cases hb : E.server with
      | true => rw [hb] at a4; exact hh _ a4
      | false => rw [hb] at a4; exact hs _ a4
    · cases hb : E.server with
      | true => rw [hb] at a5; exact hs _ a5
      | false => rw [hb] at a5; exact hh _ a5
  · refine Or.inr ⟨hm, ?_⟩
    obtain ⟨min, nbits, max, p, g, e, f, priv, a1, a2, a3, a4⟩ := hp
    refine ⟨min, nbits, max, p, g, e, f, priv, a1, a2, a3, ?_⟩
    cases hb : E.server with
    | true =>
      rw [hb] at a4
      obtain ⟨b1, b2, b3, b4, b5, b6, ⟨d, b7, b8, b9⟩, b10, b11⟩ := a4
      exact ⟨b1, b2, b3, b4, hh _ b5, hs _ b6, ⟨d, b7, b8, hh _ b9⟩, hs _ b10, b11⟩
    | false =>
      rw [hb] at a4
      obtain ⟨b1, b2, b3, b4, b5, b6, ⟨d, d', b7, b8, b9, b10⟩, b11, ⟨d2, b12, b13, b14⟩, b15⟩ := a4
      exact ⟨b1, b2, b3, b4, b5, hs _ b6, ⟨d, d', b7, b8, b9, hh _ b10⟩, hs _ b11, ⟨d2, b12, b13, hh _ b14⟩, b15⟩

/-! ### Where an exchange stands -/

/-- Handlers that have nothing to do with a running exchange. -/
def plain : Handler → Bool
  | .none | .kexError | .dispatchError | .extInfo | .other => true
  | _ => false

/-- One handler of the exchange is installed. -/
def Await (tab : Nat → Handler) (X : Nat) (h : Handler) : Prop := tab X = h ∧ ∀ t, t ≠ X → plain (tab t) = true

/-- An exchange is going on: both KEXINIT messages are there and the algorithms were chosen. -/
structure Running (E : Env) (hist : List (Nat × Bytes)) (s : St) (c : Conf) (m : Method) : Prop where
  done : s.done = false
  conf : s.conf = some c
  chosen : ∃ f q, chooseConf E.S E.server f q s.my s.peer = .ok c
  method : E.method c.kexType = some m
  own : (20, s.my) ∈ s.sent
  peers : (20, s.peer) ∈ hist

/-- Where the exchange stands. -/
inductive Where (E : Env) (hist : List (Nat × Bytes)) (s : St) : Prop
  | idle (ht : ∀ t, plain (s.table t) = true ∨ (t = 20 ∧ s.table t = .kexinit)) (hp : s.peer = [])
      (hs : s.initSent = true → (20, s.my) ∈ s.sent ∧ s.done = false) : Where E hist s
  | genS (c : Conf) (hr : Running E hist s c .gen) (hb : E.server = true) (ht : Await s.table 30 .genInit) : Where E hist s
  | genC (c : Conf) (hr : Running E hist s c .gen) (hb : E.server = false) (ht : Await s.table 31 .genReply)
      (pub priv ρ : Bytes) (he : s.eph = some (pub, priv)) (hk : E.keypair c.kex ρ = some (pub, priv))
      (hs : (30, str pub) ∈ s.sent) : Where E hist s
  | gexS0 (c : Conf) (hr : Running E hist s c .gex) (hb : E.server = true) (ht : Await s.table 34 .gexRequest) : Where E hist s
  | gexS1 (c : Conf) (hr : Running E hist s c .gex) (hb : E.server = true) (ht : Await s.table 32 .gexInit)
      (d : Dh) (hd : s.dh = some d) (hn : s.min ≤ s.nbits ∧ s.nbits ≤ s.max ∧ 2048 ≤ s.max ∧ s.max < 4294967296)
      (hq : (34, request s.min s.nbits s.max) ∈ hist) (hs : (31, mpint d.p ++ mpint d.g) ∈ s.sent)
      (hg : ∃ ρ, E.group (Nat.max 2048 s.min) (Nat.min 8192 (Nat.max 2048 s.nbits)) (Nat.min 8192 s.max) ρ = some (d.p, d.g))
      (hk : ∃ ρ, E.dhKey d.p d.g (c.need * 8) ρ = some (d.pub, d.priv)) : Where E hist s
  | gexC0 (c : Conf) (hr : Running E hist s c .gex) (hb : E.server = false) (ht : Await s.table 31 .gexGroup)
      (hn : s.min = 2048 ∧ s.nbits = gexBits E c ∧ s.max = 8192) (hs : (34, request 2048 s.nbits 8192) ∈ s.sent) : Where E hist s
  | gexC1 (c : Conf) (hr : Running E hist s c .gex) (hb : E.server = false) (ht : Await s.table 33 .gexReply)
      (hn : s.min = 2048 ∧ s.nbits = gexBits E c ∧ s.max = 8192) (hs : (34, request 2048 s.nbits 8192) ∈ s.sent)
      (d : Dh) (hd : s.dh = some d) (hb : 2048 ≤ numBits d.p ∧ numBits d.p ≤ 8192)
      (hq : ∃ x y, ofBE x = d.p ∧ ofBE y = d.g ∧ y.length ≤ 2049 ∧ (31, str x ++ str y) ∈ hist)
      (hs' : (32, mpint d.pub) ∈ s.sent)
      (hk : ∃ ρ, E.dhKey d.p d.g (c.need * 8) ρ = some (d.pub, d.priv)) : Where E hist s
  | fin (ht : Await s.table 21 .newkeys) (hd : s.done = false) (r : Rec) (hl : s.recs.getLast? = some r)
      (hi : s.pendIn = some r.keysIn) (ho : s.curOut = some r.keysOut) : Where E hist s

/-- The session identifier and the records. -/
structure Ids (s : St) : Prop where
  none : s.recs = [] → s.sid = [] ∧ s.firstKey = Option.none
  first : ∀ r l, s.recs = r :: l → s.sid = r.hash ∧ r.initial = true ∧ s.firstKey = some r.hostKey ∧ ∀ x ∈ l, x.initial = false
  all : ∀ r ∈ s.recs, r.sid = s.sid

/-- Keys in use or about to be used come from records. -/
structure Keys (s : St) : Prop where
  curIn : ∀ k, s.curIn = some k → ∃ r ∈ s.recs, r.keysIn = k
  curOut : ∀ k, s.curOut = some k → ∃ r ∈ s.recs, r.keysOut = k
  current : s.done = true → ∃ r, s.recs.getLast? = some r ∧ s.curIn = some r.keysIn ∧ s.curOut = some r.keysOut

/-- The invariant. -/
structure Inv (E : Env) (vc vs : Bytes) (hist : List (Nat × Bytes)) (s : St) : Prop where
  vcEq : s.vc = vc
  vsEq : s.vs = vs
  at_ : Where E hist s
  good : ∀ r ∈ s.recs, Good E vc vs s.sent hist r
  ids : Ids s
  keys : Keys s

/-! ### Steps that leave the exchange alone -/

/-- Everything the invariant talks about is unchanged, except that more may have been sent and that EXT_INFO may
no longer be accepted. -/
structure Frame (s s' : St) : Prop where
  vc : s'.vc = s.vc
  vs : s'.vs = s.vs
  my : s'.my = s.my
  peer : s'.peer = s.peer
  conf : s'.conf = s.conf
  eph : s'.eph = s.eph
  min : s'.min = s.min
  nbits : s'.nbits = s.nbits
  max : s'.max = s.max
  dh : s'.dh = s.dh
  sid : s'.sid = s.sid
  recs : s'.recs = s.recs
  firstKey : s'.firstKey = s.firstKey
  curIn : s'.curIn = s.curIn
  curOut : s'.curOut = s.curOut
  pendIn : s'.pendIn = s.pendIn
  initSent : s'.initSent = s.initSent
  done : s'.done = s.done
  flags : s'.flags = s.flags
  sent : ∀ x ∈ s.sent, x ∈ s'.sent
  table : ∀ t, s'.table t = s.table t ∨ (t = 7 ∧ s'.table t = .kexError)

theorem Await.frame {s s' : St} {X : Nat} {h : Handler} (ha : Await s.table X h) (hX : X ≠ 7) (hf : Frame s s') :
    Await s'.table X h := by
  constructor
  · rcases hf.table X with e | ⟨e, _⟩
    · rw [e]; exact ha.1
    · exact absurd e hX
  · intro t ht
    rcases hf.table t with e | ⟨_, e⟩
    · rw [e]; exact ha.2 t ht
    · rw [e]; rfl

theorem Running.frame {E : Env} {hist hist' : List (Nat × Bytes)} {s s' : St} {c : Conf} {m : Method}
    (hr : Running E hist s c m) (hf : Frame s s') (hh : ∀ x ∈ hist, x ∈ hist') : Running E hist' s' c m :=
  ⟨by rw [hf.done]; exact hr.done, by rw [hf.conf]; exact hr.conf, by rw [hf.my, hf.peer]; exact hr.chosen, hr.method,
    by rw [hf.my]; exact hf.sent _ hr.own, by rw [hf.peer]; exact hh _ hr.peers⟩

theorem Where.frame {E : Env} {hist hist' : List (Nat × Bytes)} {s s' : St} (hw : Where E hist s) (hf : Frame s s')
    (hh : ∀ x ∈ hist, x ∈ hist') : Where E hist' s' := by
  cases hw with
  | idle ht hp hs =>
    refine .idle (fun t => ?_) (by rw [hf.peer]; exact hp) (by rw [hf.initSent, hf.my, hf.done]; exact fun h => ⟨hf.sent _ (hs h).1, (hs h).2⟩)
    rcases hf.table t with e | ⟨_, e⟩
    · rw [e]; exact ht t
    · rw [e]; exact Or.inl rfl
  | genS c hr hb ht => exact .genS c (hr.frame hf hh) hb (ht.frame (by decide) hf)
  | genC c hr hb ht pub priv ρ he hk hs =>
    exact .genC c (hr.frame hf hh) hb (ht.frame (by decide) hf) pub priv ρ (by rw [hf.eph]; exact he) hk (hf.sent _ hs)
  | gexS0 c hr hb ht => exact .gexS0 c (hr.frame hf hh) hb (ht.frame (by decide) hf)
  | gexS1 c hr hb ht d hd hn hq hs hg hk =>
    refine .gexS1 c (hr.frame hf hh) hb (ht.frame (by decide) hf) d (by rw [hf.dh]; exact hd) ?_ ?_ (hf.sent _ hs) ?_ hk
    · rw [hf.min, hf.nbits, hf.max]; exact hn
    · rw [hf.min, hf.nbits, hf.max]; exact hh _ hq
    · rw [hf.min, hf.nbits, hf.max]; exact hg
  | gexC0 c hr hb ht hn hs =>
    refine .gexC0 c (hr.frame hf hh) hb (ht.frame (by decide) hf) ?_ ?_
    · rw [hf.min, hf.nbits, hf.max]; exact hn
    · rw [hf.nbits]; exact hf.sent _ hs
  | gexC1 c hr hb ht hn hs d hd hpb hq hs' hk =>
    refine .gexC1 c (hr.frame hf hh) hb (ht.frame (by decide) hf) ?_ ?_ d (by rw [hf.dh]; exact hd) hpb ?_ (hf.sent _ hs') hk
    · rw [hf.min, hf.nbits, hf.max]; exact hn
    · rw [hf.nbits]; exact hf.sent _ hs
    · obtain ⟨x, y, h1, h2, h3, h4⟩ := hq; exact ⟨x, y, h1, h2, h3, hh _ h4⟩
  | fin ht hd r hl hi ho =>
    exact .fin (ht.frame (by decide) hf) (by rw [hf.done]; exact hd) r (by rw [hf.recs]; exact hl)
      (by rw [hf.pendIn]; exact hi) (by rw [hf.curOut]; exact ho)

theorem Inv.frame {E : Env} {vc vs : Bytes} {hist hist' : List (Nat × Bytes)} {s s' : St} (hi : Inv E vc vs hist s)
    (hf : Frame s s') (hh : ∀ x ∈ hist, x ∈ hist') : Inv E vc vs hist' s' where
  vcEq := by rw [hf.vc]; exact hi.vcEq
  vsEq := by rw [hf.vs]; exact hi.vsEq
  at_ := hi.at_.frame hf hh
  good := by rw [hf.recs]; exact fun r hr => (hi.good r hr).mono hf.sent hh
  ids := by
    obtain ⟨h1, h2, h3⟩ := hi.ids
    constructor
    · rw [hf.recs, hf.sid, hf.firstKey]; exact h1
    · rw [hf.recs, hf.sid, hf.firstKey]; exact h2
    · rw [hf.recs, hf.sid]; exact h3
  keys := by
    obtain ⟨h1, h2, h3⟩ := hi.keys
    constructor
    · rw [hf.recs, hf.curIn]; exact h1
    · rw [hf.recs, hf.curOut]; exact h2
    · rw [hf.recs, hf.curIn, hf.curOut, hf.done]; exact h3

theorem Frame.of_send (s : St) (t : Nat) (p : Bytes) : Frame s (send s t p) := by
  constructor <;> first | rfl | skip
  · intro x hx; exact List.mem_append_left _ hx
  · intro t; exact Or.inl rfl

theorem Frame.trans {a b c : St} (h : Frame a b) (h' : Frame b c) : Frame a c := by
  constructor
  · exact h'.vc.trans h.vc
  · exact h'.vs.trans h.vs
  · exact h'.my.trans h.my
  · exact h'.peer.trans h.peer
  · exact h'.conf.trans h.conf
  · exact h'.eph.trans h.eph
  · exact h'.min.trans h.min
  · exact h'.nbits.trans h.nbits
  · exact h'.max.trans h.max
  · exact h'.dh.trans h.dh
  · exact h'.sid.trans h.sid
  · exact h'.recs.trans h.recs
  · exact h'.firstKey.trans h.firstKey
  · exact h'.curIn.trans h.curIn
  · exact h'.curOut.trans h.curOut
  · exact h'.pendIn.trans h.pendIn
  · exact h'.initSent.trans h.initSent
  · exact h'.done.trans h.done
  · exact h'.flags.trans h.flags
  · exact fun x hx => h'.sent x (h.sent x hx)
  · intro t
    rcases h'.table t with e | e
    · rw [e]; exact h.table t
    · exact Or.inr e

theorem extEntries_frame {E : Env} {s s' : St} {n : Nat} {b : Bytes} (h : extEntries E s n b = .ok s') : Frame s s' := by
  have base : ∀ {a b : St} {name v : Bytes}, (if E.server then extServer a name v else extClient a name v) = .ok b → Frame a b := by
    intro a b name v h1
    split at h1
    · unfold extServer at h1
      repeat' split at h1
      all_goals first
        | cases h1; done
        | (injection h1 with h1; subst h1; constructor <;> simp)
    · unfold extClient at h1
      repeat' split at h1
      all_goals first
        | cases h1; done
        | (injection h1 with h1; subst h1; constructor <;> simp)
  induction n generalizing s b with
  | zero =>
    rw [extEntries] at h
    split at h
    · injection h with h; subst h; constructor <;> simp
    · cases h
  | succ n ih =>
    rw [extEntries] at h
    split at h
    · cases h
    · split at h
      · cases h
      · split at h
        · cases h
        · rename_i h1
          exact (base h1).trans (ih h)

/-- EXT_INFO is closed. -/
theorem Frame.of_ext (s : St) (n : Nat) : Frame s { s with extReceived := n, table := setH 7 .kexError s.table } := by
  constructor <;> first | rfl | skip
  · intro x hx; exact hx
  · intro t
    by_cases h : t = 7
    · refine Or.inr ⟨h, ?_⟩; show setH 7 .kexError s.table t = _; unfold setH; rw [if_pos h]
    · refine Or.inl ?_; show setH 7 .kexError s.table t = _; unfold setH; rw [if_neg h]

theorem Frame.of_count (s : St) (n : Nat) : Frame s { s with extReceived := n } := by
  constructor <;> simp

theorem Frame.of_seq (s : St) (n : Nat) : Frame s { s with seq := n } := by
  constructor <;> simp

theorem Frame.of_skip (s : St) (n : Nat) : Frame s { s with skip := n } := by
  constructor <;> simp

theorem Frame.refl (s : St) : Frame s s := by
  constructor <;> simp

theorem inputExtInfo_frame {E : Env} {s s' : St} {seq : Nat} {p : Bytes} (h : inputExtInfo E s seq p = .ok s') :
    Frame s s' := by
  unfold inputExtInfo dispatchError at h
  split at h
  · injection h with h; subst h; exact (Frame.of_count s _).trans (Frame.of_send _ _ _)
  · split at h
    · cases h
    · split at h
      · injection h with h; subst h; exact (Frame.of_ext s _).trans (Frame.of_send _ _ _)
      · exact (Frame.of_ext s _).trans (extEntries_frame h)

theorem implicitly_frame {s s' : St} {t : Nat} {p : Bytes} (h : implicitly s t p = some (.ok s')) : Frame s s' := by
  unfold implicitly at h
  repeat' split at h
  all_goals first
    | (injection h with h; injection h with h; subst h; first | exact Frame.refl _ | exact Frame.of_send _ _ _)
    | (injection h with h; cases h; done)
    | (cases h; done)

/-- A handler that has nothing to do with the exchange leaves it alone. -/
theorem handle_plain {E : Env} {s s' : St} {seq t : Nat} {p ρ σ τ : Bytes} (hp : plain (s.table t) = true)
    (h : handle E s seq t p ρ σ τ = .ok s') : Frame s s' := by
  unfold handle at h
  split at h <;> rename_i ht <;> rw [ht] at hp
  · cases h
  · unfold kexError at h
    split at h
    · cases h
    · injection h with h; subst h; exact Frame.of_send _ _ _
  · unfold dispatchError at h
    injection h with h; subst h; exact Frame.of_send _ _ _
  · cases hp
  · cases hp
  · exact inputExtInfo_frame h
  · cases hp
  · cases hp
  · cases hp
  · cases hp
  · cases hp
  · cases hp
  · injection h with h; subst h; exact Frame.refl _

end Verif.Exch
