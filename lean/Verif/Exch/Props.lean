/-
C86: what is known about the keys in use, and what two ends agree on.
-/
import Verif.Exch.Steps
import Verif.Kex.Keys

namespace Verif.Exch
open Verif Wire Text
open scoped Verif.Match
open _root_.Verif.Kex (Support Flags Conf KeySet Err chooseConf wellFormed deriveKeys prop2buf buf2prop)

section
variable (E : Env) (vc vs : Bytes) (prop : Kex.Proposal) (ρ : Bytes) (s0 s : St) (es : List Ev)

/-- **C86** At every moment of every connection, whatever was received, each exchange from which keys were derived
is a good one: it is about the KEXINIT messages really sent and received, ran the method agreed on, its hash
covers everything said in it, the keys were derived from that hash, and a client saw a trusted host key of the
type agreed on and a valid signature of that very hash. -/
theorem C86_records (hH : ∀ k x, E.H k x ≠ []) (h0 : setup vc vs prop ρ = .ok s0) (h : run E s0 es = .ok s) :
    ∀ r ∈ s.recs, Good E vc vs s.sent (received es) r := by
  have := run_inv hH (setup_inv (E := E) h0) h
  exact this.good

/-- **C86** Keys are used, in either direction, only after such an exchange, and after it has ended its keys are used
in both directions until the next one. -/
theorem C86_keys (hH : ∀ k x, E.H k x ≠ []) (h0 : setup vc vs prop ρ = .ok s0) (h : run E s0 es = .ok s) :
    (∀ k, s.curIn = some k → ∃ r ∈ s.recs, r.keysIn = k) ∧ (∀ k, s.curOut = some k → ∃ r ∈ s.recs, r.keysOut = k) ∧
    (s.done = true → ∃ r, s.recs.getLast? = some r ∧ s.curIn = some r.keysIn ∧ s.curOut = some r.keysOut) := by
  have := run_inv hH (setup_inv (E := E) h0) h
  exact ⟨this.keys.curIn, this.keys.curOut, this.keys.current⟩

/-- **C86** The session identifier is the hash of the first exchange and never changes, all keys are derived with it,
only the first exchange is treated as the first, and the host key remembered for the session is that one's. -/
theorem C86_session (hH : ∀ k x, E.H k x ≠ []) (h0 : setup vc vs prop ρ = .ok s0) (h : run E s0 es = .ok s)
    (r : Rec) (l : List Rec) (hr : s.recs = r :: l) :
    s.sid = r.hash ∧ s.firstKey = some r.hostKey ∧ r.initial = true ∧ (∀ x ∈ l, x.initial = false) ∧
    (∀ x ∈ s.recs, x.sid = r.hash) := by
  have := run_inv hH (setup_inv (E := E) h0) h
  obtain ⟨h1, h2, h3, h4⟩ := this.ids.first r l hr
  exact ⟨h1, h3, h2, h4, fun x hx => (this.ids.all x hx).trans h1⟩

/-- **C86** For the client and a method of kexgen.c, in full: what was signed is the hash of the strings that were
sent and received. -/
theorem C86_client (hH : ∀ k x, E.H k x ≠ []) (h0 : setup vc vs prop ρ = .ok s0) (h : run E s0 es = .ok s)
    (hb : E.server = false) (r : Rec) (hr : r ∈ s.recs) (hm : E.method r.conf.kexType = some .gen) :
    ∃ qc qs,
      E.keyType r.hostKey = some r.conf.hostkeyType ∧ E.trusted r.hostKey = true ∧
      E.verify r.hostKey r.sig (E.H r.conf.kex (rfcGen vc vs r.ic r.is r.hostKey qc qs r.secret)) r.conf.hostkey = true ∧
      (20, r.ic) ∈ s.sent ∧ (20, r.is) ∈ received es ∧ (30, str qc) ∈ s.sent ∧
      (31, str r.hostKey ++ str qs ++ str r.sig) ∈ received es ∧
      ∃ ρ priv, E.keypair r.conf.kex ρ = some (qc, priv) ∧ E.dec r.conf.kex priv qs = some r.secret := by
  have g := C86_records E vc vs prop ρ s0 s es hH h0 h r hr
  rcases g.parts with ⟨_, qc, qs, p1, p2, p3, p4, p5, p6⟩ | ⟨hm', _⟩
  · have a := g.auth
    rw [hb] at a p4 p5 p6
    have own := g.own
    have peers := g.peers
    rw [hb] at own peers
    refine ⟨qc, qs, a.1, a.2.1, ?_, own, peers, p4, p5, p6⟩
    rw [← C84_gen_rfc, ← g.vc, ← g.vs, ← p3]
    exact a.2.2
  · rw [hm] at hm'; cases hm'

/-- **C86** The same for group exchange, with a server that is told the bounds: the group has between 2048 and 8192
bits, and the bounds and the group are covered by the hash. -/
theorem C86_client_gex (hH : ∀ k x, E.H k x ≠ []) (h0 : setup vc vs prop ρ = .ok s0) (h : run E s0 es = .ok s)
    (hb : E.server = false) (ho : E.gexOld = false) (r : Rec) (hr : r ∈ s.recs) (hm : E.method r.conf.kexType = some .gex) :
    ∃ n p g e f,
      E.keyType r.hostKey = some r.conf.hostkeyType ∧ E.trusted r.hostKey = true ∧
      E.verify r.hostKey r.sig (E.H r.conf.kex (rfcGex vc vs r.ic r.is r.hostKey 2048 n 8192 p g e f r.secret))
        r.conf.hostkey = true ∧
      2048 ≤ numBits p ∧ numBits p ≤ 8192 ∧
      (20, r.ic) ∈ s.sent ∧ (20, r.is) ∈ received es ∧ (34, be 4 2048 ++ be 4 n ++ be 4 8192) ∈ s.sent ∧
      (∃ x y, ofBE x = p ∧ ofBE y = g ∧ (31, str x ++ str y) ∈ received es) ∧ (32, mpint e) ∈ s.sent ∧
      (∃ x, ofBE x = f ∧ (33, str r.hostKey ++ str x ++ str r.sig) ∈ received es) ∧
      ∃ ρ priv, E.dhKey p g (r.conf.need * 8) ρ = some (e, priv) ∧ E.dhShared p priv f = some r.secret := by
  have gd := C86_records E vc vs prop ρ s0 s es hH h0 h r hr
  rcases gd.parts with ⟨hm', _⟩ | ⟨_, mn, n, mx, p, g, e, f, priv, p1, p2, p3, p4⟩
  · rw [hm] at hm'; cases hm'
  · have a := gd.auth
    rw [hb] at a p4
    have own := gd.own
    have peers := gd.peers
    rw [hb] at own peers
    obtain ⟨q1, q2, q3, q4, q5, q6, ⟨x, y, q7, q8, _, q9⟩, q10, ⟨z, q11, _, q12⟩, ⟨ρ', q13⟩, q14⟩ := p4
    have e1 : mn = 2048 := by rw [q1]; unfold oldBound; rw [ho]; rfl
    have e2 : mx = 8192 := by rw [q3]; unfold oldBound; rw [ho]; rfl
    subst e1 e2
    refine ⟨n, p, g, e, f, a.1, a.2.1, ?_, q4, q5, own, peers, q6, ⟨x, y, q7, q8, q9⟩, q10, ⟨z, q11, q12⟩, ρ', priv, q13, q14⟩
    rw [← C84_gex_rfc _ _ _ _ _ _ _ _ _ _ _ _ _ (by decide) (by decide), ← gd.vc, ← gd.vs, ← p3]
    exact a.2.2
end

/-! ### Two ends -/

/-- What is hashed in an exchange. -/
def Rec.input (r : Rec) : Bytes :=
  match r.pub, r.gex with
  | some (qc, qs), _ => genHash r.vc r.vs r.ic r.is r.hostKey qc qs r.secret
  | none, some (min, nbits, max, p, g, e, f) => gexHash r.vc r.vs r.ic r.is r.hostKey min nbits max p g e f r.secret
  | none, none => []

/-- Packets have the size the packet layer allows (packet.h, 256 KiB). -/
def Bounded (l : List (Nat × Bytes)) : Prop := ∀ x ∈ l, x.2.length < 262144

theorem numBits_le {n k : Nat} (h : n < 2 ^ k) : numBits n ≤ k := by
  unfold numBits
  split
  · omega
  · rename_i hn
    have := (Nat.log2_lt hn).2 h
    omega

theorem numBits_ofBE (d : Bytes) : numBits (ofBE d) ≤ 8 * d.length := by
  apply numBits_le
  have := ofBE_lt d
  rwa [show (256 : Nat) = 2 ^ 8 from rfl, ← Nat.pow_mul] at this

theorem small_ofBE {d : Bytes} (h : d.length < 262144) : Small (ofBE d) := by
  have := numBits_ofBE d
  unfold Small
  omega

theorem mpint_length (n : Nat) : numBits n ≤ 8 * (mpint n).length := by
  have h := numBits_ofBE (mpintBytes n)
  rw [ofBE_mpintBytes] at h
  rw [mpint_str]
  unfold str
  rw [List.length_append]
  omega

theorem small_mpint {n : Nat} (h : (mpint n).length < 262144) : Small n := by
  have := mpint_length n
  unfold Small
  omega

theorem str_length (v : Bytes) : (str v).length = 4 + v.length := by
  unfold str
  rw [List.length_append, be_length]

/-- The parts of a good record fit. -/
theorem Good.fits {E : Env} {vc vs : Bytes} {sent hist : List (Nat × Bytes)} {r : Rec} (g : Good E vc vs sent hist r)
    (hs : Bounded sent) (hh : Bounded hist) (hvc : vc.length < 4294967296) (hvs : vs.length < 4294967296) :
    Fits r.vc r.vs r.ic r.is r.hostKey := by
  have own := hs _ g.own
  have peers := hh _ g.peers
  have hk : r.hostKey.length < 262144 := by
    rcases g.parts with ⟨_, qc, qs, p1, p2, p3, p4, p5, p6⟩ | ⟨_, mn, n, mx, p, gg, e, f, priv, p1, p2, p3, p4⟩
    · cases hb : E.server with
      | true =>
        rw [hb] at p5
        have := hs _ p5
        simp only [List.length_append, str_length] at this
        omega
      | false =>
        rw [hb] at p5
        have := hh _ p5
        simp only [List.length_append, str_length] at this
        omega
    · cases hb : E.server with
      | true =>
        rw [hb] at p4
        have := hs _ p4.2.2.2.2.2.2.2.1
        simp only [List.length_append, str_length] at this
        omega
      | false =>
        rw [hb] at p4
        obtain ⟨d, _, _, q⟩ := p4.2.2.2.2.2.2.2.2.1
        have := hh _ q
        simp only [List.length_append, str_length] at this
        omega
  unfold Rec.own at own
  unfold Rec.peers at peers
  refine ⟨by rw [g.vc]; exact hvc, by rw [g.vs]; exact hvs, ?_, ?_, by omega⟩
  · cases hb : E.server with
    | true => rw [hb] at peers; simp only [if_true] at peers; omega
    | false => rw [hb] at own; simp only [Bool.false_eq_true, if_false] at own; omega
  · cases hb : E.server with
    | true => rw [hb] at own; simp only [if_true] at own; omega
    | false => rw [hb] at peers; simp only [Bool.false_eq_true, if_false] at peers; omega

theorem Good.input {E : Env} {vc vs : Bytes} {sent hist : List (Nat × Bytes)} {r : Rec} (g : Good E vc vs sent hist r) :
    r.hash = E.H r.conf.kex r.input := by
  rcases g.parts with ⟨_, qc, qs, p1, p2, p3, _⟩ | ⟨_, mn, n, mx, p, gg, e, f, priv, p1, p2, p3, _⟩
  · unfold Rec.input; rw [p1]; exact p3
  · unfold Rec.input; rw [p1, p2]; exact p3

/-- The input starts with the head. -/
theorem Good.head {E : Env} {vc vs : Bytes} {sent hist : List (Nat × Bytes)} {r : Rec} (g : Good E vc vs sent hist r) :
    ∃ x, r.input = hashHead r.vc r.vs r.ic r.is r.hostKey ++ x := by
  rcases g.parts with ⟨_, qc, qs, p1, p2, p3, _⟩ | ⟨_, mn, n, mx, p, gg, e, f, priv, p1, p2, p3, _⟩
  · unfold Rec.input
    rw [p1]
    exact ⟨_, by simp only [genHash, List.append_assoc]; rfl⟩
  · unfold Rec.input
    rw [p1, p2]
    exact ⟨_, by simp only [gexHash, List.append_assoc]; rfl⟩

theorem chooseConf_agree {S : Support} {fc fs : Flags} {qc qs : Nat} {ic is : Bytes} {c v : Conf}
    (hc : chooseConf S false fc qc ic is = .ok c) (hv : chooseConf S true fs qs is ic = .ok v) :
    c.kex = v.kex ∧ c.hostkey = v.hostkey ∧ c.kexType = v.kexType ∧ c.hostkeyType = v.hostkeyType ∧
    c.keysOut = v.keysIn ∧ c.keysIn = v.keysOut ∧ c.need = v.need ∧ c.dhNeed = v.dhNeed := by
  unfold chooseConf at hc hv
  split at hc
  · cases hc
  · rename_i cp x1 h1
    split at hc
    · cases hc
    · rename_i sp x2 h2
      rw [h1, h2] at hv
      obtain ⟨a1, a2, a3, a4, _, a5, a6, a7, a8⟩ := Kex.C13_agree S cp sp fc fs qc qs x2 x1 c v hc hv
      exact ⟨a1, a2, a3, a4, a5, a6, a7, a8⟩

/-- The keys of a record, from its session identifier alone. -/
theorem deriveKeys_sid {H : Bytes → Bytes} {m : Nat} {server initial : Bool} {sid : Bytes} {need : Nat} {h z sid' : Bytes}
    {ki ko : KeySet} (hd : deriveKeys H m server initial sid need h z = .ok (sid', ki, ko)) (hs : sid' ≠ []) :
    deriveKeys H m server false sid' need h z = .ok (sid', ki, ko) := by
  rcases deriveKeys_ok hd with ⟨b1, b2, b3⟩ | ⟨b1, b2, b3⟩
  · subst b1 b2 b3
    rw [← hd]
    unfold deriveKeys
    simp [hs]
  · subst b1 b3; exact hd

theorem optU32_length (n : Nat) : (optU32 n).length ≤ 4 := by
  unfold optU32
  split
  · decide
  · rw [be_length]; decide

/-- Group exchange between a client that sends its bounds and this server: the two inputs have the same parts. -/
theorem gex_agree {vc vs ic is k z vc' vs' ic' is' k' z' : Bytes} {n p g e f min' nbits' max' p' g' e' f' : Nat}
    (hf : Fits vc vs ic is k) (hf' : Fits vc' vs' ic' is' k') (hn : n ≤ 8192)
    (hn' : min' ≤ nbits' ∧ nbits' ≤ max' ∧ max' < 4294967296) (hp' : numBits p' ≤ 8192)
    (hs : Small p ∧ Small g ∧ Small e ∧ Small f) (hs' : Small p' ∧ Small g' ∧ Small e' ∧ Small f')
    (h : gexHash vc vs ic is k 2048 n 8192 p g e f z = gexHash vc' vs' ic' is' k' min' nbits' max' p' g' e' f' z') :
    vc = vc' ∧ vs = vs' ∧ ic = ic' ∧ is = is' ∧ k = k' ∧
    2048 = min' ∧ n = nbits' ∧ 8192 = max' ∧ p = p' ∧ g = g' ∧ e = e' ∧ f = f' ∧ z = z' := by
  have hmin : min' < 4294967295 := by
    apply Decidable.byContradiction
    intro hc
    have hm : min' = 4294967295 := by omega
    have hm2 : nbits' = 4294967295 := by omega
    have h' := h
    unfold gexHash at h'
    simp only [List.append_assoc] at h'
    obtain ⟨_, _, _, _, _, h'⟩ := head_inj hf hf' h'
    unfold optU32 at h'
    rw [if_neg (by decide), if_pos hm, List.nil_append] at h'
    have := (be4_inj (by decide) (by omega) h').1
    omega
  have hmax : max' < 4294967295 := by
    apply Decidable.byContradiction
    intro hc
    have hm : max' = 4294967295 := by omega
    have h' := h
    unfold gexHash at h'
    simp only [List.append_assoc] at h'
    obtain ⟨_, _, _, _, _, h'⟩ := head_inj hf hf' h'
    unfold optU32 at h'
    rw [if_neg (by decide), if_neg (by decide), if_neg (by omega), if_pos hm, List.nil_append] at h'
    obtain ⟨_, h'⟩ := be4_inj (by decide) (by omega) h'
    obtain ⟨_, h'⟩ := be4_inj (by omega) (by omega) h'
    rw [mpint_str p', str, List.append_assoc] at h'
    have hl := mpintBytes_length p' hs'.1
    have := (be4_inj (by decide) hl h').1
    have hb : (mpintBytes p').length ≤ 1025 := by
      have hl : (magnitude p').length = (numBits p' + 7) / 8 := by unfold magnitude; rw [be_length]
      unfold mpintBytes
      split
      · decide
      · rename_i x l e
        rw [e] at hl
        simp only [List.length_cons] at hl
        split <;> simp only [List.length_cons] <;> omega
    omega
  exact C84_gex_injective vc vs ic is k z vc' vs' ic' is' k' z' 2048 n 8192 p g e f min' nbits' max' p' g' e' f' hf hf'
    ⟨by decide, by omega, by decide⟩ ⟨hmin, by omega, hmax⟩ hs hs' h

/-- The sizes of a good record of kexgen.c. -/
theorem Good.genSizes {E : Env} {sent hist : List (Nat × Bytes)} {r : Rec} (hs : Bounded sent) (hh : Bounded hist)
    {qc qs : Bytes} (p4 : (30, str qc) ∈ (if E.server then hist else sent))
    (p5 : (31, str r.hostKey ++ str qs ++ str r.sig) ∈ (if E.server then sent else hist)) :
    qc.length < 4294967296 ∧ qs.length < 4294967296 := by
  have a : (str qc).length < 262144 := by
    cases hb : E.server with
    | true => rw [hb] at p4; exact hh _ p4
    | false => rw [hb] at p4; exact hs _ p4
  have b : (str r.hostKey ++ str qs ++ str r.sig).length < 262144 := by
    cases hb : E.server with
    | true => rw [hb] at p5; exact hs _ p5
    | false => rw [hb] at p5; exact hh _ p5
  simp only [List.length_append, str_length] at a b
  omega

theorem dhEstimate_le (n : Nat) : dhEstimate n ≤ 8192 := by
  unfold dhEstimate
  repeat' split
  all_goals decide

theorem gexBits_le (E : Env) (c : Conf) : gexBits E c ≤ 8192 := by
  unfold gexBits
  have := dhEstimate_le (c.dhNeed * 8)
  split
  · exact Nat.le_trans (Nat.min_le_left _ _) this
  · exact this

/-- **C86** Authentication.  Let a client and a server run over any network.  Suppose that what verifies under a host
key that the client trusts was signed by this server in one of its exchanges, and that different transcripts
have different hashes.  Then every exchange from which the client derived keys is one from which the server derived
keys, with the same identification strings, the same KEXINIT messages, the same host key, the same public parts
and group, the same secret and the same algorithms: nothing was changed, removed or negotiated down.  If the two
sessions have the same identifier (as they do if this is the first exchange for both), the keys are the same. -/
theorem C86_agree (Ec Es : Env) (hcb : Ec.server = false) (hvb : Es.server = true)
    (hS : Ec.S = Es.S) (hm : Ec.method = Es.method) (hHe : Ec.H = Es.H) (hmd : Ec.mdsz = Es.mdsz) (hold : Ec.gexOld = false)
    (hH : ∀ k x, Ec.H k x ≠ [])
    (hgrp : ∀ a b c ρ p g, Es.group a b c ρ = some (p, g) → numBits p ≤ 8192)
    (cvc cvs svc svs : Bytes) (cprop sprop : Kex.Proposal) (cρ sρ : Bytes) (c0 c v0 v : St) (ces ves : List Ev)
    (hlen : cvc.length < 4294967296 ∧ cvs.length < 4294967296 ∧ svc.length < 4294967296 ∧ svs.length < 4294967296)
    (hc0 : setup cvc cvs cprop cρ = .ok c0) (hc : run Ec c0 ces = .ok c)
    (hv0 : setup svc svs sprop sρ = .ok v0) (hv : run Es v0 ves = .ok v)
    (hbc : Bounded c.sent ∧ Bounded (received ces)) (hbv : Bounded v.sent ∧ Bounded (received ves))
    (hsig : ∀ k sig h alg, Ec.trusted k = true → Ec.verify k sig h alg = true → ∃ r ∈ v.recs, r.hash = h)
    (hcoll : ∀ r ∈ c.recs, ∀ r' ∈ v.recs, Ec.H r.conf.kex r.input = Ec.H r'.conf.kex r'.input → r.input = r'.input) :
    ∀ r ∈ c.recs, ∃ r' ∈ v.recs,
      r.vc = r'.vc ∧ r.vs = r'.vs ∧ r.ic = r'.ic ∧ r.is = r'.is ∧ r.hostKey = r'.hostKey ∧
      r.pub = r'.pub ∧ r.gex = r'.gex ∧ r.secret = r'.secret ∧ r.hash = r'.hash ∧
      (20, r.ic) ∈ received ves ∧ (20, r.is) ∈ v.sent ∧
      r.conf.kex = r'.conf.kex ∧ r.conf.hostkey = r'.conf.hostkey ∧
      r.conf.keysOut = r'.conf.keysIn ∧ r.conf.keysIn = r'.conf.keysOut ∧
      (r.initial = true → r'.initial = true → c.sid = v.sid) ∧
      (c.sid = v.sid → r.keysOut = r'.keysIn ∧ r.keysIn = r'.keysOut) := by
  intro r hr
  have hHv : ∀ k x, Es.H k x ≠ [] := by rw [← hHe]; exact hH
  have ic := run_inv hH (setup_inv (E := Ec) hc0) hc
  have iv := run_inv hHv (setup_inv (E := Es) hv0) hv
  simp only [List.nil_append] at ic iv
  have g := ic.good r hr
  have ga := g.auth
  rw [hcb] at ga
  obtain ⟨r', hr', hh⟩ := hsig _ _ _ _ ga.2.1 ga.2.2
  have g' := iv.good r' hr'
  have hin : r.input = r'.input := by
    apply hcoll r hr r' hr'
    rw [← g.input, hHe, ← g'.input]
    exact hh.symm
  have hf := g.fits hbc.1 hbc.2 hlen.1 hlen.2.1
  have hf' := g'.fits hbv.1 hbv.2 hlen.2.2.1 hlen.2.2.2
  obtain ⟨x, hx⟩ := g.head
  obtain ⟨y, hy⟩ := g'.head
  obtain ⟨e1, e2, e3, e4, e5, _⟩ := head_inj hf hf' (hx.symm.trans (hin.trans hy))
  obtain ⟨fc, qc, hcc⟩ := g.conf
  obtain ⟨fs, qs, hcv⟩ := g'.conf
  unfold Rec.own Rec.peers at hcc hcv
  rw [hcb] at hcc
  rw [hvb, ← e3, ← e4, ← hS] at hcv
  simp only [Bool.false_eq_true, if_false, if_true] at hcc hcv
  obtain ⟨a1, a2, a3, a4, a5, a6, a7, a8⟩ := chooseConf_agree hcc hcv
  have parts : r.pub = r'.pub ∧ r.gex = r'.gex ∧ r.secret = r'.secret := by
    rcases g.parts with ⟨m1, cq, sq, p1, p2, p3, p4, p5, p6⟩ | ⟨m1, mn, n, mx, p, gg, e, f, priv, p1, p2, p3, p4⟩
    · rcases g'.parts with ⟨m1', cq', sq', p1', p2', p3', p4', p5', p6'⟩ | ⟨m1', _⟩
      · have s1 := Good.genSizes (E := Ec) hbc.1 hbc.2 p4 p5
        have s2 := Good.genSizes (E := Es) hbv.1 hbv.2 p4' p5'
        unfold Rec.input at hin
        rw [p1, p1'] at hin
        simp only at hin
        obtain ⟨_, _, _, _, _, i1, i2, i3⟩ := C84_gen_injective _ _ _ _ _ _ _ _ _ _ _ _ _ _ _ _ hf hf' s1.1 s2.1 s1.2 s2.2 hin
        exact ⟨by rw [p1, p1', i1, i2], by rw [p2, p2'], i3⟩
      · rw [← hm, ← a3, m1] at m1'; cases m1'
    · rcases g'.parts with ⟨m1', _⟩ | ⟨m1', mn', n', mx', p', gg', e', f', priv', p1', p2', p3', p4'⟩
      · rw [← hm, ← a3, m1] at m1'; cases m1'
      · rw [hcb] at p4
        rw [hvb] at p4'
        obtain ⟨q1, q2, q3, q4, q5, q6, ⟨x, y, q7, q8, q8', q9⟩, q10, ⟨z, q11, q11', q12⟩, ⟨ρ', q13⟩, q14⟩ := p4
        obtain ⟨r1, r2, r3, r4, r5, r6, ⟨w, r7, r7', r8⟩, r9, ⟨ρ1, r10⟩, ⟨ρ2, r11⟩, r12⟩ := p4'
        have h1 : mn = 2048 := by rw [q1]; unfold oldBound; rw [hold]; rfl
        have h2 : mx = 8192 := by rw [q3]; unfold oldBound; rw [hold]; rfl
        subst h1 h2
        have hs : Small p ∧ Small gg ∧ Small e ∧ Small f := by
          have b1 := hbc.2 _ q9
          have b2 := hbc.1 _ q10
          have b3 := hbc.2 _ q12
          simp only [List.length_append, str_length] at b1 b3
          exact ⟨by rw [← q7]; exact small_ofBE (by omega), by rw [← q8]; exact small_ofBE (by omega), small_mpint b2,
            by rw [← q11]; exact small_ofBE (by omega)⟩
        have hs' : Small p' ∧ Small gg' ∧ Small e' ∧ Small f' := by
          have b1 := hbv.1 _ r6
          have b2 := hbv.2 _ r8
          have b3 := hbv.1 _ r9
          simp only [List.length_append, str_length] at b1 b2 b3
          exact ⟨small_mpint (by omega), small_mpint (by omega), by rw [← r7]; exact small_ofBE (by omega), small_mpint (by omega)⟩
        unfold Rec.input at hin
        rw [p1, p2, p1', p2'] at hin
        simp only at hin
        obtain ⟨_, _, _, _, _, i1, i2, i3, i4, i5, i6, i7, i8⟩ :=
          gex_agree hf hf' (by rw [q2]; exact gexBits_le _ _) ⟨r1, r2, r4⟩ (hgrp _ _ _ _ _ _ r10) hs hs' hin
        exact ⟨by rw [p1, p1'], by rw [p2, p2', ← i1, ← i2, ← i3, ← i4, ← i5, ← i6, ← i7], i8⟩
  obtain ⟨i1, i2, i3⟩ := parts
  refine ⟨r', hr', e1, e2, e3, e4, e5, i1, i2, i3, hh.symm, ?_, ?_, a1, a2, a5, a6, ?_, ?_⟩
  · have := g'.peers; unfold Rec.peers at this; rw [hvb] at this; rw [e3]; exact this
  · have := g'.own; unfold Rec.own at this; rw [hvb] at this; rw [e4]; exact this
  · intro b1 b2
    have k1 := g.keys
    have k2 := g'.keys
    rw [b1] at k1
    rw [b2] at k2
    rcases deriveKeys_ok k1 with ⟨_, _, d1⟩ | ⟨d1, _⟩
    · rcases deriveKeys_ok k2 with ⟨_, _, d2⟩ | ⟨d2, _⟩
      · rw [← ic.ids.all r hr, ← iv.ids.all r' hr', d1, d2, hh]
      · cases d2
    · cases d1
  · intro hsid
    have n1 : r.sid ≠ [] := by
      intro hn
      rcases deriveKeys_ok g.keys with ⟨_, _, d1⟩ | ⟨_, d1, d2⟩
      · exact parts_hash hH g.parts (by rw [← d1, hn])
      · exact d1 (d2.symm.trans hn)
    have n2 : r'.sid ≠ [] := by
      rw [iv.ids.all r' hr', ← hsid, ← ic.ids.all r hr]; exact n1
    have k1 := deriveKeys_sid g.keys n1
    have k2 := deriveKeys_sid g'.keys n2
    rw [hcb] at k1
    rw [hvb, ← hHe, ← hmd, ← a1, ← a7, hh, ← i3, iv.ids.all r' hr', ← hsid, ← ic.ids.all r hr] at k2
    obtain ⟨_, c1, c2⟩ := Kex.C53_agree _ _ _ _ _ _ _ _ _ _ _ _ _ k1 k2
    exact ⟨c1, c2⟩

end Verif.Exch
