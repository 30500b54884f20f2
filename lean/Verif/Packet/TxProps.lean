/-
C15 (sending side), C18 and C55.
-/
import Verif.Packet.Spec

namespace Verif.Packet
open Verif Wire

variable {σ : Type}

/-! ### One packet -/

/-- The bytes of the packet `p` in state `s`, with `n` bytes of padding, and the cipher context after them. -/
def wireOf (s : Tx σ) (p : Bytes) (rnd : Nat → UInt8) (n : Nat) : σ × Bytes :=
  protect s.keys s.ctx s.seqnr (frame p ((List.range n).map rnd))

theorem wrapped_ok' {c : Conf} {s s' : Tx σ} {p : Bytes} {rnd : Nat → UInt8} (h : wrapped c s p rnd = .ok s') :
    ∃ n, padLen s.keys.blockSize (5 + p.length - s.keys.aadlen) s.extraPad.toNat = some n ∧
      s'.sent = s.sent ++ [⟨s.epoch, s.seqnr, p, (wireOf s p rnd n).2⟩] ∧
      s'.output = s.output ++ (wireOf s p rnd n).2 ∧ s'.queue = s.queue ∧
      s'.rekeying = s.rekeying ∧ s'.initial = s.initial ∧ s'.done = s.done ∧ s'.initSent = s.initSent ∧
      s'.seqnr = nextSeq c.strict (typeOf p) s.seqnr ∧
      (typeOf p = NEWKEYS → s'.epoch = s.epoch + 1 ∧ s'.packets = 0 ∧ s.future = (s'.keys, s'.ctx) :: s'.future) ∧
      (typeOf p ≠ NEWKEYS → s'.epoch = s.epoch ∧ s'.packets = (s.packets + 1) % W32 ∧ s'.keys = s.keys ∧
        s'.ctx = (wireOf s p rnd n).1 ∧ s'.future = s.future) ∧
      (s.initial = true → (s.seqnr + 1) % W32 ≠ 0) ∧ (c.noRekey = false → (s.packets + 1) % W32 ≠ 0) := by
  unfold wrapped at h
  rcases hp : padLen s.keys.blockSize (5 + p.length - s.keys.aadlen) s.extraPad.toNat with _ | n
  · simp only [hp] at h; exact absurd h (by simp)
  simp only [hp] at h
  refine ⟨n, rfl, ?_⟩
  split at h
  · simp at h
  rename_i h1
  split at h
  · simp at h
  rename_i h2
  have e1 : s.initial = true → (s.seqnr + 1) % W32 ≠ 0 := by intro a b; exact h1 ⟨b, a⟩
  have e2 : c.noRekey = false → (s.packets + 1) % W32 ≠ 0 := by intro a b; exact h2 ⟨b, by simp [a]⟩
  by_cases ht : typeOf p = NEWKEYS
  · rw [if_pos ht] at h
    by_cases hs : c.strict = true
    · rw [if_pos ⟨ht, hs⟩] at h
      unfold setNewkeysOut at h
      split at h
      · simp at h
      · rename_i k x rest hfut
        simp only [Res.ok.injEq] at h
        subst h
        exact ⟨rfl, rfl, rfl, rfl, rfl, rfl, rfl, by simp [nextSeq, hs, ht], fun _ => ⟨rfl, rfl, hfut⟩, fun h => absurd ht h, e1, e2⟩
    · rw [if_neg (fun hh => hs hh.2)] at h
      unfold setNewkeysOut at h
      split at h
      · simp at h
      · rename_i k x rest hfut
        simp only [Res.ok.injEq] at h
        subst h
        exact ⟨rfl, rfl, rfl, rfl, rfl, rfl, rfl, by simp [nextSeq, hs], fun _ => ⟨rfl, rfl, hfut⟩, fun h => absurd ht h, e1, e2⟩
  · rw [if_neg ht] at h
    simp only [ht, false_and, if_false] at h
    split at h
    · simp only [Res.ok.injEq] at h
      subst h
      exact ⟨rfl, rfl, rfl, rfl, rfl, rfl, rfl, by simp [ht, nextSeq], by simp [ht], fun _ => ⟨rfl, rfl, rfl, rfl, rfl⟩, e1, e2⟩
    · simp only [Res.ok.injEq] at h
      subst h
      exact ⟨rfl, rfl, rfl, rfl, rfl, rfl, rfl, by simp [ht, nextSeq], by simp [ht], fun _ => ⟨rfl, rfl, rfl, rfl, rfl⟩, e1, e2⟩

theorem wrapped_ok {c : Conf} {s s' : Tx σ} {p : Bytes} {rnd : Nat → UInt8} (h : wrapped c s p rnd = .ok s') :
    ∃ w, s'.sent = s.sent ++ [⟨s.epoch, s.seqnr, p, w⟩] ∧ s'.output = s.output ++ w ∧ s'.queue = s.queue ∧
      s'.rekeying = s.rekeying ∧ s'.initial = s.initial ∧ s'.done = s.done ∧ s'.initSent = s.initSent ∧
      s'.seqnr = nextSeq c.strict (typeOf p) s.seqnr ∧
      (typeOf p = NEWKEYS → s'.epoch = s.epoch + 1 ∧ s'.packets = 0) ∧
      (typeOf p ≠ NEWKEYS → s'.epoch = s.epoch ∧ s'.packets = (s.packets + 1) % W32) ∧
      (s.initial = true → (s.seqnr + 1) % W32 ≠ 0) ∧ (c.noRekey = false → (s.packets + 1) % W32 ≠ 0) := by
  obtain ⟨n, _, a1, a2, a3, a4, a5, a6, a7, a8, a9, a10, a11, a12⟩ := wrapped_ok' h
  exact ⟨_, a1, a2, a3, a4, a5, a6, a7, a8, fun h => ⟨(a9 h).1, (a9 h).2.1⟩, fun h => ⟨(a10 h).1, (a10 h).2.1⟩, a11, a12⟩

theorem wrapped_err {c : Conf} {s s' : Tx σ} {p : Bytes} {rnd : Nat → UInt8} {e : Err}
    (h : wrapped c s p rnd = .err e s') :
    s'.queue = s.queue ∧ s'.rekeying = s.rekeying ∧
      ((s'.sent = s.sent ∧ s'.output = s.output) ∨
        ∃ w, s'.sent = s.sent ++ [⟨s.epoch, s.seqnr, p, w⟩] ∧ s'.output = s.output ++ w) := by
  unfold wrapped at h
  rcases hp : padLen s.keys.blockSize (5 + p.length - s.keys.aadlen) s.extraPad.toNat with _ | n
  · simp only [hp] at h
    simp only [Res.err.injEq] at h
    obtain ⟨_, rfl⟩ := h
    exact ⟨rfl, rfl, .inl ⟨rfl, rfl⟩⟩
  simp only [hp] at h
  split at h
  · simp only [Res.err.injEq] at h
    obtain ⟨_, rfl⟩ := h
    exact ⟨rfl, rfl, .inr ⟨_, rfl, rfl⟩⟩
  split at h
  · simp only [Res.err.injEq] at h
    obtain ⟨_, rfl⟩ := h
    exact ⟨rfl, rfl, .inr ⟨_, rfl, rfl⟩⟩
  by_cases ht : typeOf p = NEWKEYS
  · rw [if_pos ht] at h
    by_cases hs : c.strict = true
    · rw [if_pos ⟨ht, hs⟩] at h
      unfold setNewkeysOut at h
      split at h
      · simp only [Res.err.injEq] at h
        obtain ⟨_, rfl⟩ := h
        exact ⟨rfl, rfl, .inr ⟨_, rfl, rfl⟩⟩
      · simp at h
    · rw [if_neg (fun hh => hs hh.2)] at h
      unfold setNewkeysOut at h
      split at h
      · simp only [Res.err.injEq] at h
        obtain ⟨_, rfl⟩ := h
        exact ⟨rfl, rfl, .inr ⟨_, rfl, rfl⟩⟩
      · simp at h
  · rw [if_neg ht] at h
    split at h <;> simp at h

theorem wrapped_state {c : Conf} {s : Tx σ} {p : Bytes} {rnd : Nat → UInt8} :
    ((wrapped c s p rnd).state.sent = s.sent ∧ (wrapped c s p rnd).state.output = s.output) ∨
      ∃ w, (wrapped c s p rnd).state.sent = s.sent ++ [⟨s.epoch, s.seqnr, p, w⟩] ∧
        (wrapped c s p rnd).state.output = s.output ++ w := by
  rcases h : wrapped c s p rnd with s' | ⟨e, s'⟩
  · obtain ⟨w, h1, h2, _⟩ := wrapped_ok h
    exact .inr ⟨w, h1, h2⟩
  · exact (wrapped_err h).2.2

/-! ### Padding -/

theorem padLen_some {block len extra p : Nat} (hb : block = 8 ∨ block = 16) (he : extra < 256)
    (h : padLen block len extra = some p) : 4 ≤ p ∧ p ≤ 255 ∧ (len + p) % block = 0 := by
  have key : ∀ p0, p0 = (if (block - len % block) % 256 < 4 then ((block - len % block) % 256 + block) % 256
      else (block - len % block) % 256) → 4 ≤ p0 ∧ p0 ≤ 20 ∧ (len + p0) % block = 0 := by
    intro p0 h0
    rcases hb with rfl | rfl <;> (split at h0 <;> omega)
  unfold padLen at h
  simp only at h
  obtain ⟨k1, k2, k3⟩ := key _ rfl
  generalize (if (block - len % block) % 256 < 4 then ((block - len % block) % 256 + block) % 256
      else (block - len % block) % 256) = q at *
  by_cases hz : extra = 0
  · simp [hz] at h; subst h; exact ⟨k1, by omega, k3⟩
  rw [if_pos hz] at h
  split at h
  · simp at h
  rename_i h1
  split at h
  · simp at h
  split at h
  · simp at h
  rename_i h2 h3
  simp only [Option.some.injEq] at h
  have hr : roundup extra block < 256 ∧ roundup extra block % block = 0 ∧ extra ≤ roundup extra block := by
    unfold roundup at h1 ⊢
    rcases hb with rfl | rfl <;> omega
  obtain ⟨r1, r2, r3⟩ := hr
  rw [Nat.mod_eq_of_lt r1] at h h1 h2 h3
  generalize roundup extra block = e at *
  have hlt : (len + q) % e < e := Nat.mod_lt _ (by omega)
  have hdm := Nat.div_add_mod (len + q) e
  have hp : p = q + (e - (len + q) % e) := by omega
  refine ⟨by omega, by omega, ?_⟩
  have : len + p = e * ((len + q) / e) + e := by omega
  rw [this]
  obtain ⟨k, hk⟩ := Nat.dvd_of_mod_eq_zero r2
  rw [hk, Nat.mul_assoc, ← Nat.mul_add]
  exact Nat.mul_mod_right _ _

theorem padLen_zero {block len : Nat} : ∃ p, padLen block len 0 = some p := by
  unfold padLen; simp

/-- **C55** after `sshpkt_add_padding(ssh, 64)` (as done before a password is sent) the encrypted part of the
packet has a length divisible by 64, whatever the payload, so that its length only tells which 64-byte bucket the
payload is in. -/
theorem C55_bucket (block len : Nat) (hb : block = 8 ∨ block = 16) :
    ∃ p, padLen block len 64 = some p ∧ 4 ≤ p ∧ (len + p) % 64 = 0 ∧
      ∃ m, m % block = 0 ∧ len + 4 ≤ m ∧ m < len + 4 + block ∧ len + p = 64 * (m / 64 + 1) := by
  have key : ∀ p0, p0 = (if (block - len % block) % 256 < 4 then ((block - len % block) % 256 + block) % 256
      else (block - len % block) % 256) → 4 ≤ p0 ∧ p0 < block + 4 ∧ (len + p0) % block = 0 := by
    intro p0 h0
    rcases hb with rfl | rfl <;> (split at h0 <;> omega)
  obtain ⟨k1, k2, k3⟩ := key _ rfl
  unfold padLen
  simp only
  generalize (if (block - len % block) % 256 < 4 then ((block - len % block) % 256 + block) % 256
      else (block - len % block) % 256) = q at *
  have hr : roundup 64 block = 64 := by rcases hb with rfl | rfl <;> rfl
  rw [hr, show 64 % 256 = 64 from rfl]
  have h1 : ¬ (64 < 64) := by omega
  have h2 : ¬ ((len + q) % (64) > 64) := by omega
  have h3 : ¬ ((q + (64 - (len + q) % (64))) % 256 < q) := by omega
  rw [if_pos (by decide), if_neg h1, if_neg h2, if_neg h3]
  refine ⟨_, rfl, by omega, by omega, len + q, k3, by omega, by omega, by omega⟩

/-- Two passwords whose packets fall into the same bucket cannot be told apart by length. -/
example : (padLen 16 (5 + 30) 64).map (35 + ·) = (padLen 16 (5 + 10) 64).map (15 + ·) := by decide

/-! ### An induction principle over connection histories -/

/-- The part of the sending state that concerns what has been put on the wire. -/
def core (s : Tx σ) : Tx σ :=
  { s with queue := [], rekeying := false, rekeyTime := 0, done := false, initSent := false, afterAuth := false, extraPad := 0 }

section ind
variable (c : Conf) (P Q : Tx σ → Prop)
  (hP : ∀ s s', core s = core s' → P s → P s')
  (hok : ∀ s s' p rnd, P s → wrapped c s p rnd = .ok s' → P s')
  (herr : ∀ s s' p rnd e, P s → wrapped c s p rnd = .err e s' → Q s')
  (hPQ : ∀ s, P s → Q s)

/-- The claim of the principle for one result. -/
def Good (r : Res σ) : Prop :=
  match r with
  | .ok s => P s
  | .err _ s => Q s

include hok herr in
theorem good_wrapped {s : Tx σ} (h : P s) (p : Bytes) (rnd : Nat → UInt8) : Good P Q (wrapped c s p rnd) := by
  rcases hw : wrapped c s p rnd with s' | ⟨e, s'⟩
  · exact hok s s' p rnd h hw
  · exact herr s s' p rnd e h hw

include hP hok herr in
theorem good_sendKexinit {s : Tx σ} (h : P s) (rnd : Nat → UInt8) : Good P Q (sendKexinit c s rnd) := by
  unfold sendKexinit
  split
  · exact h
  have := good_wrapped c P Q hok herr (hP s { s with done := false, rekeying := true } rfl h) (KEXINIT :: c.kexinit) rnd
  rcases hw : wrapped c { s with done := false, rekeying := true } (KEXINIT :: c.kexinit) rnd with s' | ⟨e, s'⟩
  · simp only [hw] at this ⊢
    exact hP s' _ rfl this
  · simp only [hw] at this ⊢
    exact this

include hP hok herr hPQ in
theorem good_startRekex {s : Tx σ} (h : P s) (rnd : Nat → UInt8) : Good P Q (startRekex c s rnd) := by
  unfold startRekex
  split
  · exact hPQ s h
  · exact good_sendKexinit c P Q hP hok herr (hP s { s with done := false } rfl h) rnd

include hP hok herr hPQ in
theorem good_flush (e : Env) (rnd : Nat → Nat → UInt8) (q : List Bytes) (i : Nat) {s : Tx σ} (h : P s) :
    Good P Q (flush c e rnd q i s) := by
  induction q generalizing i s with
  | nil => exact hP s _ rfl h
  | cons p q ih =>
    rw [flush]
    split
    · exact good_startRekex c P Q hP hok herr hPQ (hP s { s with queue := p :: q } rfl h) _
    have := good_wrapped c P Q hok herr (hP s { s with queue := q } rfl h) p (rnd i)
    rcases hw : wrapped c { s with queue := q } p (rnd i) with s' | ⟨e, s'⟩
    · simp only [hw] at this ⊢
      exact ih (i + 1) this
    · simp only [hw] at this ⊢
      exact this

include hP hok herr hPQ in
theorem good_send2 (e : Env) (rnd : Nat → Nat → UInt8) {s : Tx σ} (h : P s) (p : Bytes) :
    Good P Q (send2 c e rnd s p) := by
  unfold send2
  split
  · exact hPQ s h
  simp only
  split
  · split
    · exact good_startRekex c P Q hP hok herr hPQ (hP s { s with queue := s.queue ++ [p] } rfl h) _
    · exact hP s _ rfl h
  · have h1 : P (if typeOf p = KEXINIT then { s with rekeying := true } else s) := by
      split
      · exact hP s _ rfl h
      · exact h
    have := good_wrapped c P Q hok herr h1 p (rnd 0)
    rcases hw : wrapped c (if typeOf p = KEXINIT then { s with rekeying := true } else s) p (rnd 0) with s' | ⟨x, s'⟩
    · simp only [hw] at this ⊢
      split
      · exact good_flush c P Q hP hok herr hPQ e rnd _ 1 (hP s' { s' with rekeying := false, rekeyTime := e.now } rfl this)
      · exact this
    · simp only [hw] at this ⊢
      exact this

include hP hok herr hPQ in
theorem good_run (es : List TxEvent)
    (hinit : TxEvent.peerNewkeys ∈ es → ∀ s, s.epoch ≠ 0 → P s → P { s with initial := false }) {s : Tx σ} (h : P s) :
    Good P Q (txRun c s es) := by
  induction es generalizing s with
  | nil => exact h
  | cons ev es ih =>
    rw [txRun]
    have step : Good P Q (txStep c s ev) := by
      cases ev with
      | submit e rnd p => exact good_send2 c P Q hP hok herr hPQ e rnd h p
      | kexinit rnd => exact good_sendKexinit c P Q hP hok herr h rnd
      | peerNewkeys =>
        rw [txStep]
        split
        · exact h
        · rename_i he
          exact hP { s with initial := false } _ rfl (hinit (by simp) s he h)
      | pad n => exact hP s _ rfl h
      | auth => exact hP s _ rfl h
    rcases hs : txStep c s ev with s' | ⟨x, s'⟩
    · rw [hs] at step
      exact ih (fun hm => hinit (List.mem_cons_of_mem _ hm)) step
    · rw [hs] at step
      exact step

end ind

/-! ### C15, sending -/

/-- The packets of the current epoch are numbered consecutively from some base, the packet counter counts
them, and everything earlier belongs to earlier epochs and is free of repetitions. -/
def SeqInv (strict : Bool) (s : Tx σ) : Prop :=
  ∃ base old cur, s.sent = old ++ cur ∧ (∀ r ∈ old, r.epoch < s.epoch) ∧ (old.map fun r => (r.epoch, r.seq)).Nodup ∧
    (cur.map fun r => (r.epoch, r.seq)) = (List.range s.packets).map (fun i => (s.epoch, (base + i) % W32)) ∧
    s.seqnr = (base + s.packets) % W32 ∧ s.packets < W32 ∧
    (strict = true → base = 0 ∧ ∀ e, e < s.epoch → ∃ n, seqsOf s e = List.range n)

/-- What remains true when the connection has ended. -/
def SeqEnd (strict : Bool) (s : Tx σ) : Prop :=
  (s.sent.map fun r => (r.epoch, r.seq)).Nodup ∧ (strict = true → ∀ e, ∃ n, seqsOf s e = List.range n)

theorem range_map_mod_nodup (e base n : Nat) (hn : n ≤ W32) :
    ((List.range n).map (fun i => (e, (base + i) % W32))).Nodup := by
  rw [List.nodup_iff_pairwise_ne, List.pairwise_map]
  refine List.Pairwise.imp_of_mem ?_ (List.nodup_iff_pairwise_ne.1 (List.nodup_range (n := n)))
  intro a b ha hb hab heq
  simp only [List.mem_range] at ha hb
  simp only [Prod.mk.injEq, true_and] at heq
  omega

theorem seqInv_nodup' {s : Tx σ} {old cur : List Sent} {base n : Nat} (hs : s.sent = old ++ cur)
    (ho : ∀ r ∈ old, r.epoch < s.epoch) (hn : (old.map fun r => (r.epoch, r.seq)).Nodup)
    (hc : (cur.map fun r => (r.epoch, r.seq)) = (List.range n).map (fun i => (s.epoch, (base + i) % W32)))
    (hle : n ≤ W32) : (s.sent.map fun r => (r.epoch, r.seq)).Nodup := by
  rw [hs, List.map_append, List.nodup_append]
  refine ⟨hn, ?_, ?_⟩
  · rw [hc]; exact range_map_mod_nodup _ _ _ hle
  · intro a ha b hb hab
    simp only [List.mem_map] at ha
    obtain ⟨r, hr, rfl⟩ := ha
    rw [hc] at hb
    simp only [List.mem_map, List.mem_range] at hb
    obtain ⟨i, _, rfl⟩ := hb
    have := ho r hr
    simp only [Prod.mk.injEq] at hab
    omega

theorem seqsOf_append {s : Tx σ} {old cur : List Sent} {n base : Nat} (hs : s.sent = old ++ cur)
    (ho : ∀ r ∈ old, r.epoch < s.epoch)
    (hc : (cur.map fun r => (r.epoch, r.seq)) = (List.range n).map (fun i => (s.epoch, (base + i) % W32))) (e : Nat) :
    (e = s.epoch → seqsOf s e = (List.range n).map (fun i => (base + i) % W32)) ∧
    (e ≠ s.epoch → seqsOf s e = (old.filter fun r => decide (r.epoch = e)).map (·.seq)) := by
  have hcur : ∀ r ∈ cur, r.epoch = s.epoch := by
    intro r hr
    have : (r.epoch, r.seq) ∈ cur.map fun r => (r.epoch, r.seq) := List.mem_map.2 ⟨r, hr, rfl⟩
    rw [hc] at this
    simp only [List.mem_map] at this
    obtain ⟨i, _, h⟩ := this
    exact (Prod.mk.inj h).1.symm
  constructor
  · rintro rfl
    unfold seqsOf
    rw [hs, List.filter_append, List.map_append]
    have h1 : old.filter (fun r => decide (r.epoch = s.epoch)) = [] := by
      rw [List.filter_eq_nil_iff]
      intro r hr
      have := ho r hr
      simp; omega
    have h2 : cur.filter (fun r => decide (r.epoch = s.epoch)) = cur := by
      rw [List.filter_eq_self]
      intro r hr
      simp [hcur r hr]
    rw [h1, h2]
    have := congrArg (List.map Prod.snd) hc
    simp only [List.map_map] at this
    simpa [Function.comp_def] using this
  · intro he
    unfold seqsOf
    rw [hs, List.filter_append, List.map_append]
    have h2 : cur.filter (fun r => decide (r.epoch = e)) = [] := by
      rw [List.filter_eq_nil_iff]
      intro r hr
      have := hcur r hr
      simp; omega
    rw [h2]; simp

theorem seqsOf_small {s : Tx σ} {old cur : List Sent} {n : Nat} (hs : s.sent = old ++ cur)
    (ho : ∀ r ∈ old, r.epoch < s.epoch)
    (hc : (cur.map fun r => (r.epoch, r.seq)) = (List.range n).map (fun i => (s.epoch, (0 + i) % W32))) (hn : n ≤ W32) :
    seqsOf s s.epoch = List.range n := by
  rw [(seqsOf_append hs ho hc s.epoch).1 rfl]
  conv => rhs; rw [← List.map_id (List.range n)]
  apply List.map_congr_left
  intro i hi
  simp only [List.mem_range] at hi
  simp only [id]; omega

theorem seqsOf_gt {s : Tx σ} (h : ∀ r ∈ s.sent, r.epoch ≤ s.epoch) {e : Nat} (he : s.epoch < e) : seqsOf s e = [] := by
  unfold seqsOf
  rw [List.map_eq_nil_iff, List.filter_eq_nil_iff]
  intro r hr
  have := h r hr
  simp; omega

/-- One more packet of the current epoch. -/
theorem cur_snoc {cur : List Sent} {n e base q : Nat} {p w : Bytes}
    (hc : (cur.map fun r => (r.epoch, r.seq)) = (List.range n).map (fun i => (e, (base + i) % W32)))
    (hq : q = (base + n) % W32) :
    ((cur ++ [Sent.mk e q p w]).map fun r => (r.epoch, r.seq)) = (List.range (n + 1)).map (fun i => (e, (base + i) % W32)) := by
  rw [List.map_append, hc, List.range_succ, List.map_append]
  simp [hq]

theorem cur_le {s : Tx σ} {old cur : List Sent} {n base : Nat} (hs : s.sent = old ++ cur)
    (ho : ∀ r ∈ old, r.epoch < s.epoch)
    (hc : (cur.map fun r => (r.epoch, r.seq)) = (List.range n).map (fun i => (s.epoch, (base + i) % W32))) :
    ∀ r ∈ s.sent, r.epoch ≤ s.epoch := by
  intro r hr
  rw [hs, List.mem_append] at hr
  rcases hr with hr | hr
  · exact Nat.le_of_lt (ho r hr)
  · have : (r.epoch, r.seq) ∈ cur.map fun r => (r.epoch, r.seq) := List.mem_map.2 ⟨r, hr, rfl⟩
    rw [hc] at this
    simp only [List.mem_map] at this
    obtain ⟨i, _, h⟩ := this
    exact Nat.le_of_eq (Prod.mk.inj h).1.symm

theorem seqInv_end {strict : Bool} {s : Tx σ} (h : SeqInv strict s) : SeqEnd strict s := by
  obtain ⟨base, old, cur, h1, h2, h3, h4, h5, h6, h7⟩ := h
  refine ⟨seqInv_nodup' h1 h2 h3 h4 (Nat.le_of_lt h6), ?_⟩
  intro hs e
  obtain ⟨hb, h8⟩ := h7 hs
  subst hb
  rcases Nat.lt_trichotomy e s.epoch with he | he | he
  · exact h8 e he
  · subst he
    exact ⟨_, seqsOf_small h1 h2 h4 (Nat.le_of_lt h6)⟩
  · exact ⟨0, by rw [seqsOf_gt (cur_le h1 h2 h4) he]; rfl⟩

/-- The same for the state in which one packet too many may have been counted. -/
theorem seqEnd_snoc {strict : Bool} {s s' : Tx σ} {p w : Bytes} (h : SeqInv strict s)
    (hs : s'.sent = s.sent ++ [⟨s.epoch, s.seqnr, p, w⟩]) : SeqEnd strict s' := by
  obtain ⟨base, old, cur, h1, h2, h3, h4, h5, h6, h7⟩ := h
  let t : Tx σ := { s with sent := s'.sent }
  have g1 : t.sent = old ++ (cur ++ [⟨s.epoch, s.seqnr, p, w⟩]) := by
    show s'.sent = _
    rw [hs, h1, List.append_assoc]
  have g4 := cur_snoc (p := p) (w := w) h4 h5
  have hst : s'.sent = t.sent := rfl
  unfold SeqEnd
  have hseq : ∀ e, seqsOf s' e = seqsOf t e := fun e => rfl
  rw [hst]
  refine ⟨seqInv_nodup' g1 h2 h3 g4 (by omega), ?_⟩
  intro hst' e
  obtain ⟨hb, h8⟩ := h7 hst'
  subst hb
  rw [hseq]
  rcases Nat.lt_trichotomy e s.epoch with he | he | he
  · obtain ⟨n, hn⟩ := h8 e he
    refine ⟨n, ?_⟩
    rw [(seqsOf_append g1 h2 g4 e).2 (by simp [t]; omega), ← hn, (seqsOf_append h1 h2 h4 e).2 (by omega)]
  · subst he
    exact ⟨_, seqsOf_small g1 h2 g4 (by omega)⟩
  · exact ⟨0, by rw [seqsOf_gt (cur_le g1 h2 g4) he]; rfl⟩

theorem seqInv_step {c : Conf} (hn : c.noRekey = false) {s s' : Tx σ} {p : Bytes} {rnd : Nat → UInt8}
    (h : SeqInv c.strict s) (hw : wrapped c s p rnd = .ok s') : SeqInv c.strict s' := by
  have h' := h
  obtain ⟨base, old, cur, h1, h2, h3, h4, h5, h6, h7⟩ := h
  obtain ⟨w, a1, _, _, _, _, _, _, a2, a3, a4, _, a5⟩ := wrapped_ok hw
  have hpk := a5 hn
  have g4 := cur_snoc (p := p) (w := w) h4 h5
  have g1 : s'.sent = old ++ (cur ++ [⟨s.epoch, s.seqnr, p, w⟩]) := by rw [a1, h1, List.append_assoc]
  have hend := seqEnd_snoc h' a1
  by_cases ht : typeOf p = NEWKEYS
  · obtain ⟨b1, b2⟩ := a3 ht
    refine ⟨s'.seqnr, s'.sent, [], by simp, ?_, hend.1, by simp [b2], ?_, by rw [b2]; decide, ?_⟩
    · intro r hr
      have := cur_le (s := { s with sent := s'.sent }) g1 h2 g4 r hr
      rw [b1]
      have h9 : r.epoch ≤ s.epoch := this
      omega
    · rw [b2, a2]; unfold nextSeq
      split
      · rfl
      · show _ = _; omega
    · intro hs
      refine ⟨?_, fun e _ => hend.2 hs e⟩
      rw [a2]; unfold nextSeq; rw [if_pos ⟨hs, ht⟩]
  · obtain ⟨b1, b2⟩ := a4 ht
    have b3 : s'.packets = s.packets + 1 := by rw [b2]; omega
    refine ⟨base, old, cur ++ [⟨s.epoch, s.seqnr, p, w⟩], g1, by rw [b1]; exact h2, h3, by rw [b1, b3]; exact g4, ?_, by omega, ?_⟩
    · rw [a2]; unfold nextSeq
      rw [if_neg (fun hh => ht hh.2), b3, h5]
      show _ % W32 = _
      omega
    · intro hs
      exact ⟨(h7 hs).1, fun e _ => hend.2 hs e⟩

theorem seqInv_fresh {strict : Bool} {s : Tx σ} (h : Fresh s) : SeqInv strict s := by
  refine ⟨0, [], [], by simp [h.sent], by simp, by simp, by simp [h.packets], by simp [h.packets, h.seqnr],
    by rw [h.packets]; decide, ?_⟩
  intro _
  refine ⟨rfl, ?_⟩
  intro e he
  rw [h.epoch] at he; omega

theorem seqInv_run {c : Conf} (hn : c.noRekey = false) {s : Tx σ} (hf : SeqInv c.strict s) (es : List TxEvent) :
    Good (SeqInv c.strict) (SeqEnd c.strict) (txRun c s es) := by
  refine good_run c (SeqInv c.strict) (SeqEnd c.strict) ?_ ?_ ?_ (fun s => seqInv_end) es ?_ hf
  · intro s s' hc h
    have e1 : s.sent = s'.sent := by have := congrArg Tx.sent hc; exact this
    have e2 : s.epoch = s'.epoch := by have := congrArg Tx.epoch hc; exact this
    have e3 : s.seqnr = s'.seqnr := by have := congrArg Tx.seqnr hc; exact this
    have e4 : s.packets = s'.packets := by have := congrArg Tx.packets hc; exact this
    unfold SeqInv seqsOf at h ⊢
    rw [← e1, ← e2, ← e3, ← e4]; exact h
  · intro s s' p rnd h hw
    exact seqInv_step hn h hw
  · intro s s' p rnd e h hw
    rcases (wrapped_err hw).2.2 with h1 | ⟨w, h1, _⟩
    · have := seqInv_end h
      unfold SeqEnd seqsOf at this ⊢
      rw [h1.1]; exact this
    · exact seqEnd_snoc h h1
  · intro _ s _ h
    exact h

theorem seq_run {c : Conf} (hn : c.noRekey = false) {s : Tx σ} (hf : Fresh s) (es : List TxEvent) :
    SeqEnd c.strict (txRun c s es).state := by
  have := seqInv_run hn (seqInv_fresh hf) es
  rcases h : txRun c s es with s' | ⟨e, s'⟩
  · rw [h] at this; exact seqInv_end this
  · rw [h] at this; exact this

/-- **C15** no two packets ever sent under one key carry the same sequence number, whatever the connection
does, including in the packet whose sending ends the connection. -/
theorem C15_no_reuse (c : Conf) (hn : c.noRekey = false) (s : Tx σ) (hf : Fresh s) (es : List TxEvent) :
    ((txRun c s es).state.sent.map fun r => (r.epoch, r.seq)).Nodup :=
  (seq_run hn hf es).1

/-- **C15** with strict key exchange the packets sent under each key are numbered 0, 1, 2, ... -/
theorem C15_strict_restart (c : Conf) (hn : c.noRekey = false) (hs : c.strict = true) (s : Tx σ) (hf : Fresh s)
    (es : List TxEvent) (e : Nat) : ∃ n, seqsOf (txRun c s es).state e = List.range n :=
  (seq_run hn hf es).2 hs e

theorem follows_snoc {strict : Bool} {l : List (UInt8 × Nat)} {n : Nat} {t : UInt8} {q : Nat}
    (h : Follows strict n l) (hq : q = (match l.getLast? with | none => n | some (t', q') => nextSeq strict t' q')) :
    Follows strict n (l ++ [(t, q)]) := by
  induction l generalizing n with
  | nil => exact ⟨hq, trivial⟩
  | cons a l ih =>
    obtain ⟨t', q'⟩ := a
    obtain ⟨h1, h2⟩ := h
    refine ⟨h1, ih h2 ?_⟩
    rw [hq]
    cases l with
    | nil => rfl
    | cons b l => rw [List.getLast?_cons_cons]; cases hl : (b :: l).getLast? <;> simp at hl ⊢

/-- Every message sent is numbered one more than its predecessor, or zero after NEWKEYS in strict mode. -/
def OrdInv (strict : Bool) (s : Tx σ) : Prop :=
  Follows strict 0 (s.sent.map fun r => (typeOf r.payload, r.seq)) ∧
    s.seqnr = (match (s.sent.map fun r => (typeOf r.payload, r.seq)).getLast? with
      | none => 0 | some (t', q') => nextSeq strict t' q')

/-- **C15** sent packets are numbered consecutively modulo 2^32, over the whole connection, except that strict
key exchange restarts at zero after NEWKEYS. -/
theorem C15_consecutive (c : Conf) (s : Tx σ) (hf : Fresh s) (es : List TxEvent) :
    Follows c.strict 0 ((txRun c s es).state.sent.map fun r => (r.payload.headD 0, r.seq)) := by
  have := good_run c (OrdInv c.strict) (fun s => Follows c.strict 0 (s.sent.map fun r => (typeOf r.payload, r.seq)))
    ?_ ?_ ?_ (fun s h => h.1) es ?_ (s := s) ?_
  · rcases h : txRun c s es with s' | ⟨e, s'⟩
    · rw [h] at this; exact this.1
    · rw [h] at this; exact this
  · intro s s' hc h
    have e1 : s.sent = s'.sent := by have := congrArg Tx.sent hc; exact this
    have e3 : s.seqnr = s'.seqnr := by have := congrArg Tx.seqnr hc; exact this
    unfold OrdInv at h ⊢
    rw [← e1, ← e3]; exact h
  · intro s s' p rnd h hw
    obtain ⟨w, a1, _, _, _, _, _, _, a2, _⟩ := wrapped_ok hw
    unfold OrdInv
    rw [a1, List.map_append]
    refine ⟨follows_snoc h.1 h.2, ?_⟩
    simp [a2]
  · intro s s' p rnd e h hw
    rcases (wrapped_err hw).2.2 with h1 | ⟨w, h1, _⟩
    · simp only [h1.1]; exact h.1
    · simp only [h1, List.map_append]; exact follows_snoc h.1 h.2
  · intro _ s _ h; exact h
  · exact ⟨by simp [hf.sent, Follows], by simp [hf.sent, hf.seqnr]⟩

/-- Numbers of one epoch strictly increase. -/
def Increasing (l : List Sent) : Prop := l.Pairwise fun a b => a.epoch = b.epoch → a.seq < b.seq

/-- **C15** until the peer's first NEWKEYS has arrived, numbers never wrap: within one key epoch they strictly
increase. -/
theorem C15_no_wrap_initial (c : Conf) (s : Tx σ) (hf : Fresh s) (es : List TxEvent)
    (hi : TxEvent.peerNewkeys ∉ es) : Increasing (txRun c s es).state.sent := by
  have := good_run c
    (fun s => Increasing s.sent ∧ s.initial = true ∧ s.seqnr < W32 ∧
      ∀ r ∈ s.sent, r.epoch ≤ s.epoch ∧ (r.epoch = s.epoch → r.seq < s.seqnr))
    (fun s => Increasing s.sent) ?_ ?_ ?_ (fun s h => h.1) es (fun h => absurd h hi) (s := s) ?_
  · rcases h : txRun c s es with s' | ⟨e, s'⟩
    · rw [h] at this; exact this.1
    · rw [h] at this; exact this
  · intro s s' hc h
    have e1 : s.sent = s'.sent := by have := congrArg Tx.sent hc; exact this
    have e2 : s.epoch = s'.epoch := by have := congrArg Tx.epoch hc; exact this
    have e3 : s.seqnr = s'.seqnr := by have := congrArg Tx.seqnr hc; exact this
    have e4 : s.initial = s'.initial := by have := congrArg Tx.initial hc; exact this
    rw [← e1, ← e2, ← e3, ← e4]; exact h
  · intro s s' p rnd ⟨h1, h2, h3, h4⟩ hw
    obtain ⟨w, a1, _, _, _, a0, _, _, a2, a3, a4, a5, _⟩ := wrapped_ok hw
    have hz := a5 h2
    refine ⟨?_, by rw [a0, h2], ?_, ?_⟩
    · rw [a1]
      unfold Increasing
      rw [List.pairwise_append]
      refine ⟨h1, by simp, ?_⟩
      intro a ha b hb heq
      simp only [List.mem_singleton] at hb
      subst hb
      exact (h4 a ha).2 heq
    · rw [a2]; unfold nextSeq; split <;> omega
    · intro r hr
      rw [a1, List.mem_append] at hr
      by_cases ht : typeOf p = NEWKEYS
      · rw [(a3 ht).1]
        rcases hr with hr | hr
        · have := (h4 r hr).1
          exact ⟨by omega, by omega⟩
        · simp only [List.mem_singleton] at hr
          subst hr
          exact ⟨by simp, by simp⟩
      · rw [(a4 ht).1, a2]
        unfold nextSeq
        rw [if_neg (fun hh => ht hh.2)]
        rcases hr with hr | hr
        · have := h4 r hr
          exact ⟨this.1, fun he => by have := this.2 he; omega⟩
        · simp only [List.mem_singleton] at hr
          subst hr
          exact ⟨by simp, fun _ => by simp only; omega⟩
  · intro s s' p rnd e ⟨h1, h2, h3, h4⟩ hw
    rcases (wrapped_err hw).2.2 with h5 | ⟨w, h5, _⟩
    · rw [h5.1]; exact h1
    · rw [h5]
      unfold Increasing
      rw [List.pairwise_append]
      refine ⟨h1, by simp, ?_⟩
      intro a ha b hb heq
      simp only [List.mem_singleton] at hb
      subst hb
      exact (h4 a ha).2 heq
  · refine ⟨by simp [hf.sent, Increasing], hf.initial, by rw [hf.seqnr]; decide, by simp [hf.sent]⟩

/-- **C15** a wrap of the outgoing counter during the initial key exchange ends the connection. -/
theorem C15_wrap_exits (c : Conf) (s : Tx σ) (p : Bytes) (rnd : Nat → UInt8) (h1 : s.initial = true)
    (h2 : s.seqnr = 2 ^ 32 - 1) : ∃ e s', wrapped c s p rnd = .err e s' := by
  rcases h : wrapped c s p rnd with s' | ⟨e, s'⟩
  · obtain ⟨w, _, _, _, _, _, _, _, _, _, _, a, _⟩ := wrapped_ok h
    exact absurd (by rw [h2]) (a h1)
  · exact ⟨e, s', rfl⟩

/-! ### C18 -/

theorem typeIsKex_iff (t : UInt8) : typeIsKex t = true ↔ InKex t := by
  have key : ∀ t : UInt8, typeIsKex t = decide (InKex t) := by
    intro t
    have : ∀ n : Fin 256, typeIsKex (UInt8.ofNat n.val) = decide (InKex (UInt8.ofNat n.val)) := by decide +kernel
    have h := this ⟨t.toNat, t.toNat_lt⟩
    simpa using h
  rw [key t]; simp

/-- Scan of the types sent: `none` when something else than a key exchange message follows a KEXINIT before
NEWKEYS; otherwise whether a key exchange is open. -/
def scan : Bool → List UInt8 → Option Bool
  | b, [] => some b
  | b, t :: ts =>
    if b = true ∧ ¬ InKex t then none
    else scan (if t = KEXINIT then true else if t = NEWKEYS then false else b) ts

theorem scan_append (b : Bool) (l m : List UInt8) : scan b (l ++ m) = (scan b l).bind fun b' => scan b' m := by
  induction l generalizing b with
  | nil => rfl
  | cons t l ih =>
    rw [List.cons_append, scan, scan]
    split
    · rfl
    · exact ih _

theorem scan_true {b : Bool} {l : List UInt8} (h : scan true l = some b) (hn : NEWKEYS ∉ l) : ∀ t ∈ l, InKex t := by
  induction l with
  | nil => simp
  | cons t l ih =>
    rw [scan] at h
    split at h
    · simp at h
    rename_i h1
    simp only [true_and, Classical.not_not] at h1
    simp only [List.mem_cons, not_or] at hn
    have : (if t = KEXINIT then true else if t = NEWKEYS then false else true) = true := by
      have h9 : t ≠ NEWKEYS := fun hh => hn.1 hh.symm
      simp [h9]
    rw [this] at h
    intro u hu
    rcases List.mem_cons.1 hu with rfl | hu
    · exact h1
    · exact ih h hn.2 u hu

/-- Invariant: `sub` has been handed over so far. -/
structure QInv (s : Tx σ) (sub : List Bytes) : Prop where
  order : sentData s ++ s.queue = sub
  idle : s.rekeying = false → s.queue = []
  scan : scan false (sentTypes s) = some s.rekeying
  flags : s.initSent = true → s.done = false
  data : ∀ p ∈ s.queue, ¬ InKex (p.headD 0)

/-- What holds when the connection has failed: what was sent is the beginning of what was handed over. -/
structure QEnd (s : Tx σ) (sub : List Bytes) : Prop where
  order : sentData s <+: sub
  scan : ∃ b, scan false (sentTypes s) = some b

def QGood (r : Res σ) (sub : List Bytes) : Prop :=
  match r with
  | .ok s => QInv s sub
  | .err _ s => QEnd s sub

theorem QInv.toEnd {s : Tx σ} {sub : List Bytes} (h : QInv s sub) : QEnd s sub :=
  ⟨⟨s.queue, h.order⟩, ⟨_, h.scan⟩⟩

theorem sentData_snoc {s s' : Tx σ} {r : Sent} (h : s'.sent = s.sent ++ [r]) :
    sentData s' = sentData s ++ (if InKex (r.payload.headD 0) then [] else [r.payload]) := by
  unfold sentData
  rw [h, List.map_append, List.filter_append]
  congr 1
  simp only [List.map_cons, List.map_nil, List.filter_cons, List.filter_nil]
  by_cases h : InKex (r.payload.headD 0) <;> simp [h]

theorem sentTypes_snoc {s s' : Tx σ} {r : Sent} (h : s'.sent = s.sent ++ [r]) :
    sentTypes s' = sentTypes s ++ [typeOf r.payload] := by
  unfold sentTypes
  rw [h, List.map_append]; rfl

/-- State of the invariant around one emitted packet. -/
theorem emit_scan {s s' : Tx σ} {r : Sent} (h : s'.sent = s.sent ++ [r]) {b : Bool}
    (hs : scan false (sentTypes s) = some b) (hk : b = true → InKex (typeOf r.payload)) :
    scan false (sentTypes s') =
      some (if typeOf r.payload = KEXINIT then true else if typeOf r.payload = NEWKEYS then false else b) := by
  rw [sentTypes_snoc h, scan_append, hs]
  show scan b [typeOf r.payload] = _
  rw [scan, if_neg (fun hh => hh.2 (hk hh.1))]
  rfl

theorem inKex_kexinit : InKex KEXINIT := by decide
theorem inKex_newkeys : InKex NEWKEYS := by decide

theorem qgood_sendKexinit {c : Conf} {s : Tx σ} {sub : List Bytes} (rnd : Nat → UInt8)
    (ho : sentData s ++ s.queue = sub) (hsc : ∃ b, scan false (sentTypes s) = some b)
    (hd : ∀ p ∈ s.queue, ¬ InKex (p.headD 0))
    (hi : s.initSent = true → QInv s sub) : QGood (sendKexinit c s rnd) sub := by
  unfold sendKexinit
  by_cases h : s.initSent = true
  · rw [if_pos h]; exact hi h
  rw [if_neg h]
  obtain ⟨b, hb⟩ := hsc
  have hk : InKex ((KEXINIT :: c.kexinit).headD 0) := inKex_kexinit
  rcases hw : wrapped c { s with done := false, rekeying := true } (KEXINIT :: c.kexinit) rnd with s' | ⟨e, s'⟩
  · obtain ⟨w, a1, _, a2, a3, _, a4, _⟩ := wrapped_ok hw
    have e1 := sentData_snoc (s := s) a1
    rw [if_pos hk, List.append_nil] at e1
    have e2 := emit_scan (s := s) a1 hb (fun _ => inKex_kexinit)
    refine ⟨?_, ?_, ?_, ?_, ?_⟩
    · show sentData s' ++ s'.queue = sub
      rw [e1, a2]; exact ho
    · show s'.rekeying = false → _
      rw [a3]; simp
    · show Packet.scan false (sentTypes s') = some s'.rekeying
      rw [e2, a3]; simp [typeOf]
    · intro _; show s'.done = false
      rw [a4]
    · show ∀ p ∈ s'.queue, _
      rw [a2]; exact hd
  · obtain ⟨_, _, h1⟩ := wrapped_err hw
    rcases h1 with ⟨h1, _⟩ | ⟨w, h1, _⟩
    · refine ⟨?_, ?_⟩
      · refine ⟨s.queue, ?_⟩
        unfold sentData at ho ⊢
        rw [h1]; exact ho
      · refine ⟨b, ?_⟩
        unfold sentTypes at hb ⊢
        rw [h1]; exact hb
    · have e1 := sentData_snoc (s := s) h1
      rw [if_pos hk, List.append_nil] at e1
      exact ⟨⟨s.queue, by rw [e1]; exact ho⟩, ⟨_, emit_scan (s := s) h1 hb (fun _ => inKex_kexinit)⟩⟩

theorem qgood_startRekex {c : Conf} {s : Tx σ} {sub : List Bytes} (rnd : Nat → UInt8)
    (ho : sentData s ++ s.queue = sub) (hsc : ∃ b, scan false (sentTypes s) = some b)
    (hd : ∀ p ∈ s.queue, ¬ InKex (p.headD 0)) (hf : s.initSent = true → s.done = false) :
    QGood (startRekex c s rnd) sub := by
  unfold startRekex
  by_cases h : s.done = false
  · rw [if_pos (by simp [h])]
    exact ⟨⟨s.queue, ho⟩, hsc⟩
  · rw [if_neg (by simpa using h)]
    refine qgood_sendKexinit (s := { s with done := false }) rnd ho hsc hd ?_
    intro hi
    exact absurd (hf hi) h

theorem qgood_flush {c : Conf} (e : Env) (rnd : Nat → Nat → UInt8) (q : List Bytes) (i : Nat) {s : Tx σ}
    {sub : List Bytes} (ho : sentData s ++ q = sub) (hsc : scan false (sentTypes s) = some false)
    (hr : s.rekeying = false) (hd : ∀ p ∈ q, ¬ InKex (p.headD 0)) (hf : s.initSent = true → s.done = false) :
    QGood (flush c e rnd q i s) sub := by
  induction q generalizing i s with
  | nil => exact ⟨ho, fun _ => rfl, by show _ = some s.rekeying; rw [hr]; exact hsc, hf, by simp⟩
  | cons p q ih =>
    rw [flush]
    have hp : ¬ InKex (p.headD 0) := hd p (by simp)
    split
    · exact qgood_startRekex (s := { s with queue := p :: q }) (rnd i) ho ⟨_, hsc⟩ hd hf
    rcases hw : wrapped c { s with queue := q } p (rnd i) with s' | ⟨x, s'⟩
    · obtain ⟨w, a1, _, a2, a3, _, a4, a5, _⟩ := wrapped_ok hw
      have e1 := sentData_snoc (s := s) a1
      rw [if_neg hp] at e1
      have e2 := emit_scan (s := s) a1 hsc (fun h => by simp at h)
      have n1 : typeOf p ≠ KEXINIT := fun h => hp (by show InKex (typeOf p); rw [h]; exact inKex_kexinit)
      have n2 : typeOf p ≠ NEWKEYS := fun h => hp (by show InKex (typeOf p); rw [h]; exact inKex_newkeys)
      rw [if_neg n1, if_neg n2] at e2
      refine ih (i + 1) ?_ e2 (by rw [a3]; exact hr) (fun p' hp' => hd p' (by simp [hp'])) (by rw [a4, a5]; exact hf)
      rw [e1, ← ho]; simp
    · obtain ⟨_, _, h1⟩ := wrapped_err hw
      rcases h1 with ⟨h1, _⟩ | ⟨w, h1, _⟩
      · refine ⟨⟨p :: q, ?_⟩, false, ?_⟩
        · unfold sentData at ho ⊢
          rw [h1]; exact ho
        · unfold sentTypes at hsc ⊢
          rw [h1]; exact hsc
      · have e1 := sentData_snoc (s := s) h1
        rw [if_neg hp] at e1
        exact ⟨⟨q, by rw [e1, ← ho]; simp⟩, ⟨_, emit_scan (s := s) h1 hsc (fun h => by simp at h)⟩⟩

theorem needRekeying_done {c : Conf} {e : Env} {s : Tx σ} {n : Nat} (h : needRekeying c e s n = true) :
    s.done = true ∧ s.rekeying = false := by
  unfold needRekeying at h
  split at h
  · simp at h
  split at h
  · simp at h
  rename_i h1
  simp only [Bool.or_eq_true, Bool.not_eq_true', not_or, Bool.not_eq_false, Bool.not_eq_true] at h1
  exact ⟨h1.2, h1.1⟩

theorem qgood_send2 {c : Conf} (e : Env) (rnd : Nat → Nat → UInt8) {s : Tx σ} {sub : List Bytes} (h : QInv s sub)
    (p : Bytes) : QGood (send2 c e rnd s p) (sub ++ (if InKex (p.headD 0) then [] else [p])) := by
  unfold send2
  by_cases hl : p.length < 1
  · rw [if_pos hl]
    exact ⟨List.IsPrefix.trans h.toEnd.order (List.prefix_append _ _), h.toEnd.scan⟩
  rw [if_neg hl]
  simp only
  by_cases hk : InKex (p.headD 0)
  · have hk' : typeIsKex (typeOf p) = true := (typeIsKex_iff _).2 hk
    simp only [hk', Bool.not_true, Bool.false_and, Bool.and_false, Bool.false_eq_true, if_false]
    rw [if_pos hk, List.append_nil]
    have hsame : sentData (if typeOf p = KEXINIT then { s with rekeying := true } else s) = sentData s := by
      split <;> rfl
    rcases hw : wrapped c (if typeOf p = KEXINIT then { s with rekeying := true } else s) p (rnd 0) with s' | ⟨x, s'⟩
    · obtain ⟨w, a1, _, a2, a3, _, a4, a5, _⟩ := wrapped_ok hw
      have b1 : s'.sent = s.sent ++ [⟨s.epoch, s.seqnr, p, w⟩] := by rw [a1]; split <;> rfl
      have b2 : s'.queue = s.queue := by rw [a2]; split <;> rfl
      have b4 : s'.done = s.done := by rw [a4]; split <;> rfl
      have b5 : s'.initSent = s.initSent := by rw [a5]; split <;> rfl
      have e1 := sentData_snoc (s := s) b1
      rw [if_pos hk, List.append_nil] at e1
      have e2 := emit_scan (s := s) b1 h.scan (fun _ => hk)
      have horder : sentData s' ++ s'.queue = sub := by rw [e1, b2]; exact h.order
      have hdata : ∀ p ∈ s'.queue, ¬ InKex (p.headD 0) := by rw [b2]; exact h.data
      have hflags : s'.initSent = true → s'.done = false := by rw [b4, b5]; exact h.flags
      by_cases hn : typeOf p = NEWKEYS
      · simp only [hn, if_true]
        have hne : ¬ (NEWKEYS = KEXINIT) := by decide
        simp only [hn, hne, if_false, if_true] at e2
        exact qgood_flush e rnd s'.queue 1 (s := { s' with rekeying := false, rekeyTime := e.now }) horder e2 rfl hdata hflags
      · simp only [hn, if_false]
        rw [if_neg (show ¬ typeOf p = NEWKEYS from hn)] at e2
        refine ⟨horder, ?_, ?_, hflags, hdata⟩
        · intro hr
          rw [a3] at hr
          rw [b2]
          by_cases hki : typeOf p = KEXINIT
          · rw [if_pos hki] at hr; simp at hr
          · rw [if_neg hki] at hr; exact h.idle hr
        · rw [e2, a3]
          by_cases hki : typeOf p = KEXINIT
          · simp [hki]
          · simp [hki]
    · obtain ⟨_, _, h1⟩ := wrapped_err hw
      have h1' : (s'.sent = s.sent) ∨ ∃ w, s'.sent = s.sent ++ [⟨s.epoch, s.seqnr, p, w⟩] := by
        rcases h1 with ⟨h1, _⟩ | ⟨w, h1, _⟩
        · left; rw [h1]; split <;> rfl
        · right; refine ⟨w, ?_⟩; rw [h1]; split <;> rfl
      rcases h1' with h1 | ⟨w, h1⟩
      · refine ⟨⟨s.queue, ?_⟩, s.rekeying, ?_⟩
        · have := h.order
          unfold sentData at this ⊢
          rw [h1]; exact this
        · have := h.scan
          unfold sentTypes at this ⊢
          rw [h1]; exact this
      · have e1 := sentData_snoc (s := s) h1
        rw [if_pos hk, List.append_nil] at e1
        exact ⟨⟨s.queue, by rw [e1]; exact h.order⟩, ⟨_, emit_scan (s := s) h1 h.scan (fun _ => hk)⟩⟩
  · have hk' : typeIsKex (typeOf p) = false := by
      rw [← Bool.not_eq_true, typeIsKex_iff]; exact hk
    simp only [hk', Bool.not_false, Bool.true_and, Bool.and_true]
    rw [if_neg hk]
    by_cases hq : (needRekeying c e s (5 + p.length) || s.rekeying) = true
    · rw [if_pos hq]
      have ho : sentData s ++ (s.queue ++ [p]) = sub ++ [p] := by rw [← List.append_assoc, h.order]
      have hdata : ∀ p' ∈ s.queue ++ [p], ¬ InKex (p'.headD 0) := by
        intro p' hp'
        rcases List.mem_append.1 hp' with hp' | hp'
        · exact h.data p' hp'
        · simp only [List.mem_singleton] at hp'; subst hp'; exact hk
      by_cases hnr : needRekeying c e s (5 + p.length) = true
      · rw [if_pos hnr]
        exact qgood_startRekex (s := { s with queue := s.queue ++ [p] }) (rnd 0) ho ⟨_, h.scan⟩ hdata h.flags
      · rw [if_neg hnr]
        have hr : s.rekeying = true := by simpa [hnr] using hq
        exact ⟨ho, fun hh => by simp [hr] at hh, h.scan, h.flags, hdata⟩
    · rw [if_neg hq]
      have hr : s.rekeying = false := by
        simp only [Bool.or_eq_true, not_or, Bool.not_eq_true] at hq; exact hq.2
      have hqe := h.idle hr
      have n1 : typeOf p ≠ KEXINIT := fun h => hk (by show InKex (typeOf p); rw [h]; exact inKex_kexinit)
      have n2 : typeOf p ≠ NEWKEYS := fun h => hk (by show InKex (typeOf p); rw [h]; exact inKex_newkeys)
      simp only [n1, if_false]
      have hsc : scan false (sentTypes s) = some false := by rw [h.scan, hr]
      have hord : sentData s = sub := by have := h.order; rw [hqe, List.append_nil] at this; exact this
      rcases hw : wrapped c s p (rnd 0) with s' | ⟨x, s'⟩
      · obtain ⟨w, a1, _, a2, a3, _, a4, a5, _⟩ := wrapped_ok hw
        have e1 := sentData_snoc a1
        rw [if_neg hk] at e1
        have e2 := emit_scan a1 hsc (fun h => by simp at h)
        rw [if_neg n1, if_neg n2] at e2
        simp only [n2, if_false]
        refine ⟨?_, ?_, ?_, ?_, ?_⟩
        · rw [e1, a2, hqe, hord]; simp
        · intro _; rw [a2]; exact hqe
        · rw [e2, a3, hr]
        · rw [a4, a5]; exact h.flags
        · rw [a2]; exact h.data
      · obtain ⟨_, _, h1⟩ := wrapped_err hw
        rcases h1 with ⟨h1, _⟩ | ⟨w, h1, _⟩
        · refine ⟨⟨[p], ?_⟩, false, ?_⟩
          · unfold sentData at hord ⊢
            rw [h1, hord]
          · unfold sentTypes at hsc ⊢
            rw [h1]; exact hsc
        · have e1 := sentData_snoc h1
          rw [if_neg hk] at e1
          exact ⟨⟨[], by rw [e1, hord]; simp⟩, ⟨_, emit_scan h1 hsc (fun h => by simp at h)⟩⟩

theorem QEnd.mono {s : Tx σ} {a b : List Bytes} (h : QEnd s a) (hab : a <+: b) : QEnd s b :=
  ⟨List.IsPrefix.trans h.order hab, h.scan⟩

theorem qgood_run {c : Conf} (es : List TxEvent) {s : Tx σ} {sub : List Bytes} (h : QInv s sub) :
    QGood (txRun c s es) (sub ++ submitted es) := by
  induction es generalizing s sub with
  | nil => simp only [txRun, submitted, List.append_nil]; exact h
  | cons ev es ih =>
    rw [txRun]
    have step : ∃ mid, QGood (txStep c s ev) (sub ++ mid) ∧ submitted (ev :: es) = mid ++ submitted es := by
      cases ev with
      | submit e rnd p =>
        refine ⟨_, qgood_send2 e rnd h p, ?_⟩
        rw [submitted]
        split <;> simp
      | kexinit rnd =>
        refine ⟨[], ?_, rfl⟩
        rw [List.append_nil]
        exact qgood_sendKexinit rnd h.order ⟨_, h.scan⟩ h.data (fun _ => h)
      | peerNewkeys =>
        refine ⟨[], ?_, rfl⟩
        rw [List.append_nil, txStep]
        split
        · exact h
        · exact ⟨h.order, h.idle, h.scan, by simp, h.data⟩
      | pad n => exact ⟨[], by rw [List.append_nil]; exact ⟨h.order, h.idle, h.scan, h.flags, h.data⟩, rfl⟩
      | auth => exact ⟨[], by rw [List.append_nil]; exact ⟨h.order, h.idle, h.scan, h.flags, h.data⟩, rfl⟩
    obtain ⟨mid, h1, h2⟩ := step
    rw [h2, ← List.append_assoc]
    rcases hs : txStep c s ev with s' | ⟨x, s'⟩
    · rw [hs] at h1
      exact ih h1
    · rw [hs] at h1
      exact QEnd.mono h1 (List.prefix_append _ _)

theorem qinv_fresh {s : Tx σ} (h : Fresh s) : QInv s [] :=
  ⟨by simp [sentData, h.sent, h.queue], fun _ => h.queue, by simp [sentTypes, h.sent, h.rekeying, scan],
    by simp [h.initSent], by simp [h.queue]⟩

/-- **C18** in any history, between a KEXINIT and the next NEWKEYS only key exchange messages are sent. -/
theorem C18_only_kex (c : Conf) (s : Tx σ) (hf : Fresh s) (es : List TxEvent) (a b : List UInt8)
    (hs : sentTypes (txRun c s es).state = a ++ KEXINIT :: b) (hn : NEWKEYS ∉ b) : ∀ t ∈ b, InKex t := by
  have h := qgood_run (c := c) es (qinv_fresh hf)
  have h2 : ∃ x, scan false (sentTypes (txRun c s es).state) = some x := by
    rcases hr : txRun c s es with s' | ⟨e, s'⟩
    · rw [hr] at h; exact ⟨_, h.scan⟩
    · rw [hr] at h; exact h.scan
  obtain ⟨x, h2⟩ := h2
  rw [hs, scan_append] at h2
  rcases h3 : scan false a with _ | y
  · rw [h3] at h2; simp at h2
  rw [h3] at h2
  simp only [Option.bind_some] at h2
  rw [scan, if_neg (fun hh => hh.2 inKex_kexinit), if_pos rfl] at h2
  exact scan_true h2 hn

/-- **C18** nothing is lost, duplicated or reordered: what has been sent (other than key exchange messages),
followed by what still waits, is exactly what was handed over; and something can only wait while a key exchange
is open. -/
theorem C18_order (c : Conf) (s s' : Tx σ) (hf : Fresh s) (es : List TxEvent) (h : txRun c s es = .ok s') :
    sentData s' ++ s'.queue = submitted es ∧ (s'.rekeying = false → sentData s' = submitted es) := by
  have := qgood_run (c := c) es (qinv_fresh hf)
  rw [h] at this
  have h1 := this.order
  rw [List.nil_append] at h1
  refine ⟨h1, ?_⟩
  intro hr
  rw [this.idle hr, List.append_nil] at h1
  exact h1

/-- **C18** even when the connection fails, what was sent is the beginning of what was handed over. -/
theorem C18_prefix (c : Conf) (s : Tx σ) (hf : Fresh s) (es : List TxEvent) :
    sentData (txRun c s es).state <+: submitted es := by
  have := qgood_run (c := c) es (qinv_fresh hf)
  rw [List.nil_append] at this
  rcases hr : txRun c s es with s' | ⟨e, s'⟩
  · rw [hr] at this; exact this.toEnd.order
  · rw [hr] at this; exact this.order

/-- **C18** whether an exchange is open is visible in what was sent: the last KEXINIT has no NEWKEYS after it. -/
theorem C18_open (c : Conf) (s s' : Tx σ) (hf : Fresh s) (es : List TxEvent) (h : txRun c s es = .ok s')
    (hr : s'.queue ≠ []) : ∃ a b, sentTypes s' = a ++ KEXINIT :: b ∧ NEWKEYS ∉ b := by
  have h1 := qgood_run (c := c) es (qinv_fresh hf)
  rw [h] at h1
  have h2 : s'.rekeying = true := by
    rcases hb : s'.rekeying with _ | _
    · exact absurd (h1.idle hb) hr
    · rfl
  have h3 := h1.scan
  rw [h2] at h3
  have key : ∀ (l : List UInt8) (b : Bool), scan b l = some true → (b = true ∧ NEWKEYS ∉ l) ∨ ∃ x y, l = x ++ KEXINIT :: y ∧ NEWKEYS ∉ y := by
    intro l
    induction l with
    | nil => intro b hb; left; simpa [scan] using hb
    | cons t l ih =>
      intro b hb
      rw [scan] at hb
      split at hb
      · simp at hb
      rcases ih _ hb with ⟨h4, h5⟩ | ⟨x, y, h4, h5⟩
      · by_cases ht : t = KEXINIT
        · right; exact ⟨[], l, by simp [ht], h5⟩
        · rw [if_neg ht] at h4
          by_cases hn : t = NEWKEYS
          · rw [if_pos hn] at h4; simp at h4
          · rw [if_neg hn] at h4
            left; exact ⟨h4, by simp only [List.mem_cons, not_or]; exact ⟨fun h => hn h.symm, h5⟩⟩
      · right; exact ⟨t :: x, y, by simp [h4], h5⟩
  rcases key _ _ h3 with ⟨h4, _⟩ | h4
  · simp at h4
  · exact h4

end Verif.Packet
