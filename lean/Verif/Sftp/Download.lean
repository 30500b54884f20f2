/-
Downloads: the invariant of the loop.
-/
import Verif.Sftp.ClientSpec
import Verif.Sftp.Props

namespace Verif.Sftp.Client
open Verif Wire Sftp

/-! ### Files -/

theorem pwrite_keep (f d : Bytes) (off p : Nat) (hp : p < f.length) (h : ¬(off ≤ p ∧ p < off + d.length)) :
    (pwrite f off d)[p]? = f[p]? := by
  unfold pwrite
  by_cases hd : d = []
  · rw [if_pos hd]
  · rw [if_neg hd]
    by_cases h1 : p < off
    · rw [List.getElem?_append_left (by simp; omega), List.getElem?_append_left (by simp; omega),
        List.getElem?_take_of_lt h1, List.getElem?_append_left hp]
    · have : off + d.length ≤ p := by omega
      rw [List.getElem?_append_right (by simp; omega), List.getElem?_drop]
      congr 1
      simp; omega

theorem pwrite_new (f d : Bytes) (off p : Nat) (h1 : off ≤ p) (h2 : p < off + d.length) :
    (pwrite f off d)[p]? = d[p - off]? := by
  unfold pwrite
  have hd : d ≠ [] := by intro h; subst h; simp at h2; omega
  rw [if_neg hd, List.getElem?_append_left (by simp; omega), List.getElem?_append_right (by simp; omega)]
  congr 1
  simp; omega

theorem pwrite_length (f d : Bytes) (off : Nat) (hd : d ≠ []) : (pwrite f off d).length = max f.length (off + d.length) := by
  unfold pwrite
  rw [if_neg hd]
  simp; omega

theorem pwrite_good {F d : Bytes} {off : Nat} (hd : d <+: F.drop off) (f : Bytes) (p : Nat) (hp : p < F.length)
    (h : f[p]? = F[p]?) : (pwrite f off d)[p]? = F[p]? := by
  by_cases hr : off ≤ p ∧ p < off + d.length
  · rw [pwrite_new f d off p hr.1 hr.2]
    obtain ⟨t, ht⟩ := hd
    have : (F.drop off)[p - off]? = d[p - off]? := by
      rw [← ht, List.getElem?_append_left (by omega)]
    rw [← this, List.getElem?_drop]
    congr 1; omega
  · rw [pwrite_keep f d off p _ hr, h]
    refine Nat.lt_of_not_le fun hc => ?_
    rw [List.getElem?_eq_none hc] at h
    rw [List.getElem?_eq_getElem hp] at h
    cases h

theorem pwrite_in {F d : Bytes} {off : Nat} (hd : d <+: F.drop off) (f : Bytes) (p : Nat) (h1 : off ≤ p)
    (h2 : p < off + d.length) : (pwrite f off d)[p]? = F[p]? := by
  rw [pwrite_new f d off p h1 h2]
  obtain ⟨t, ht⟩ := hd
  have : (F.drop off)[p - off]? = d[p - off]? := by
    rw [← ht, List.getElem?_append_left (by omega)]
  rw [← this, List.getElem?_drop]
  congr 1; omega

/-! ### Requests -/

theorem findId_split {id : Nat} {l : List Rq} {r : Rq} (h : findId id l = some r) :
    r.id = id ∧ ∃ a b, l = a ++ r :: b ∧ removeId id l = a ++ b ∧ ∀ n, replaceId id n l = a ++ n :: b := by
  induction l with
  | nil => cases h
  | cons x l ih =>
    unfold findId at h ih
    rw [List.find?_cons] at h
    by_cases hx : x.id = id
    · have : (x.id == id) = true := by simpa using hx
      rw [this] at h
      simp only [Option.some.injEq] at h
      subst h
      refine ⟨hx, [], l, rfl, ?_, fun n => ?_⟩
      · simp [removeId, hx]
      · simp [replaceId, hx]
    · have : (x.id == id) = false := by simpa using hx
      rw [this] at h
      simp only at h
      obtain ⟨h0, a, b, h1, h2, h3⟩ := ih h
      refine ⟨h0, x :: a, b, by rw [h1]; rfl, ?_, fun n => ?_⟩
      · simp only [removeId, if_neg hx, h2, List.cons_append]
      · simp only [replaceId, if_neg hx, h3, List.cons_append]

def Apart (a b : Rq) : Prop := a.off + a.len ≤ b.off ∨ b.off + b.len ≤ a.off

theorem apart_symm {a b : Rq} (h : Apart a b) : Apart b a := Or.symm h

theorem pairwise_mid {a b : List Rq} {r : Rq} :
    (a ++ r :: b).Pairwise Apart ↔ (a ++ b).Pairwise Apart ∧ ∀ x ∈ a ++ b, Apart r x := by
  simp only [List.pairwise_append, List.pairwise_cons, List.mem_cons, List.mem_append]
  constructor
  · rintro ⟨h1, ⟨h2, h3⟩, h4⟩
    refine ⟨⟨h1, h3, fun x hx y hy => h4 x hx y (Or.inr hy)⟩, ?_⟩
    rintro x (hx | hx)
    · exact apart_symm (h4 x hx r (Or.inl rfl))
    · exact h2 x hx
  · rintro ⟨⟨h1, h2, h3⟩, h4⟩
    refine ⟨h1, ⟨fun x hx => h4 x (Or.inr hx), h2⟩, ?_⟩
    rintro x hx y (rfl | hy)
    · exact apart_symm (h4 x (Or.inl hx))
    · exact h3 x hx y hy

/-! ### The invariant -/

structure Inv (F f0 : Bytes) (start base M k : Nat) (s : Dl) : Prop where
  num : s.numReq = s.reqs.length
  cnt : s.sent.length = k + s.numReq
  lim : s.numReq ≤ M ∧ s.maxReq ≤ M
  ids : ∀ (i : Nat) (r : Rq), s.sent[i]? = some r → r.id = (base + i) % 2 ^ 32
  mid : s.msgId = base + s.sent.length
  mem : ∀ r ∈ s.reqs, r ∈ s.sent
  pos : ∀ r ∈ s.reqs, 0 < r.len ∧ start ≤ r.off ∧ r.off + r.len ≤ s.offset
  blen : 0 < s.buflen
  off : start ≤ s.offset
  dis : s.reqs.Pairwise Apart
  cov : s.readErr = false → s.writeErr = false → ∀ p, start ≤ p → p < s.offset → p < F.length →
    (∃ r ∈ s.reqs, r.off ≤ p ∧ p < r.off + r.len) ∨ (p < s.maxack ∧ s.file[p]? = F[p]?)
  low : ∀ p, p < start → s.file[p]? = f0[p]?
  flen : start ≤ s.file.length
  len : s.file.length ≤ max f0.length F.length
  ack : start ≤ s.maxack ∧ s.maxack ≤ max start F.length ∧ s.maxack ≤ s.offset
  stop : s.maxReq = 0 → s.readErr = true ∨ s.writeErr = true ∨ s.intr = true ∨ F.length ≤ s.offset

theorem inv_sendOne {F f0 : Bytes} {start base M k : Nat} {s : Dl} (h : Inv F f0 start base M k s) (hm : s.numReq < s.maxReq) :
    Inv F f0 start base M k (sendOne s) where
  num := by simp [sendOne, h.num]
  cnt := by simp [sendOne, h.cnt]; omega
  lim := by have := h.lim; simp only [sendOne]; omega
  ids := by
    intro i r hi
    simp only [sendOne] at hi
    by_cases hl : i < s.sent.length
    · rw [List.getElem?_append_left hl] at hi
      exact h.ids i r hi
    · rw [List.getElem?_append_right (by omega)] at hi
      cases hn : i - s.sent.length with
      | zero =>
        rw [hn] at hi
        simp only [List.getElem?_cons_zero, Option.some.injEq] at hi
        subst hi
        simp only [nextRq, h.mid]
        congr 1; omega
      | succ m => rw [hn] at hi; simp at hi
  mid := by simp [sendOne, h.mid]; omega
  mem := by
    intro r hr
    simp only [sendOne, List.mem_append, List.mem_singleton] at hr ⊢
    rcases hr with hr | hr
    · exact Or.inl (h.mem r hr)
    · exact Or.inr hr
  pos := by
    intro r hr
    simp only [sendOne, List.mem_append, List.mem_singleton] at hr ⊢
    rcases hr with hr | hr
    · have := h.pos r hr; omega
    · subst hr
      have := h.blen
      have := h.off
      simp only [nextRq]; omega
  blen := h.blen
  off := by have := h.off; simp only [sendOne]; omega
  dis := by
    simp only [sendOne]
    rw [show s.reqs ++ [nextRq s] = s.reqs ++ nextRq s :: [] from rfl, pairwise_mid]
    refine ⟨by simpa using h.dis, fun x hx => ?_⟩
    rw [List.append_nil] at hx
    exact Or.inr (h.pos x hx).2.2
  cov := by
    intro h1 h2 p hp1 hp2 hp3
    simp only [sendOne] at hp2 h1 h2 ⊢
    by_cases hp : p < s.offset
    · rcases h.cov h1 h2 p hp1 hp hp3 with ⟨r, hr, h3⟩ | h3
      · exact Or.inl ⟨r, List.mem_append_left _ hr, h3⟩
      · exact Or.inr h3
    · exact Or.inl ⟨nextRq s, by simp, by simp only [nextRq]; omega⟩
  low := h.low
  flen := h.flen
  len := h.len
  ack := by have := h.ack; simp only [sendOne]; omega
  stop := by
    intro h0
    simp only [sendOne] at h0 ⊢
    omega

theorem inv_sendMany {F f0 : Bytes} {start base M k : Nat} : ∀ (n : Nat) {s : Dl}, Inv F f0 start base M k s → n ≤ s.maxReq - s.numReq →
    Inv F f0 start base M k (sendMany n s) := by
  intro n
  induction n with
  | zero => intro s h _; exact h
  | succ n ih =>
    intro s h hn
    exact ih (inv_sendOne h (by omega)) (by simp only [sendOne]; omega)

theorem inv_interrupted {F f0 : Bytes} {start base M k : Nat} {s : Dl} (e : Ev) (h : Inv F f0 start base M k s) :
    Inv F f0 start base M k (interruptedDl e s) := by
  unfold interruptedDl
  split
  · exact { h with lim := ⟨h.lim.1, Nat.zero_le _⟩, stop := fun _ => Or.inr (Or.inr (Or.inl rfl)) }
  · exact h

theorem inv_before {F f0 : Bytes} {start base M k : Nat} {s : Dl} (e : Ev) (h : Inv F f0 start base M k s) :
    Inv F f0 start base M k (sendMore (interruptedDl e s)) :=
  inv_sendMany _ (inv_interrupted e h) (Nat.le_refl _)

/-- Two requests with the same number are the same. -/
theorem inv_unique {F f0 : Bytes} {start base M k : Nat} {s : Dl} (h : Inv F f0 start base M k s) (hk : k + M ≤ 2 ^ 32) {a b : Rq}
    (ha : a ∈ s.sent) (hb : b ∈ s.sent) (hid : a.id = b.id) : a = b := by
  obtain ⟨i, hi⟩ := List.mem_iff_getElem?.mp ha
  obtain ⟨j, hj⟩ := List.mem_iff_getElem?.mp hb
  have h1 := h.ids i a hi
  have h2 := h.ids j b hj
  have hil : i < s.sent.length := (List.getElem?_eq_some_iff.mp hi).1
  have hjl : j < s.sent.length := (List.getElem?_eq_some_iff.mp hj).1
  have := h.cnt
  have := h.lim
  have hij : i = j := by omega
  subst hij
  rw [hi] at hj
  exact Option.some.inj hj

/-! ### A message -/

/-- A reply of a good server is one of three kinds, for a request that is under way. -/
theorem onMsg_honest {F f0 : Bytes} {start base M k : Nat} {s s' : Dl} {cfg : DlCfg} {e : Ev} {m : Bytes}
    (h : Inv F f0 start base M k s) (hk : k + M ≤ 2 ^ 32) (ha : Answers F s.sent m) (ho : onMsg cfg e m s = some s') :
    ∃ r a b, s.reqs = a ++ r :: b ∧ removeId r.id s.reqs = a ++ b ∧ (∀ n, replaceId r.id n s.reqs = a ++ n :: b) ∧
      ((∃ d, d ≠ [] ∧ d <+: F.drop r.off ∧ d.length ≤ r.len ∧ s' = widen cfg (settle r d.length (store e r.off d s))) ∨
        (F.length ≤ r.off ∧ s' = onStatus r 1 s) ∨ ∃ code, code ≠ 1 ∧ s' = onStatus r code s) := by
  have small : ∀ r ∈ s.sent, r.id < 2 ^ 32 := by
    intro r hr
    obtain ⟨i, hi⟩ := List.mem_iff_getElem?.mp hr
    rw [h.ids i r hi]
    exact Nat.mod_lt _ (by decide)
  have one : ∀ (t : UInt8) (x : Bytes), getInt 1 (t :: x) = some (t.toNat, x) := by
    intro t x; simp [getInt, ofBE]
  have main : ∀ (t : UInt8) (r : Rq) (x : Bytes), r ∈ s.sent → m = t :: (be 4 r.id ++ x) →
      findId r.id s.reqs = some r ∧ onType cfg e t.toNat r x s = some s' := by
    intro t r x hr hm
    subst hm
    unfold onMsg at ho
    rw [one] at ho
    simp only at ho
    rw [getInt_append _ _ _ (small r hr)] at ho
    simp only at ho
    cases hf : findId r.id s.reqs with
    | none => rw [hf] at ho; cases ho
    | some q =>
      rw [hf] at ho
      simp only at ho
      have hq := findId_split hf
      have hqm : q ∈ s.reqs := by
        obtain ⟨_, a, b, h1, _⟩ := hq
        rw [h1]; simp
      have := inv_unique h hk (h.mem q hqm) hr hq.1
      subst this
      exact ⟨rfl, ho⟩
  cases ha with
  | data v r d hr hd hp hl hs =>
    obtain ⟨h1, h2⟩ := main 103 r (str d) hr (by simp [encReply])
    obtain ⟨_, a, b, g1, g2, g3⟩ := findId_split h1
    refine ⟨r, a, b, g1, g2, g3, Or.inl ⟨d, hd, hp, hl, ?_⟩⟩
    have h3 : getStr (str d) = some (d, []) := by
      have := getStr_append d [] (by show d.length ≤ 134217724; omega)
      rwa [List.append_nil] at this
    simp only [onType, show (103 : UInt8).toNat = 103 from rfl, h3, onData, Option.bind_some] at h2
    rw [if_neg (by decide), if_pos trivial, if_neg (by omega)] at h2
    exact (Option.some.inj h2).symm
  | eof v r msg hr hp =>
    obtain ⟨h1, h2⟩ := main 101 r (be 4 1 ++ (if v ≥ 3 then str (msg.getD (statusMessage 1)) ++ str [] else [])) hr
      (by simp [encReply])
    obtain ⟨_, a, b, g1, g2, g3⟩ := findId_split h1
    refine ⟨r, a, b, g1, g2, g3, Or.inr (Or.inl ⟨hp, ?_⟩)⟩
    simp only [onType, show (101 : UInt8).toNat = 101 from rfl] at h2
    rw [if_pos trivial, getInt_append _ _ _ (by decide)] at h2
    exact (Option.some.inj h2).symm
  | error v r code msg hr hc hl =>
    obtain ⟨h1, h2⟩ := main 101 r (be 4 code ++ (if v ≥ 3 then str (msg.getD (statusMessage code)) ++ str [] else [])) hr
      (by simp [encReply])
    obtain ⟨_, a, b, g1, g2, g3⟩ := findId_split h1
    refine ⟨r, a, b, g1, g2, g3, Or.inr (Or.inr ⟨code, hc, ?_⟩)⟩
    simp only [onType, show (101 : UInt8).toNat = 101 from rfl] at h2
    rw [if_pos trivial, getInt_append _ _ _ hl] at h2
    exact (Option.some.inj h2).symm

theorem inv_status {F f0 : Bytes} {start base M k : Nat} {s : Dl} {r : Rq} {a b : List Rq} {code : Nat}
    (h : Inv F f0 start base M k s) (h1 : s.reqs = a ++ r :: b) (h2 : removeId r.id s.reqs = a ++ b)
    (hc : code = 1 → F.length ≤ r.off) : Inv F f0 start base M (k + 1) (onStatus r code s) := by
  have hr : r ∈ s.reqs := by rw [h1]; simp
  have hsub : ∀ x ∈ a ++ b, x ∈ s.reqs := by
    intro x hx
    rw [h1]
    simp only [List.mem_append, List.mem_cons] at hx ⊢
    rcases hx with hx | hx
    · exact Or.inl hx
    · exact Or.inr (Or.inr hx)
  have hnum : s.numReq = (a ++ b).length + 1 := by
    rw [h.num, h1]; simp; omega
  have hdis := h.dis
  rw [h1, pairwise_mid] at hdis
  exact {
    num := by simp only [onStatus, h2]; omega
    cnt := by have := h.cnt; simp only [onStatus]; omega
    lim := by have := h.lim; simp only [onStatus]; omega
    ids := h.ids
    mid := h.mid
    mem := by intro x hx; simp only [onStatus, h2] at hx; exact h.mem x (hsub x hx)
    pos := by intro x hx; simp only [onStatus, h2] at hx ⊢; exact h.pos x (hsub x hx)
    blen := h.blen
    off := h.off
    dis := by simp only [onStatus, h2]; exact hdis.1
    cov := by
      intro g1 g2 p p1 p2 p3
      simp only [onStatus, Bool.or_eq_false_iff, decide_eq_false_iff_not, Decidable.not_not] at g1 g2 p2 ⊢
      rcases h.cov g1.1 g2 p p1 p2 p3 with ⟨x, hx, g3⟩ | g3
      · rw [h1] at hx
        simp only [List.mem_append, List.mem_cons] at hx
        rcases hx with hx | rfl | hx
        · exact Or.inl ⟨x, by rw [h2]; exact List.mem_append_left _ hx, g3⟩
        · have := hc g1.2; omega
        · exact Or.inl ⟨x, by rw [h2]; exact List.mem_append_right _ hx, g3⟩
      · exact Or.inr g3
    low := h.low
    flen := h.flen
    len := h.len
    ack := h.ack
    stop := by
      intro _
      simp only [onStatus]
      by_cases hc1 : code = 1
      · have := hc hc1
        have := h.pos r hr
        exact Or.inr (Or.inr (Or.inr (by omega)))
      · left; simp [hc1] }

/-- What `store` does. -/
structure Stored (e : Ev) (off : Nat) (d : Bytes) (s s1 : Dl) : Prop where
  reqs : s1.reqs = s.reqs
  sent : s1.sent = s.sent
  numReq : s1.numReq = s.numReq
  msgId : s1.msgId = s.msgId
  offset : s1.offset = s.offset
  buflen : s1.buflen = s.buflen
  readErr : s1.readErr = s.readErr
  intr : s1.intr = s.intr
  file : ∃ d', d' <+: d ∧ s1.file = pwrite s.file off d'
  ack : s1.maxack = s.maxack ∨ s1.maxack = max s.maxack (off + d.length)
  max : s1.maxReq = s.maxReq ∨ s1.maxReq = 0 ∧ s1.writeErr = true
  keep : s.writeErr = true → s1.writeErr = true
  good : s1.writeErr = false → s.writeErr = false ∧ s1.file = pwrite s.file off d ∧ s1.maxack = Nat.max s.maxack (off + d.length)

theorem ackPos_ack (off len : Nat) (s : Dl) : (ackPos off len s).maxack = max s.maxack (off + len) := by
  simp only [ackPos]
  split <;> omega

theorem stored (e : Ev) (off : Nat) (d : Bytes) (s : Dl) : Stored e off d s (store e off d s) := by
  unfold store
  split
  · rename_i n hn
    split
    · rename_i hw
      exact ⟨rfl, rfl, rfl, rfl, rfl, rfl, rfl, rfl, ⟨d.take n, List.take_prefix _ _, rfl⟩, Or.inl rfl, Or.inr ⟨rfl, rfl⟩,
        fun _ => rfl, (fun h => by cases h)⟩
    · rename_i hw
      refine ⟨rfl, rfl, rfl, rfl, rfl, rfl, rfl, rfl, ⟨d.take n, List.take_prefix _ _, rfl⟩, Or.inr (ackPos_ack _ _ _), Or.inl rfl,
        fun h => h, fun h => absurd h hw⟩
  · exact ⟨rfl, rfl, rfl, rfl, rfl, rfl, rfl, rfl, ⟨d, List.prefix_refl _, rfl⟩, Or.inr (ackPos_ack _ _ _), Or.inl rfl,
      fun h => h, fun h => ⟨h, rfl, ackPos_ack _ _ _⟩⟩

theorem pwrite_lt {F d : Bytes} {off : Nat} (hd : d <+: F.drop off) (hne : d ≠ []) : off + d.length ≤ F.length := by
  have h1 := hd.length_le
  have h2 := List.length_pos_iff.mpr hne
  rw [List.length_drop] at h1
  omega

/-- `widen` changes only `maxReq`, which does not become zero. -/
theorem inv_widen {F f0 : Bytes} {start base M k : Nat} {s : Dl} (cfg : DlCfg) (hM : max 1 cfg.numRequests ≤ M)
    (h : Inv F f0 start base M k s) : Inv F f0 start base M k (widen cfg s) := by
  unfold widen
  split
  · split
    · exact { h with lim := ⟨h.lim.1, by show 1 ≤ M; omega⟩, stop := fun h0 => by cases h0 }
    · split
      · exact { h with lim := ⟨h.lim.1, by show s.maxReq + 1 ≤ M; omega⟩, stop := fun h0 => by cases h0 }
      · exact h
  · exact h

theorem inv_data {F f0 : Bytes} {start base M k : Nat} {s : Dl} {r : Rq} {a b : List Rq} {e : Ev} {d : Bytes}
    (h : Inv F f0 start base M k s) (h1 : s.reqs = a ++ r :: b) (h2 : removeId r.id s.reqs = a ++ b)
    (h3 : ∀ n, replaceId r.id n s.reqs = a ++ n :: b) (hd : d ≠ []) (hp : d <+: F.drop r.off) (hl : d.length ≤ r.len) :
    Inv F f0 start base M (k + 1) (settle r d.length (store e r.off d s)) := by
  have st := stored e r.off d s
  generalize store e r.off d s = s1 at st
  have hr : r ∈ s.reqs := by rw [h1]; simp
  have hsub : ∀ x ∈ a ++ b, x ∈ s.reqs := by
    intro x hx
    rw [h1]
    simp only [List.mem_append, List.mem_cons] at hx ⊢
    rcases hx with hx | hx
    · exact Or.inl hx
    · exact Or.inr (Or.inr hx)
  have hnum : s.numReq = (a ++ b).length + 1 := by
    rw [h.num, h1]; simp; omega
  have hdis := h.dis
  rw [h1, pairwise_mid] at hdis
  have hpos := h.pos r hr
  have hdl := List.length_pos_iff.mpr hd
  have hF := pwrite_lt hp hd
  have hack := h.ack
  have low : ∀ p, p < start → s1.file[p]? = f0[p]? := by
    intro p hps
    obtain ⟨d', hd', hf⟩ := st.file
    rw [hf]
    have hlow := h.low p hps
    have := h.flen
    rw [pwrite_keep _ _ _ _ (by omega) (by omega), hlow]
  have flen : start ≤ s1.file.length := by
    obtain ⟨d', hd', hf⟩ := st.file
    have := h.flen
    rw [hf]
    by_cases hne : d' = []
    · rw [hne]; exact h.flen
    · rw [pwrite_length _ _ _ hne]; omega
  have len : s1.file.length ≤ max f0.length F.length := by
    obtain ⟨d', hd', hf⟩ := st.file
    rw [hf]
    by_cases hne : d' = []
    · rw [hne]; exact h.len
    · rw [pwrite_length _ _ _ hne]
      have := hd'.length_le
      have := h.len
      omega
  have ack : start ≤ s1.maxack ∧ s1.maxack ≤ max start F.length ∧ s1.maxack ≤ s.offset := by
    rcases st.ack with g | g <;> rw [g] <;> omega
  have stop : s1.maxReq = 0 → s1.readErr = true ∨ s1.writeErr = true ∨ s1.intr = true ∨ F.length ≤ s.offset := by
    intro h0
    rcases st.max with g | g
    · rw [st.readErr, st.intr]
      rcases h.stop (by omega) with g1 | g1 | g1 | g1
      · exact Or.inl g1
      · exact Or.inr (Or.inl (st.keep g1))
      · exact Or.inr (Or.inr (Or.inl g1))
      · exact Or.inr (Or.inr (Or.inr g1))
    · exact Or.inr (Or.inl g.2)
  have lim : s1.maxReq ≤ M := by
    have := h.lim
    rcases st.max with g | g <;> omega
  have cov : ∀ l : List Rq, (∀ x ∈ a ++ b, x ∈ l) → (∀ p, r.off + d.length ≤ p → p < r.off + r.len → ∃ x ∈ l, x.off ≤ p ∧ p < x.off + x.len) →
      s1.readErr = false → s1.writeErr = false → ∀ p, start ≤ p → p < s.offset → p < F.length →
      (∃ x ∈ l, x.off ≤ p ∧ p < x.off + x.len) ∨ (p < s1.maxack ∧ s1.file[p]? = F[p]?) := by
    intro l g1 g2 e1 e2 p p1 p2 p3
    obtain ⟨g3, g4, g5⟩ := st.good e2
    rw [st.readErr] at e1
    rw [g5]
    have hm : ∀ x y : Nat, x.max y = max x y := fun _ _ => rfl
    rw [hm]
    rcases h.cov e1 g3 p p1 p2 p3 with ⟨x, hx, g6⟩ | g6
    · rw [h1] at hx
      simp only [List.mem_append, List.mem_cons] at hx
      rcases hx with hx | rfl | hx
      · exact Or.inl ⟨x, g1 x (List.mem_append_left _ hx), g6⟩
      · by_cases hpd : p < x.off + d.length
        · right
          refine ⟨by omega, ?_⟩
          rw [g4]
          exact pwrite_in hp _ _ g6.1 hpd
        · exact Or.inl (g2 p (by omega) g6.2)
      · exact Or.inl ⟨x, g1 x (List.mem_append_right _ hx), g6⟩
    · right
      refine ⟨by omega, ?_⟩
      rw [g4]
      exact pwrite_good hp _ _ p3 g6.2
  unfold settle
  by_cases hlen : d.length = r.len
  · rw [if_pos hlen]
    exact {
      num := by show s1.numReq - 1 = (removeId r.id s1.reqs).length; rw [st.reqs, h2, st.numReq]; omega
      cnt := by show s1.sent.length = k + 1 + (s1.numReq - 1); have := h.cnt; rw [st.sent, st.numReq]; omega
      lim := ⟨by show s1.numReq - 1 ≤ M; have := h.lim; rw [st.numReq]; omega, lim⟩
      ids := by show ∀ (i : Nat) (r : Rq), s1.sent[i]? = some r → _; rw [st.sent]; exact h.ids
      mid := by show s1.msgId = base + s1.sent.length; rw [st.msgId, st.sent]; exact h.mid
      mem := by
        intro x hx
        replace hx : x ∈ removeId r.id s1.reqs := hx
        rw [st.reqs, h2] at hx
        show x ∈ s1.sent
        rw [st.sent]; exact h.mem x (hsub x hx)
      pos := by
        intro x hx
        replace hx : x ∈ removeId r.id s1.reqs := hx
        rw [st.reqs, h2] at hx
        show _ ∧ _ ∧ _ ≤ s1.offset
        rw [st.offset]; exact h.pos x (hsub x hx)
      blen := by show 0 < s1.buflen; rw [st.buflen]; exact h.blen
      off := by show start ≤ s1.offset; rw [st.offset]; exact h.off
      dis := by show (removeId r.id s1.reqs).Pairwise Apart; rw [st.reqs, h2]; exact hdis.1
      cov := by
        show s1.readErr = false → s1.writeErr = false → ∀ p, start ≤ p → p < s1.offset → p < F.length →
          (∃ x ∈ removeId r.id s1.reqs, x.off ≤ p ∧ p < x.off + x.len) ∨ (p < s1.maxack ∧ s1.file[p]? = F[p]?)
        rw [st.reqs, h2, st.offset]
        exact cov _ (fun x hx => hx) (fun p q1 q2 => by omega)
      low := low
      flen := flen
      len := len
      ack := by show start ≤ s1.maxack ∧ s1.maxack ≤ _ ∧ s1.maxack ≤ s1.offset; rw [st.offset]; exact ack
      stop := by
        show s1.maxReq = 0 → s1.readErr = true ∨ s1.writeErr = true ∨ s1.intr = true ∨ F.length ≤ s1.offset
        rw [st.offset]; exact stop }
  · rw [if_neg hlen]
    exact {
      num := by show s1.numReq = (replaceId r.id _ s1.reqs).length; rw [st.reqs, h3, st.numReq]; simp at hnum ⊢; omega
      cnt := by show (s1.sent ++ [_]).length = k + 1 + s1.numReq; have := h.cnt; rw [st.sent, st.numReq]; simp; omega
      lim := ⟨by show s1.numReq ≤ M; have := h.lim; rw [st.numReq]; omega, lim⟩
      ids := by
        intro i x hi
        replace hi : (s1.sent ++ [_])[i]? = some x := hi
        rw [st.sent] at hi
        by_cases hil : i < s.sent.length
        · rw [List.getElem?_append_left hil] at hi
          exact h.ids i x hi
        · rw [List.getElem?_append_right (by omega)] at hi
          cases hn : i - s.sent.length with
          | zero =>
            rw [hn] at hi
            simp only [List.getElem?_cons_zero, Option.some.injEq] at hi
            subst hi
            show s1.msgId % 2 ^ 32 = _
            rw [st.msgId, h.mid]
            congr 1; omega
          | succ m => rw [hn] at hi; simp at hi
      mid := by show s1.msgId + 1 = base + (s1.sent ++ [_]).length; rw [st.msgId, st.sent, h.mid]; simp; omega
      mem := by
        intro x hx
        replace hx : x ∈ replaceId r.id _ s1.reqs := hx
        rw [st.reqs, h3] at hx
        show x ∈ s1.sent ++ [_]
        rw [st.sent]
        simp only [List.mem_append, List.mem_cons, List.not_mem_nil, or_false] at hx ⊢
        rcases hx with hx | hx | hx
        · exact Or.inl (h.mem x (hsub x (List.mem_append_left _ hx)))
        · exact Or.inr hx
        · exact Or.inl (h.mem x (hsub x (List.mem_append_right _ hx)))
      pos := by
        intro x hx
        replace hx : x ∈ replaceId r.id _ s1.reqs := hx
        rw [st.reqs, h3] at hx
        show _ ∧ _ ∧ _ ≤ s1.offset
        rw [st.offset]
        simp only [List.mem_append, List.mem_cons] at hx
        rcases hx with hx | hx | hx
        · exact h.pos x (hsub x (List.mem_append_left _ hx))
        · subst hx
          show 0 < r.len - d.length ∧ start ≤ r.off + d.length ∧ r.off + d.length + (r.len - d.length) ≤ s.offset
          omega
        · exact h.pos x (hsub x (List.mem_append_right _ hx))
      blen := by
        show 0 < if d.length < s1.buflen then max 512 d.length else s1.buflen
        rw [st.buflen]
        have := h.blen
        split <;> omega
      off := by show start ≤ s1.offset; rw [st.offset]; exact h.off
      dis := by
        show (replaceId r.id _ s1.reqs).Pairwise Apart
        rw [st.reqs, h3, pairwise_mid]
        refine ⟨hdis.1, fun x hx => ?_⟩
        have := hdis.2 x hx
        unfold Apart at this ⊢
        simp only
        omega
      cov := by
        show s1.readErr = false → s1.writeErr = false → ∀ p, start ≤ p → p < s1.offset → p < F.length →
          (∃ x ∈ replaceId r.id _ s1.reqs, x.off ≤ p ∧ p < x.off + x.len) ∨ (p < s1.maxack ∧ s1.file[p]? = F[p]?)
        rw [st.reqs, h3, st.offset]
        refine cov _ (fun x hx => ?_) (fun p q1 q2 => ⟨_, List.mem_append_right _ List.mem_cons_self, ?_⟩)
        · simp only [List.mem_append, List.mem_cons] at hx ⊢
          rcases hx with hx | hx
          · exact Or.inl hx
          · exact Or.inr (Or.inr hx)
        · simp only; omega
      low := low
      flen := flen
      len := len
      ack := by show start ≤ s1.maxack ∧ s1.maxack ≤ _ ∧ s1.maxack ≤ s1.offset; rw [st.offset]; exact ack
      stop := by
        show s1.maxReq = 0 → s1.readErr = true ∨ s1.writeErr = true ∨ s1.intr = true ∨ F.length ≤ s1.offset
        rw [st.offset]; exact stop }

/-! ### How far the file is there -/

/-- At most one write fails. -/
def Once (ev : Nat → Ev) : Prop := ∀ i j, (ev i).fails ≠ none → (ev j).fails ≠ none → i = j

structure Hw (F : Bytes) (start : Nat) (ev : Nat → Ev) (k : Nat) (s : Dl) : Prop where
  lo : start ≤ s.highwater
  hi : s.highwater ≤ s.maxack
  fill : ∀ p, start ≤ p → p < s.highwater → p < F.length ∧ s.file[p]? = F[p]?
  eq : s.reordered = false → s.highwater = s.maxack
  req : s.reordered = false → ∀ r ∈ s.reqs, s.highwater ≤ r.off
  werr : s.writeErr = true → ∃ j, j < k ∧ (ev j).fails ≠ none

theorem hw_sendOne {F f0 : Bytes} {start base M k : Nat} {ev : Nat → Ev} {s : Dl} (h : Inv F f0 start base M k s)
    (w : Hw F start ev k s) : Hw F start ev k (sendOne s) where
  lo := w.lo
  hi := w.hi
  fill := w.fill
  eq := w.eq
  req := by
    intro h0 r hr
    simp only [sendOne, List.mem_append, List.mem_singleton] at hr h0 ⊢
    rcases hr with hr | rfl
    · exact w.req h0 r hr
    · have := h.ack
      have := w.hi
      simp only [nextRq]; omega
  werr := w.werr

theorem hw_sendMany {F f0 : Bytes} {start base M k : Nat} {ev : Nat → Ev} : ∀ (n : Nat) {s : Dl}, Inv F f0 start base M k s →
    n ≤ s.maxReq - s.numReq → Hw F start ev k s → Hw F start ev k (sendMany n s) := by
  intro n
  induction n with
  | zero => intro s _ _ w; exact w
  | succ n ih =>
    intro s h hn w
    exact ih (inv_sendOne h (by omega)) (by simp only [sendOne]; omega) (hw_sendOne h w)

theorem hw_before {F f0 : Bytes} {start base M k : Nat} {ev : Nat → Ev} {s : Dl} (e : Ev) (h : Inv F f0 start base M k s)
    (w : Hw F start ev k s) : Hw F start ev k (sendMore (interruptedDl e s)) := by
  refine hw_sendMany _ (inv_interrupted e h) (Nat.le_refl _) ?_
  unfold interruptedDl
  split
  · exact { w with }
  · exact w

theorem hw_status {F : Bytes} {start k code : Nat} {ev : Nat → Ev} {s : Dl} {r : Rq} {a b : List Rq} (w : Hw F start ev k s)
    (h1 : s.reqs = a ++ r :: b) (h2 : removeId r.id s.reqs = a ++ b) : Hw F start ev (k + 1) (onStatus r code s) where
  lo := w.lo
  hi := w.hi
  fill := w.fill
  eq := w.eq
  req := by
    intro h0 x hx
    simp only [onStatus, h2] at hx h0 ⊢
    refine w.req h0 x ?_
    rw [h1]
    simp only [List.mem_append, List.mem_cons] at hx ⊢
    rcases hx with hx | hx
    · exact Or.inl hx
    · exact Or.inr (Or.inr hx)
  werr := by
    intro h0
    obtain ⟨j, hj, g⟩ := w.werr h0
    exact ⟨j, by omega, g⟩

/-- After the data are stored. -/
theorem hw_store {F f0 : Bytes} {start base M k : Nat} {ev : Nat → Ev} {s : Dl} {r : Rq} {a b : List Rq} {d : Bytes}
    (once : Once ev) (h : Inv F f0 start base M k s) (w : Hw F start ev k s) (h1 : s.reqs = a ++ r :: b) (hd : d ≠ [])
    (hp : d <+: F.drop r.off) (hl : d.length ≤ r.len) :
    (Hw F start ev (k + 1) { store (ev k) r.off d s with reqs := a ++ b }) ∧
      ((store (ev k) r.off d s).reordered = false → (store (ev k) r.off d s).highwater ≤ r.off + d.length) := by
  have hr : r ∈ s.reqs := by rw [h1]; simp
  have hsub : ∀ x ∈ a ++ b, x ∈ s.reqs := by
    intro x hx
    rw [h1]
    simp only [List.mem_append, List.mem_cons] at hx ⊢
    rcases hx with hx | hx
    · exact Or.inl hx
    · exact Or.inr (Or.inr hx)
  have hdis := h.dis
  rw [h1, pairwise_mid] at hdis
  have hpos := h.pos r hr
  have hF := pwrite_lt hp hd
  have whi := w.hi
  have wlo := w.lo
  unfold store
  split
  · rename_i n hn
    have he : s.writeErr = false := by
      cases hwe : s.writeErr with
      | false => rfl
      | true =>
        obtain ⟨j, hj, g⟩ := w.werr hwe
        have := once j k g (by rw [hn]; simp)
        omega
    rw [if_pos he]
    refine ⟨⟨w.lo, w.hi, ?_, w.eq, fun h0 x hx => w.req h0 x (hsub x hx), fun _ => ⟨k, by omega, by rw [hn]; simp⟩⟩, ?_⟩
    · intro p p1 p2
      obtain ⟨g1, g2⟩ := w.fill p p1 p2
      exact ⟨g1, pwrite_good ((List.take_prefix n d).trans hp) _ _ g1 g2⟩
    · intro h0
      have := w.req h0 r hr
      simp only
      omega
  · rename_i hn
    have fill : ∀ p, start ≤ p → p < s.highwater → p < F.length ∧ (pwrite s.file r.off d)[p]? = F[p]? := by
      intro p p1 p2
      obtain ⟨g1, g2⟩ := w.fill p p1 p2
      exact ⟨g1, pwrite_good hp _ _ g1 g2⟩
    have werr : s.writeErr = true → ∃ j, j < k + 1 ∧ (ev j).fails ≠ none := by
      intro h0
      obtain ⟨j, hj, g⟩ := w.werr h0
      exact ⟨j, by omega, g⟩
    simp only [ackPos]
    cases hre : s.reordered with
    | true =>
      refine ⟨⟨?_, ?_, ?_, fun h0 => ?_, fun h0 => ?_, werr⟩, fun h0 => ?_⟩
      · simpa using wlo
      · simp only [Bool.not_true, Bool.false_and, Bool.false_eq_true, if_false]; split <;> omega
      · simpa using fill
      · simp at h0
      · simp at h0
      · simp at h0
    | false =>
      have weq := w.eq hre
      have wreq := w.req hre r hr
      by_cases ho : r.off ≤ s.highwater
      · have hoe : r.off = s.highwater := by omega
        have hlt : s.maxack < r.off + d.length := by
          have := List.length_pos_iff.mpr hd
          omega
        have g1 : (!false && decide (r.off ≤ s.highwater)) = true := by simpa using ho
        simp only [g1, if_pos hlt, if_true]
        refine ⟨⟨by simp only; omega, Nat.le_refl _, ?_, fun _ => rfl, fun _ x hx => ?_, werr⟩, fun _ => Nat.le_refl _⟩
        · intro p p1 p2
          simp only at p2 ⊢
          by_cases hq : p < s.highwater
          · exact fill p p1 hq
          · exact ⟨by omega, pwrite_in hp _ _ (by omega) p2⟩
        · have g2 := hdis.2 x hx
          have g3 := w.req hre x (hsub x hx)
          have g4 := h.pos x (hsub x hx)
          unfold Apart at g2
          simp only
          omega
      · have g1 : (!false && decide (r.off ≤ s.highwater)) = false := by simpa using ho
        have g2 : (false || decide (r.off > s.highwater)) = true := by simpa using ho
        simp only [g1, g2, Bool.false_eq_true, if_false]
        refine ⟨⟨wlo, ?_, fill, fun h0 => (by cases h0), fun h0 => (by cases h0), werr⟩, fun h0 => by cases h0⟩
        simp only; split <;> omega

theorem hw_settle {F : Bytes} {start k : Nat} {ev : Nat → Ev} {s : Dl} {r : Rq} {a b : List Rq} {len : Nat}
    (w : Hw F start ev k { s with reqs := a ++ b }) (hr : s.reordered = false → s.highwater ≤ r.off + len)
    (h2 : removeId r.id s.reqs = a ++ b) (h3 : ∀ n, replaceId r.id n s.reqs = a ++ n :: b) :
    Hw F start ev k (settle r len s) := by
  unfold settle
  split
  · exact ⟨w.lo, w.hi, w.fill, w.eq, by intro h0; simp only [h2]; exact w.req h0, w.werr⟩
  · refine ⟨w.lo, w.hi, w.fill, w.eq, ?_, w.werr⟩
    intro h0 x hx
    simp only [h3, List.mem_append, List.mem_cons] at hx
    rcases hx with hx | rfl | hx
    · exact w.req h0 x (List.mem_append_left _ hx)
    · exact hr h0
    · exact w.req h0 x (List.mem_append_right _ hx)

theorem hw_widen {F : Bytes} {start k : Nat} {ev : Nat → Ev} {s : Dl} (cfg : DlCfg) (w : Hw F start ev k s) :
    Hw F start ev k (widen cfg s) := by
  unfold widen
  split
  · split
    · exact { w with }
    · split
      · exact { w with }
      · exact w
  · exact w

/-! ### The loop -/

/-- One round. -/
theorem inv_step {F f0 : Bytes} {start base M k : Nat} {cfg : DlCfg} {srv : Nat → List Rq → Bytes} {ev : Nat → Ev} {s s' : Dl}
    (hM : max 1 cfg.numRequests ≤ M) (hk : k + M ≤ 2 ^ 32) (hs : Honest F srv) (h : Inv F f0 start base M k s)
    (ho : onMsg cfg (ev k) (srv k (sendMore (interruptedDl (ev k) s)).sent) (sendMore (interruptedDl (ev k) s)) = some s') :
    Inv F f0 start base M (k + 1) s' ∧ (Once ev → Hw F start ev k s → Hw F start ev (k + 1) s') := by
  have hb := inv_before (ev k) h
  have hwb := fun w => hw_before (F := F) (f0 := f0) (ev := ev) (ev k) h w
  generalize sendMore (interruptedDl (ev k) s) = t at ho hb hwb
  have hne : t.sent ≠ [] := by
    intro h0
    have hr : t.reqs = [] := by
      cases hq : t.reqs with
      | nil => rfl
      | cons x l =>
        have := hb.mem x (by rw [hq]; exact List.mem_cons_self)
        rw [h0] at this; cases this
    have hnone : ∀ m, onMsg cfg (ev k) m t = none := by
      intro m
      unfold onMsg
      rw [hr]
      cases getInt 1 m with
      | none => rfl
      | some x =>
        simp only
        cases getInt 4 x.2 with
        | none => rfl
        | some y => rfl
    rw [hnone] at ho; cases ho
  obtain ⟨r, a, b, h1, h2, h3, hc⟩ := onMsg_honest hb hk (hs k t.sent hne) ho
  rcases hc with ⟨d, hd, hp, hl, rfl⟩ | ⟨he, rfl⟩ | ⟨code, hcode, rfl⟩
  · refine ⟨inv_widen cfg hM (inv_data hb h1 h2 h3 hd hp hl), fun once w => ?_⟩
    have st := stored (ev k) r.off d t
    obtain ⟨w1, w2⟩ := hw_store once hb (hwb w) h1 hd hp hl
    exact hw_widen cfg (hw_settle w1 w2 (by rw [st.reqs]; exact h2) (by rw [st.reqs]; exact h3))
  · exact ⟨inv_status hb h1 h2 (fun _ => he), fun _ w => hw_status (hwb w) h1 h2⟩
  · exact ⟨inv_status hb h1 h2 (fun g => absurd g hcode), fun _ w => hw_status (hwb w) h1 h2⟩

/-- What holds when the loop has ended. -/
theorem inv_loop {F f0 : Bytes} {start base M : Nat} {cfg : DlCfg} {srv : Nat → List Rq → Bytes} {ev : Nat → Ev}
    (hM : max 1 cfg.numRequests ≤ M) (hs : Honest F srv) : ∀ (n k : Nat) (s s' : Dl), k + n + M ≤ 2 ^ 32 →
    Inv F f0 start base M k s → loop cfg srv ev n k s = .ended s' →
    ∃ k', Inv F f0 start base M k' s' ∧ s'.reqs = [] ∧ (s'.maxReq = 0 ∨ s'.intr = true) ∧
      (Once ev → Hw F start ev k s → Hw F start ev k' s') := by
  intro n
  induction n with
  | zero => intro k s s' _ _ h; cases h
  | succ n ih =>
    intro k s s' hk h hl
    rw [loop] at hl
    split at hl
    · rename_i h0
      cases hl
      refine ⟨k, h, ?_, Or.inl h0.2, fun _ w => w⟩
      have := h.num
      exact List.length_eq_zero_iff.mp (by omega)
    · split at hl
      · rename_i h0
        cases hl
        refine ⟨k, { h with stop := fun _ => Or.inr (Or.inr (Or.inl rfl)) }, ?_, Or.inr rfl, fun _ w => { w with }⟩
        have := h.num
        exact List.length_eq_zero_iff.mp (by show s.reqs.length = 0; omega)
      · split at hl
        · cases hl
        · rename_i t ht
          obtain ⟨h1, h2⟩ := inv_step hM (by omega) hs h ht
          obtain ⟨k', g1, g2, g3, g4⟩ := ih (k + 1) t s' (by omega) h1 hl
          exact ⟨k', g1, g2, g3, fun once w => g4 once (h2 once w)⟩

theorem inv_start (F old : Bytes) (cfg : DlCfg) (msgId : Nat) (hb : 0 < cfg.buflen) :
    Inv F (opened cfg old) (if cfg.resume then old.length else 0) msgId (max 1 cfg.numRequests) 0 (startDl cfg old msgId) where
  num := rfl
  cnt := rfl
  lim := ⟨Nat.zero_le _, Nat.le_max_left _ _⟩
  ids := by intro i r h; simp [startDl] at h
  mid := rfl
  mem := by intro r h; cases h
  pos := by intro r h; cases h
  blen := hb
  off := Nat.le_refl _
  dis := List.Pairwise.nil
  cov := by
    intro _ _ p p1 p2
    simp only [startDl] at p2
    omega
  low := fun _ _ => rfl
  flen := by
    simp only [startDl, opened]
    cases cfg.resume <;> simp
  len := Nat.le_max_left _ _
  ack := ⟨Nat.le_refl _, Nat.le_max_left _ _, Nat.le_refl _⟩
  stop := fun h => by cases h

theorem hw_start (F old : Bytes) (cfg : DlCfg) (ev : Nat → Ev) (msgId : Nat) :
    Hw F (if cfg.resume then old.length else 0) ev 0 (startDl cfg old msgId) where
  lo := Nat.le_refl _
  hi := Nat.le_refl _
  fill := by
    intro p p1 p2
    simp only [startDl] at p2
    omega
  eq := fun _ => rfl
  req := by intro _ r h; cases h
  werr := fun h => by cases h

/-- The file when the loop has ended. -/
theorem ended_file {F f0 : Bytes} {start base M k : Nat} {s : Dl} (h : Inv F f0 start base M k s) (hr : s.reqs = [])
    (hm : s.maxReq = 0 ∨ s.intr = true) (e1 : s.readErr = false) (e2 : s.writeErr = false) (e3 : s.intr = false) :
    F.length ≤ s.offset ∧ (∀ p, start ≤ p → p < F.length → p < s.maxack ∧ s.file[p]? = F[p]?) := by
  have h0 : s.maxReq = 0 := by
    rcases hm with hm | hm
    · exact hm
    · rw [e3] at hm; cases hm
  have ho : F.length ≤ s.offset := by
    rcases h.stop h0 with g | g | g | g
    · rw [e1] at g; cases g
    · rw [e2] at g; cases g
    · rw [e3] at g; cases g
    · exact g
  refine ⟨ho, fun p p1 p2 => ?_⟩
  rcases h.cov e1 e2 p p1 (by omega) p2 with ⟨r, hr', _⟩ | g
  · rw [hr] at hr'; cases hr'
  · exact g

end Verif.Sftp.Client
