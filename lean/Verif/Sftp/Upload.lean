/-
Uploads.
-/
import Verif.Sftp.ClientProps

namespace Verif.Sftp.Client
open Verif Wire Sftp

theorem tiles_snoc {o : Nat} {l : List Wr} {w : Wr} (h : Tiles o l) (h1 : w.off = o + (l.map Wr.data).flatten.length) (h2 : w.data ≠ []) :
    Tiles o (l ++ [w]) := by
  induction l generalizing o with
  | nil => exact ⟨by simpa using h1, h2, trivial⟩
  | cons x l ih =>
    refine ⟨h.1, h.2.1, ih h.2.2 ?_⟩
    rw [h1]
    simp only [List.map_cons, List.flatten_cons, List.length_append]
    omega

/-! ### The invariant -/

structure UInv (loc : Bytes) (start : Nat) (s : Up) : Prop where
  tiles : Tiles start s.sent
  data : (s.sent.map Wr.data).flatten ++ s.left = loc.drop start
  off : s.offset = start + (s.sent.map Wr.data).flatten.length
  perm : (s.acks.map Rq.id ++ s.got.map Prod.fst).Perm (s.sent.map Wr.id)
  last : (s.got = [] ∧ s.status = 0) ∨ ∃ i, s.got.getLast? = some (i, s.status)
  ends : ∀ w ∈ s.sent, (∃ r ∈ s.acks, r.off + r.len = w.off + w.data.length) ∨ w.off + w.data.length ≤ s.maxack
  acks : ∀ r ∈ s.acks, r.off + r.len ≤ start + (s.sent.map Wr.data).flatten.length
  maxack : s.maxack ≤ start + (s.sent.map Wr.data).flatten.length

/-- Sending; the offset is added later. -/
theorem uinv_send {loc : Bytes} {start : Nat} {s : Up} {d : Bytes} (h : UInv loc start s) (hd : d ≠ []) (hp : d <+: s.left) :
    UInv loc start (advance d.length (sendChunk d s)) where
  tiles := by
    refine tiles_snoc h.tiles ?_ hd
    show s.offset = _
    exact h.off
  data := by
    obtain ⟨t, ht⟩ := hp
    simp only [advance, sendChunk, List.map_append, List.map_cons, List.map_nil, List.flatten_append, List.flatten_cons,
      List.flatten_nil, List.append_nil, ← h.data]
    rw [← ht, List.drop_left, List.append_assoc]
  off := by
    simp only [advance, sendChunk, List.map_append, List.map_cons, List.map_nil, List.flatten_append, List.flatten_cons,
      List.flatten_nil, List.append_nil, List.length_append, h.off]
    omega
  perm := by
    simp only [advance, sendChunk, List.map_append, List.map_cons, List.map_nil]
    have h1 := h.perm
    refine List.Perm.trans ?_ (List.Perm.append_right _ h1)
    rw [List.append_assoc, List.append_assoc]
    exact List.Perm.append_left _ List.perm_append_comm
  last := h.last
  ends := by
    intro w hw
    simp only [advance, sendChunk, List.mem_append, List.mem_singleton] at hw ⊢
    rcases hw with hw | rfl
    · rcases h.ends w hw with ⟨r, hr, g⟩ | g
      · exact Or.inl ⟨r, Or.inl hr, g⟩
      · exact Or.inr g
    · exact Or.inl ⟨_, Or.inr rfl, rfl⟩
  acks := by
    intro r hr
    simp only [advance, sendChunk, List.mem_append, List.mem_singleton, List.map_append, List.map_cons, List.map_nil,
      List.flatten_append, List.flatten_cons, List.flatten_nil, List.append_nil, List.length_append] at hr ⊢
    rcases hr with hr | rfl
    · have := h.acks r hr; omega
    · have := h.off
      simp only; omega
  maxack := by
    have := h.maxack
    simp only [advance, sendChunk, List.map_append, List.map_cons, List.map_nil,
      List.flatten_append, List.flatten_cons, List.flatten_nil, List.append_nil, List.length_append]
    omega

theorem onAck_some {m : Bytes} {s s' : Up} (h : onAck m s = some s') : ∃ r code, findId r.id s.acks = some r ∧ s' = acked r code s := by
  unfold onAck at h
  split at h
  · cases h
  · split at h
    · cases h
    · split at h
      · cases h
      · split at h
        · cases h
        · split at h
          · cases h
          · rename_i r hr
            cases h
            refine ⟨r, _, ?_, rfl⟩
            have := (findId_split hr).1
            rw [this]; exact hr

theorem uinv_acked {loc : Bytes} {start : Nat} {s : Up} {r : Rq} (code : Nat) (h : UInv loc start s) (hr : findId r.id s.acks = some r) :
    UInv loc start (acked r code s) := by
  obtain ⟨_, a, b, h1, h2, _⟩ := findId_split hr
  have hrm : r ∈ s.acks := by rw [h1]; simp
  have hack := h.acks r hrm
  exact {
    tiles := h.tiles
    data := h.data
    off := h.off
    perm := by
      simp only [acked, h2, List.map_append, List.map_cons, List.map_nil]
      refine List.Perm.trans ?_ h.perm
      rw [h1]
      simp only [List.map_append, List.map_cons, List.append_assoc, List.cons_append]
      refine List.Perm.append_left _ ?_
      rw [← List.append_assoc]
      exact List.perm_append_comm
    last := Or.inr ⟨r.id, by simp [acked]⟩
    ends := by
      intro w hw
      simp only [acked, h2] at hw ⊢
      rcases h.ends w hw with ⟨x, hx, g⟩ | g
      · rw [h1] at hx
        simp only [List.mem_append, List.mem_cons] at hx
        rcases hx with hx | rfl | hx
        · exact Or.inl ⟨x, List.mem_append_left _ hx, g⟩
        · right
          split <;> omega
        · exact Or.inl ⟨x, List.mem_append_right _ hx, g⟩
      · right
        split <;> omega
    acks := by
      intro x hx
      simp only [acked, h2] at hx ⊢
      refine h.acks x ?_
      rw [h1]
      simp only [List.mem_append, List.mem_cons] at hx ⊢
      rcases hx with hx | hx
      · exact Or.inl hx
      · exact Or.inr (Or.inr hx)
    maxack := by
      have := h.maxack
      simp only [acked]
      split <;> omega }

theorem uinv_intr {loc : Bytes} {start : Nat} {s : Up} (e : UpEv) (h : UInv loc start s) : UInv loc start (noteIntr e s) :=
  ⟨h.tiles, h.data, h.off, h.perm, h.last, h.ends, h.acks, h.maxack⟩

theorem chunk_prefix (cfg : UpCfg) (e : UpEv) (s : Up) : chunk cfg e s <+: s.left := by
  unfold chunk
  split
  · exact List.nil_prefix
  · exact List.take_prefix _ _

theorem acked_advance (r : Rq) (code n : Nat) (s : Up) : advance n (acked r code s) = acked r code (advance n s) := rfl

theorem uinv_after {loc : Bytes} {start : Nat} {s : Up} {d : Bytes} (h : UInv loc start s) (hp : d <+: s.left) :
    UInv loc start (advance d.length (afterSend d s)) := by
  unfold afterSend
  by_cases hd : d = []
  · rw [if_pos hd, hd]
    exact ⟨h.tiles, h.data, h.off, h.perm, h.last, h.ends, h.acks, h.maxack⟩
  · rw [if_neg hd]
    exact uinv_send h hd hp

theorem upLoop_inv {loc : Bytes} {start : Nat} {cfg : UpCfg} {srv : Nat → List Wr → Bytes} {ev : Nat → UpEv} :
    ∀ (n k : Nat) (s s' : Up), UInv loc start s → upLoop cfg srv ev n k s = .ended s' →
      UInv loc start s' ∧ s'.acks = [] ∧ (∃ k', ∃ t, chunk cfg (ev k') t = [] ∧ s' = noteIntr (ev k') t) ∧
        (s.intr = false → (∀ k, (ev k).intr = false) → s'.intr = false) := by
  intro n
  induction n with
  | zero => intro k s s' _ h; cases h
  | succ n ih =>
    intro k s s' h hl
    rw [upLoop] at hl
    split at hl
    · rename_i h0
      cases hl
      exact ⟨uinv_intr _ h, h0.2, ⟨k, s, h0.1, rfl⟩, fun g1 g2 => by simp [noteIntr, g1, g2]⟩
    · have hpre : chunk cfg (ev k) s <+: (noteIntr (ev k) s).left := chunk_prefix cfg (ev k) s
      have hi : (afterSend (chunk cfg (ev k) s) (noteIntr (ev k) s)).intr = (s.intr || (ev k).intr) := by
        unfold afterSend; split <;> rfl
      split at hl
      · split at hl
        · cases hl
        · rename_i t ht
          obtain ⟨r, code, hr, rfl⟩ := onAck_some ht
          rw [acked_advance] at hl
          obtain ⟨g1, g2, g3, g4⟩ := ih _ _ _ (uinv_acked (s := advance _ (afterSend _ (noteIntr (ev k) s))) code
            (uinv_after (uinv_intr (ev k) h) hpre) hr) hl
          refine ⟨g1, g2, g3, fun e1 e2 => g4 ?_ e2⟩
          show (afterSend _ (noteIntr (ev k) s)).intr = false
          rw [hi, e1, e2]; rfl
      · obtain ⟨g1, g2, g3, g4⟩ := ih _ _ _ (uinv_after (uinv_intr (ev k) h) hpre) hl
        refine ⟨g1, g2, g3, fun e1 e2 => g4 ?_ e2⟩
        show (afterSend _ (noteIntr (ev k) s)).intr = false
        rw [hi, e1, e2]; rfl

theorem uinv_start (cfg : UpCfg) (loc : Bytes) (remote msgId : Nat) :
    UInv loc (if cfg.resume then remote else 0) (startUp cfg loc remote msgId) :=
  ⟨trivial, rfl, rfl, List.Perm.refl _, Or.inl ⟨rfl, rfl⟩, (by intro w hw; cases hw), (by intro r hr; cases hr), Nat.zero_le _⟩

/-- An upload that reports success and was not interrupted has sent the whole file, each write was acknowledged once, and
the last one was accepted; all were, if refusals stick.
Not proved, as it is not so: that all were accepted in any case (`C72_refusal_lost`), and that an interrupted upload does
not report success (`C72_interrupt_success`). -/
theorem C72_upload_partial (cfg : UpCfg) (srv : Nat → List Wr → Bytes) (ev : Nat → UpEv) (z : UpEnd) (loc : Bytes) (remote msgId n : Nat)
    (cutAt : Option Nat) (sent : List Wr) (got : List (Nat × Nat)) (hb : 0 < cfg.buflen) (hi : ∀ k, (ev k).intr = false)
    (h : upload cfg srv ev z loc remote msgId n = .done true cutAt sent got) :
    Covers (if cfg.resume then remote else 0) loc sent ∧ (got.map Prod.fst).Perm (sent.map Wr.id) ∧
      (∀ x ∈ got.getLast?, x.2 = FX_OK) ∧ (Sticky got → ∀ x ∈ got, x.2 = FX_OK) ∧
      cutAt = if cfg.inplace then some loc.length else none := by
  unfold upload at h
  split at h
  · cases h
  · rename_i hres
    generalize hcfg : ({ cfg with startid := (msgId + 1) % 2 ^ 32 } : UpCfg) = cfg' at h
    have hb' : cfg'.buflen = cfg.buflen := by rw [← hcfg]
    have hin : cfg'.inplace = cfg.inplace := by rw [← hcfg]
    cases hl : upLoop cfg' srv ev n 0 (startUp cfg loc remote msgId) with
    | fatal => rw [hl] at h; cases h
    | running s => rw [hl] at h; cases h
    | ended s =>
      rw [hl] at h
      simp only [finishUp, UpRes.done.injEq, Bool.and_eq_true, decide_eq_true_eq] at h
      obtain ⟨⟨⟨hst, -⟩, -⟩, hcut, rfl, rfl⟩ := h
      obtain ⟨g1, g2, ⟨k, t, g3, g4⟩, g5⟩ := upLoop_inv n 0 _ s (uinv_start cfg loc remote msgId) hl
      have hint : s.intr = false := g5 rfl hi
      have hleft : s.left = [] := by
        have e1 : s.status = t.status := by rw [g4]; rfl
        have e2 : s.left = t.left := by rw [g4]; rfl
        have e3 : s.intr = (t.intr || (ev k).intr) := by rw [g4]; rfl
        rw [e2]
        unfold chunk at g3
        rw [if_neg (by rw [← e3, hint, ← e1, hst]; simp)] at g3
        cases ht : t.left with
        | nil => rfl
        | cons x l =>
          rw [ht] at g3
          have := congrArg List.length g3
          simp at this
          omega
      have hdata : (s.sent.map Wr.data).flatten = loc.drop (if cfg.resume then remote else 0) := by
        have := g1.data
        rwa [hleft, List.append_nil] at this
      have hlast : ∀ x ∈ s.got.getLast?, x.2 = FX_OK := by
        intro x hx
        rcases g1.last with ⟨g, _⟩ | ⟨i, g⟩
        · rw [g] at hx; cases hx
        · rw [g] at hx
          simp only [Option.mem_def, Option.some.injEq] at hx
          rw [← hx]; exact hst
      refine ⟨⟨g1.tiles, hdata⟩, ?_, hlast, ?_, ?_⟩
      · have := g1.perm
        rwa [g2, List.map_nil, List.nil_append] at this
      · intro hsticky x hx
        refine Decidable.byContradiction fun hc => ?_
        cases hg : s.got.getLast? with
        | none =>
          rw [List.getLast?_eq_none_iff] at hg
          rw [hg] at hx; cases hx
        | some y =>
          have hy := hlast y (by rw [hg]; rfl)
          obtain ⟨l, hgl⟩ := List.getLast?_eq_some_iff.mp hg
          rw [hgl] at hx hsticky
          simp only [List.mem_append, List.mem_singleton] at hx
          rcases hx with hx | rfl
          · unfold Sticky at hsticky
            rw [List.pairwise_append] at hsticky
            exact hsticky.2.2 x hx y (by simp) hc hy
          · exact hc hy
      · rw [← hcut, hin, hst, hint]
        simp only [ne_eq, not_true_eq_false, decide_false, Bool.or_self, Bool.and_false, Bool.or_false]
        cases cfg.inplace with
        | false => rfl
        | true =>
          simp only [if_true, Option.some.injEq]
          rw [show upReached s = s.maxack from by simp [upReached, hst, hint]]
          have hm := g1.maxack
          have hlen := congrArg List.length hdata
          rw [List.length_drop] at hlen
          have hrem : (if cfg.resume then remote else 0) ≤ loc.length := by
            cases hr : cfg.resume with
            | false => simp
            | true => simp [hr] at hres ⊢; omega
          cases hsent : s.sent.getLast? with
          | none =>
            rw [List.getLast?_eq_none_iff] at hsent
            rw [hsent] at hlen hm
            simp only [List.map_nil, List.flatten_nil, List.length_nil] at hlen hm
            cases hr : cfg.resume with
            | false => simp [hr] at hlen hm; omega
            | true => simp [hr] at hres hlen; omega
          | some w =>
            obtain ⟨l, hsl⟩ := List.getLast?_eq_some_iff.mp hsent
            have hw : w.off + w.data.length = (if cfg.resume then remote else 0) + (s.sent.map Wr.data).flatten.length := by
              have := g1.tiles
              rw [hsl] at this ⊢
              generalize (if cfg.resume then remote else 0) = o at this
              clear hsl hsent
              induction l generalizing o with
              | nil => simp only [List.nil_append, Tiles] at this ⊢; simp [this.1]
              | cons x l ih =>
                have := ih _ this.2.2
                simp only [List.cons_append, List.map_cons, List.flatten_cons, List.length_append] at this ⊢
                omega
            have hmem : w ∈ s.sent := by rw [hsl]; simp
            rcases g1.ends w hmem with ⟨r, hr, _⟩ | g
            · rw [g2] at hr; cases hr
            · omega

/-- What the writes make of the remote file: a file that was empty, one that is written in place and cut, and one that is
added to. -/
theorem C72_effect (loc old : Bytes) (sent : List Wr) :
    (Covers 0 loc sent → written [] sent = loc ∧ truncTo (written old sent) loc.length = loc) ∧
      (∀ o, o = loc.take o.length → Covers o.length loc sent → o ++ (sent.map Wr.data).flatten = loc) := by
  constructor
  · intro h
    have hd : (sent.map Wr.data).flatten = loc := by simpa using h.2
    have key : ∀ (l : List Wr) (f : Bytes) (o : Nat), Tiles o l → o ≤ f.length →
        written f l = f.take o ++ (l.map Wr.data).flatten ++ f.drop (o + (l.map Wr.data).flatten.length) := by
      intro l
      induction l with
      | nil => intro f o _ ho; simp [written]
      | cons w l ih =>
        intro f o ht ho
        obtain ⟨h1, h2, h3⟩ := ht
        have hp : pwrite f w.off w.data = f.take o ++ w.data ++ f.drop (o + w.data.length) := by
          unfold pwrite
          rw [if_neg h2, h1, show o - f.length = 0 by omega]
          simp
        have hlen : o + w.data.length ≤ (pwrite f w.off w.data).length := by
          rw [h1, pwrite_length _ _ _ h2]; omega
        have := ih (pwrite f w.off w.data) (o + w.data.length) h3 hlen
        show written (pwrite f w.off w.data) l = _
        rw [this, hp]
        have hl2 : (f.take o ++ w.data).length = o + w.data.length := by simp; omega
        rw [List.take_append_of_le_length (by omega), List.take_of_length_le (by omega)]
        simp only [List.map_cons, List.flatten_cons, List.append_assoc, List.length_append]
        congr 3
        rw [List.drop_append, List.drop_eq_nil_of_le (by rw [List.length_take]; omega), List.nil_append,
          List.drop_append, List.drop_eq_nil_of_le (by rw [List.length_take]; omega), List.nil_append, List.drop_drop]
        congr 1
        rw [List.length_take]; omega
    have k1 := key sent [] 0 h.1 (Nat.le_refl _)
    have k2 := key sent old 0 h.1 (Nat.zero_le _)
    rw [hd] at k1 k2
    refine ⟨by simpa using k1, ?_⟩
    rw [k2]
    unfold truncTo
    simp
  · intro o ho h
    rw [h.2, ho]
    simp only [List.length_take]
    have : min o.length loc.length = o.length := by
      have := congrArg List.length ho
      rw [List.length_take] at this
      omega
    rw [this]
    exact List.take_append_drop _ _

theorem acked_high (r : Rq) (code : Nat) (s : Up) :
    (acked r code s).highwater = (acked r code s).maxack ∨ (acked r code s).highwater = s.highwater := by
  by_cases h : (!s.reordered && decide (r.off ≤ s.highwater)) = true
  · exact Or.inl (if_pos h)
  · exact Or.inr (if_neg h)

theorem uhigh_loop {loc : Bytes} {start : Nat} {cfg : UpCfg} {srv : Nat → List Wr → Bytes} {ev : Nat → UpEv} :
    ∀ (n k : Nat) (s s' : Up), UInv loc start s → s.highwater ≤ start + (s.sent.map Wr.data).flatten.length →
      upLoop cfg srv ev n k s = .ended s' → s'.highwater ≤ start + (s'.sent.map Wr.data).flatten.length := by
  intro n
  induction n with
  | zero => intro k s s' _ _ h; cases h
  | succ n ih =>
    intro k s s' h hh hl
    rw [upLoop] at hl
    have hpre : chunk cfg (ev k) s <+: (noteIntr (ev k) s).left := chunk_prefix cfg (ev k) s
    have ha : (afterSend (chunk cfg (ev k) s) (noteIntr (ev k) s)).highwater ≤
        start + ((afterSend (chunk cfg (ev k) s) (noteIntr (ev k) s)).sent.map Wr.data).flatten.length := by
      unfold afterSend
      split
      · exact hh
      · simp only [sendChunk, noteIntr, List.map_append, List.flatten_append, List.length_append]
        omega
    split at hl
    · cases hl
      exact hh
    · split at hl
      · split at hl
        · cases hl
        · rename_i t ht
          obtain ⟨r, code, hr, rfl⟩ := onAck_some ht
          rw [acked_advance] at hl
          have hu := uinv_acked (s := advance (chunk cfg (ev k) s).length (afterSend _ (noteIntr (ev k) s))) code
            (uinv_after (uinv_intr (ev k) h) hpre) hr
          refine ih _ _ _ hu ?_ hl
          have hm : (acked r code (advance (chunk cfg (ev k) s).length (afterSend (chunk cfg (ev k) s) (noteIntr (ev k) s)))).maxack ≤
            start + ((afterSend (chunk cfg (ev k) s) (noteIntr (ev k) s)).sent.map Wr.data).flatten.length := hu.maxack
          rcases acked_high r code (advance (chunk cfg (ev k) s).length (afterSend (chunk cfg (ev k) s) (noteIntr (ev k) s))) with e | e
          · rw [e]; exact hm
          · rw [e]; exact ha
      · exact ih _ _ _ (uinv_after (uinv_intr (ev k) h) hpre) ha hl

/-- Whatever happens, the remote file is never cut beyond what has been sent, and every write that was sent has been
answered by then.
It is not so that all that stays has been accepted: `C72_refused_kept`. -/
theorem C72_cut (cfg : UpCfg) (srv : Nat → List Wr → Bytes) (ev : Nat → UpEv) (z : UpEnd) (loc : Bytes) (remote msgId n c : Nat)
    (ok : Bool) (sent : List Wr) (got : List (Nat × Nat))
    (h : upload cfg srv ev z loc remote msgId n = .done ok (some c) sent got) :
    c ≤ (if cfg.resume then remote else 0) + (sent.map Wr.data).flatten.length ∧ (got.map Prod.fst).Perm (sent.map Wr.id) ∧
      (sent.map Wr.data).flatten <+: loc.drop (if cfg.resume then remote else 0) := by
  unfold upload at h
  split at h
  · cases h
  · generalize hcfg : ({ cfg with startid := (msgId + 1) % 2 ^ 32 } : UpCfg) = cfg' at h
    cases hl : upLoop cfg' srv ev n 0 (startUp cfg loc remote msgId) with
    | fatal => rw [hl] at h; cases h
    | running s => rw [hl] at h; cases h
    | ended s =>
      rw [hl] at h
      simp only [finishUp, UpRes.done.injEq] at h
      obtain ⟨-, hcut, rfl, rfl⟩ := h
      obtain ⟨g1, g2, -, -⟩ := upLoop_inv n 0 _ s (uinv_start cfg loc remote msgId) hl
      have g6 := uhigh_loop n 0 _ s (uinv_start cfg loc remote msgId) (Nat.le_add_right _ _) hl
      split at hcut
      · cases hcut
        refine ⟨?_, ?_, ⟨s.left, g1.data⟩⟩
        · unfold upReached
          split
          · exact g1.maxack
          · exact g6
        · have := g1.perm
          rwa [g2, List.map_nil, List.nil_append] at this
      · cases hcut

/-! ### Cases -/

/-- Acknowledges in round `k` the write `pick k`, with status `code k`. -/
def writer (pick code : Nat → Nat) (k : Nat) (sent : List Wr) : Bytes :=
  encReply 3 (.status (sent.getD (pick k) ⟨0, 0, []⟩).id (code k) none)

/-- Three writes, acknowledged out of order. -/
example : upload { buflen := 2, startid := 0 } (writer (fun k => [0, 0, 0, 2, 1].getD k 0) (fun _ => 0)) (fun _ => {}) {} [1, 2, 3, 4, 5] 0 6 9 =
    .done true none [⟨7, 0, [1, 2]⟩, ⟨8, 2, [3, 4]⟩, ⟨9, 4, [5]⟩] [(7, 0), (9, 0), (8, 0)] := by decide +kernel

example : Covers 0 [1, 2, 3, 4, 5] [⟨7, 0, [1, 2]⟩, ⟨8, 2, [3, 4]⟩, ⟨9, 4, [5]⟩] := ⟨⟨rfl, by decide, rfl, by decide, rfl, by decide, trivial⟩, rfl⟩

/-- A write is refused, a later one is accepted: success is reported, although part of the file is missing. -/
theorem C72_refusal_lost : ∃ (cfg : UpCfg) (srv : Nat → List Wr → Bytes) (loc : Bytes) (sent : List Wr),
    upload cfg srv (fun _ => {}) {} loc 0 6 9 = .done true none sent [(7, FX_OK), (8, FX_FAILURE), (9, FX_OK)] ∧
      sent.map Wr.id = [7, 8, 9] :=
  ⟨{ buflen := 2, startid := 0 }, writer (fun k => [0, 0, 0, 1, 2].getD k 0) (fun k => if k = 3 then FX_FAILURE else FX_OK),
    [1, 2, 3, 4, 5], [⟨7, 0, [1, 2]⟩, ⟨8, 2, [3, 4]⟩, ⟨9, 4, [5]⟩], by decide +kernel, rfl⟩

/-- An upload that the user interrupts reports success, although only a part of the file has been sent. -/
theorem C72_interrupt_success : ∃ (cfg : UpCfg) (srv : Nat → List Wr → Bytes) (ev : Nat → UpEv) (loc : Bytes) (sent : List Wr)
    (got : List (Nat × Nat)), upload cfg srv ev {} loc 0 6 9 = .done true none sent got ∧
      (sent.map Wr.data).flatten ≠ loc :=
  ⟨{ buflen := 2, startid := 0 }, writer (fun k => k) (fun _ => FX_OK), fun k => { intr := decide (k = 1) },
    [1, 2, 3, 4, 5], [⟨7, 0, [1, 2]⟩], [(7, 0)], by decide +kernel, by decide⟩

/-- Refused writes count for the place where a file written in place is cut: five bytes stay, of which the last three have
not been written. -/
theorem C72_refused_kept : ∃ (cfg : UpCfg) (srv : Nat → List Wr → Bytes) (loc : Bytes),
    upload cfg srv (fun _ => {}) {} loc 0 6 9 =
      .done false (some 5) [⟨7, 0, [1, 2]⟩, ⟨8, 2, [3, 4]⟩, ⟨9, 4, [5]⟩] [(7, FX_OK), (8, FX_FAILURE), (9, FX_FAILURE)] :=
  ⟨{ buflen := 2, startid := 0, inplace := true, numRequests := 1 },
    writer (fun k => [0, 0, 1, 2].getD k 0) (fun k => if k = 0 then FX_OK else FX_FAILURE), [1, 2, 3, 4, 5], by decide +kernel⟩

end Verif.Sftp.Client
