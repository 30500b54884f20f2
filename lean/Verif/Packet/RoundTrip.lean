/-
C16: what an honest sender puts on the wire is read back; C17: nothing else is.
-/
import Verif.Packet.RxProps

namespace Verif.Packet
open Verif Wire

variable {σ : Type}

/-! ### Frames -/

theorem frame_length (p pad : Bytes) : (frame p pad).length = 5 + p.length + pad.length := by
  simp [frame]; omega

theorem frame_take (p pad : Bytes) (h : 1 + p.length + pad.length < W32) :
    ofBE ((frame p pad).take 4) = 1 + p.length + pad.length := by
  unfold frame
  rw [List.append_assoc, List.append_assoc, List.take_append_of_le_length (by simp), List.take_of_length_le (by simp),
    ofBE_be_of_lt (by simpa using h)]

theorem frame_getD (p pad : Bytes) : (frame p pad).getD 4 0 = UInt8.ofNat pad.length := by
  unfold frame
  rw [List.append_assoc, List.append_assoc, List.getD_eq_getElem?_getD, List.getElem?_append_right (by simp)]
  simp

theorem frame_payload (p pad : Bytes) : ((frame p pad).drop 5).take p.length = p := by
  have h : frame p pad = (be 4 (1 + p.length + pad.length) ++ [UInt8.ofNat pad.length]) ++ (p ++ pad) := by
    simp [frame]
  rw [h, List.drop_append, List.drop_of_length_le (by simp)]
  simp

theorem parse_frame {c : Conf} {seqnr packets : Nat} {initial : Bool} {p pad : Bytes} (h4 : 4 ≤ pad.length)
    (h255 : pad.length ≤ 255) (hp : p ≠ []) (ht : 1 ≤ p.headD 0) (hi : initial = true → (seqnr + 1) % W32 ≠ 0)
    (hn : c.noRekey = false → (packets + 1) % W32 ≠ 0) :
    parse c seqnr packets initial (frame p pad) = .ok ⟨p.headD 0, p.tail, seqnr⟩ := by
  unfold parse
  rw [if_neg (fun hh => hi hh.2 hh.1), if_neg (fun hh => hn (by simpa using hh.2) hh.1)]
  simp only [frame_getD, frame_length]
  have hpl : (UInt8.ofNat pad.length).toNat = pad.length := by simp; omega
  rw [hpl, if_neg (by omega), if_neg (by omega)]
  have : 5 + p.length + pad.length - 5 - pad.length = p.length := by omega
  rw [this, frame_payload]
  rcases p with _ | ⟨t, b⟩
  · exact absurd rfl hp
  · simp only [List.headD_cons, List.tail_cons]
    have : t ≠ 0 := by
      rintro rfl
      exact absurd (show (1 : UInt8) ≤ 0 from ht) (by decide)
    simp [this]

/-! ### One honest packet -/

theorem aadlen_cases (k : Keys σ) :
    (k.aadlen = 0 ∧ k.authlen = 0 ∧ ∀ m, k.activeMac = some m → m.etm = false) ∨
    (k.aadlen = 4 ∧ k.authlen ≠ 0 ∧ k.activeMac = none) ∨
    (k.aadlen = 4 ∧ k.authlen = 0 ∧ ∃ m, k.activeMac = some m ∧ m.etm = true) := by
  unfold Keys.aadlen Keys.activeMac
  by_cases h : k.authlen = 0
  · simp only [h, ne_eq, not_true_eq_false, if_false, or_false]
    rcases k.mac with _ | m
    · left; simp
    · by_cases he : m.etm = true
      · right; right; simp [he]
      · left; simp [he]
  · right; left; simp [h]

/-- The receiver after an honest packet with payload `p`, before the dispatcher sees it. -/
def afterRx (c : Conf) (r : Rx σ) (p : Bytes) (x : σ) (rest : Bytes) : Rx σ :=
  { r with
    seqnr := if p.headD 0 = NEWKEYS ∧ c.strict then 0 else (r.seqnr + 1) % W32
    packets := (r.packets + 1) % W32
    incoming := p.tail
    packlen := 0
    ctx := x
    input := rest }

theorem finish_frame {c : Conf} {s : Rx σ} {p pad : Bytes} (h4 : 4 ≤ pad.length)
    (h255 : pad.length ≤ 255) (hp : p ≠ []) (ht : 1 ≤ p.headD 0) (hi : s.initial = true → (s.seqnr + 1) % W32 ≠ 0)
    (hn : c.noRekey = false → (s.packets + 1) % W32 ≠ 0) (hinc : s.incoming = frame p pad) :
    finish c s = .packet ⟨p.headD 0, p.tail, s.seqnr⟩ (afterRx c s p s.ctx s.input) := by
  unfold finish
  rw [hinc, parse_frame h4 h255 hp ht hi hn]
  rfl

theorem honest_poll {c : Conf} {r : Rx σ} {p pad rest : Bytes} (hk : Lawful r.keys) (hpl : r.packlen = 0)
    (hd : r.discard = 0) (h4 : 4 ≤ pad.length) (h255 : pad.length ≤ 255) (hs : Small p) (hp : p ≠ [])
    (hmod : (5 + p.length - r.keys.aadlen + pad.length) % r.keys.blockSize = 0)
    (hi : r.initial = true → (r.seqnr + 1) % W32 ≠ 0) (hn : c.noRekey = false → (r.packets + 1) % W32 ≠ 0)
    (hin : r.input = (protect r.keys r.ctx r.seqnr (frame p pad)).2 ++ rest) :
    poll c r = .packet ⟨p.headD 0, p.tail, r.seqnr⟩
      (afterRx c r p (protect r.keys r.ctx r.seqnr (frame p pad)).1 rest) := by
  obtain ⟨ht, hsz⟩ := hs
  have hlen := frame_length p pad
  have hp1 : 1 ≤ p.length := by
    rcases p with _ | ⟨a, b⟩
    · exact absurd rfl hp
    · simp
  have hL : ofBE ((frame p pad).take 4) = 1 + p.length + pad.length := frame_take p pad (by omega)
  have hbad : badLen (1 + p.length + pad.length) = false := by
    simp only [badLen, decide_eq_false_iff_not]; omega
  have hbs : 0 < r.keys.blockSize := by rcases hk.block with h | h <;> omega
  rcases aadlen_cases r.keys with ⟨ha, hau, hetm⟩ | ⟨ha, hau, hmac⟩ | ⟨ha, hau, m, hmac, hetm⟩
  · -- the length is encrypted with the first block
    rw [ha, Nat.sub_zero] at hmod
    have hfm : (frame p pad).length % r.keys.blockSize = 0 := by rw [hlen]; exact hmod
    have hge : r.keys.blockSize ≤ (frame p pad).length := by
      apply Nat.le_of_not_lt
      intro hlt
      rw [Nat.mod_eq_of_lt hlt] at hfm
      omega
    generalize hfr : frame p pad = fr at *
    have hsplit := hk.split ha r.ctx r.seqnr (fr.take r.keys.blockSize) (fr.drop r.keys.blockSize) r.keys.blockSize
      (fr.length - r.keys.blockSize) (by rw [List.length_take]; omega) (by rw [List.length_drop])
      (Nat.mod_self _) (by rw [← hfm]; exact (Nat.mod_eq_sub_mod hge).symm)
    rw [List.take_append_drop, Nat.add_sub_cancel' hge] at hsplit
    have hA : (fr.take r.keys.blockSize).length = r.keys.aadlen + r.keys.blockSize := by
      rw [List.length_take, ha]; omega
    have hB : (fr.drop r.keys.blockSize).length = r.keys.aadlen + (fr.length - r.keys.blockSize) := by
      rw [List.length_drop, ha]; omega
    have hBm : (fr.length - r.keys.blockSize) % r.keys.blockSize = 0 := by
      rw [← hfm]; exact (Nat.mod_eq_sub_mod hge).symm
    have l1 := hk.enc_len r.ctx r.seqnr _ _ hA (Nat.mod_self _)
    have d1 := hk.dec_enc r.ctx r.sendSeq _ _ hA (Nat.mod_self _)
    rw [ha] at l1 d1
    rw [hk.seq_free ha r.ctx r.sendSeq r.seqnr] at d1
    generalize hE1 : r.keys.enc r.ctx r.seqnr (fr.take r.keys.blockSize) r.keys.blockSize 0 = E1 at *
    have l2 := hk.enc_len E1.1 r.seqnr _ _ hB hBm
    have d2 := hk.dec_enc E1.1 r.seqnr _ _ hB hBm
    rw [ha] at l2 d2
    generalize hE2 : r.keys.enc E1.1 r.seqnr (fr.drop r.keys.blockSize) (fr.length - r.keys.blockSize) 0 = E2 at *
    rw [hau] at l1 l2
    simp only [Nat.zero_add, Nat.add_zero] at l1 l2
    -- what is on the wire
    have hw : ∃ tag, (protect r.keys r.ctx r.seqnr fr) = (E2.1, E1.2 ++ (E2.2 ++ tag)) ∧
        (r.keys.activeMac = none → tag = []) ∧ (∀ m, r.keys.activeMac = some m → tag = m.compute r.seqnr fr) := by
      unfold protect
      simp only [ha, Nat.sub_zero, hsplit]
      rcases hm : r.keys.activeMac with _ | m
      · exact ⟨[], by simp, fun _ => rfl, by simp⟩
      · have := hetm m hm
        exact ⟨m.compute r.seqnr fr, by simp [this], by simp, by simp⟩
    obtain ⟨tag, hw, htn, hts⟩ := hw
    rw [hw] at hin ⊢
    simp only at hin ⊢
    have hi1 : r.input = E1.2 ++ (E2.2 ++ tag ++ rest) := by rw [hin]; simp
    have htk : r.input.take r.keys.blockSize = E1.2 := by
      rw [hi1, List.take_append_of_le_length (by omega), List.take_of_length_le (by omega)]
    have hdr : r.input.drop r.keys.blockSize = E2.2 ++ (tag ++ rest) := by
      rw [hi1, List.drop_append, List.drop_of_length_le (by omega)]
      simp [l1]
    have hle : r.keys.blockSize ≤ r.input.length := by rw [hi1, List.length_append]; omega
    rw [poll_block c hd hpl ha hle, htk, d1]
    unfold pollBlock
    simp only
    have h44 : (fr.take r.keys.blockSize).take 4 = fr.take 4 := by
      rw [List.take_take]; congr 1
      rcases hk.block with h | h <;> omega
    rw [h44, hL, hbad, if_neg (by simp), body_eq, hdr]
    have hneed : needOf { r with ctx := E1.1, incoming := fr.take r.keys.blockSize, packlen := 1 + p.length + pad.length, input := E2.2 ++ (tag ++ rest) } = fr.length - r.keys.blockSize := by
      unfold needOf
      simp only [ha, ne_eq, not_true_eq_false, if_false]
      rcases hk.block with h | h <;> omega
    have htagl : tag.length = r.keys.maclen := by
      unfold Keys.maclen
      rcases hm : r.keys.activeMac with _ | m
      · rw [htn hm]; rfl
      · rw [hts m hm]; exact hk.mac_len m hm _ _
    rw [if_neg (by rw [hneed]; simpa using hBm)]
    rw [if_neg (by
      unfold wantOf
      rw [hneed]
      simp only [ha, hau, List.length_append]
      omega)]
    rw [hneed]
    unfold bodyFull
    simp only [ha, hau, Nat.zero_add, Nat.add_zero]
    have t1 : (E2.2 ++ (tag ++ rest)).take (fr.length - r.keys.blockSize) = E2.2 := by
      rw [List.take_append_of_le_length (by omega), List.take_of_length_le (by omega)]
    have t2 : (E2.2 ++ (tag ++ rest)).drop (fr.length - r.keys.blockSize) = tag ++ rest := by
      rw [List.drop_append, List.drop_of_length_le (by omega)]
      simp [l2]
    rw [t1, t2, d2]
    rcases hm : r.keys.activeMac with _ | m
    · simp only
      have htg := htn hm
      subst htg
      exact (finish_frame (p := p) (pad := pad) h4 h255 hp ht (by exact hi) (by exact hn)
        (by simp [hfr])).trans (by rfl)
    · have htg := hts m hm
      have hml := hk.mac_len m hm r.seqnr fr
      rw [← htg] at hml
      have t3 : (tag ++ rest).take m.len = tag := by
        rw [List.take_append_of_le_length (by omega), List.take_of_length_le (by omega)]
      have t4 : (tag ++ rest).drop m.len = rest := by
        rw [List.drop_append, List.drop_of_length_le (by omega)]; simp [hml]
      simp only [hetm m hm, Bool.false_eq_true, if_false, List.take_append_drop, t3, t4]
      rw [if_neg (by simp [htg])]
      exact (finish_frame (p := p) (pad := pad) h4 h255 hp ht (by exact hi) (by exact hn)
        (by simp [hfr])).trans (by rfl)
  · -- authenticated encryption
    rw [ha] at hmod
    have hn' : (frame p pad).length - 4 = 1 + p.length + pad.length := by omega
    have hm2 : (1 + p.length + pad.length) % r.keys.blockSize = 0 := by
      rw [← hmod]; congr 1; omega
    have hA : (frame p pad).length = r.keys.aadlen + (1 + p.length + pad.length) := by rw [hlen, ha]; omega
    have l1 := hk.enc_len r.ctx r.seqnr _ _ hA hm2
    have d1 := hk.dec_enc r.ctx r.seqnr _ _ hA hm2
    have g1 := hk.getLen_enc (by omega) r.ctx r.seqnr _ _ hA hm2
    have hw : protect r.keys r.ctx r.seqnr (frame p pad) =
        r.keys.enc r.ctx r.seqnr (frame p pad) (1 + p.length + pad.length) r.keys.aadlen := by
      unfold protect
      simp only [hmac, ha, hn']
    rw [hw] at hin ⊢
    generalize r.keys.enc r.ctx r.seqnr (frame p pad) (1 + p.length + pad.length) r.keys.aadlen = E at *
    have hg : r.keys.getLen r.ctx r.seqnr r.input = some (1 + p.length + pad.length) := by
      rw [hin, ← hL]; exact hk.getLen_ext _ _ _ rest _ g1
    rw [poll_len c hd hpl (by omega), hg]
    unfold pollLen
    simp only [hbad, Bool.false_eq_true, if_false]
    rw [body_eq]
    have hneed : needOf { r with packlen := 1 + p.length + pad.length, incoming := [] } = 1 + p.length + pad.length := by
      unfold needOf; simp [ha]
    have hml : r.keys.maclen = 0 := by simp [Keys.maclen, hmac]
    rw [if_neg (by rw [hneed]; simpa using hm2), if_neg (by
      unfold wantOf
      rw [hneed, hin]
      simp only [List.length_append, hml]
      omega), hneed]
    unfold bodyFull
    simp only [hmac]
    have t1 : r.input.take (r.keys.aadlen + (1 + p.length + pad.length) + r.keys.authlen) = E.2 := by
      rw [hin, List.take_append_of_le_length (by omega), List.take_of_length_le (by omega)]
    have t2 : r.input.drop (r.keys.aadlen + (1 + p.length + pad.length) + r.keys.authlen) = rest := by
      rw [hin, List.drop_append, List.drop_of_length_le (by omega)]; simp [l1]
    rw [t1, t2, d1]
    simp only [List.nil_append]
    exact (finish_frame (p := p) (pad := pad) h4 h255 hp ht (by exact hi) (by exact hn)
      (by rfl)).trans (by rfl)
  · -- encrypt-then-MAC
    rw [ha] at hmod
    have hn' : (frame p pad).length - 4 = 1 + p.length + pad.length := by omega
    have hm2 : (1 + p.length + pad.length) % r.keys.blockSize = 0 := by
      rw [← hmod]; congr 1; omega
    have hA : (frame p pad).length = r.keys.aadlen + (1 + p.length + pad.length) := by rw [hlen, ha]; omega
    have l1 := hk.enc_len r.ctx r.seqnr _ _ hA hm2
    have d1 := hk.dec_enc r.ctx r.seqnr _ _ hA hm2
    have g1 := hk.getLen_enc (by omega) r.ctx r.seqnr _ _ hA hm2
    have hw : protect r.keys r.ctx r.seqnr (frame p pad) =
        let E := r.keys.enc r.ctx r.seqnr (frame p pad) (1 + p.length + pad.length) r.keys.aadlen
        (E.1, E.2 ++ m.compute r.seqnr (E.2.take (frame p pad).length)) := by
      unfold protect
      simp only [hmac, ha, hn', hetm, if_true]
    rw [hw] at hin ⊢
    simp only at hin ⊢
    generalize r.keys.enc r.ctx r.seqnr (frame p pad) (1 + p.length + pad.length) r.keys.aadlen = E at *
    have hEl : E.2.length = (frame p pad).length := by rw [l1, hA, hau]; omega
    have hEt : E.2.take (frame p pad).length = E.2 := List.take_of_length_le (by omega)
    rw [hEt] at hin
    have hg : r.keys.getLen r.ctx r.seqnr r.input = some (1 + p.length + pad.length) := by
      rw [hin, ← hL, List.append_assoc]; exact hk.getLen_ext _ _ _ _ _ g1
    rw [poll_len c hd hpl (by omega), hg]
    unfold pollLen
    simp only [hbad, Bool.false_eq_true, if_false]
    rw [body_eq]
    have hneed : needOf { r with packlen := 1 + p.length + pad.length, incoming := [] } = 1 + p.length + pad.length := by
      unfold needOf; simp [ha]
    have hml : r.keys.maclen = m.len := by simp [Keys.maclen, hmac]
    have htl := hk.mac_len m hmac r.seqnr E.2
    rw [if_neg (by rw [hneed]; simpa using hm2), if_neg (by
      unfold wantOf
      rw [hneed, hin]
      simp only [List.length_append, hml]
      omega), hneed]
    unfold bodyFull
    simp only [hmac, hetm, if_true, hau, Nat.add_zero]
    have t1 : r.input.take (r.keys.aadlen + (1 + p.length + pad.length)) = E.2 := by
      rw [hin, List.append_assoc, List.take_append_of_le_length (by omega), List.take_of_length_le (by omega)]
    have t2 : r.input.drop (r.keys.aadlen + (1 + p.length + pad.length)) = m.compute r.seqnr E.2 ++ rest := by
      rw [hin, List.append_assoc, List.drop_append, List.drop_of_length_le (by omega)]
      simp [l1, hau]
    have t3 : (m.compute r.seqnr E.2 ++ rest).take m.len = m.compute r.seqnr E.2 := by
      rw [List.take_append_of_le_length (by omega), List.take_of_length_le (by omega)]
    have t4 : (m.compute r.seqnr E.2 ++ rest).drop m.len = rest := by
      rw [List.drop_append, List.drop_of_length_le (by omega)]; simp [htl]
    rw [t1, t2, t3, t4, d1]
    rw [if_neg (by simp)]
    simp only [List.nil_append]
    exact (finish_frame (p := p) (pad := pad) h4 h255 hp ht (by exact hi) (by exact hn)
      (by rfl)).trans (by rfl)

/-! ### Steps and paths -/

/-- The receiver in state `r` with nothing pending reads the packet `x`, whatever follows it, and goes to `r'`. -/
def Step (c : Conf) (r : Rx σ) (x : Sent) (r' : Rx σ) : Prop :=
  r.epoch = x.epoch ∧ r.seqnr = x.seq ∧ r.packlen = 0 ∧ r.discard = 0 ∧ 0 < r.keys.blockSize ∧
  ∀ rest, ∃ s', poll c { r with input := x.wire ++ rest } = .packet (msgOf x) s' ∧
    s'.input = rest ∧ handle (msgOf x) s' = .ok { r' with input := rest }

inductive Path (c : Conf) : Rx σ → List Sent → Rx σ → Prop
  | nil (r : Rx σ) : Path c r [] r
  | snoc {r0 r r' : Rx σ} {l : List Sent} {x : Sent} : Path c r0 l r → Step c r x r' → Path c r0 (l ++ [x]) r'

theorem Step.wire_ne {c : Conf} {r r' : Rx σ} {x : Sent} (h : Step c r x r') : 1 ≤ x.wire.length := by
  obtain ⟨_, _, hp, _, hb, hr⟩ := h
  obtain ⟨s', h1, h2, _⟩ := hr []
  have := (poll_packet (by exact hb) h1).2.2.1
  simp only [hp, h2, if_pos, List.append_nil] at this
  simpa using this

theorem wrapped_step {c : Conf} {t t' : Tx σ} {p : Bytes} {rnd : Nat → UInt8} {r : Rx σ} (hl : LawfulTx t)
    (hs : Small p) (hy : Sync t r) (h : wrapped c t p rnd = .ok t') :
    ∃ r' x, t'.sent = t.sent ++ [x] ∧ x.payload = p ∧ Step c r x r' ∧ Sync t' r' := by
  obtain ⟨n, hpad, a1, a2, a3, a4, a5, a6, a7, a8, a9, a10, a11, a12⟩ := wrapped_ok' h
  have hk : Lawful t.keys := hl.1
  have hpn := padLen_some hk.block (UInt8.toNat_lt _) hpad
  have hbs : 0 < t.keys.blockSize := by rcases hk.block with h | h <;> omega
  have hp : p ≠ [] := by
    rintro rfl
    exact absurd (show (1 : UInt8) ≤ 0 from hs.1) (by decide)
  generalize hwd : wireOf t p rnd n = W at *
  have hpoll : ∀ rest, poll c { r with input := W.2 ++ rest } = .packet ⟨p.headD 0, p.tail, r.seqnr⟩
      (afterRx c r p W.1 rest) := by
    intro rest
    have hpr : protect r.keys r.ctx r.seqnr (frame p ((List.range n).map rnd)) = W := by
      rw [hy.keys, hy.ctx, hy.seqnr]; exact hwd
    have := honest_poll (c := c) (r := { r with input := W.2 ++ rest }) (p := p) (pad := (List.range n).map rnd)
      (rest := rest) (by rw [show ({ r with input := W.2 ++ rest } : Rx σ).keys = t.keys from hy.keys]; exact hk)
      hy.packlen hy.discard (by simpa using hpn.1) (by simpa using hpn.2.1) hs hp
      (by
        rw [show ({ r with input := W.2 ++ rest } : Rx σ).keys = t.keys from hy.keys]
        simpa using hpn.2.2)
      (by
        intro hi
        have : r.seqnr = t.seqnr := hy.seqnr
        show (r.seqnr + 1) % W32 ≠ 0
        rw [this]
        exact a11 (hy.tinit (by rw [← hy.epoch]; exact hy.rinit hi)))
      (by
        intro hn
        have : r.packets = t.packets := hy.packets
        show (r.packets + 1) % W32 ≠ 0
        rw [this]
        exact a12 hn)
      (by show W.2 ++ rest = (protect r.keys r.ctx r.seqnr _).2 ++ rest; rw [hpr])
    rw [this]
    show Poll.packet _ (afterRx c _ p (protect r.keys r.ctx r.seqnr _).1 rest) = _
    rw [hpr]
    rfl
  have hm : msgOf ⟨t.epoch, t.seqnr, p, W.2⟩ = ⟨p.headD 0, p.tail, r.seqnr⟩ := by rw [hy.seqnr]; rfl
  have hseq : (if p.headD 0 = NEWKEYS ∧ c.strict then 0 else (r.seqnr + 1) % W32) = t'.seqnr := by
    rw [a8, hy.seqnr]
    unfold nextSeq typeOf
    by_cases h1 : p.headD 0 = NEWKEYS <;> by_cases h2 : c.strict = true <;> simp [h1, h2]
  by_cases ht : typeOf p = NEWKEYS
  · obtain ⟨b1, b2, b3⟩ := a9 ht
    have ht' : p.headD 0 = NEWKEYS := ht
    refine ⟨{ afterRx c r p W.1 [] with packets := 0, keys := t'.keys, ctx := t'.ctx, future := t'.future, initial := false, epoch := r.epoch + 1 },
      ⟨t.epoch, t.seqnr, p, W.2⟩, a1, rfl, ⟨hy.epoch, hy.seqnr, hy.packlen, hy.discard, by rw [hy.keys]; exact hbs, ?_⟩, ?_⟩
    · intro rest
      refine ⟨afterRx c r p W.1 rest, by rw [hm]; exact hpoll rest, rfl, ?_⟩
      rw [hm]
      unfold handle
      rw [if_pos ht']
      have : (afterRx c r p W.1 rest).future = (t'.keys, t'.ctx) :: t'.future := by
        show r.future = _
        rw [hy.future, b3]
      rw [this]
      rfl
    · constructor
      · exact hseq
      · exact b2.symm
      · rfl
      · rfl
      · rfl
      · show r.epoch + 1 = _; rw [b1, hy.epoch]
      · rfl
      · rfl
      · exact hy.discard
      · intro hh; cases hh
      · intro hh; omega
  · obtain ⟨b1, b2, b3, b4, b5⟩ := a10 ht
    have ht' : p.headD 0 ≠ NEWKEYS := ht
    refine ⟨afterRx c r p W.1 [], ⟨t.epoch, t.seqnr, p, W.2⟩, a1, rfl,
      ⟨hy.epoch, hy.seqnr, hy.packlen, hy.discard, by rw [hy.keys]; exact hbs, ?_⟩, ?_⟩
    · intro rest
      refine ⟨afterRx c r p W.1 rest, by rw [hm]; exact hpoll rest, rfl, ?_⟩
      rw [hm]
      unfold handle
      rw [if_neg ht']
      rfl
    · constructor
      · exact hseq
      · show (r.packets + 1) % W32 = _; rw [b2, hy.packets]
      · show r.keys = _; rw [b3, hy.keys]
      · exact b4.symm
      · show r.future = _; rw [b5, hy.future]
      · show r.epoch = _; rw [b1, hy.epoch]
      · rfl
      · rfl
      · exact hy.discard
      · exact hy.rinit
      · intro hh; rw [a5]; exact hy.tinit (by omega)

/-! ### Reading back what was sent -/

theorem path_drain {c : Conf} {r0 r : Rx σ} {l : List Sent} (h : Path c r0 l r) (f : Nat) (rest : Bytes) :
    drain c (l.length + f) { r0 with input := (l.map (·.wire)).flatten ++ rest } =
      (l.map msgOf ++ (drain c f { r with input := rest }).1, (drain c f { r with input := rest }).2) := by
  induction h generalizing f rest with
  | nil => simp
  | @snoc r r' l x hp hst ih =>
    have h1 : ((l ++ [x]).map (·.wire)).flatten ++ rest = (l.map (·.wire)).flatten ++ (x.wire ++ rest) := by simp
    rw [h1, List.length_append, List.length_singleton, Nat.add_assoc, ih (1 + f) (x.wire ++ rest)]
    obtain ⟨s', g1, g2, g3⟩ := hst.2.2.2.2.2 rest
    rw [Nat.add_comm 1 f, drain, g1]
    simp only [g3]
    simp

theorem path_length {c : Conf} {r0 r : Rx σ} {l : List Sent} (h : Path c r0 l r) :
    l.length ≤ ((l.map (·.wire)).flatten).length := by
  induction h with
  | nil => simp
  | @snoc r r' l x hp hst ih =>
    have := hst.wire_ne
    simp only [List.map_append, List.flatten_append, List.length_append, List.map_cons, List.map_nil,
      List.flatten_cons, List.flatten_nil, List.length_nil, List.length_cons]
    omega

theorem idle_poll {c : Conf} {r : Rx σ} (hk : Lawful r.keys) (hi : r.input = []) (hp : r.packlen = 0)
    (hd : r.discard = 0) : poll c r = .none r := by
  have hbs : 0 < r.keys.blockSize := by rcases hk.block with h | h <;> omega
  by_cases ha : r.keys.aadlen = 0
  · rw [poll_short c hd hp ha (by rw [hi]; simpa using hbs)]
  · rw [poll_len c hd hp ha, hi, hk.getLen_nil ha]
    rfl

theorem lawful_sane {k : Keys σ} (h : Lawful k) : Sane k :=
  ⟨by rcases h.block with h | h <;> omega, h.getLen_ext⟩

/-- The invariant of a sender with an honest receiver at the other end. -/
structure HInv (c : Conf) (t0 : Tx σ) (r0 : Rx σ) (t : Tx σ) : Prop where
  lawful : LawfulTx t
  tinit : t.epoch = 0 → t.initial = true
  log : ∃ l, t.sent = t0.sent ++ l ∧ t.output = t0.output ++ (l.map (·.wire)).flatten ∧
    ((∀ x ∈ l, Small x.payload) → ∃ r, Path c r0 l r ∧ Sync t r)

theorem hinv_run {c : Conf} {t0 : Tx σ} {r0 : Rx σ} (hl : LawfulTx t0) (hy : Sync t0 r0) {es : List TxEvent}
    {t : Tx σ} (h : txRun c t0 es = .ok t) : HInv c t0 r0 t := by
  have := good_run c (HInv c t0 r0) (fun _ => True) ?_ ?_ (fun _ _ _ _ _ _ _ => trivial) (fun _ _ => trivial) es ?_
    (s := t0) ⟨hl, hy.tinit, [], by simp, by simp, fun _ => ⟨r0, .nil r0, hy⟩⟩
  · rw [h] at this; exact this
  · intro s s' hc ⟨i1, i2, l, i3, i4, i5⟩
    have e1 : s.keys = s'.keys := by have := congrArg Tx.keys hc; exact this
    have e2 : s.future = s'.future := by have := congrArg Tx.future hc; exact this
    have e3 : s.epoch = s'.epoch := by have := congrArg Tx.epoch hc; exact this
    have e4 : s.initial = s'.initial := by have := congrArg Tx.initial hc; exact this
    have e5 : s.sent = s'.sent := by have := congrArg Tx.sent hc; exact this
    have e6 : s.output = s'.output := by have := congrArg Tx.output hc; exact this
    have e7 : s.seqnr = s'.seqnr := by have := congrArg Tx.seqnr hc; exact this
    have e8 : s.packets = s'.packets := by have := congrArg Tx.packets hc; exact this
    have e9 : s.ctx = s'.ctx := by have := congrArg Tx.ctx hc; exact this
    refine ⟨⟨e1 ▸ i1.1, e2 ▸ i1.2⟩, by rw [← e3, ← e4]; exact i2, l, by rw [← e5]; exact i3, by rw [← e6]; exact i4, ?_⟩
    intro hs
    obtain ⟨r, hr, y⟩ := i5 hs
    exact ⟨r, hr, ⟨by rw [← e7]; exact y.seqnr, by rw [← e8]; exact y.packets, by rw [← e1]; exact y.keys,
      by rw [← e9]; exact y.ctx, by rw [← e2]; exact y.future, by rw [← e3]; exact y.epoch, y.input, y.packlen,
      y.discard, y.rinit, by rw [← e3, ← e4]; exact y.tinit⟩⟩
  · intro s s' p rnd ⟨i1, i2, l, i3, i4, i5⟩ hw
    obtain ⟨n, hpad, a1, a2, a3, a4, a5, a6, a7, a8, a9, a10, a11, a12⟩ := wrapped_ok' hw
    refine ⟨?_, ?_, l ++ [⟨s.epoch, s.seqnr, p, (wireOf s p rnd n).2⟩], by rw [a1, i3, List.append_assoc],
      by rw [a2, i4]; simp, ?_⟩
    · by_cases ht : typeOf p = NEWKEYS
      · have hf := (a9 ht).2.2
        refine ⟨i1.2 _ (by rw [hf]; exact List.mem_cons_self), fun k hk => i1.2 k (by rw [hf]; exact List.mem_cons_of_mem _ hk)⟩
      · obtain ⟨_, _, b3, _, b5⟩ := a10 ht
        exact ⟨b3 ▸ i1.1, by rw [b5]; exact i1.2⟩
    · intro he
      by_cases ht : typeOf p = NEWKEYS
      · have := (a9 ht).1; omega
      · rw [a5]; exact i2 (by rw [← (a10 ht).1]; exact he)
    · intro hs
      obtain ⟨r, hr, y⟩ := i5 (fun x hx => hs x (List.mem_append_left _ hx))
      obtain ⟨r', x, b1, b2, b3, b4⟩ := wrapped_step i1 (hs _ (List.mem_append_right _ List.mem_cons_self)) y hw
      have hx : x = ⟨s.epoch, s.seqnr, p, (wireOf s p rnd n).2⟩ := by
        have := b1.symm.trans a1
        simpa using this
      subst hx
      exact ⟨r', .snoc hr b3, b4⟩
  · intro _ s he ⟨i1, i2, l, i3, i4, i5⟩
    refine ⟨i1, fun h => absurd h he, l, i3, i4, ?_⟩
    intro hs
    obtain ⟨r, hr, y⟩ := i5 hs
    exact ⟨r, hr, ⟨y.seqnr, y.packets, y.keys, y.ctx, y.future, y.epoch, y.input, y.packlen, y.discard, y.rinit,
      fun h => absurd h he⟩⟩

theorem saneRx_sync {t : Tx σ} {r : Rx σ} (hl : LawfulTx t) (hy : Sync t r) : SaneRx r :=
  ⟨by rw [hy.keys]; exact lawful_sane hl.1, by rw [hy.future]; exact fun k hk => lawful_sane (hl.2 k hk)⟩

/-- **C16** whatever a sender does (data, key exchanges, queued packets, extra padding), a receiver that was in
step with it and gets the bytes it put out, cut into chunks in any way, delivers exactly the messages sent, in
order and with their sequence numbers, and is in step again. -/
theorem C16_roundtrip (c : Conf) (t0 t : Tx σ) (r0 : Rx σ) (es : List TxEvent) (hl : LawfulTx t0) (hy : Sync t0 r0)
    (h : txRun c t0 es = .ok t) (new : List Sent) (hnew : t.sent = t0.sent ++ new)
    (hsmall : ∀ x ∈ new, Small x.payload) (chunks : List Bytes)
    (hch : t.output = t0.output ++ chunks.flatten) :
    ∃ r, recvAll c r0 chunks = (new.map msgOf, .alive r) ∧ Sync t r := by
  obtain ⟨hl', _, l, h1, h2, h3⟩ := hinv_run hl hy h
  have hll : l = new := List.append_cancel_left (h1.symm.trans hnew)
  subst hll
  have hfl : (l.map (·.wire)).flatten = chunks.flatten := List.append_cancel_left (h2.symm.trans hch)
  obtain ⟨r, hp, hy'⟩ := h3 hsmall
  have hone : recv c r0 chunks.flatten = (l.map msgOf, .alive r) := by
    rw [recv_alive hy.discard]
    have e1 : ext r0 chunks.flatten = { r0 with input := (l.map (·.wire)).flatten ++ [] } := by
      unfold ext; rw [hy.input, hfl]; simp
    have hlen := path_length hp
    rw [hfl] at hlen
    have e2 : r0.input.length + chunks.flatten.length + 2 = l.length + (chunks.flatten.length - l.length + 1 + 1) := by
      rw [hy.input, List.length_nil]; omega
    rw [e1, e2, path_drain hp]
    have e3 : ({ r with input := [] } : Rx σ) = r := by
      have := hy'.input
      rcases r with ⟨⟩
      simp only at this
      subst this
      rfl
    rw [e3, drain, idle_poll (by rw [hy'.keys]; exact hl'.1) hy'.input hy'.packlen hy'.discard]
    simp
  rcases chunks with _ | ⟨b, bs⟩
  · have : l = [] := by
      have := path_length hp
      rw [hfl] at this
      simpa using this
    subst this
    generalize hlp : ([] : List Sent) = lp at hp
    cases hp with
    | nil => exact ⟨r0, rfl, hy'⟩
    | snoc => simp at hlp
  · have := C16_chunks c r0 (saneRx_sync hl hy) (b :: bs) (by simp)
    rw [hone] at this
    obtain ⟨m1, m2⟩ := this
    rcases hr : recvAll c r0 (b :: bs) with ⟨ms, r' | e⟩
    · rw [hr] at m1 m2
      simp only at m1 m2
      rcases m2 with rfl | ⟨m2, _⟩
      · exact ⟨r, by rw [m1], hy'⟩
      · exact absurd hy'.discard m2
    · rw [hr] at m2
      simp at m2

/-! ### C17 -/

/-- **C17** every packet delivered passed the check of the cipher or MAC in use, for the receiver's own sequence
number, over exactly the bytes taken from the input. -/
theorem C17_checked (c : Conf) (s s' : Rx σ) (m : Msg) (hp : s.packlen = 0) (hb : 0 < s.keys.blockSize)
    (hml : ∀ mc, s.keys.activeMac = some mc → ∀ q d, (mc.compute q d).length = mc.len)
    (h : poll c s = .packet m s') :
    m.seq = s.seqnr ∧ ∃ w, s.input = w ++ s'.input ∧ w ≠ [] ∧ Checked s.keys s.seqnr s.ctx w := by
  have hd : s.discard = 0 := (poll_packet hb h).2.1
  have hseq : m.seq = s.seqnr := (poll_packet hb h).1.seq
  refine ⟨hseq, ?_⟩
  have hne : ∀ w, s.input = w ++ s'.input → w ≠ [] := by
    rintro w hw rfl
    have := (poll_packet hb h).2.2.1
    rw [hw, if_pos hp, List.nil_append] at this
    omega
  rcases aadlen_cases s.keys with ⟨ha, hau, hetm⟩ | ⟨ha, hau, hmac⟩ | ⟨ha, hau, mc, hmac, hetm⟩
  · by_cases hlt : s.input.length < s.keys.blockSize
    · rw [poll_short c hd hp ha hlt] at h; simp at h
    rw [poll_block c hd hp ha (by omega)] at h
    rcases hdec : s.keys.dec s.ctx s.sendSeq (s.input.take s.keys.blockSize) s.keys.blockSize 0 with _ | ⟨x, o⟩
    · rw [hdec] at h; simp [pollBlock] at h
    rw [hdec] at h
    unfold pollBlock at h
    simp only at h
    split at h
    · exact absurd h startDiscard_ne
    have hbp := body_packet h
    rw [body_eq] at h
    split at h
    · exact absurd h startDiscard_ne
    split at h
    · simp at h
    obtain ⟨_, hin, hwl⟩ := hbp
    refine ⟨s.input.take (s.keys.blockSize + wantOf { s with ctx := x, incoming := o, packlen := ofBE (o.take 4), input := s.input.drop s.keys.blockSize }), ?_⟩
    have hsplit : s.input = s.input.take (s.keys.blockSize + wantOf { s with ctx := x, incoming := o, packlen := ofBE (o.take 4), input := s.input.drop s.keys.blockSize }) ++ s'.input := by
      rw [hin]
      simp only [List.drop_drop, List.take_append_drop]
    refine ⟨hsplit, hne _ hsplit, fun h => absurd hau h, ?_, ?_⟩
    · intro mc _ hmc he
      have : s.keys.activeMac = some mc := by simp [Keys.activeMac, hau, hmc]
      rw [hetm mc this] at he
      cases he
    · intro mc _ hmc he
      have hact : s.keys.activeMac = some mc := by simp [Keys.activeMac, hau, hmc]
      have hln := hml mc hact
      unfold bodyFull at h
      simp only [hact, he, Bool.false_eq_true, if_false, ha, hau, Nat.zero_add, Nat.add_zero] at h
      generalize hneed : needOf { s with ctx := x, incoming := o, packlen := ofBE (o.take 4), input := s.input.drop s.keys.blockSize } = need at *
      rcases hdec2 : s.keys.dec x s.seqnr ((s.input.drop s.keys.blockSize).take need) need 0 with _ | ⟨x2, o2⟩
      · rw [hdec2] at h; simp at h
      rw [hdec2] at h
      simp only at h
      split at h
      · split at h
        · simp at h
        · exact absurd h startDiscard_ne
      rename_i hmaceq
      have hmaceq := Classical.not_not.1 hmaceq
      refine ⟨s.input.take s.keys.blockSize, (s.input.drop s.keys.blockSize).take need, s.sendSeq, o, o2, x, x2, need, ?_,
        by rw [List.length_take]; omega, hdec, hdec2⟩
      rw [hmaceq]
      have hw : wantOf { s with ctx := x, incoming := o, packlen := ofBE (o.take 4), input := s.input.drop s.keys.blockSize } = need + mc.len := by
        unfold wantOf
        rw [hneed]
        simp [ha, hau, Keys.maclen, hact]
      rw [hw, ← Nat.add_assoc, List.take_add, List.take_add, List.drop_drop]
  · rw [poll_len c hd hp (by omega)] at h
    rcases hg : s.keys.getLen s.ctx s.seqnr s.input with _ | n
    · rw [hg] at h; simp [pollLen] at h
    rw [hg] at h
    simp only [pollLen] at h
    split at h
    · simp at h
    have hbp := body_packet h
    rw [body_eq] at h
    split at h
    · exact absurd h startDiscard_ne
    split at h
    · simp at h
    obtain ⟨_, hin, hwl⟩ := hbp
    have hneed : needOf { s with packlen := n, incoming := [] } = n := by unfold needOf; simp [ha]
    have hw : wantOf { s with packlen := n, incoming := [] } = 4 + n + s.keys.authlen := by
      unfold wantOf; rw [hneed]; simp [ha, Keys.maclen, hmac]
    rw [hw] at hin hwl
    simp only at hin hwl
    have hsplit : s.input = s.input.take (4 + n + s.keys.authlen) ++ s'.input := by
      rw [hin, List.take_append_drop]
    refine ⟨_, hsplit, hne _ hsplit, fun _ => ?_, fun _ h0 => absurd h0 hau, fun _ h0 => absurd h0 hau⟩
    rw [hneed] at h
    unfold bodyFull at h
    simp only [hmac, ha] at h
    rcases hdec : s.keys.dec s.ctx s.seqnr (s.input.take (4 + n + s.keys.authlen)) n 4 with _ | ⟨x, o⟩
    · rw [hdec] at h; simp at h
    · exact ⟨n, (x, o), hdec, by rw [List.length_take]; omega⟩
  · rw [poll_len c hd hp (by omega)] at h
    rcases hg : s.keys.getLen s.ctx s.seqnr s.input with _ | n
    · rw [hg] at h; simp [pollLen] at h
    rw [hg] at h
    simp only [pollLen] at h
    split at h
    · simp at h
    have hbp := body_packet h
    rw [body_eq] at h
    split at h
    · exact absurd h startDiscard_ne
    split at h
    · simp at h
    obtain ⟨_, hin, hwl⟩ := hbp
    have hneed : needOf { s with packlen := n, incoming := [] } = n := by unfold needOf; simp [ha]
    have hw : wantOf { s with packlen := n, incoming := [] } = 4 + n + mc.len := by
      unfold wantOf; rw [hneed]; simp [ha, hau, Keys.maclen, hmac]
    rw [hw] at hin hwl
    simp only at hin hwl
    have hsplit : s.input = s.input.take (4 + n + mc.len) ++ s'.input := by
      rw [hin, List.take_append_drop]
    have hmc : s.keys.mac = some mc := by
      unfold Keys.activeMac at hmac
      rw [if_neg (by simp [hau])] at hmac
      exact hmac
    refine ⟨_, hsplit, hne _ hsplit, fun h0 => absurd hau h0, ?_, ?_⟩
    · intro mc' _ hm' _
      have : mc' = mc := by rw [hmc] at hm'; simpa using hm'.symm
      subst this
      rw [hneed] at h
      unfold bodyFull at h
      simp only [hmac, ha, hau, hetm, if_true, Nat.add_zero] at h
      split at h
      · simp at h
      rename_i hmaceq
      have hmaceq := Classical.not_not.1 hmaceq
      refine ⟨s.input.take (4 + n), ?_⟩
      rw [hmaceq, List.take_add]
    · intro mc' _ hm' he
      have : mc' = mc := by rw [hmc] at hm'; simpa using hm'.symm
      subst this
      rw [hetm] at he
      cases he

/-- **C17** a receiver that has found a packet to be bad (and hides it by reading on) never delivers anything any
more, and fails as soon as it has seen the rest of the largest possible packet. -/
theorem C17_discard (c : Conf) (s : Rx σ) (hd : s.discard ≠ 0) (bs : List Bytes) :
    (recvAll c s bs).1 = [] ∧ (s.discard ≤ bs.flatten.length → ∃ e, (recvAll c s bs).2 = .failed e) := by
  induction bs generalizing s with
  | nil => exact ⟨rfl, fun h => absurd h (by simpa using hd)⟩
  | cons b bs ih =>
    rw [recvAll, recv_discard hd b]
    by_cases h : b.length ≥ s.discard
    · rw [if_pos h]
      exact ⟨rfl, fun _ => ⟨_, rfl⟩⟩
    · rw [if_neg h]
      have := ih { s with discard := s.discard - b.length } (by show s.discard - b.length ≠ 0; omega)
      refine ⟨by simpa using this.1, ?_⟩
      intro hl
      rw [List.flatten_cons, List.length_append] at hl
      exact this.2 (by show s.discard - b.length ≤ _; omega)

/-- Paths, from the other end. -/
inductive Chain (c : Conf) : Rx σ → List Sent → Rx σ → Prop
  | nil (r : Rx σ) : Chain c r [] r
  | cons {r r1 r' : Rx σ} {l : List Sent} {x : Sent} : Step c r x r1 → Chain c r1 l r' → Chain c r (x :: l) r'

theorem Chain.snoc {c : Conf} {r r1 r2 : Rx σ} {l : List Sent} {x : Sent} (h : Chain c r l r1) (hs : Step c r1 x r2) :
    Chain c r (l ++ [x]) r2 := by
  induction h with
  | nil r => exact .cons hs (.nil _)
  | cons h1 _ ih => exact .cons h1 (ih hs)

theorem Path.chain {c : Conf} {r r' : Rx σ} {l : List Sent} (h : Path c r l r') : Chain c r l r' := by
  induction h with
  | nil => exact .nil _
  | snoc _ hs ih => exact ih.snoc hs

theorem eq_of_key {α β : Type} {f : α → β} {l : List α} (h : (l.map f).Nodup) {x y : α} (hx : x ∈ l) (hy : y ∈ l)
    (hxy : f x = f y) : x = y := by
  induction l with
  | nil => cases hx
  | cons a l ih =>
    rw [List.map_cons, List.nodup_cons] at h
    rcases List.mem_cons.1 hx with rfl | hx' <;> rcases List.mem_cons.1 hy with rfl | hy'
    · rfl
    · exact absurd (hxy ▸ List.mem_map_of_mem hy') h.1
    · exact absurd (hxy ▸ List.mem_map_of_mem hx') h.1
    · exact ih h.2 hx' hy'

theorem prefix_drain {c : Conf} {r : Rx σ} (f : Nat) (pre b : List Sent) (r1 : Rx σ) (hch : Chain c r1 b r)
    (hnd : ((pre ++ b).map fun x => (x.epoch, x.seq)).Nodup)
    (hend : ∀ x ∈ pre ++ b, (x.epoch, x.seq) ≠ (r.epoch, r.seqnr)) (inp : Bytes)
    (hacc : ∀ z ∈ accepted c f { r1 with input := inp }, ∃ x ∈ pre ++ b, z = (x.epoch, x.seq, x.wire)) :
    (drain c f { r1 with input := inp }).1 <+: b.map msgOf := by
  induction f generalizing pre b r1 inp with
  | zero => exact List.nil_prefix
  | succ f ih =>
    rw [drain]
    rw [accepted] at hacc
    rcases hp : poll c { r1 with input := inp } with s' | ⟨m, s'⟩ | e
    · exact List.nil_prefix
    · rw [hp] at hacc
      simp only at hacc ⊢
      obtain ⟨x, hx, hz⟩ := hacc _ List.mem_cons_self
      simp only [Prod.mk.injEq] at hz
      obtain ⟨z1, z2, z3⟩ := hz
      cases hch with
      | nil => exact absurd (by rw [z1, z2]) (hend x hx)
      | @cons _ r2 _ b' y hst hch' =>
        have hxy : x = y := by
          refine eq_of_key hnd hx (List.mem_append_right _ List.mem_cons_self) ?_
          show (x.epoch, x.seq) = (y.epoch, y.seq)
          rw [← z1, ← z2, hst.1, hst.2.1]
        subst hxy
        have hinp : inp = x.wire ++ inp.drop (inp.length - s'.input.length) := by
          rw [← z3, List.take_append_drop]
        obtain ⟨s'', g1, g2, g3⟩ := hst.2.2.2.2.2 (inp.drop (inp.length - s'.input.length))
        rw [← hinp, hp] at g1
        simp only [Poll.packet.injEq] at g1
        obtain ⟨rfl, rfl⟩ := g1
        rw [g3] at hacc ⊢
        simp only at hacc ⊢
        rw [List.map_cons]
        refine List.cons_prefix_cons.2 ⟨rfl, ?_⟩
        have e : pre ++ x :: b' = (pre ++ [x]) ++ b' := by simp
        exact ih (pre ++ [x]) b' r2 hch' (e ▸ hnd) (e ▸ hend) _
          (fun z hz => e ▸ hacc z (List.mem_cons_of_mem _ hz))
    · exact List.nil_prefix

/-- **C17** a sender `t` with a history `es₁ ++ es₂` and a receiver that was in step with it after `es₁`; after
that an attacker who sees everything feeds the receiver any bytes, in any chunks.  As long as nobody can forge
(`Unforged`: packets accepted by the receiver's check were made by the sender for the same keys and the same
sequence number), the messages delivered are a prefix of those sent after `es₁`: nothing is altered, inserted,
replayed, reordered or left out. -/
theorem C17_prefix (c : Conf) (hc : c.noRekey = false) (t0 t1 t2 : Tx σ) (r1 : Rx σ) (es1 es2 : List TxEvent)
    (hf : Fresh t0) (hl : LawfulTx t0) (h1 : txRun c t0 es1 = .ok t1) (h2 : txRun c t1 es2 = .ok t2)
    (hy : Sync t1 r1) (new : List Sent) (hnew : t2.sent = t1.sent ++ new)
    (hsmall : ∀ x ∈ new, Small x.payload) (chunks : List Bytes)
    (hun : Unforged c r1 chunks.flatten t2.sent) :
    (recvAll c r1 chunks).1 <+: new.map msgOf := by
  have hl1 : LawfulTx t1 := by
    have := good_run c (fun s => LawfulTx s) (fun _ => True) ?_ ?_ (fun _ _ _ _ _ _ _ => trivial) (fun _ _ => trivial)
      es1 (fun _ _ _ h => h) (s := t0) hl
    · rw [h1] at this; exact this
    · intro s s' hcr i
      have e1 : s.keys = s'.keys := by have := congrArg Tx.keys hcr; exact this
      have e2 : s.future = s'.future := by have := congrArg Tx.future hcr; exact this
      exact ⟨e1 ▸ i.1, e2 ▸ i.2⟩
    · intro s s' p rnd i1 hw
      obtain ⟨n, hpad, a1, a2, a3, a4, a5, a6, a7, a8, a9, a10, a11, a12⟩ := wrapped_ok' hw
      by_cases ht : typeOf p = NEWKEYS
      · have hf := (a9 ht).2.2
        exact ⟨i1.2 _ (by rw [hf]; exact List.mem_cons_self), fun k hk => i1.2 k (by rw [hf]; exact List.mem_cons_of_mem _ hk)⟩
      · obtain ⟨_, _, b3, _, b5⟩ := a10 ht
        exact ⟨b3 ▸ i1.1, by rw [b5]; exact i1.2⟩
  have hs1 : SeqInv c.strict t1 := by
    have := seqInv_run hc (seqInv_fresh hf) es1
    rw [h1] at this; exact this
  have hs2 : SeqInv c.strict t2 := by
    have := seqInv_run hc hs1 es2
    rw [h2] at this; exact this
  obtain ⟨hl', _, l, g1, g2, g3⟩ := hinv_run hl1 hy h2
  have hll : l = new := List.append_cancel_left (g1.symm.trans hnew)
  subst hll
  obtain ⟨r, hp, hy'⟩ := g3 hsmall
  have hnd := (seqInv_end hs2).1
  rw [g1] at hnd
  have hend : ∀ x ∈ t1.sent ++ l, (x.epoch, x.seq) ≠ (r.epoch, r.seqnr) := by
    rw [← g1, hy'.epoch, hy'.seqnr]
    obtain ⟨base, old, cur, k1, k2, k3, k4, k5, k6, k7⟩ := hs2
    intro x hx
    rw [k1, List.mem_append] at hx
    rcases hx with hx | hx
    · have := k2 x hx
      intro he
      simp only [Prod.mk.injEq] at he
      omega
    · have : (x.epoch, x.seq) ∈ cur.map fun r => (r.epoch, r.seq) := List.mem_map.2 ⟨x, hx, rfl⟩
      rw [k4] at this
      simp only [List.mem_map, List.mem_range] at this
      obtain ⟨i, hi, he⟩ := this
      rw [← he, k5]
      intro he
      simp only [Prod.mk.injEq, true_and] at he
      omega
  have hone : (recv c r1 chunks.flatten).1 <+: l.map msgOf := by
    rw [recv_alive hy.discard]
    unfold Unforged at hun
    rw [g1] at hun
    rw [hy.input, List.length_nil, Nat.zero_add]
    exact prefix_drain _ t1.sent l r1 hp.chain hnd hend _ hun
  rcases chunks with _ | ⟨b, bs⟩
  · exact List.nil_prefix
  · have := C16_chunks c r1 (saneRx_sync hl1 hy) (b :: bs) (by simp)
    rw [← this.1]
    exact hone

/-! ### C15, receiving -/

theorem drain_follows (c : Conf) (f : Nat) (s : Rx σ) (hk : SaneRx s) :
    Follows c.strict s.seqnr ((drain c f s).1.map fun m => (m.typ, m.seq)) := by
  induction f generalizing s with
  | zero => trivial
  | succ f ih =>
    rw [drain]
    rcases hp : poll c s with s' | ⟨m, s'⟩ | e
    · trivial
    · have ha := (poll_packet hk.1.block hp).1
      simp only
      rcases hh : handle m s' with e | s2
      · exact ⟨ha.seq, trivial⟩
      · have hs2 : s2.seqnr = nextSeq c.strict m.typ m.seq := by
          rw [ha.seq, ← ha.seqnr]
          unfold handle at hh
          split at hh
          · split at hh
            · cases hh
            · cases hh; rfl
          · cases hh; rfl
        have i1 := ih s2 (saneRx_handle hk ha hh)
        exact ⟨ha.seq, by rw [← hs2]; exact i1⟩
    · trivial

/-- **C15** the receiving side: messages delivered are numbered consecutively from the receiver's number modulo
2^32, restarting at zero after NEWKEYS in strict mode, whatever bytes arrive in whatever chunks. -/
theorem C15_receive (c : Conf) (s : Rx σ) (hk : SaneRx s) (chunks : List Bytes) :
    Follows c.strict s.seqnr ((recvAll c s chunks).1.map fun m => (m.typ, m.seq)) := by
  rcases chunks with _ | ⟨b, bs⟩
  · trivial
  · rw [← (C16_chunks c s hk (b :: bs) (by simp)).1]
    unfold recv feed
    split
    · rename_i h
      split at h
      · exact trivial
      · cases h
    · rename_i h
      split at h
      · split at h
        · cases h
        · cases h
          exact drain_follows c _ { s with discard := s.discard - (b :: bs).flatten.length } hk
      · cases h
        exact drain_follows c _ { s with input := s.input ++ (b :: bs).flatten } hk

/-- **C15** before the first NEWKEYS a receiver does not deliver a packet numbered 2^32-1 (the number would wrap):
it ends the connection instead. -/
theorem C15_receive_no_wrap (c : Conf) (s s' : Rx σ) (m : Msg) (hb : 0 < s.keys.blockSize)
    (h : poll c s = .packet m s') (hi : s.initial = true) : (m.seq + 1) % 2 ^ 32 ≠ 0 := by
  have ha := (poll_packet hb h).1
  obtain ⟨inc, hinc⟩ := ha.parsed
  unfold parse at hinc
  rw [ha.seq]
  intro hz
  rw [if_pos ⟨hz, hi⟩] at hinc
  cases hinc

/-! ### C55 -/

theorem protect_length {k : Keys σ} (hk : Lawful k) (ctx : σ) (q : Nat) (fr : Bytes) (n : Nat)
    (hn : fr.length = k.aadlen + n) (hm : n % k.blockSize = 0) :
    (protect k ctx q fr).2.length = k.aadlen + n + k.authlen + k.maclen := by
  have l1 := hk.enc_len ctx q fr n hn hm
  unfold protect
  have e : fr.length - k.aadlen = n := by omega
  simp only [e]
  unfold Keys.maclen
  rcases hma : k.activeMac with _ | m
  · simp only [Nat.add_zero]; exact l1
  · have := hk.mac_len m hma
    simp only
    split <;> simp only [List.length_append, this, l1]

/-- **C55** the bytes on the wire of a packet for which 64-byte padding was requested: their number is fixed by
which 64-byte bucket the payload length falls into (`m` is the length with minimal padding). -/
theorem C55_wire (c : Conf) (s s' : Tx σ) (p : Bytes) (rnd : Nat → UInt8) (hk : Lawful s.keys)
    (he : s.extraPad = 64) (h : wrapped c s p rnd = .ok s') :
    ∃ w m, s'.sent = s.sent ++ [⟨s.epoch, s.seqnr, p, w⟩] ∧
      w.length = s.keys.aadlen + 64 * (m / 64 + 1) + s.keys.authlen + s.keys.maclen ∧
      m % s.keys.blockSize = 0 ∧ 9 + p.length ≤ m + s.keys.aadlen ∧ m + s.keys.aadlen < 9 + p.length + s.keys.blockSize := by
  obtain ⟨n, hpad, a1, _⟩ := wrapped_ok' h
  have haad : s.keys.aadlen ≤ 4 := by rcases aadlen_cases s.keys with h | h | h <;> omega
  rw [he] at hpad
  obtain ⟨n', b1, b2, b3, m, b4, b5, b6, b7⟩ := C55_bucket s.keys.blockSize (5 + p.length - s.keys.aadlen) hk.block
  have : n' = n := by
    have := b1.symm.trans hpad
    simpa using this
  subst this
  refine ⟨_, m, a1, ?_, b4, by omega, by omega⟩
  unfold wireOf
  rw [protect_length hk _ _ _ (64 * (m / 64 + 1)) (by rw [frame_length, List.length_map, List.length_range]; omega)]
  rcases hk.block with h | h <;> rw [h] <;> omega

end Verif.Packet
