/-
C15 (receiving side), C16 and C17.
-/
import Verif.Packet.TxProps

namespace Verif.Packet
open Verif Wire

variable {σ : Type}

/-! ### More input does not change what has been decided -/

/-- The receiver with more bytes in its input buffer. -/
def ext (s : Rx σ) (e : Bytes) : Rx σ := { s with input := s.input ++ e }

/-- How the answer `p` of the reader relates to its answer `p'` when the bytes `e` had also been there. -/
def ExtRel (c : Conf) (e : Bytes) (p p' : Poll σ) : Prop :=
  match p with
  | .fail x => p' = .fail x
  | .packet m s' => p' = .packet m (ext s' e)
  | .none s' =>
    if s'.discard = 0 then p' = poll c (ext s' e)
    else p' = if e.length ≥ s'.discard then .fail .macInvalid
              else .none { ext s' e with discard := s'.discard - e.length }

theorem startDiscard_ext (c : Conf) (s : Rx σ) (d : Nat) (e : Bytes) :
    ExtRel c e (startDiscard s d) (startDiscard (ext s e) d) := by
  unfold startDiscard ext
  simp only
  split
  · simp [ExtRel]
  split
  · rename_i h
    simp only [ExtRel]
    rw [if_pos (by rw [List.length_append]; omega)]
  · rename_i h
    have hne : d - s.input.length ≠ 0 := by omega
    simp only [ExtRel, ext, hne, if_false, List.length_append]
    by_cases h2 : s.input.length + e.length ≥ d
    · rw [if_pos h2, if_pos (by omega)]
    · rw [if_neg h2, if_neg (by omega)]
      simp only [Poll.none.injEq]
      congr 1
      omega

theorem finish_ext (c : Conf) (s : Rx σ) (e : Bytes) :
    (∃ x, finish c s = .fail x ∧ finish c (ext s e) = .fail x) ∨
    (∃ m s', finish c s = .packet m s' ∧ finish c (ext s e) = .packet m (ext s' e)) := by
  unfold finish
  have h : parse c (ext s e).seqnr (ext s e).packets (ext s e).initial (ext s e).incoming =
    parse c s.seqnr s.packets s.initial s.incoming := rfl
  rw [h]
  rcases parse c s.seqnr s.packets s.initial s.incoming with x | m
  · exact .inl ⟨_, rfl, rfl⟩
  · exact .inr ⟨_, _, rfl, rfl⟩

theorem finish_extRel (c : Conf) (s : Rx σ) (e : Bytes) : ExtRel c e (finish c s) (finish c (ext s e)) := by
  rcases finish_ext c s e with ⟨x, h1, h2⟩ | ⟨m, s', h1, h2⟩
  · rw [h1, h2]; rfl
  · rw [h1, h2]; rfl

theorem take_ext {l e : Bytes} {n : Nat} (h : n ≤ l.length) : (l ++ e).take n = l.take n :=
  List.take_append_of_le_length h

theorem drop_ext {l e : Bytes} {n : Nat} (h : n ≤ l.length) : (l ++ e).drop n = l.drop n ++ e :=
  List.drop_append_of_le_length h

/-- Number of encrypted bytes that follow (packet.c:1643-1652). -/
def needOf (s : Rx σ) : Nat :=
  if s.keys.aadlen ≠ 0 then s.packlen else (4 + s.packlen + W32 - s.keys.blockSize) % W32

/-- `body` once the packet is complete. -/
def bodyFull (c : Conf) (s : Rx σ) (need : Nat) : Poll σ :=
  let k := s.keys
  let aad := k.aadlen
  let data := s.input.take (aad + need + k.authlen)
  let rest := s.input.drop (aad + need + k.authlen)
  match k.activeMac with
  | none =>
    match k.dec s.ctx s.seqnr data need aad with
    | none => .fail .crypto
    | some (x, o) => finish c { s with ctx := x, incoming := s.incoming ++ o, input := rest }
  | some m =>
    if m.etm then
      if m.compute s.seqnr (s.input.take (aad + need)) ≠ rest.take m.len then .fail .macInvalid
      else
        match k.dec s.ctx s.seqnr data need aad with
        | none => .fail .crypto
        | some (x, o) => finish c { s with ctx := x, incoming := s.incoming ++ o, input := rest.drop m.len }
    else
      match k.dec s.ctx s.seqnr data need aad with
      | none => .fail .crypto
      | some (x, o) =>
        let s := { s with ctx := x, incoming := s.incoming ++ o, input := rest }
        if m.compute s.seqnr s.incoming ≠ s.input.take m.len then
          if need + k.blockSize > MAXPKT then .fail .internal
          else startDiscard s (MAXPKT - need - k.blockSize)
        else finish c { s with input := s.input.drop m.len }

/-- Bytes a complete packet occupies after the header. -/
def wantOf (s : Rx σ) : Nat := s.keys.aadlen + needOf s + s.keys.authlen + s.keys.maclen

theorem body_eq (c : Conf) (s : Rx σ) :
    body c s = if needOf s % s.keys.blockSize ≠ 0 then startDiscard s (MAXPKT - s.keys.blockSize)
      else if s.input.length < wantOf s then .none s else bodyFull c s (needOf s) := rfl

theorem bodyFull_ext (c : Conf) (s : Rx σ) (e : Bytes) (need : Nat)
    (h : s.keys.aadlen + need + s.keys.authlen + s.keys.maclen ≤ s.input.length) :
    ExtRel c e (bodyFull c s need) (bodyFull c (ext s e) need) := by
  unfold bodyFull
  have hk : (ext s e).keys = s.keys := rfl
  have hq : (ext s e).seqnr = s.seqnr := rfl
  have hx : (ext s e).ctx = s.ctx := rfl
  have hi : (ext s e).input = s.input ++ e := rfl
  have hin : (ext s e).incoming = s.incoming := rfl
  simp only [hk, hq, hx, hi, hin]
  rw [take_ext (show s.keys.aadlen + need + s.keys.authlen ≤ _ by omega),
    drop_ext (show s.keys.aadlen + need + s.keys.authlen ≤ _ by omega),
    take_ext (show s.keys.aadlen + need ≤ _ by omega)]
  rcases hm : s.keys.activeMac with _ | m
  · simp only
    rcases hdec : s.keys.dec s.ctx s.seqnr (s.input.take (s.keys.aadlen + need + s.keys.authlen)) need s.keys.aadlen with _ | ⟨x, o⟩
    · rfl
    · exact finish_extRel c _ e
  · have hml : s.keys.maclen = m.len := by simp [Keys.maclen, hm]
    have hl : m.len ≤ (s.input.drop (s.keys.aadlen + need + s.keys.authlen)).length := by
      rw [List.length_drop]; omega
    simp only [take_ext hl, drop_ext hl]
    split
    · split
      · rfl
      · rcases hdec : s.keys.dec s.ctx s.seqnr (s.input.take (s.keys.aadlen + need + s.keys.authlen)) need s.keys.aadlen with _ | ⟨x, o⟩
        · rfl
        · exact finish_extRel c _ e
    · rcases hdec : s.keys.dec s.ctx s.seqnr (s.input.take (s.keys.aadlen + need + s.keys.authlen)) need s.keys.aadlen with _ | ⟨x, o⟩
      · rfl
      · simp only
        split
        · split
          · rfl
          · exact startDiscard_ext c { s with ctx := x, incoming := s.incoming ++ o, input := s.input.drop (s.keys.aadlen + need + s.keys.authlen) } _ e
        · exact finish_extRel c _ e

theorem body_ext (c : Conf) (s : Rx σ) (e : Bytes) (hp : s.packlen ≠ 0) (hd : s.discard = 0) :
    ExtRel c e (body c s) (body c (ext s e)) := by
  have hpoll : body c (ext s e) = poll c (ext s e) := by
    rw [poll, if_neg (by simpa [ext] using hd), if_pos (by simpa [ext] using hp)]
  rw [body_eq c s]
  by_cases h1 : needOf s % s.keys.blockSize ≠ 0
  · rw [if_pos h1, body_eq, if_pos (show needOf (ext s e) % (ext s e).keys.blockSize ≠ 0 from h1)]
    exact startDiscard_ext c s _ e
  rw [if_neg h1]
  by_cases h2 : s.input.length < wantOf s
  · rw [if_pos h2]
    simp only [ExtRel, hd, if_true]
    exact hpoll
  · rw [if_neg h2, body_eq, if_neg (show ¬ needOf (ext s e) % (ext s e).keys.blockSize ≠ 0 from h1),
      if_neg (show ¬ (ext s e).input.length < wantOf (ext s e) by
        show ¬ (s.input ++ e).length < wantOf s
        rw [List.length_append]; omega)]
    exact bodyFull_ext c s e (needOf s) (by unfold wantOf at h2; omega)

theorem badLen_ne {n : Nat} (h : badLen n = false) : n ≠ 0 := by
  intro h0; subst h0; simp [badLen] at h

theorem poll_body (c : Conf) {s : Rx σ} (hd : s.discard = 0) (hp : s.packlen ≠ 0) : poll c s = body c s := by
  rw [poll, if_neg (by simp [hd]), if_pos hp]

theorem poll_len (c : Conf) {s : Rx σ} (hd : s.discard = 0) (hp : s.packlen = 0) (ha : s.keys.aadlen ≠ 0) :
    poll c s = pollLen c s (s.keys.getLen s.ctx s.seqnr s.input) := by
  rw [poll, if_neg (by simp [hd]), if_neg (by simp [hp]), if_pos ha]

theorem poll_short (c : Conf) {s : Rx σ} (hd : s.discard = 0) (hp : s.packlen = 0) (ha : s.keys.aadlen = 0)
    (hl : s.input.length < s.keys.blockSize) : poll c s = .none s := by
  rw [poll, if_neg (by simp [hd]), if_neg (by simp [hp]), if_neg (by simp [ha]), if_pos hl]

theorem poll_block (c : Conf) {s : Rx σ} (hd : s.discard = 0) (hp : s.packlen = 0) (ha : s.keys.aadlen = 0)
    (hl : s.keys.blockSize ≤ s.input.length) :
    poll c s = pollBlock c s (s.keys.dec s.ctx s.sendSeq (s.input.take s.keys.blockSize) s.keys.blockSize 0) := by
  rw [poll, if_neg (by simp [hd]), if_neg (by simp [hp]), if_neg (by simp [ha]), if_neg (by omega)]

theorem poll_ext (c : Conf) (s : Rx σ) (e : Bytes) (hk : Sane s.keys) (hd : s.discard = 0) :
    ExtRel c e (poll c s) (poll c (ext s e)) := by
  have hd' : (ext s e).discard = 0 := hd
  by_cases hp : s.packlen ≠ 0
  · rw [poll_body c hd hp, poll_body c hd' (show (ext s e).packlen ≠ 0 from hp)]
    exact body_ext c s e hp hd
  have hp' : s.packlen = 0 := by simpa using hp
  have hrest : ExtRel c e (.none s) (poll c (ext s e)) := by simp [ExtRel, hd]
  by_cases ha : s.keys.aadlen ≠ 0
  · rw [poll_len c hd hp' ha]
    rcases hg : s.keys.getLen s.ctx s.seqnr s.input with _ | n
    · exact hrest
    · have hg2 : (ext s e).keys.getLen (ext s e).ctx (ext s e).seqnr (ext s e).input = some n := hk.getLen _ _ _ e _ hg
      rw [poll_len c hd' (show (ext s e).packlen = 0 from hp') (show (ext s e).keys.aadlen ≠ 0 from ha), hg2]
      unfold pollLen
      simp only
      split
      · rfl
      · rename_i hb
        exact body_ext c { s with packlen := n, incoming := [] } e (badLen_ne (by simpa using hb)) hd
  · have ha' : s.keys.aadlen = 0 := by simpa using ha
    by_cases hl : s.input.length < s.keys.blockSize
    · rw [poll_short c hd hp' ha' hl]; exact hrest
    · have hle : s.keys.blockSize ≤ s.input.length := by omega
      rw [poll_block c hd hp' ha' hle, poll_block c hd' (show (ext s e).packlen = 0 from hp') (show (ext s e).keys.aadlen = 0 from ha')
        (show s.keys.blockSize ≤ (s.input ++ e).length by rw [List.length_append]; omega)]
      have h3 : (ext s e).input.take (ext s e).keys.blockSize = s.input.take s.keys.blockSize := take_ext hle
      have h4 : (s.input ++ e).drop s.keys.blockSize = s.input.drop s.keys.blockSize ++ e := drop_ext hle
      rw [h3]
      show ExtRel c e (pollBlock c s (s.keys.dec s.ctx s.sendSeq (s.input.take s.keys.blockSize) s.keys.blockSize 0))
        (pollBlock c (ext s e) (s.keys.dec s.ctx s.sendSeq (s.input.take s.keys.blockSize) s.keys.blockSize 0))
      rcases s.keys.dec s.ctx s.sendSeq (s.input.take s.keys.blockSize) s.keys.blockSize 0 with _ | ⟨x, o⟩
      · rfl
      · unfold pollBlock
        simp only
        split
        · exact startDiscard_ext c { s with ctx := x, incoming := o, packlen := ofBE (o.take 4) } _ e
        · rename_i hb
          have := body_ext c { s with ctx := x, incoming := o, packlen := ofBE (o.take 4), input := s.input.drop s.keys.blockSize } e
            (badLen_ne (by simpa using hb)) hd
          unfold ext at this ⊢
          simp only at this ⊢
          rw [h4]; exact this

/-! ### Progress -/

/-- Decreases with every packet. -/
def measure' (s : Rx σ) : Nat := s.input.length + (if s.packlen ≠ 0 then 1 else 0)

theorem finish_packet {c : Conf} {s s' : Rx σ} {m : Msg} (h : finish c s = .packet m s') :
    s'.input = s.input ∧ s'.packlen = 0 ∧ s'.keys = s.keys ∧ s'.future = s.future ∧ s'.discard = s.discard ∧
      s'.ctx = s.ctx ∧ s'.epoch = s.epoch ∧ s'.initial = s.initial ∧ m.seq = s.seqnr ∧
      s'.seqnr = nextSeq c.strict m.typ s.seqnr ∧ s'.packets = (s.packets + 1) % W32 ∧
      parse c s.seqnr s.packets s.initial s.incoming = .ok m := by
  unfold finish at h
  rcases hp : parse c s.seqnr s.packets s.initial s.incoming with e | m'
  · rw [hp] at h; simp at h
  · rw [hp] at h
    simp only [Poll.packet.injEq] at h
    obtain ⟨rfl, rfl⟩ := h
    refine ⟨rfl, rfl, rfl, rfl, rfl, rfl, rfl, rfl, ?_, ?_, rfl, rfl⟩
    · unfold parse at hp
      split at hp
      · simp at hp
      split at hp
      · simp at hp
      simp only at hp
      split at hp
      · simp at hp
      split at hp
      · simp at hp
      split at hp
      · simp at hp
      split at hp
      · simp at hp
      · simp only [Except.ok.injEq] at hp; subst hp; rfl
    · simp only [nextSeq, and_comm (a := c.strict = true)]

theorem startDiscard_ne {s s' : Rx σ} {d : Nat} {m : Msg} : startDiscard s d ≠ .packet m s' := by
  unfold startDiscard
  split
  · simp
  split <;> simp

/-- What a delivered packet leaves behind. -/
structure After (c : Conf) (s s' : Rx σ) (m : Msg) : Prop where
  packlen : s'.packlen = 0
  keys : s'.keys = s.keys
  future : s'.future = s.future
  discard : s'.discard = s.discard
  epoch : s'.epoch = s.epoch
  initial : s'.initial = s.initial
  seq : m.seq = s.seqnr
  seqnr : s'.seqnr = nextSeq c.strict m.typ s.seqnr
  packets : s'.packets = (s.packets + 1) % W32
  parsed : ∃ inc, parse c s.seqnr s.packets s.initial inc = .ok m

theorem after_finish {c : Conf} {s s' : Rx σ} {m : Msg} (h : finish c s = .packet m s') : After c s s' m := by
  obtain ⟨_, h2, h3, h4, h5, _, h7, h8, h9, h10, h11, h12⟩ := finish_packet h
  exact ⟨h2, h3, h4, h5, h7, h8, h9, h10, h11, ⟨_, h12⟩⟩

theorem bodyFull_packet {c : Conf} {s s' : Rx σ} {m : Msg} {need : Nat} (h : bodyFull c s need = .packet m s') :
    After c s s' m ∧ s'.input = s.input.drop (s.keys.aadlen + need + s.keys.authlen + s.keys.maclen) := by
  unfold bodyFull at h
  simp only at h
  have fin : ∀ (x : σ) (inc i : Bytes), finish c { s with ctx := x, incoming := inc, input := i } = .packet m s' →
      After c s s' m ∧ s'.input = i := by
    intro x inc i hf
    refine ⟨?_, (finish_packet hf).1⟩
    obtain ⟨h2, h3, h4, h5, h7, h8, h9, h10, h11, h12⟩ := after_finish hf
    exact ⟨h2, h3, h4, h5, h7, h8, h9, h10, h11, h12⟩
  rcases hm : s.keys.activeMac with _ | mac
  · have hml : s.keys.maclen = 0 := by simp [Keys.maclen, hm]
    simp only [hm] at h
    rcases hdec : s.keys.dec s.ctx s.seqnr (s.input.take (s.keys.aadlen + need + s.keys.authlen)) need s.keys.aadlen with _ | ⟨x, o⟩
    · simp [hdec] at h
    · simp only [hdec] at h
      have := fin _ _ _ h
      rw [hml]; exact this
  · have hml : s.keys.maclen = mac.len := by simp [Keys.maclen, hm]
    simp only [hm] at h
    rw [hml, ← List.drop_drop]
    split at h
    · split at h
      · simp at h
      · rcases hdec : s.keys.dec s.ctx s.seqnr (s.input.take (s.keys.aadlen + need + s.keys.authlen)) need s.keys.aadlen with _ | ⟨x, o⟩
        · simp [hdec] at h
        · simp only [hdec] at h
          exact fin _ _ _ h
    · rcases hdec : s.keys.dec s.ctx s.seqnr (s.input.take (s.keys.aadlen + need + s.keys.authlen)) need s.keys.aadlen with _ | ⟨x, o⟩
      · simp [hdec] at h
      · simp only [hdec] at h
        split at h
        · split at h
          · simp at h
          · exact absurd h startDiscard_ne
        · exact fin _ _ _ h

theorem body_packet {c : Conf} {s s' : Rx σ} {m : Msg} (h : body c s = .packet m s') :
    After c s s' m ∧ s'.input = s.input.drop (wantOf s) ∧ wantOf s ≤ s.input.length := by
  rw [body_eq] at h
  split at h
  · exact absurd h startDiscard_ne
  split at h
  · simp at h
  · rename_i hl
    have := bodyFull_packet h
    exact ⟨this.1, this.2, by omega⟩

theorem poll_packet {c : Conf} {s s' : Rx σ} {m : Msg} (hb : 0 < s.keys.blockSize) (h : poll c s = .packet m s') :
    After c s s' m ∧ s.discard = 0 ∧ s'.input.length + (if s.packlen = 0 then 1 else 0) ≤ s.input.length ∧
      ∃ n, s'.input = s.input.drop n ∧ n ≤ s.input.length := by
  have hd : s.discard = 0 := by
    apply Classical.byContradiction
    intro hd
    rw [poll, if_pos hd] at h; simp at h
  by_cases hp : s.packlen ≠ 0
  · rw [poll_body c hd hp] at h
    obtain ⟨h1, h2, h3⟩ := body_packet h
    exact ⟨h1, hd, by rw [if_neg hp, h2, List.length_drop]; omega, _, h2, h3⟩
  have hp' : s.packlen = 0 := by simpa using hp
  rw [if_pos hp']
  by_cases ha : s.keys.aadlen ≠ 0
  · rw [poll_len c hd hp' ha] at h
    rcases hg : s.keys.getLen s.ctx s.seqnr s.input with _ | n
    · rw [hg] at h; simp [pollLen] at h
    rw [hg] at h
    unfold pollLen at h
    simp only at h
    split at h
    · simp at h
    obtain ⟨h1, h2, h3⟩ := body_packet h
    have h4 : 1 ≤ wantOf { s with packlen := n, incoming := [] } := by
      unfold wantOf; simp only; omega
    refine ⟨⟨h1.packlen, h1.keys, h1.future, h1.discard, h1.epoch, h1.initial, h1.seq, h1.seqnr, h1.packets, h1.parsed⟩, hd, ?_, _, h2, h3⟩
    rw [h2, List.length_drop]
    simp only at h3 ⊢
    omega
  · have ha' : s.keys.aadlen = 0 := by simpa using ha
    by_cases hl : s.input.length < s.keys.blockSize
    · rw [poll_short c hd hp' ha' hl] at h; simp at h
    rw [poll_block c hd hp' ha' (by omega)] at h
    rcases hg : s.keys.dec s.ctx s.sendSeq (s.input.take s.keys.blockSize) s.keys.blockSize 0 with _ | ⟨x, o⟩
    · rw [hg] at h; simp [pollBlock] at h
    rw [hg] at h
    unfold pollBlock at h
    simp only at h
    split at h
    · exact absurd h startDiscard_ne
    obtain ⟨h1, h2, h3⟩ := body_packet h
    simp only [List.drop_drop] at h2
    simp only [List.length_drop] at h3
    refine ⟨⟨h1.packlen, h1.keys, h1.future, h1.discard, h1.epoch, h1.initial, h1.seq, h1.seqnr, h1.packets, h1.parsed⟩, hd, ?_, _, h2, by omega⟩
    rw [h2, List.length_drop]
    omega

theorem handle_ok {m : Msg} {s s' : Rx σ} (h : handle m s = .ok s') :
    s'.input = s.input ∧ s'.packlen = s.packlen ∧ s'.discard = s.discard ∧
      (m.typ ≠ NEWKEYS → s' = s) ∧
      (m.typ = NEWKEYS → s.future = (s'.keys, s'.ctx) :: s'.future ∧ s'.epoch = s.epoch + 1 ∧ s'.packets = 0 ∧
        s'.seqnr = s.seqnr ∧ s'.initial = false) := by
  unfold handle at h
  by_cases ht : m.typ = NEWKEYS
  · rw [if_pos ht] at h
    rcases hf : s.future with _ | ⟨⟨k, x⟩, rest⟩
    · rw [hf] at h; simp at h
    · rw [hf] at h
      simp only [Except.ok.injEq] at h
      subst h
      exact ⟨rfl, rfl, rfl, fun h => absurd ht h, fun _ => ⟨rfl, rfl, rfl, rfl, rfl⟩⟩
  · rw [if_neg ht] at h
    simp only [Except.ok.injEq] at h
    subst h
    exact ⟨rfl, rfl, rfl, fun _ => rfl, fun h => absurd h ht⟩

theorem handle_ext {m : Msg} {s : Rx σ} (e : Bytes) :
    handle m (ext s e) = (match handle m s with | .error x => .error x | .ok s' => .ok (ext s' e)) := by
  unfold handle ext
  split
  · simp only
    rcases s.future with _ | ⟨⟨k, x⟩, rest⟩ <;> rfl
  · rfl

theorem saneRx_handle {c : Conf} {m : Msg} {s s1 s2 : Rx σ} (h : SaneRx s) (ha : After c s s1 m) (hh : handle m s1 = .ok s2) :
    SaneRx s2 := by
  obtain ⟨_, _, _, h1, h2⟩ := handle_ok hh
  by_cases ht : m.typ = NEWKEYS
  · have := (h2 ht).1
    rw [ha.future] at this
    refine ⟨h.2 (s2.keys, s2.ctx) (by rw [this]; simp), fun k hk => h.2 k (by rw [this]; simp [hk])⟩
  · rw [h1 ht]
    unfold SaneRx
    rw [ha.keys, ha.future]; exact h

theorem drain_fuel (c : Conf) (f f' : Nat) (s : Rx σ) (hk : SaneRx s) (h : measure' s < f) (h' : measure' s < f') :
    drain c f s = drain c f' s := by
  induction f generalizing f' s with
  | zero => omega
  | succ f ih =>
    rcases f' with _ | f'
    · omega
    rw [drain, drain]
    rcases hp : poll c s with s' | ⟨m, s'⟩ | x
    · rfl
    · simp only
      rcases hh : handle m s' with x | s''
      · rfl
      · simp only
        obtain ⟨a1, a2, a3, a4⟩ := poll_packet hk.1.block hp
        obtain ⟨b1, b2, _⟩ := handle_ok hh
        have hm : measure' s'' < measure' s := by
          unfold measure'
          rw [b1, b2, a1.packlen]
          by_cases hpz : s.packlen = 0
          · simp [hpz] at a3 ⊢; omega
          · simp [hpz] at a3 ⊢; omega
        rw [ih f' s'' (saneRx_handle hk a1 hh) (by omega) (by omega)]
    · rfl

theorem startDiscard_none {s s' : Rx σ} {d : Nat} (h : startDiscard s d = .none s') :
    s'.keys = s.keys ∧ s'.future = s.future ∧ s'.epoch = s.epoch := by
  unfold startDiscard at h
  split at h
  · simp at h
  split at h
  · simp at h
  · simp only [Poll.none.injEq] at h; subst h; exact ⟨rfl, rfl, rfl⟩

theorem finish_not_none {c : Conf} {s s' : Rx σ} : finish c s ≠ .none s' := by
  unfold finish
  split <;> simp

theorem bodyFull_none {c : Conf} {s s' : Rx σ} {need : Nat} (h : bodyFull c s need = .none s') :
    s'.keys = s.keys ∧ s'.future = s.future ∧ s'.epoch = s.epoch := by
  unfold bodyFull at h
  simp only at h
  rcases hm : s.keys.activeMac with _ | mac
  · simp only [hm] at h
    rcases hdec : s.keys.dec s.ctx s.seqnr (s.input.take (s.keys.aadlen + need + s.keys.authlen)) need s.keys.aadlen with _ | ⟨x, o⟩
    · simp [hdec] at h
    · simp only [hdec] at h
      exact absurd h finish_not_none
  · simp only [hm] at h
    split at h
    · split at h
      · simp at h
      · rcases hdec : s.keys.dec s.ctx s.seqnr (s.input.take (s.keys.aadlen + need + s.keys.authlen)) need s.keys.aadlen with _ | ⟨x, o⟩
        · simp [hdec] at h
        · simp only [hdec] at h
          exact absurd h finish_not_none
    · rcases hdec : s.keys.dec s.ctx s.seqnr (s.input.take (s.keys.aadlen + need + s.keys.authlen)) need s.keys.aadlen with _ | ⟨x, o⟩
      · simp [hdec] at h
      · simp only [hdec] at h
        split at h
        · split at h
          · simp at h
          · exact startDiscard_none (s := { s with ctx := x, incoming := s.incoming ++ o, input := s.input.drop (s.keys.aadlen + need + s.keys.authlen) }) h
        · exact absurd h finish_not_none

theorem body_none {c : Conf} {s s' : Rx σ} (h : body c s = .none s') :
    s'.keys = s.keys ∧ s'.future = s.future ∧ s'.epoch = s.epoch := by
  rw [body_eq] at h
  split at h
  · exact startDiscard_none h
  split at h
  · simp only [Poll.none.injEq] at h; subst h; exact ⟨rfl, rfl, rfl⟩
  · exact bodyFull_none h

theorem poll_none {c : Conf} {s s' : Rx σ} (h : poll c s = .none s') :
    s'.keys = s.keys ∧ s'.future = s.future ∧ s'.epoch = s.epoch := by
  unfold poll at h
  split at h
  · simp only [Poll.none.injEq] at h; subst h; exact ⟨rfl, rfl, rfl⟩
  split at h
  · exact body_none h
  split at h
  · rcases hg : s.keys.getLen s.ctx s.seqnr s.input with _ | n <;> rw [hg] at h
    · simp only [pollLen, Poll.none.injEq] at h; subst h; exact ⟨rfl, rfl, rfl⟩
    · simp only [pollLen] at h
      split at h
      · simp at h
      · exact body_none (s := { s with packlen := n, incoming := [] }) h
  split at h
  · simp only [Poll.none.injEq] at h; subst h; exact ⟨rfl, rfl, rfl⟩
  · rcases hg : s.keys.dec s.ctx s.sendSeq (s.input.take s.keys.blockSize) s.keys.blockSize 0 with _ | ⟨x, o⟩ <;> rw [hg] at h
    · simp [pollBlock] at h
    · simp only [pollBlock] at h
      split at h
      · exact startDiscard_none (s := { s with ctx := x, incoming := o, packlen := ofBE (o.take 4) }) h
      · exact body_none (s := { s with ctx := x, incoming := o, packlen := ofBE (o.take 4), input := s.input.drop s.keys.blockSize }) h

theorem packet_measure {c : Conf} {s s' s'' : Rx σ} {m : Msg} (hk : SaneRx s) (hp : poll c s = .packet m s')
    (hh : handle m s' = .ok s'') : measure' s'' < measure' s ∧ SaneRx s'' ∧ s''.discard = 0 := by
  obtain ⟨a1, a2, a3, a4⟩ := poll_packet hk.1.block hp
  obtain ⟨b1, b2, b3, _⟩ := handle_ok hh
  refine ⟨?_, saneRx_handle hk a1 hh, by rw [b3, a1.discard]; exact a2⟩
  unfold measure'
  rw [b1, b2, a1.packlen]
  by_cases hpz : s.packlen = 0
  · simp [hpz] at a3 ⊢; omega
  · simp [hpz] at a3 ⊢; omega

/-- The reader's answer determines what follows. -/
theorem drain_congr (c : Conf) {a b : Rx σ} (h : poll c a = poll c b) (ha : SaneRx a) (hb : SaneRx b) {f g : Nat}
    (hf : measure' a < f) (hg : measure' b < g) : drain c f a = drain c g b := by
  rcases f with _ | f
  · omega
  rcases g with _ | g
  · omega
  rw [drain, drain, ← h]
  rcases hp : poll c a with s' | ⟨m, s'⟩ | x
  · rfl
  · simp only
    rcases hh : handle m s' with x | s''
    · rfl
    · simp only
      obtain ⟨m1, k1, _⟩ := packet_measure ha hp hh
      obtain ⟨m2, _, _⟩ := packet_measure hb (h ▸ hp) hh
      rw [drain_fuel c f g s'' k1 (by omega) (by omega)]
  · rfl

theorem sameResult_refl (x : List Msg × Status σ) : SameResult x x := by
  refine ⟨rfl, ?_⟩
  rcases x.2 with a | e
  · exact .inl rfl
  · rfl

theorem sameResult_cons {m : Msg} {x y : List Msg × Status σ} (h : SameResult x y) :
    SameResult (m :: x.1, x.2) (m :: y.1, y.2) := ⟨congrArg (m :: ·) h.1, h.2⟩

theorem recv_alive {c : Conf} {s : Rx σ} (hd : s.discard = 0) (b : Bytes) :
    recv c s b = drain c (s.input.length + b.length + 2) (ext s b) := by
  unfold recv feed
  rw [if_neg (by simp [hd])]
  simp only [List.length_append]
  rfl

/-- A receiver that is throwing bytes away. -/
theorem recv_discard {c : Conf} {s : Rx σ} (hd : s.discard ≠ 0) (b : Bytes) :
    recv c s b = if b.length ≥ s.discard then ([], .failed .macInvalid)
      else ([], .alive { s with discard := s.discard - b.length }) := by
  unfold recv feed
  rw [if_pos hd]
  by_cases h : b.length ≥ s.discard
  · rw [if_pos h, if_pos h]
  · rw [if_neg h, if_neg h]
    simp only
    rw [drain]
    have : poll c { s with discard := s.discard - b.length } = .none { s with discard := s.discard - b.length } := by
      rw [poll, if_pos (show s.discard - b.length ≠ 0 by omega)]
    rw [this]

theorem measure_lt (s : Rx σ) : measure' s < s.input.length + 2 := by
  unfold measure'; split <;> omega

/-- Continue a result with more input. -/
def andThen (c : Conf) (x : List Msg × Status σ) (b : Bytes) : List Msg × Status σ :=
  match x with
  | (ms, .failed e) => (ms, .failed e)
  | (ms, .alive s) => (ms ++ (recv c s b).1, (recv c s b).2)

theorem andThen_cons (c : Conf) (m : Msg) (x : List Msg × Status σ) (b : Bytes) :
    andThen c (m :: x.1, x.2) b = (m :: (andThen c x b).1, (andThen c x b).2) := by
  obtain ⟨ms, st⟩ := x
  rcases st with s | e <;> rfl

theorem saneRx_ext {s : Rx σ} (e : Bytes) (h : SaneRx s) : SaneRx (ext s e) := h

theorem drain_ext (c : Conf) (f : Nat) (s : Rx σ) (b : Bytes) (hk : SaneRx s) (hd : s.discard = 0)
    (h : measure' s < f) (F : Nat) (hF : measure' (ext s b) < F) :
    SameResult (drain c F (ext s b)) (andThen c (drain c f s) b) := by
  induction f generalizing s F with
  | zero => omega
  | succ f ih =>
    have hrel := poll_ext c s b hk.1 hd
    conv => arg 2; rw [drain]
    rcases hp : poll c s with s' | ⟨m, s'⟩ | x
    · rw [hp] at hrel
      simp only [ExtRel] at hrel
      simp only [andThen, List.nil_append]
      obtain ⟨n1, n2, _⟩ := poll_none hp
      by_cases hz : s'.discard = 0
      · rw [if_pos hz] at hrel
        rw [recv_alive hz]
        have hs' : SaneRx (ext s' b) := by
          unfold SaneRx; simp only [ext]; rw [n1, n2]; exact hk
        have hmm := measure_lt (ext s' b)
        have hle : (ext s' b).input.length = s'.input.length + b.length := by simp [ext]
        rw [drain_congr c hrel (saneRx_ext b hk) hs' hF (g := s'.input.length + b.length + 2) (by omega)]
        exact sameResult_refl _
      · rw [if_neg hz] at hrel
        rw [recv_discard hz]
        rcases F with _ | F
        · omega
        rw [drain, hrel]
        by_cases hl : b.length ≥ s'.discard
        · simp only [hl, if_true]; exact sameResult_refl _
        · simp only [hl, if_false]
          exact ⟨rfl, .inr ⟨by show s'.discard - b.length ≠ 0; omega, rfl⟩⟩
    · rw [hp] at hrel
      simp only [ExtRel] at hrel
      rcases F with _ | F
      · omega
      rw [drain, hrel]
      simp only [handle_ext]
      rcases hh : handle m s' with x | s''
      · exact sameResult_refl _
      · simp only
        obtain ⟨m1, k1, d1⟩ := packet_measure hk hp hh
        have hh' : handle m (ext s' b) = .ok (ext s'' b) := by rw [handle_ext, hh]
        obtain ⟨m2, _, _⟩ := packet_measure (saneRx_ext b hk) hrel hh'
        rw [andThen_cons]
        exact sameResult_cons (ih s'' k1 d1 (by omega) F (by omega))
    · rw [hp] at hrel
      simp only [ExtRel] at hrel
      rcases F with _ | F
      · omega
      rw [drain, hrel]
      exact sameResult_refl _

theorem sameResult_trans {x y z : List Msg × Status σ} (h1 : SameResult x y) (h2 : SameResult y z) : SameResult x z := by
  obtain ⟨x1, x2⟩ := x
  obtain ⟨y1, y2⟩ := y
  obtain ⟨z1, z2⟩ := z
  obtain ⟨a1, a2⟩ := h1
  obtain ⟨b1, b2⟩ := h2
  refine ⟨a1.trans b1, ?_⟩
  rcases x2 with a | e <;> rcases y2 with b | e' <;> rcases z2 with d | e'' <;> simp_all
  rcases a2 with rfl | ⟨a3, a4⟩
  · exact b2
  · rcases b2 with rfl | ⟨b3, b4⟩
    · exact .inr ⟨a3, a4⟩
    · exact .inr ⟨a3, a4.trans b4⟩

theorem sameRx_recv (c : Conf) {a b : Rx σ} (h : SameRx a b) (x : Bytes) : SameResult (recv c a x) (recv c b x) := by
  rcases h with rfl | ⟨h1, h2⟩
  · exact sameResult_refl _
  · rw [recv_discard h1, recv_discard (by omega), h2]
    split
    · exact sameResult_refl _
    · exact ⟨rfl, .inr ⟨by show b.discard - x.length ≠ 0; omega, rfl⟩⟩

theorem andThen_congr (c : Conf) {x y : List Msg × Status σ} (h : SameResult x y) (b : Bytes) :
    SameResult (andThen c x b) (andThen c y b) := by
  obtain ⟨x1, x2⟩ := x
  obtain ⟨y1, y2⟩ := y
  obtain ⟨a1, a2⟩ := h
  simp only at a1
  subst a1
  rcases x2 with a | e <;> rcases y2 with b' | e'
  · have := sameRx_recv c a2 b
    exact ⟨congrArg (x1 ++ ·) this.1, this.2⟩
  · exact a2.elim
  · exact a2.elim
  · exact ⟨rfl, a2⟩

/-- Two chunks have the effect of one. -/
theorem recv_append (c : Conf) (s : Rx σ) (hk : SaneRx s) (a b : Bytes) :
    SameResult (recv c s (a ++ b)) (andThen c (recv c s a) b) := by
  by_cases hd : s.discard = 0
  · rw [recv_alive hd, recv_alive hd]
    have he : ext s (a ++ b) = ext (ext s a) b := by simp [ext]
    rw [he]
    have h1 := measure_lt (ext s a)
    have h2 := measure_lt (ext (ext s a) b)
    have l1 : (ext s a).input.length = s.input.length + a.length := by simp [ext]
    have l2 : (ext (ext s a) b).input.length = s.input.length + a.length + b.length := by simp [ext]; omega
    exact drain_ext c _ (ext s a) b hk hd (by omega) _ (by rw [List.length_append]; omega)
  · rw [recv_discard hd, recv_discard hd, List.length_append]
    by_cases h1 : a.length ≥ s.discard
    · rw [if_pos (by omega), if_pos h1]; exact sameResult_refl _
    · rw [if_neg h1]
      simp only [andThen, List.nil_append]
      rw [recv_discard (show s.discard - a.length ≠ 0 by omega)]
      by_cases h2 : a.length + b.length ≥ s.discard
      · rw [if_pos h2, if_pos (show b.length ≥ s.discard - a.length by omega)]; exact sameResult_refl _
      · rw [if_neg h2, if_neg (show ¬ b.length ≥ s.discard - a.length by omega)]
        exact ⟨rfl, .inr ⟨by show s.discard - (a.length + b.length) ≠ 0; omega,
          by show s.discard - (a.length + b.length) = s.discard - a.length - b.length; omega⟩⟩

/-! ### Invariance of the keys' sanity over a run -/

theorem drain_sane (c : Conf) (f : Nat) (s : Rx σ) (hk : SaneRx s) {ms : List Msg} {s' : Rx σ}
    (h : drain c f s = (ms, .alive s')) : SaneRx s' := by
  induction f generalizing s ms with
  | zero => simp only [drain, Prod.mk.injEq, Status.alive.injEq] at h; rw [← h.2]; exact hk
  | succ f ih =>
    rw [drain] at h
    rcases hp : poll c s with s1 | ⟨m, s1⟩ | x
    · simp only [hp, Prod.mk.injEq, Status.alive.injEq] at h
      obtain ⟨n1, n2, _⟩ := poll_none hp
      rw [← h.2]
      unfold SaneRx
      rw [n1, n2]; exact hk
    · simp only [hp] at h
      rcases hh : handle m s1 with x | s2
      · simp [hh] at h
      · simp only [hh] at h
        obtain ⟨_, k1, _⟩ := packet_measure hk hp hh
        simp only [Prod.mk.injEq] at h
        exact ih s2 k1 (ms := (drain c f s2).1) (by rw [← h.2])
    · simp [hp] at h

theorem recv_sane (c : Conf) (s : Rx σ) (hk : SaneRx s) (b : Bytes) {ms : List Msg} {s' : Rx σ}
    (h : recv c s b = (ms, .alive s')) : SaneRx s' := by
  by_cases hd : s.discard = 0
  · rw [recv_alive hd] at h
    exact drain_sane c _ (ext s b) hk h
  · rw [recv_discard hd] at h
    split at h
    · simp at h
    · simp only [Prod.mk.injEq, Status.alive.injEq] at h
      rw [← h.2]; exact hk

/-- **C16** what a receiver delivers, and whether and how it fails, depends only on the bytes received, not on
how they were cut into chunks: for every input, valid or not. -/
theorem C16_chunks (c : Conf) (s : Rx σ) (hk : SaneRx s) (bs : List Bytes) (hne : bs ≠ []) :
    SameResult (recv c s bs.flatten) (recvAll c s bs) := by
  induction bs generalizing s with
  | nil => exact absurd rfl hne
  | cons b bs ih =>
    rcases bs with _ | ⟨b', bs'⟩
    · simp only [List.flatten_cons, List.flatten_nil, List.append_nil, recvAll]
      rcases recv c s b with ⟨ms, s' | e⟩
      · simp only [List.append_nil]; exact sameResult_refl _
      · exact sameResult_refl _
    rw [List.flatten_cons]
    have h1 := recv_append c s hk b (b' :: bs').flatten
    refine sameResult_trans h1 ?_
    rw [recvAll]
    rcases hr : recv c s b with ⟨ms, s' | e⟩
    · have := ih s' (recv_sane c s hk b hr) (by simp)
      exact ⟨congrArg (ms ++ ·) this.1, this.2⟩
    · exact sameResult_refl _

end Verif.Packet
