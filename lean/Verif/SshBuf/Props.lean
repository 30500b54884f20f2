/- Properties C01, C02 and C03. -/
import Verif.SshBuf.Refine

namespace Verif.SshBuf
open Verif Wire

/-! ### C01: a bounded byte queue -/

/-- Run a history of calls on a concrete buffer, collecting the results. -/
def run (b : Buf) : List (Op × Bool) → List (Res Val) × Buf
  | [] => ([], b)
  | (op, mem) :: rest =>
    let (r, b') := exec op mem b
    let (rs, b'') := run b' rest
    (r :: rs, b'')

/-- Histories for which the queue behaviour is claimed: the maximum size of a writable buffer is never
configured below the initial allocation (256 bytes), or the history never resets the buffer. -/
def historyOK (q : Queue) (ops : List (Op × Bool)) : Prop :=
  (∀ m, (Op.reset, m) ∉ ops) ∨ q.writable = false ∨ (SIZE_INIT ≤ q.max ∧ ∀ n m, (Op.setMax n, m) ∈ ops → SIZE_INIT ≤ n)

/-- What one specified call can do to the maximum size and the writability. -/
theorem spec_frame {mem : Bool} {q q' : Queue} {op : Op} {r : Res Val} (h : SpecStep mem q op r q') :
    q'.writable = q.writable ∧ (q'.max = q.max ∨ op = .setMax q'.max) := by
  have happ : ∀ v, (r, q') = q.append v → q'.writable = q.writable ∧ (q'.max = q.max ∨ op = .setMax q'.max) := by
    intro v hv
    unfold Queue.append at hv
    split at hv
    · cases hv; simp
    split at hv <;> (cases hv; simp)
  have htake : ∀ n f, (r, q') = q.take n f → q'.writable = q.writable ∧ (q'.max = q.max ∨ op = .setMax q'.max) := by
    intro n f hv
    unfold Queue.take at hv
    split at hv <;> (cases hv; simp)
  have hmem : NoMem mem r q' q → q'.writable = q.writable ∧ (q'.max = q.max ∨ op = .setMax q'.max) := by
    intro hv; cases hv.2; simp
  cases op <;> simp only [SpecStep] at h
  case put v => exact h.elim (happ _) hmem
  case putf v =>
    split at h
    · cases h; simp
    split at h
    · cases h; simp
    split at h
    · cases h; simp
    rcases h with h | h
    · cases h; simp
    · cases h.2; simp
  case putU8 v => exact h.elim (happ _) hmem
  case putU16 v => exact h.elim (happ _) hmem
  case putU32 v => exact h.elim (happ _) hmem
  case putU64 v => exact h.elim (happ _) hmem
  case putString v =>
    split at h
    · cases h; simp
    · exact h.elim (happ _) hmem
  case putBignum v =>
    split at h
    · cases h; simp
    · exact h.elim (happ _) hmem
  case reserve n => exact h.elim (fun ⟨v, _, hv⟩ => happ v hv) hmem
  case consume n => exact htake _ _ h
  case consumeEnd n => split at h <;> (cases h; simp)
  case reset => cases h; simp
  case setMax n =>
    rcases h with ⟨h, _⟩ | ⟨h, _⟩ | ⟨h, _⟩ | h
    · cases h; simp
    · cases h; simp
    · cases h; simp
    · exact hmem h
  case get n => exact htake _ _ h
  case getU8 => exact htake _ _ h
  case getU16 => exact htake _ _ h
  case getU32 => exact htake _ _ h
  case getU64 => exact htake _ _ h
  case getString =>
    split at h
    · cases h; simp
    · rcases h with h | h
      · cases h; simp [Queue.dropStr]
      · cases h.2; simp [Queue.dropStr]
  case getCString =>
    split at h
    · cases h; simp
    · split at h
      · cases h; simp
      · rcases h with h | h
        · cases h; simp [Queue.dropStr]
        · cases h.2; simp [Queue.dropStr]
  case getBignum =>
    split at h
    · cases h; simp
    · split at h
      · cases h; simp
      split at h <;> (cases h; simp [Queue.dropStr])
  case peekU8 o => cases h; simp
  case peekU16 o => cases h; simp
  case peekU32 o => cases h; simp
  case peekU64 o => cases h; simp
  case poke o v =>
    split at h
    · cases h; simp
    split at h
    · cases h; simp
    split at h <;> (cases h; simp)
  case len => cases h; simp
  case avail => cases h; simp
  case dupString => cases h.1; simp
  case cmp o s => cases h.1; simp
  case find o s => cases h.1; simp
  case readFd rd n =>
    split at h
    · cases h; simp
    split at h
    · cases h; simp
    rcases h with h | h
    · exact hmem h
    · split at h
      · cases h; simp
      · split at h <;> (cases h; simp)

theorem run_refines {b : Buf} (h : b.WF) (ops : List (Op × Bool)) (hv : ∀ x ∈ ops, x.1.valid)
    (hok : historyOK b.queue ops) :
    SpecRun b.queue ops (run b ops).1 (run b ops).2.queue ∧ (run b ops).2.WF ∧
    (∀ r ∈ (run b ops).1, r ≠ .abort ∧ r ≠ .ub) := by
  induction ops generalizing b with
  | nil => exact ⟨SpecRun.nil _, h, by simp [run]⟩
  | cons x ops ih =>
    obtain ⟨op, mem⟩ := x
    have hr : resetOK b.queue op := by
      intro he hw
      subst he
      rcases hok with h1 | h1 | h1
      · exact absurd (List.mem_cons_self ..) (h1 mem)
      · rw [h1] at hw; cases hw
      · exact h1.1
    obtain ⟨r, b', he, hwf, hna, hnu, hs⟩ := step_all h op (hv (op, mem) (List.mem_cons_self ..)) hr mem
    have hfr := spec_frame hs
    have hok' : historyOK b'.queue ops := by
      rcases hok with h1 | h1 | ⟨h1, h2⟩
      · exact .inl fun m hm => h1 m (List.mem_cons_of_mem _ hm)
      · exact .inr (.inl (hfr.1.trans h1))
      · refine .inr (.inr ⟨?_, fun n m hm => h2 n m (List.mem_cons_of_mem _ hm)⟩)
        rcases hfr.2 with h3 | h3
        · omega
        · exact h2 _ mem (by rw [← h3]; exact List.mem_cons_self ..)
    obtain ⟨i1, i2, i3⟩ := ih hwf (fun x hx => hv x (List.mem_cons_of_mem _ hx)) hok'
    simp only [run, he]
    refine ⟨SpecRun.cons hs i1, i2, ?_⟩
    intro r' hr'
    rcases List.mem_cons.1 hr' with rfl | hr'
    · exact ⟨hna, hnu⟩
    · exact i3 r' hr'

theorem new_wf : new.WF := by
  constructor <;> simp only [new, List.length_replicate] <;> omega

theorem new_queue : new.queue = ⟨[], 134217728, true⟩ := by
  simp only [Buf.queue, Buf.contents, new, Buf.writable]
  rfl

theorem from_wf {v : Bytes} {b : Buf} (h : from_ v = some b) : b.WF ∧ b.queue = ⟨v, v.length, false⟩ := by
  unfold from_ at h
  split at h
  · cases h
  · injection h with h
    subst h
    refine ⟨?_, by simp [Buf.queue, Buf.contents, Buf.writable]⟩
    constructor <;> simp <;> omega

/-- **C01** (for histories that never configure a maximum below 256 bytes, or never reset): a buffer
created by `sshbuf_new` behaves as a bounded byte queue.  Every result and the readable contents are the
ones of the specification `SpecRun`, no call touches memory outside the allocation or trips the sanity
check, and the length stays within the configured maximum and within 2^27. -/
theorem C01_queue_partial (ops : List (Op × Bool)) (hv : ∀ x ∈ ops, x.1.valid)
    (hok : (∀ m, (Op.reset, m) ∉ ops) ∨ (∀ n m, (Op.setMax n, m) ∈ ops → 256 ≤ n)) :
    let (rs, b) := run new ops
    SpecRun ⟨[], 134217728, true⟩ ops rs b.queue ∧ (∀ r ∈ rs, r ≠ .abort ∧ r ≠ .ub) ∧
    b.queue.data.length ≤ b.queue.max ∧ b.queue.max ≤ 134217728 := by
  have hq := new_queue
  have := run_refines new_wf ops hv (by
    rcases hok with h | h
    · exact .inl h
    · exact .inr (.inr ⟨by rw [hq]; decide, h⟩))
  rw [hq] at this
  obtain ⟨h1, h2, h3⟩ := this
  refine ⟨h1, h3, ?_, h2.max⟩
  have hc := contents_length h2
  have := h2.alloc; have := h2.size
  simp only [Buf.queue]; omega

/-- **C01** for buffers over caller-supplied bytes (`sshbuf_from`): the same, for all histories. -/
theorem C01_queue_from (v : Bytes) (b0 : Buf) (hb : from_ v = some b0) (ops : List (Op × Bool))
    (hv : ∀ x ∈ ops, x.1.valid) :
    let (rs, b) := run b0 ops
    SpecRun ⟨v, v.length, false⟩ ops rs b.queue ∧ (∀ r ∈ rs, r ≠ .abort ∧ r ≠ .ub) ∧
    b.queue.data.length ≤ b.queue.max := by
  obtain ⟨hwf, hq⟩ := from_wf hb
  have := run_refines hwf ops hv (by rw [hq]; exact .inr (.inl rfl))
  rw [hq] at this
  obtain ⟨h1, h2, h3⟩ := this
  refine ⟨h1, h3, ?_⟩
  have hc := contents_length h2
  have := h2.alloc; have := h2.size
  simp only [Buf.queue]; omega

/-- **C01**, error clause: a call that reports an error leaves contents, maximum and writability as they
were; the only exception is a string read whose result cannot be allocated (the item is consumed). -/
theorem C01_error_unchanged {mem : Bool} {q q' : Queue} {op : Op} {e : Err} (h : SpecStep mem q op (.err e) q') :
    q' = q ∨ (e = .allocFail ∧ mem = false ∧ (op = .getString ∨ op = .getCString)) := by
  have happ : ∀ v, ((.err e : Res Val), q') = q.append v → q' = q := by
    intro v hv
    unfold Queue.append at hv
    split at hv
    · cases hv; rfl
    split at hv <;> cases hv
    rfl
  have htake : ∀ n f, ((.err e : Res Val), q') = q.take n f → q' = q := by
    intro n f hv
    unfold Queue.take at hv
    split at hv <;> cases hv
    rfl
  have hmem : NoMem mem (.err e) q' q → q' = q := by
    intro hv; cases hv.2; rfl
  have L : ∀ {p : Prop}, q' = q → q' = q ∨ p := fun h => Or.inl h
  cases op <;> simp only [SpecStep] at h
  case put v => exact L (h.elim (happ _) hmem)
  case putf v =>
    split at h
    · cases h
    split at h
    · cases h; simp
    split at h
    · cases h; simp
    rcases h with h | h
    · cases h
    · exact L (hmem h)
  case putU8 v => exact L (h.elim (happ _) hmem)
  case putU16 v => exact L (h.elim (happ _) hmem)
  case putU32 v => exact L (h.elim (happ _) hmem)
  case putU64 v => exact L (h.elim (happ _) hmem)
  case putString v =>
    split at h
    · cases h; simp
    · exact L (h.elim (happ _) hmem)
  case putBignum v =>
    split at h
    · cases h; simp
    · exact L (h.elim (happ _) hmem)
  case reserve n => exact L (h.elim (fun ⟨v, _, hv⟩ => happ v hv) hmem)
  case consume n => exact L (htake _ _ h)
  case consumeEnd n =>
    split at h <;> cases h
    simp
  case reset => cases h
  case setMax n =>
    rcases h with ⟨h, _⟩ | ⟨h, _⟩ | ⟨h, _⟩ | h
    · cases h
    · cases h; simp
    · cases h; simp
    · exact L (hmem h)
  case get n => exact L (htake _ _ h)
  case getU8 => exact L (htake _ _ h)
  case getU16 => exact L (htake _ _ h)
  case getU32 => exact L (htake _ _ h)
  case getU64 => exact L (htake _ _ h)
  case getString =>
    split at h
    · cases h; simp
    · rcases h with h | h
      · cases h
      · obtain ⟨h1, h2⟩ := h
        cases h2; simp [h1]
  case getCString =>
    split at h
    · cases h; simp
    · split at h
      · cases h; simp
      · rcases h with h | h
        · cases h
        · obtain ⟨h1, h2⟩ := h
          cases h2; simp [h1]
  case getBignum =>
    split at h
    · cases h; simp
    · split at h
      · cases h; simp
      split at h <;> cases h
      simp
  case peekU8 o => injection h with _ h; exact L h
  case peekU16 o => injection h with _ h; exact L h
  case peekU32 o => injection h with _ h; exact L h
  case peekU64 o => injection h with _ h; exact L h
  case poke o v =>
    split at h
    · cases h; simp
    split at h
    · cases h; simp
    split at h <;> cases h
    simp
  case len => cases h
  case avail => cases h
  case dupString => exact L h.1
  case cmp o s => exact L h.1
  case find o s => exact L h.1
  case readFd rd n =>
    split at h
    · cases h; simp
    split at h
    · cases h; simp
    rcases h with h | h
    · exact L (hmem h)
    · split at h
      · cases h; simp
      · split at h <;> cases h
        simp

/-- The restriction in `C01_queue_partial` is necessary: after `sshbuf_set_max_size(buf, 100)` and
`sshbuf_reset(buf)` the allocation (256) exceeds the maximum, and the next call on the buffer fails the
sanity check, which kills the process. -/
theorem C01_reset_small_max_breaks :
    (run new [(.setMax 100, true), (.reset, true), (.len, true)]).1 = [.ok .unit, .ok .unit, .abort] := by
  decide +kernel

/-- The full claim of C01 is therefore false. -/
theorem C01_queue_false :
    ¬ ∀ ops : List (Op × Bool), (∀ x ∈ ops, x.1.valid) → ∀ r ∈ (run new ops).1, r ≠ .abort ∧ r ≠ .ub := by
  intro h
  have := h [(.setMax 100, true), (.reset, true), (.len, true)] (by
    intro x hx
    simp at hx
    rcases hx with rfl | rfl | rfl <;> simp [Op.valid])
  rw [C01_reset_small_max_breaks] at this
  exact (this .abort (by simp)).1 rfl

/-- Non-vacuity: a history mixing writes, reads, a failing read and a reset. -/
example : (run new [(.putString b!"abc", true), (.putU16 0x0102, true), (.getString, true), (.getU32, true),
      (.getU16, true), (.reset, true), (.len, true)]).1 =
    [.ok .unit, .ok .unit, .ok (.bytes b!"abc"), .err .incomplete, .ok (.num 0x0102), .ok .unit, .ok (.num 0)] := by
  decide +kernel

/-! ### C02: wire primitives round-trip -/

/-- A write followed by any trailing data. -/
def written (op : Op) (rest : Bytes) (b2 : Buf) : Prop :=
  ∃ m1 m2 b0 b1, Buf.WF b0 ∧ b0.contents = [] ∧ exec op m1 b0 = (.ok .unit, b1) ∧ exec (.put rest) m2 b1 = (.ok .unit, b2)

theorem append_ok {q q' : Queue} {v : Bytes} {mem : Bool}
    (h : ((.ok .unit : Res Val), q') = q.append v ∨ NoMem mem (.ok .unit) q' q) : q'.data = q.data ++ v := by
  rcases h with h | h
  · unfold Queue.append at h
    split at h
    · cases h
    split at h <;> cases h
    rfl
  · cases h.2

/-- What a successful write leaves in the buffer. -/
def encoding : Op → Bytes
  | .putU8 v => [v]
  | .putU16 v => be 2 v.toNat
  | .putU32 v => be 4 v.toNat
  | .putU64 v => be 8 v.toNat
  | .putString v => str v
  | .putBignum v => str (mpint v)
  | _ => []

theorem written_contents {op : Op} {rest : Bytes} {b2 : Buf}
    (hop : match op with | .putU8 _ | .putU16 _ | .putU32 _ | .putU64 _ | .putString _ | .putBignum _ => True | _ => False)
    (h : written op rest b2) : b2.WF ∧ b2.contents = encoding op ++ rest := by
  obtain ⟨m1, m2, b0, b1, hwf, h0, h1, h2⟩ := h
  have key : b1.WF ∧ b1.contents = encoding op := by
    have S : StepOK b0 op m1 := by
      cases op <;> simp only at hop
      case putU8 v => exact step_putU8 hwf v m1
      case putU16 v => exact step_putU16 hwf v m1
      case putU32 v => exact step_putU32 hwf v m1
      case putU64 v => exact step_putU64 hwf v m1
      case putString v => exact step_putString hwf v m1
      case putBignum v => exact step_putBignum hwf v m1
    obtain ⟨r, b', he, hwf', _, _, hs⟩ := S
    rw [h1] at he
    cases he
    refine ⟨hwf', ?_⟩
    have h00 : b0.queue.data = [] := h0
    have hq : b1.contents = b1.queue.data := rfl
    rw [hq]
    cases op <;> simp only at hop <;> simp only [SpecStep] at hs
    case putU8 v => simpa [h00, encoding] using append_ok hs
    case putU16 v => simpa [h00, encoding] using append_ok hs
    case putU32 v => simpa [h00, encoding] using append_ok hs
    case putU64 v => simpa [h00, encoding] using append_ok hs
    case putString v =>
      split at hs
      · cases hs
      · simpa [h00, encoding] using append_ok hs
    case putBignum v =>
      split at hs
      · cases hs
      · simpa [h00, encoding] using append_ok hs
  obtain ⟨r, b', he, hwf', _, _, hs⟩ := step_put key.1 rest m2
  rw [h2] at he
  cases he
  refine ⟨hwf', ?_⟩
  have := append_ok hs
  rw [← key.2]
  exact this

/-- **C02**, round trip of integers. -/
theorem C02_roundtrip_u8 (v : UInt8) (rest : Bytes) (b : Buf) (h : written (.putU8 v) rest b) (m : Bool) :
    ∃ b', exec .getU8 m b = (.ok (.num v.toNat), b') ∧ b'.contents = rest := by
  obtain ⟨hwf, hc⟩ := written_contents trivial h
  obtain ⟨r, b', he, _, _, _, hs⟩ := step_getU8 hwf m
  simp only [encoding] at hc
  simp only [SpecStep, Queue.take, Buf.queue, hc] at hs
  simp [ofBE] at hs
  exact ⟨b', by rw [he, hs.1], hs.2.1⟩

theorem take_int {n v : Nat} {rest : Bytes} {b b' : Buf} {r : Res Val} (hv : v < 256 ^ n) (hc : b.contents = be n v ++ rest)
    (hs : (r, b'.queue) = b.queue.take n (fun v => .num (ofBE v))) : r = .ok (.num v) ∧ b'.contents = rest := by
  simp only [Queue.take, Buf.queue, hc] at hs
  rw [if_pos (by simp)] at hs
  injection hs with h1 h2
  rw [List.take_left' (be_length n v), ofBE_be_of_lt hv] at h1
  injection h2 with h2 _ _
  rw [List.drop_left' (be_length n v)] at h2
  exact ⟨h1, h2⟩

theorem C02_roundtrip_u16 (v : UInt16) (rest : Bytes) (b : Buf) (h : written (.putU16 v) rest b) (m : Bool) :
    ∃ b', exec .getU16 m b = (.ok (.num v.toNat), b') ∧ b'.contents = rest := by
  obtain ⟨hwf, hc⟩ := written_contents trivial h
  obtain ⟨r, b', he, _, _, _, hs⟩ := step_getU16 hwf m
  have := take_int (by have := v.toNat_lt; omega) hc hs
  exact ⟨b', by rw [he, this.1], this.2⟩
theorem C02_roundtrip_u32 (v : UInt32) (rest : Bytes) (b : Buf) (h : written (.putU32 v) rest b) (m : Bool) :
    ∃ b', exec .getU32 m b = (.ok (.num v.toNat), b') ∧ b'.contents = rest := by
  obtain ⟨hwf, hc⟩ := written_contents trivial h
  obtain ⟨r, b', he, _, _, _, hs⟩ := step_getU32 hwf m
  have := take_int (by have := v.toNat_lt; omega) hc hs
  exact ⟨b', by rw [he, this.1], this.2⟩
theorem C02_roundtrip_u64 (v : UInt64) (rest : Bytes) (b : Buf) (h : written (.putU64 v) rest b) (m : Bool) :
    ∃ b', exec .getU64 m b = (.ok (.num v.toNat), b') ∧ b'.contents = rest := by
  obtain ⟨hwf, hc⟩ := written_contents trivial h
  obtain ⟨r, b', he, _, _, _, hs⟩ := step_getU64 hwf m
  have := take_int (by have := v.toNat_lt; omega) hc hs
  exact ⟨b', by rw [he, this.1], this.2⟩

theorem front_str {v rest : Bytes} {q : Queue} (hv : v.length ≤ maxString) (hc : q.data = str v ++ rest) :
    q.front = .ok v ∧ (q.dropStr v).data = rest := by
  have hlen : (str v).length = 4 + v.length := by simp [str]
  have h4 : q.data.take 4 = be 4 v.length := by
    rw [hc, str, List.append_assoc]; exact List.take_left' (be_length _ _)
  have hd : q.data.drop 4 = v ++ rest := by
    rw [hc, str, List.append_assoc]; exact List.drop_left' (be_length _ _)
  constructor
  · unfold Queue.front
    rw [h4, ofBE_be_of_lt (by omega), hd]
    have hl : q.data.length = 4 + v.length + rest.length := by rw [hc]; simp [hlen]
    rw [if_neg (by omega), if_neg (by omega), if_neg (by omega), List.take_left' rfl]
  · simp only [Queue.dropStr, hc]
    exact List.drop_left' hlen

theorem written_string_len {v : Bytes} {rest : Bytes} {b2 : Buf} (h : written (.putString v) rest b2) :
    v.length ≤ maxString := by
  obtain ⟨m1, m2, b0, b1, hwf, h0, h1, h2⟩ := h
  obtain ⟨r, b', he, hwf', _, _, hs⟩ := step_putString hwf v m1
  rw [h1] at he
  cases he
  simp only [SpecStep] at hs
  split at hs
  · cases hs
  · omega

/-- **C02**, round trip of strings. -/
theorem C02_roundtrip_string (v : Bytes) (rest : Bytes) (b : Buf) (h : written (.putString v) rest b) :
    ∃ b', exec .getString true b = (.ok (.bytes v), b') ∧ b'.contents = rest := by
  obtain ⟨hwf, hc⟩ := written_contents trivial h
  obtain ⟨hf, hd⟩ := front_str (q := b.queue) (written_string_len h) hc
  obtain ⟨r, b', he, _, _, _, hs⟩ := step_getString hwf true
  simp only [SpecStep, hf] at hs
  rcases hs with hs | hs
  · injection hs with h1 h2
    refine ⟨b', by rw [he, h1], ?_⟩
    rw [← hd, ← h2]; rfl
  · cases hs.1

/-- **C02**, round trip of C strings (text without NUL bytes). -/
theorem C02_roundtrip_cstring (v : Bytes) (hn : (0 : UInt8) ∉ v) (rest : Bytes) (b : Buf)
    (h : written (.putString v) rest b) :
    ∃ b', exec .getCString true b = (.ok (.bytes v), b') ∧ b'.contents = rest := by
  obtain ⟨hwf, hc⟩ := written_contents trivial h
  obtain ⟨hf, hd⟩ := front_str (q := b.queue) (written_string_len h) hc
  obtain ⟨r, b', he, _, _, _, hs⟩ := step_getCString hwf true
  simp only [SpecStep, hf] at hs
  rw [if_neg (fun hh => hn (nulInside_mem hh))] at hs
  rcases hs with hs | hs
  · injection hs with h1 h2
    refine ⟨b', by rw [he, h1], ?_⟩
    rw [← hd, ← h2]; rfl
  · cases hs.1

theorem dropWhile_head (v : Bytes) : (v.dropWhile (· = 0)) = [] ∨ (v.dropWhile (· = 0)).headD 0 ≠ 0 := by
  induction v with
  | nil => simp
  | cons x xs ih =>
    by_cases hx : x = 0
    · simpa [hx] using ih
    · right; simp [hx]

theorem dropWhile_idem (v : Bytes) : (v.dropWhile (· = 0)).dropWhile (· = 0) = v.dropWhile (· = 0) := by
  induction v with
  | nil => simp
  | cons x xs ih =>
    by_cases hx : x = 0
    · simpa [hx] using ih
    · simp [hx]

theorem dropWhile_length (v : Bytes) : (v.dropWhile (· = 0)).length ≤ v.length :=
  (List.dropWhile_sublist _).length_le

/-- **C02**, round trip of non-negative multi-precision integers of at most 16384 bits, given as
big-endian magnitudes: the magnitude comes back without leading zero bytes. -/
theorem C02_roundtrip_mpint (v : Bytes) (hlen : (v.dropWhile (· = 0)).length ≤ 2048) (rest : Bytes) (b : Buf)
    (h : written (.putBignum v) rest b) (m : Bool) :
    ∃ b', exec .getBignum m b = (.ok (.bytes (v.dropWhile (· = 0))), b') ∧ b'.contents = rest := by
  obtain ⟨hwf, hc⟩ := written_contents trivial h
  have hl : (mpint v).length ≤ 2049 := by
    unfold mpint; simp only; split
    · rw [List.length_cons]; omega
    · omega
  obtain ⟨hf, hd⟩ := front_str (q := b.queue) (v := mpint v) (rest := rest) (by omega) hc
  obtain ⟨r, b', he, _, _, _, hs⟩ := step_getBignum hwf m
  simp only [SpecStep, hf] at hs
  have hneg : ¬ (mpint v).headD 0 ≥ 0x80 := by
    unfold mpint; simp only
    split
    · simp
    · rename_i hh
      intro h2
      apply hh
      refine ⟨?_, h2⟩
      cases hw : v.dropWhile (· = 0) with
      | nil => rw [hw] at h2; simp at h2
      | cons => simp
  have hbig : ¬ ((mpint v).length > 2049 ∨ ((mpint v).length = 2049 ∧ (mpint v).headD 0 ≠ 0)) := by
    unfold mpint; simp only
    split
    · simp; omega
    · omega
  have hval : (mpint v).dropWhile (· = 0) = v.dropWhile (· = 0) := by
    unfold mpint; simp only
    split
    · rw [List.dropWhile_cons]; exact dropWhile_idem v
    · exact dropWhile_idem v
  rw [if_neg hneg, if_neg hbig, hval] at hs
  injection hs with h1 h2
  refine ⟨b', by rw [he, h1], ?_⟩
  rw [← hd, ← h2]; rfl

/-- The magnitude returned denotes the same number as the magnitude written. -/
theorem C02_mpint_value (v : Bytes) : ofBE (v.dropWhile (· = 0)) = ofBE v := by
  induction v with
  | nil => rfl
  | cons x xs ih =>
    by_cases hx : x = 0
    · subst hx
      rw [ofBE_cons]
      simpa using ih
    · simp [hx]

/-- **C02**, canonicity: bytes accepted by an integer reader are the encoding of the value returned. -/
theorem C02_canonical_int (n : Nat) (op : Op) (hop : (op, n) ∈ [(Op.getU8, 1), (.getU16, 2), (.getU32, 4), (.getU64, 8)])
    (b b' : Buf) (hwf : b.WF) (m : Bool) (x : Val) (h : exec op m b = (.ok x, b')) :
    ∃ v, x = .num v ∧ v < 256 ^ n ∧ b.contents = be n v ++ b'.contents := by
  have key : SpecStep m b.queue op (.ok x) b'.queue → ((.ok x : Res Val), b'.queue) = b.queue.take n (fun v => .num (ofBE v)) := by
    intro hs
    simp at hop
    rcases hop with ⟨rfl, rfl⟩ | ⟨rfl, rfl⟩ | ⟨rfl, rfl⟩ | ⟨rfl, rfl⟩ <;> exact hs
  have S : StepOK b op m := by
    simp at hop
    rcases hop with ⟨rfl, rfl⟩ | ⟨rfl, rfl⟩ | ⟨rfl, rfl⟩ | ⟨rfl, rfl⟩
    · exact step_getU8 hwf m
    · exact step_getU16 hwf m
    · exact step_getU32 hwf m
    · exact step_getU64 hwf m
  obtain ⟨r, b1, he, _, _, _, hs⟩ := S
  rw [h] at he
  cases he
  have hk := key hs
  unfold Queue.take at hk
  split at hk
  · rename_i hl
    injection hk with h1 h2
    injection h1 with h1
    have hl' : n ≤ b.contents.length := hl
    have hlen : (b.contents.take n).length = n := by simp; omega
    refine ⟨ofBE (b.contents.take n), h1, ?_, ?_⟩
    · have := ofBE_lt (b.contents.take n); rwa [hlen] at this
    · have h3 : b'.contents = b.contents.drop n := congrArg Queue.data h2
      have h4 := be_ofBE (b.contents.take n)
      rw [hlen] at h4
      rw [h3, h4, List.take_append_drop]
  · cases hk

theorem front_canonical {q : Queue} {v : Bytes} (h : q.front = .ok v) : q.data = str v ++ (q.dropStr v).data := by
  have hf := front_ok h
  unfold Queue.front at h
  split at h
  · cases h
  split at h
  · cases h
  split at h
  · cases h
  rename_i h1 h2 h3
  injection h with h
  have hl : v.length = ofBE (q.data.take 4) := by rw [← h]; simp; omega
  have h4 := be_ofBE (q.data.take 4)
  rw [show (q.data.take 4).length = 4 by simp; omega, ← hl] at h4
  simp only [Queue.dropStr, str, h4]
  rw [List.append_assoc, ← List.drop_drop]
  conv => rhs; rhs; lhs; rw [hf.2.2]
  rw [List.take_append_drop, List.take_append_drop]

/-- **C02**, canonicity: bytes accepted by the string readers are the encoding of the value returned. -/
theorem C02_canonical_string (op : Op) (hop : op = .getString ∨ op = .getCString)
    (b b' : Buf) (hwf : b.WF) (m : Bool) (x : Val) (h : exec op m b = (.ok x, b')) :
    ∃ v, x = .bytes v ∧ b.contents = str v ++ b'.contents := by
  have S : StepOK b op m := by
    rcases hop with rfl | rfl
    · exact step_getString hwf m
    · exact step_getCString hwf m
  obtain ⟨r, b1, he, _, _, _, hs⟩ := S
  rw [h] at he
  cases he
  rcases hf : b.queue.front with e | v
  · rcases hop with rfl | rfl <;> simp only [SpecStep, hf] at hs <;> cases hs
  · have hc := front_canonical hf
    have hfin : ((.ok x : Res Val), b'.queue) = (.ok (.bytes v), b.queue.dropStr v) := by
      rcases hop with rfl | rfl <;> simp only [SpecStep, hf] at hs
      · rcases hs with hs | hs
        · exact hs
        · cases hs.2
      · split at hs
        · cases hs
        · rcases hs with hs | hs
          · exact hs
          · cases hs.2
    injection hfin with h1 h2
    injection h1 with h1
    refine ⟨v, h1, ?_⟩
    rw [← h2] at hc
    exact hc

/-- Non-vacuity of the round trips: values and trailing data really can be written. -/
example : ∃ b, written (.putString b!"key") b!"rest" b :=
  ⟨(exec (.put b!"rest") true (exec (.putString b!"key") true new).2).2, true, true, new,
    (exec (.putString b!"key") true new).2, new_wf, congrArg Queue.data new_queue, by decide +kernel, by decide +kernel⟩
example : ∃ b, written (.putBignum [0, 0, 0x80, 1]) b!"x" b :=
  ⟨(exec (.put b!"x") true (exec (.putBignum [0, 0, 0x80, 1]) true new).2).2, true, true, new,
    (exec (.putBignum [0, 0, 0x80, 1]) true new).2, new_wf, congrArg Queue.data new_queue, by decide +kernel, by decide +kernel⟩
example : ∃ b, written (.putU32 0xdeadbeef) b!"x" b :=
  ⟨(exec (.put b!"x") true (exec (.putU32 0xdeadbeef) true new).2).2, true, true, new,
    (exec (.putU32 0xdeadbeef) true new).2, new_wf, congrArg Queue.data new_queue, by decide +kernel, by decide +kernel⟩

/-! ### C03: failing reads consume nothing -/

/-- The typed readers. -/
def Op.reader : Op → Prop
  | .get _ | .getU8 | .getU16 | .getU32 | .getU64 | .getString | .getCString | .getBignum
  | .peekU8 _ | .peekU16 _ | .peekU32 _ | .peekU64 _ => True
  | _ => False

theorem checkOffset_state {b b' : Buf} {wr : Bool} {o n : Nat} {r : Res Unit} (hwf : b.WF)
    (h : checkOffset wr o n b = (r, b')) : b' = b := by
  simp only [checkOffset, bind_apply, ptr_ok hwf, ite_apply', fail_apply, len_ok hwf, pure_apply] at h
  split at h
  · cases h; rfl
  split at h <;> (cases h; rfl)

/-- **C03**: a typed read that fails for any reason other than exhausted memory leaves the buffer
structure, including its storage, exactly as it was. -/
theorem C03_failed_read_unchanged (op : Op) (hop : op.reader) (b b' : Buf) (hwf : b.WF) (m : Bool) (e : Err)
    (h : exec op m b = (.err e, b')) (he : e ≠ .allocFail) : b' = b := by
  have hfix : ∀ n (g : Bytes → Val), (exec op m = do
        let p ← ptr
        consume n
        let v ← memRead p n
        pure (g v)) → b' = b := by
    intro n g hx
    rw [hx] at h
    simp only [bind_apply, ptr_ok hwf, consume_eq hwf, ite_apply'] at h
    by_cases hn : n ≤ b.contents.length
    · simp only [if_pos hn, memRead_front hwf (consumed_d b n) hn, pure_apply] at h
      cases h
    · simp only [if_neg hn] at h
      cases h; rfl
  have hpk : ∀ o n (g : Bytes → Val), (exec op m = do
        let p ← checkROffset o n
        let v ← memRead p n
        pure (g v)) → b' = b := by
    intro o n g hx
    rw [hx] at h
    simp only [checkROffset, bind_apply] at h
    rcases hc : checkOffset false o n b with ⟨r, b1⟩
    have := checkOffset_state hwf hc
    subst this
    rw [hc] at h
    cases r with
    | ok a =>
      by_cases hk : b1.off + o + n ≤ b1.d.length
      · simp only [ptr_ok hwf, pure_apply, memRead, if_pos hk] at h
        cases h
      · simp only [ptr_ok hwf, pure_apply, memRead, if_neg hk] at h
        cases h
    | err e => cases h; rfl
    | abort => cases h
    | ub => cases h
  cases op <;> simp only [Op.reader] at hop
  case get n =>
    simp only [exec, get, bind_apply, ptr_ok hwf, consume_eq hwf, ite_apply'] at h
    by_cases hn : n ≤ b.contents.length
    · by_cases h0 : n = 0
      · subst h0; simp at h
      · simp only [if_pos hn, ite_apply', memRead_front hwf (consumed_d b n) hn, pure_apply, if_pos (show n ≠ 0 from h0)] at h
        cases h
    · simp only [if_neg hn] at h
      cases h; rfl
  case getU8 => exact hfix 1 (fun v => .num (v.headD 0).toNat) (by simp only [exec, getU8, bind_assoc']; rfl)
  case getU16 => exact hfix 2 (fun v => .num (peekU16 v).toNat) (by simp only [exec, getU16, bind_assoc']; rfl)
  case getU32 => exact hfix 4 (fun v => .num (peekU32 v).toNat) (by simp only [exec, getU32, bind_assoc']; rfl)
  case getU64 => exact hfix 8 (fun v => .num (peekU64 v).toNat) (by simp only [exec, getU64, bind_assoc']; rfl)
  case peekU8 o => exact hpk o 1 (fun v => .num (v.headD 0).toNat) (by simp only [exec, peekU8At, bind_assoc']; rfl)
  case peekU16 o => exact hpk o 2 (fun v => .num (peekU16 v).toNat) (by simp only [exec, peekU16At, bind_assoc']; rfl)
  case peekU32 o => exact hpk o 4 (fun v => .num (peekU32 v).toNat) (by simp only [exec, peekU32At, bind_assoc']; rfl)
  case peekU64 o => exact hpk o 8 (fun v => .num (peekU64 v).toNat) (by simp only [exec, peekU64At, bind_assoc']; rfl)
  case getString =>
    have hg := getStringDirect_eq hwf
    rcases hf : b.queue.front with e' | v
    · rw [hf] at hg
      simp only [exec, getString, bind_apply, hg] at h
      cases h; rfl
    · obtain ⟨h1, h2, h3⟩ := front_ok hf
      rw [hf] at hg
      cases m with
      | true =>
        simp only [exec, getString, bind_apply, hg, if_true, memRead_at hwf (consumed_d b _) h1, pure_apply] at h
        cases h
      | false =>
        simp only [exec, getString, bind_apply, hg, Bool.false_eq_true, if_false, fail_apply] at h
        cases h; exact absurd rfl he
  case getCString =>
    have hp := peekStringDirect_eq hwf
    have hg := getStringDirect_eq hwf
    rcases hf : b.queue.front with e' | v
    · rw [hf] at hp
      simp only [exec, getCString, bind_apply, hp] at h
      cases h; rfl
    · obtain ⟨h1, h2, h3⟩ := front_ok hf
      rw [hf] at hg hp
      simp only [exec, getCString, bind_apply, hp, memRead_at hwf rfl h1, ite_apply'] at h
      split at h
      · rename_i heq
        split at heq
        · simp at heq
        · cases m with
          | true =>
            simp only [orInternal, hg, if_true, memRead_at hwf (consumed_d b _) h1, bind_apply] at heq
            cases heq; cases h
          | false =>
            simp only [orInternal, hg, Bool.false_eq_true, if_false, fail_apply, bind_apply] at heq
            cases heq
      · rename_i heq
        cases h
        split at heq
        · simp only [fail_apply] at heq; cases heq; rfl
        · cases m with
          | true =>
            simp only [orInternal, hg, if_true, memRead_at hwf (consumed_d b _) h1, bind_apply] at heq
            cases heq
          | false =>
            simp only [orInternal, hg, Bool.false_eq_true, if_false, fail_apply, bind_apply] at heq
            cases heq; exact absurd rfl he
      · cases h
      · cases h
  case getBignum =>
    have hp := peekStringDirect_eq hwf
    rcases hf : b.queue.front with e' | v
    · rw [hf] at hp
      simp only [exec, getBignum2Bytes, bind_apply, hp] at h
      cases h; rfl
    · obtain ⟨h1, h2, h3⟩ := front_ok hf
      have h1' : 4 + v.length ≤ b.contents.length := h1
      have hsz : szAdd v.length 4 = 4 + v.length := by unfold szAdd; omega
      rw [hf] at hp
      simp only [exec, getBignum2Bytes, bind_apply, hp, memRead_at hwf rfl h1, ite_apply', fail_apply, orInternal,
        hsz, consume_eq hwf, if_pos h1', pure_apply] at h
      split at h
      · rename_i heq
        cases h
      · rename_i heq
        cases h
        split at heq
        · cases heq; rfl
        · split at heq
          · cases heq; rfl
          · cases heq
      · cases h
      · cases h

/-- `sshbuf_get_stringb` is an exception to C03: it consumes the length field of the string before the
copy into the destination buffer is known to succeed. -/
theorem C03_get_stringb_consumes_on_error :
    ∃ b : Buf, b.WF ∧ ∃ b', getStringB (fun _ => .err .noSpace) b = (.err .noSpace, b') ∧ b'.contents ≠ b.contents := by
  refine ⟨{ d := [0, 0, 0, 1, 65], off := 0, size := 5, maxSize := 5, alloc := 5, readonly := true, refcount := 1 },
    ⟨by decide, by decide, by decide, by decide, by decide, by decide, by decide⟩, _, rfl, by decide⟩

/-- Non-vacuity of C03: a truncated string is refused. -/
example : exec .getString true { d := [0, 0, 0, 9, 65], off := 0, size := 5, maxSize := 5, alloc := 5, readonly := true, refcount := 1 } =
    (.err .incomplete, { d := [0, 0, 0, 9, 65], off := 0, size := 5, maxSize := 5, alloc := 5, readonly := true, refcount := 1 }) := by
  decide

end Verif.SshBuf
