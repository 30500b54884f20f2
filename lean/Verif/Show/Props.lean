/-
Theorems about log messages (C102).
-/
import Verif.Show.Spec

namespace Verif.Show
open Verif

private theorem bytes (P : UInt8 → Prop) [DecidablePred P] (h : ∀ n < 256, P (UInt8.ofNat n)) : ∀ c, P c := by
  intro c
  have := h c.toNat c.toNat_lt
  simpa using this

theorem vis_visible (F : Flags) (c next : UInt8) (h : visible F c = true) : vis F c next = plain F c := by
  unfold vis; rw [if_pos h]

theorem vis_pos (F : Flags) (c next : UInt8) : 1 ≤ (vis F c next).length := by
  unfold vis
  split
  · unfold plain; split <;> simp
  · have ho : 1 ≤ (other F c).length := by
      unfold other octal
      split
      · simp
      · simp only [List.length_append]
        have : 1 ≤ (if cntrl (c &&& 127) = true then [94, if c &&& 127 = 127 then 63 else (c &&& 127) + 64]
            else [45, c &&& 127]).length := by split <;> simp
        omega
    split
    · cases h : cStyle c next with
      | none => exact ho
      | some l =>
        simp only [Option.getD_some]
        unfold cStyle at h
        repeat' split at h
        all_goals first | (cases h; decide) | cases h
    · exact ho

theorem plain_length (F : Flags) (c : UInt8) : (plain F c).length = 1 ∨ (plain F c).length = 2 := by
  unfold plain; split <;> simp

private theorem loop_fitted (F : Flags) (siz : Nat) (l : Bytes) : ∀ out i, (out.length < siz ∨ out = []) →
    ∃ a b, pieces F l = a ++ b ∧ (strnvisLoop F siz l out i).1 = out ++ a.flatten ∧
      ((strnvisLoop F siz l out i).1.length < siz ∨ (strnvisLoop F siz l out i).1 = []) ∧
      b = pieces F (strnvisLoop F siz l out i).2.2 ∧
      (∀ p b', b = p :: b' → siz ≤ (strnvisLoop F siz l out i).1.length + p.length ∧
        ((1 ≤ i ∨ (siz ≠ 1 ∧ out = [])) →
          (strnvisLoop F siz l out i).1.length + (strnvisLoop F siz l out i).2.1 + 1 > siz)) := by
  induction l with
  | nil => intro out i h; exact ⟨[], [], rfl, by simp [strnvisLoop], by simpa [strnvisLoop] using h, rfl, by simp⟩
  | cons c l ih =>
    intro out i h
    have hp := vis_pos F c (l.headD 0)
    have hpl := plain_length F c
    by_cases h1 : out.length + 1 ≥ siz
    · have hS : strnvisLoop F siz (c :: l) out i = (out, i, c :: l) := by rw [strnvisLoop, if_pos h1]
      rw [hS]
      refine ⟨[], pieces F (c :: l), rfl, by simp, h, rfl, ?_⟩
      intro p b' he
      simp only [pieces, List.cons.injEq] at he
      rw [← he.1]
      show siz ≤ out.length + _ ∧ (_ → out.length + i + 1 > siz)
      refine ⟨by omega, ?_⟩
      rintro (g | ⟨g, g'⟩)
      · omega
      · subst g'
        simp only [List.length_nil] at h1 ⊢
        omega
    · by_cases h2 : visible F c = true
      · have hv := vis_visible F c (l.headD 0) h2
        by_cases h3 : (plain F c).length = 2 ∧ out.length + 2 ≥ siz
        · have hS : strnvisLoop F siz (c :: l) out i = (out, 2, c :: l) := by
            rw [strnvisLoop, if_neg h1, if_pos h2, if_pos h3]
          rw [hS]
          refine ⟨[], pieces F (c :: l), rfl, by simp, h, rfl, ?_⟩
          intro p b' he
          simp only [pieces, List.cons.injEq] at he
          rw [← he.1, hv]
          show siz ≤ out.length + _ ∧ (_ → out.length + 2 + 1 > siz)
          exact ⟨by omega, fun _ => by omega⟩
        · have hlen : (out ++ plain F c).length < siz ∨ out ++ plain F c = [] := by
            left; simp only [List.length_append]; omega
          obtain ⟨a, b, e1, e2, e3, e4, e5⟩ := ih (out ++ plain F c) 1 hlen
          have hS : strnvisLoop F siz (c :: l) out i = strnvisLoop F siz l (out ++ plain F c) 1 := by
            rw [strnvisLoop, if_neg h1, if_pos h2, if_neg h3]
          rw [hS]
          refine ⟨plain F c :: a, b, ?_, ?_, e3, e4, ?_⟩
          · rw [pieces, e1, hv]; rfl
          · rw [e2]; simp
          · intro p b' he
            obtain ⟨g1, g2⟩ := e5 p b' he
            exact ⟨g1, fun _ => g2 (Or.inl (Nat.le_refl 1))⟩
      · by_cases h3 : out.length + (vis F c (l.headD 0)).length + 1 ≤ siz
        · have hlen : (out ++ vis F c (l.headD 0)).length < siz ∨ out ++ vis F c (l.headD 0) = [] := by
            left; simp only [List.length_append]; omega
          obtain ⟨a, b, e1, e2, e3, e4, e5⟩ := ih (out ++ vis F c (l.headD 0)) (vis F c (l.headD 0)).length hlen
          have hS : strnvisLoop F siz (c :: l) out i =
              strnvisLoop F siz l (out ++ vis F c (l.headD 0)) (vis F c (l.headD 0)).length := by
            rw [strnvisLoop, if_neg h1, if_neg h2, if_pos h3]
          rw [hS]
          refine ⟨vis F c (l.headD 0) :: a, b, ?_, ?_, e3, e4, ?_⟩
          · rw [pieces, e1]; rfl
          · rw [e2]; simp
          · intro p b' he
            obtain ⟨g1, g2⟩ := e5 p b' he
            exact ⟨g1, fun _ => g2 (Or.inl hp)⟩
        · have hS : strnvisLoop F siz (c :: l) out i = (out, (vis F c (l.headD 0)).length, c :: l) := by
            rw [strnvisLoop, if_neg h1, if_neg h2, if_neg h3]
          rw [hS]
          refine ⟨[], pieces F (c :: l), rfl, by simp, h, rfl, ?_⟩
          intro p b' he
          simp only [pieces, List.cons.injEq] at he
          rw [← he.1]
          show siz ≤ out.length + _ ∧ (_ → out.length + (vis F c (l.headD 0)).length + 1 > siz)
          exact ⟨by omega, fun _ => by omega⟩

private theorem restLen_eq (F : Flags) (l : Bytes) : restLen F l = (pieces F l).flatten.length := by
  induction l with
  | nil => rfl
  | cons c l ih => simp [restLen, pieces, ih]

/-- **C102.** What `strnvis` writes fits the buffer with its NUL, and consists of as many whole renderings of bytes, in order, as
fit. -/
theorem C102_fits (F : Flags) (src : Bytes) (siz : Nat) : Fitted (pieces F src) siz (strnvis F src siz).1 := by
  obtain ⟨a, b, e1, e2, e3, e4, e5⟩ := loop_fitted F siz src [] 0 (Or.inr rfl)
  exact ⟨a, b, e1, (show (strnvisLoop F siz src [] 0).1 = _ by simpa using e2), e3, fun p b' hb => (e5 p b' hb).1⟩

/-- **C102.** The result is the length of the whole rendering, whether it fits or not, unless the buffer has just one byte. -/
theorem C102_result (F : Flags) (src : Bytes) (siz : Nat) (h : siz ≠ 1) :
    (strnvis F src siz).2 = (pieces F src).flatten.length := by
  obtain ⟨a, b, e1, e2, e3, e4, e5⟩ := loop_fitted F siz src [] 0 (Or.inr rfl)
  have hl : (strnvisLoop F siz src [] 0).1.length = a.flatten.length := by rw [e2]; simp
  have ht : (pieces F src).flatten.length = a.flatten.length + b.flatten.length := by rw [e1]; simp
  show (strnvisLoop F siz src [] 0).1.length + _ = _
  rw [restLen_eq, ← e4, ht]
  cases hb : b with
  | nil => simp only [List.flatten_nil, List.length_nil, ite_self]; omega
  | cons p b' =>
    rw [if_pos ((e5 p b' hb).2 (Or.inr ⟨h, rfl⟩))]
    omega

theorem vis_log (c next : UInt8) (h : c ≠ 0) : vis logFlags c next = logPiece c := by
  have key : ∀ c : UInt8, c ≠ 0 → vis logFlags c 0 = logPiece c := by
    apply bytes; decide +kernel
  rw [← key c h]
  unfold vis cStyle
  simp only [h, if_false]

theorem vis_stderr (c next : UInt8) : vis stderrFlags c next = stderrPiece c := by
  have key : ∀ c : UInt8, vis stderrFlags c 0 = stderrPiece c := by
    apply bytes; decide +kernel
  rw [← key c]
  rfl

private theorem pieces_log (l : Bytes) (h : 0 ∉ l) : pieces logFlags l = l.map logPiece := by
  induction l with
  | nil => rfl
  | cons c l ih =>
    rw [pieces, vis_log _ _ (by intro e; exact h (e ▸ List.mem_cons_self)), ih (fun hm => h (List.mem_cons_of_mem _ hm))]; rfl

private theorem pieces_stderr (l : Bytes) : pieces stderrFlags l = l.map stderrPiece := by
  induction l with
  | nil => rfl
  | cons c l ih => rw [pieces, vis_stderr, ih]; rfl

private theorem fitted_mem {ps : List Bytes} {siz : Nat} {out : Bytes} (h : Fitted ps siz out) :
    ∀ c ∈ out, ∃ p ∈ ps, c ∈ p := by
  obtain ⟨a, b, e1, e2, -, -⟩ := h
  intro c hc
  rw [e2, List.mem_flatten] at hc
  obtain ⟨p, hp, hc⟩ := hc
  exact ⟨p, by rw [e1]; exact List.mem_append_left _ hp, hc⟩

private theorem logPiece_bytes : ∀ c : UInt8, ∀ d ∈ logPiece c, 32 ≤ d ∧ d ≤ 126 := by
  apply bytes; decide +kernel

private theorem stderrPiece_bytes : ∀ c : UInt8, ∀ d ∈ stderrPiece c, (32 ≤ d ∧ d ≤ 126) ∨ d ∈ ([7, 8, 9, 10, 13] : List UInt8) := by
  apply bytes; decide +kernel

/-- **C102.** What goes into the system's log, whatever the message: at most 500 bytes, each a visible character of ASCII or a
space; they are the beginning of the message rendered byte by byte. -/
theorem C102_log (msg : Bytes) (h : 0 ∉ msg) :
    (syslogText msg).length ≤ 500 ∧ (∀ c ∈ syslogText msg, 32 ≤ c ∧ c ≤ 126) ∧ syslogText msg <+: (msg.map logPiece).flatten := by
  have h0 : 0 ∉ msg.take 1023 := fun hm => h (List.mem_of_mem_take hm)
  have hf := C102_fits logFlags (msg.take 1023) 1024
  rw [pieces_log _ h0] at hf
  refine ⟨by unfold syslogText; simp only [List.length_take]; omega, ?_, ?_⟩
  · intro c hc
    obtain ⟨p, hp, hc⟩ := fitted_mem hf c (List.mem_of_mem_take hc)
    rw [List.mem_map] at hp
    obtain ⟨d, -, rfl⟩ := hp
    exact logPiece_bytes d c hc
  · obtain ⟨a, b, e1, e2, -, -⟩ := hf
    refine (List.take_prefix 500 _).trans ?_
    rw [e2]
    refine ⟨(b ++ (msg.drop 1023).map logPiece).flatten, ?_⟩
    rw [List.flatten_append, ← List.append_assoc, ← List.flatten_append, ← e1, ← List.flatten_append, ← List.map_append,
      List.take_append_drop]

/-- **C102.** A message whose rendering has at most 500 bytes is in the log as a whole. -/
theorem C102_whole (msg : Bytes) (h : 0 ∉ msg) (hl : (msg.map logPiece).flatten.length ≤ 500) :
    syslogText msg = (msg.map logPiece).flatten := by
  have hge : msg.length ≤ (msg.map logPiece).flatten.length := by
    clear hl h
    induction msg with
    | nil => simp
    | cons c l ih =>
      have : 1 ≤ (logPiece c).length := by
        by_cases hc : c = 0
        · subst hc; decide
        · rw [← vis_log c 0 hc]; exact vis_pos _ _ _
      simp only [List.map_cons, List.flatten_cons, List.length_append, List.length_cons]
      omega
  have ht : msg.take 1023 = msg := List.take_of_length_le (by omega)
  have hf := C102_fits logFlags msg 1024
  rw [pieces_log _ h] at hf
  obtain ⟨a, b, e1, e2, e3, e4⟩ := hf
  have hb : b = [] := by
    cases b with
    | nil => rfl
    | cons p b' =>
      have := e4 p b' rfl
      have hlen : (msg.map logPiece).flatten.length = a.flatten.length + (p.length + b'.flatten.length) := by rw [e1]; simp
      rw [e2] at this
      omega
  unfold syslogText
  rw [ht, e2, e1, hb, List.append_nil]
  apply List.take_of_length_le
  rw [e1, hb, List.append_nil] at hl
  exact hl

private theorem logPiece_prefix : ∀ c d : UInt8, logPiece c <+: logPiece d → c = d := by
  have key : ∀ n < 256, ∀ m < 256, (logPiece (UInt8.ofNat n)).isPrefixOf (logPiece (UInt8.ofNat m)) = true → n = m := by
    decide +kernel
  intro c d h
  have := key c.toNat c.toNat_lt d.toNat d.toNat_lt (by simpa using h)
  exact UInt8.toNat_inj.1 this

/-- **C102.** Different messages look different: a message can be told from its rendering, so nothing in a message can pass for
something else. -/
theorem C102_injective (a b : Bytes) (h : (a.map logPiece).flatten = (b.map logPiece).flatten) : a = b := by
  have hne : ∀ c, logPiece c ≠ [] := by
    apply bytes; decide +kernel
  induction a generalizing b with
  | nil =>
    cases b with
    | nil => rfl
    | cons d b => simp at h; exact absurd h.1 (hne d)
  | cons c a ih =>
    cases b with
    | nil => simp at h; exact absurd h.1 (hne c)
    | cons d b =>
      simp only [List.map_cons, List.flatten_cons] at h
      have hcd : c = d := by
        rcases Nat.le_total (logPiece c).length (logPiece d).length with hle | hle
        · exact logPiece_prefix c d (List.prefix_of_prefix_length_le ⟨_, rfl⟩ ⟨_, h.symm⟩ hle)
        · exact (logPiece_prefix d c (List.prefix_of_prefix_length_le ⟨_, rfl⟩ ⟨_, h⟩ hle)).symm
      subst hcd
      rw [ih b (List.append_cancel_left h)]

/-- **C102.** What goes to the standard error output: visible characters of ASCII, spaces, and tab, newline, carriage return,
backspace and bell; every other byte appears as an escape. -/
theorem C102_stderr (msg : Bytes) :
    (∀ c ∈ stderrText msg, (32 ≤ c ∧ c ≤ 126) ∨ c ∈ ([7, 8, 9, 10, 13] : List UInt8)) ∧
      ∃ out, stderrText msg = out ++ [13, 10] ∧ out <+: (msg.map stderrPiece).flatten := by
  have hf := C102_fits stderrFlags (msg.take 1023) 1024
  rw [pieces_stderr] at hf
  constructor
  · intro c hc
    unfold stderrText at hc
    rw [List.mem_append] at hc
    rcases hc with hc | hc
    · obtain ⟨p, hp, hc⟩ := fitted_mem hf c (List.mem_of_mem_take hc)
      rw [List.mem_map] at hp
      obtain ⟨d, -, rfl⟩ := hp
      exact stderrPiece_bytes d c hc
    · right
      have : c = 13 ∨ c = 10 := by simpa using hc
      rcases this with rfl | rfl <;> decide
  · refine ⟨_, rfl, ?_⟩
    obtain ⟨a, b, e1, e2, -, -⟩ := hf
    refine (List.take_prefix 1021 _).trans ?_
    rw [e2]
    refine ⟨(b ++ (msg.drop 1023).map stderrPiece).flatten, ?_⟩
    rw [List.flatten_append, ← List.append_assoc, ← List.flatten_append, ← e1, ← List.flatten_append, ← List.map_append,
      List.take_append_drop]

end Verif.Show
