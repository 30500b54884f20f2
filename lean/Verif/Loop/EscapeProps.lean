/-
Escape characters do what they should.
-/
import Verif.Loop.EscapeSpec

namespace Verif.Loop
open Verif

theorem sent_append (a b : List EAct) : sent (a ++ b) = sent a ++ sent b := by
  induction a with
  | nil => rfl
  | cons x a ih => cases x <;> simp [sent, ih]

theorem escapes_cons_more {E : Esc} {cr pending : Bool} {ch : UInt8} {l : Bytes} {a : List EAct} {cr' p' : Bool}
    (h : escStep E cr pending ch = (a, cr', p', .more)) :
    escapes E cr pending (ch :: l) = (a ++ (escapes E cr' p' l).1, (escapes E cr' p' l).2) := by
  simp only [escapes, h]

theorem escapes_cons_done {E : Esc} {cr pending : Bool} {ch : UInt8} {l : Bytes} {a : List EAct} {cr' p' : Bool}
    (h : escStep E cr pending ch = (a, cr', p', .done)) : escapes E cr pending (ch :: l) = (a, cr', p', .done) := by
  simp only [escapes, h]

theorem escapes_append (E : Esc) (l m : Bytes) : ∀ cr pending,
    escapes E cr pending (l ++ m) =
      if (escapes E cr pending l).2.2.2 = .done then escapes E cr pending l
      else ((escapes E cr pending l).1 ++ (escapes E (escapes E cr pending l).2.1 (escapes E cr pending l).2.2.1 m).1,
        (escapes E (escapes E cr pending l).2.1 (escapes E cr pending l).2.2.1 m).2) := by
  induction l with
  | nil => intro cr pending; simp [escapes]
  | cons ch l ih =>
    intro cr pending
    rw [List.cons_append]
    rcases hs : escStep E cr pending ch with ⟨a, cr', p', n⟩
    cases n with
    | done => rw [escapes_cons_done hs, escapes_cons_done hs]; simp
    | more =>
      rw [escapes_cons_more hs, escapes_cons_more hs, ih]
      dsimp only
      split
      · rename_i hd; simp only [hd, if_true]
      · rename_i hd; simp only [hd, if_false, List.append_assoc]

/-- It makes no difference in how many pieces the input arrives. -/
theorem C114_pieces (E : Esc) (cr pending : Bool) (l m : Bytes) (h : (escapes E cr pending l).2.2.2 = .more) :
    escapes E cr pending (l ++ m) =
      ((escapes E cr pending l).1 ++ (escapes E (escapes E cr pending l).2.1 (escapes E cr pending l).2.2.1 m).1,
        (escapes E (escapes E cr pending l).2.1 (escapes E cr pending l).2.2.1 m).2) := by
  rw [escapes_append, if_neg (by rw [h]; decide)]

/-- Nothing after the end has any effect. -/
theorem C114_end (E : Esc) (cr pending : Bool) (l m : Bytes) (h : (escapes E cr pending l).2.2.2 = .done) :
    escapes E cr pending (l ++ m) = escapes E cr pending l := by
  rw [escapes_append, if_pos h]

/-! ### The commands -/

theorem command_none {E : Esc} {ch : UInt8} : command E ch = none ↔ ¬ Key ch := by
  unfold command
  constructor
  · intro h hk
    cases hk <;> simp at h
    split at h
    · cases h
    · split at h <;> cases h
  · intro hk
    have : ∀ c, Key c → ch ≠ c := fun c hc h => hk (h ▸ hc)
    rw [if_neg (this 46 .dot), if_neg (this 26 .ctrlZ), if_neg (this 66 .B), if_neg (this 82 .R),
      if_neg (fun h => h.elim (this 86 .V) (this 118 .v)), if_neg (this 38 .amp), if_neg (this 63 .quest), if_neg (this 35 .hash),
      if_neg (this 67 .C)]

theorem command_means {E : Esc} {ch : UInt8} {l : List EAct} {n : Next} {c : Cmd} (h : command E ch = some (l, n)) :
    .cmd c ∈ l ↔ Means E ch c := by
  unfold command at h
  have fwd : .cmd c ∈ l → Means E ch c := by
    intro hc
    split at h
    · rename_i he; subst he; cases h
      cases hs : E.shared <;> simp [hs] at hc <;> subst hc
      · exact .quit hs
      · exact .close hs
    split at h
    · rename_i he; subst he; cases h
      cases hs : E.shared <;> simp [hs] at hc
      subst hc; exact .suspend hs
    split at h
    · rename_i he; subst he; cases h
      simp at hc; subst hc; exact .brk
    split at h
    · rename_i he; subst he; cases h
      cases hs : E.noRekey <;> simp [hs] at hc
      subst hc; exact .rekey hs
    split at h
    · rename_i he; cases h
      cases hs : E.shared <;> simp [hs] at hc
      cases ht : E.stderr <;> simp [ht] at hc
      rcases he with rfl | rfl <;> simp at hc <;> subst hc
      · exact .quieter hs ht
      · exact .louder hs ht
    split at h
    · rename_i he; subst he
      split at h
      · cases h; simp at hc
      · rename_i hs
        split at h <;> cases h <;> simp at hc <;> subst hc <;> exact .background (by simpa using hs)
    split at h
    · rename_i he; subst he; cases h
      simp at hc; subst hc; exact .help
    split at h
    · rename_i he; subst he; cases h
      simp at hc; subst hc; exact .list
    split at h
    · rename_i he; subst he; cases h
      cases hs : E.shared <;> simp [hs] at hc
      cases ht : E.cmdline <;> simp [ht] at hc
      subst hc; exact .cmdline hs ht
    · cases h
  refine ⟨fwd, fun hm => ?_⟩
  cases hm with
  | quit hs => simp [hs] at h; rw [← h.1]; simp
  | close hs => simp [hs] at h; rw [← h.1]; simp
  | suspend hs => simp [hs] at h; rw [← h.1]; simp
  | background hs =>
    simp [hs] at h
    split at h <;> (simp only [Option.some.injEq, Prod.mk.injEq] at h; rw [← h.1]; simp)
  | list => simp at h; rw [← h.1]; simp
  | help => simp at h; rw [← h.1]; simp
  | brk => simp at h; rw [← h.1]; simp
  | cmdline hs ht => simp [hs, ht] at h; rw [← h.1]; simp
  | rekey hs => simp [hs] at h; rw [← h.1]; simp
  | quieter hs ht => simp [hs, ht] at h; rw [← h.1]; simp
  | louder hs ht => simp [hs, ht] at h; rw [← h.1]; simp

theorem Means.key {E : Esc} {ch : UInt8} {c : Cmd} (h : Means E ch c) : Key ch := by
  cases h <;> constructor

/-- What a command sends: nothing, or (to the background) an end of file for the terminal, after which no input is read. -/
theorem command_sent {E : Esc} {ch : UInt8} {l : List EAct} {n : Next} (h : command E ch = some (l, n)) (hn : n = .more) : sent l = [] := by
  subst hn
  unfold command at h
  repeat' (split at h)
  all_goals first | cases h | skip
  all_goals simp [sent]
  all_goals (repeat' split) <;> simp [sent]

/-! ### Where commands are recognised -/

/-- `last_was_cr` and `escape_pending` as a function of what has been sent and typed. -/
theorem escapes_cr (E : Esc) (l : Bytes) : ∀ cr pending, (pending = true → cr = true) → (escapes E cr pending l).2.2.2 = .more →
    ((escapes E cr pending l).2.2.1 = true → (escapes E cr pending l).2.1 = true) ∧
    ((escapes E cr pending l).2.1 = true ↔ (sent (escapes E cr pending l).1 = [] ∧ cr = true) ∨
      ∃ b, (sent (escapes E cr pending l).1).getLast? = some b ∧ Newline b) := by
  induction l with
  | nil => intro cr pending hp _; simp [escapes, sent]; exact hp
  | cons ch l ih =>
    intro cr pending hp hm
    rcases hs : escStep E cr pending ch with ⟨a, cr', p', n⟩
    cases n with
    | done => rw [escapes_cons_done hs] at hm; cases hm
    | more =>
      rw [escapes_cons_more hs] at hm ⊢
      dsimp only at hm ⊢
      have hstep : (p' = true → cr' = true) ∧
          ((sent a = [] ∧ cr' = cr) ∨ ∃ b, (sent a).getLast? = some b ∧ (cr' = true ↔ Newline b)) := by
        unfold escStep at hs
        split at hs
        · split at hs
          · rename_i l' n hc
            simp only [Prod.mk.injEq] at hs
            obtain ⟨rfl, rfl, rfl, rfl⟩ := hs
            exact ⟨fun h => (by cases h), .inl ⟨command_sent hc rfl, rfl⟩⟩
          · simp only [Prod.mk.injEq] at hs
            obtain ⟨rfl, rfl, rfl, -⟩ := hs
            refine ⟨fun h => (by cases h), .inr ⟨ch, ?_, by simp [Newline]⟩⟩
            rw [sent_append]
            simp [sent]
        · split at hs
          · rename_i hc
            simp only [Prod.mk.injEq] at hs
            obtain ⟨rfl, rfl, rfl, -⟩ := hs
            exact ⟨fun _ => hc.1, .inl ⟨rfl, rfl⟩⟩
          · simp only [Prod.mk.injEq] at hs
            obtain ⟨rfl, rfl, rfl, -⟩ := hs
            exact ⟨fun h => (by cases h), .inr ⟨ch, rfl, by simp [Newline]⟩⟩
      obtain ⟨h1, h2⟩ := ih cr' p' hstep.1 hm
      refine ⟨h1, ?_⟩
      rw [h2, sent_append]
      rcases hstep.2 with ⟨h3, rfl⟩ | ⟨b, h3, h4⟩
      · rw [h3, List.nil_append]
      · have hne : sent a ≠ [] := by intro h; rw [h] at h3; cases h3
        cases hx : sent (escapes E cr' p' l).1 with
        | nil =>
          simp only [List.append_nil, h3, Option.some.injEq, exists_eq_left', true_and, hne, false_and, false_or, h4,
            List.getLast?_nil, reduceCtorEq, exists_false, or_false]
        | cons y ys =>
          have : (sent a ++ y :: ys).getLast? = (y :: ys).getLast? := by
            rw [List.getLast?_append]
            cases h : (y :: ys).getLast? with
            | none => simp at h
            | some z => rfl
          rw [this]
          simp [hne]

/-- A command is run only if its character was typed right after the escape character, and that at the beginning or after a
newline: all that had been sent by then ended in one. -/
theorem C114_recognised {E : Esc} {l : Bytes} {c : Cmd} (h : .cmd c ∈ (escapes E true false l).1) :
    ∃ a ch b, l = a ++ E.char :: ch :: b ∧ Means E ch c ∧ LineStart (sent (escapes E true false a).1) ∧
      (escapes E true false a).2.2 = (false, .more) := by
  -- with a prefix that was read before
  suffices H : ∀ (l a : Bytes) (cr p : Bool) (acts : List EAct), escapes E true false a = (acts, cr, p, .more) →
      (p = false ∨ ∃ a', a = a' ++ [E.char] ∧ (escapes E true false a').2 = (true, false, .more)) →
      .cmd c ∈ (escapes E cr p l).1 →
      ∃ a' ch b, a ++ l = a' ++ E.char :: ch :: b ∧ Means E ch c ∧ LineStart (sent (escapes E true false a').1) ∧
        (escapes E true false a').2.2 = (false, .more) by
    obtain ⟨a, ch, b, h1, h2⟩ := H l [] true false [] rfl (.inl rfl) h
    exact ⟨a, ch, b, by simpa using h1, h2⟩
  intro l
  induction l with
  | nil => intro a cr p acts _ _ h; simp [escapes] at h
  | cons x l ih =>
    intro a cr p acts ha hp h
    rcases hs : escStep E cr p x with ⟨o, cr', p', n⟩
    have hcmd : .cmd c ∈ o → ∃ a' ch b, a ++ x :: l = a' ++ E.char :: ch :: b ∧ Means E ch c ∧
        LineStart (sent (escapes E true false a').1) ∧ (escapes E true false a').2.2 = (false, .more) := by
      intro hc
      unfold escStep at hs
      split at hs
      · rename_i hpt
        split at hs
        · rename_i l' n' hcm
          simp only [Prod.mk.injEq] at hs
          obtain ⟨rfl, -, -, -⟩ := hs
          rcases hp with hp | ⟨a', rfl, ha'⟩
          · rw [hp] at hpt; cases hpt
          · refine ⟨a', x, l, by simp, (command_means hcm).1 hc, ?_, by rw [ha']⟩
            have := (escapes_cr E a' true false (by simp) (by rw [ha'])).2
            rw [ha'] at this
            rcases this.1 rfl with ⟨h, -⟩ | h
            · exact .inl h
            · exact .inr h
        · simp only [Prod.mk.injEq] at hs
          obtain ⟨rfl, -⟩ := hs
          rcases List.mem_append.1 hc with hc | hc
          · split at hc <;> simp at hc
          · simp at hc
      · split at hs
        · simp only [Prod.mk.injEq] at hs
          obtain ⟨rfl, -⟩ := hs
          cases hc
        · simp only [Prod.mk.injEq] at hs
          obtain ⟨rfl, -⟩ := hs
          simp at hc
    cases n with
    | done => rw [escapes_cons_done hs] at h; exact hcmd h
    | more =>
      rw [escapes_cons_more hs] at h
      rcases List.mem_append.1 h with h | h
      · exact hcmd h
      have hax : escapes E true false (a ++ [x]) = (acts ++ o, cr', p', .more) := by
        rw [escapes_append, if_neg (by rw [ha]; simp), ha]
        dsimp only
        rw [escapes_cons_more hs]
        simp [escapes]
      have hpend : p' = false ∨ ∃ a', a ++ [x] = a' ++ [E.char] ∧ (escapes E true false a').2 = (true, false, .more) := by
        unfold escStep at hs
        split at hs
        · split at hs
          · simp only [Prod.mk.injEq] at hs; exact .inl hs.2.2.1.symm
          · simp only [Prod.mk.injEq] at hs; exact .inl hs.2.2.1.symm
        · rename_i hpf
          split at hs
          · rename_i hc
            refine .inr ⟨a, by rw [hc.2], ?_⟩
            rw [ha, hc.1]
            simp at hpf
            rw [hpf]
          · simp only [Prod.mk.injEq] at hs; exact .inl hs.2.2.1.symm
      obtain ⟨a', ch, b, h1, h2⟩ := ih (a ++ [x]) cr' p' _ hax hpend h
      exact ⟨a', ch, b, by rw [← h1]; simp, h2⟩

/-- And whenever it is typed there, it is run. -/
theorem C114_runs {E : Esc} {a b : Bytes} {ch : UInt8} {c : Cmd} (hm : Means E ch c) (hp : (escapes E true false a).2.2 = (false, .more))
    (hl : LineStart (sent (escapes E true false a).1)) : .cmd c ∈ (escapes E true false (a ++ E.char :: ch :: b)).1 := by
  have hmore : (escapes E true false a).2.2.2 = .more := by rw [hp]
  have hcr : (escapes E true false a).2.1 = true := by
    rw [(escapes_cr E a true false (by simp) hmore).2]
    rcases hl with h | h
    · exact .inl ⟨h, rfl⟩
    · exact .inr h
  rw [C114_pieces E true false a _ hmore]
  refine List.mem_append_right _ ?_
  rw [hcr, hp]
  have h1 : escStep E true false E.char = ([], true, true, .more) := by simp [escStep]
  rw [escapes_cons_more h1]
  rw [List.nil_append]
  cases hc : command E ch with
  | none => exact absurd hm.key (command_none.1 hc)
  | some x =>
    obtain ⟨l, n⟩ := x
    have h2 : escStep E true true ch = (l, true, false, n) := by simp [escStep, hc]
    have hin := (command_means hc).2 hm
    cases n with
    | done => rw [escapes_cons_done h2]; exact hin
    | more => rw [escapes_cons_more h2]; exact List.mem_append_left _ hin

/-! ### What is sent -/

theorem typed_escapes {E : Esc} (he : ¬ Key E.char) {start : Bool} {l t : Bytes} (h : Typed E.char start l t) :
    (escapes E start false t).1 = l.map .put ∧ (escapes E start false t).2.2 = (false, .more) := by
  induction h with
  | nil => exact ⟨rfl, rfl⟩
  | twice l t start hs _ ih =>
    have h1 : escStep E true false E.char = ([], true, true, .more) := by simp [escStep]
    have h2 : escStep E true true E.char = ([.put E.char], start, false, .more) := by
      simp only [escStep, if_true, command_none.2 he, ne_eq, not_true_eq_false, if_false, List.nil_append, Prod.mk.injEq, true_and, and_true]
      unfold Newline at hs
      by_cases hn : E.char = 13 ∨ E.char = 10
      · simp [hn, hs.2 hn]
      · have : start = false := by simpa [hn] using hs
        simp [hn, this]
    rw [escapes_cons_more h1, escapes_cons_more h2]
    exact ⟨by simp [ih.1], ih.2⟩
  | once c l t start next hc hn _ ih =>
    have h1 : escStep E start false c = ([.put c], next, false, .more) := by
      simp only [escStep, Bool.false_eq_true, if_false, if_neg hc, Prod.mk.injEq, true_and, and_true]
      unfold Newline at hn
      by_cases h : c = 13 ∨ c = 10
      · simp [h, hn.2 h]
      · have : next = false := by simpa [h] using hn
        simp [h, this]
    rw [escapes_cons_more h1]
    exact ⟨by simp [ih.1], ih.2⟩

/-- Full claim: the escape character is sent by typing it twice at the beginning of a line, and so anything can be sent.  Missing:
the escape character must not be one of the commands, see `C114_twice_original_false`. -/
theorem C114_twice_partial {E : Esc} (he : ¬ Key E.char) {l t : Bytes} (h : Typed E.char true l t) :
    (escapes E true false t).1 = l.map .put := (typed_escapes he h).1

/-- There is a way to type everything. -/
theorem C114_typable (e : UInt8) (l : Bytes) : ∀ start, ∃ t, Typed e start l t := by
  induction l with
  | nil => intro start; exact ⟨[], .nil start⟩
  | cons c l ih =>
    intro start
    have hnext : ∃ next : Bool, next = true ↔ Newline c := by
      by_cases h : Newline c
      · exact ⟨true, by simp [h]⟩
      · exact ⟨false, by simp [h]⟩
    obtain ⟨next, hn⟩ := hnext
    obtain ⟨t, ht⟩ := ih next
    by_cases hc : start = true ∧ c = e
    · obtain ⟨rfl, rfl⟩ := hc
      exact ⟨_, .twice l t next hn ht⟩
    · exact ⟨_, .once c l t start next hc hn ht⟩

theorem inert_typed {e : UInt8} {l : Bytes} : ∀ {pre : Bytes} {start : Bool}, (start = true ↔ LineStart pre) →
    (∀ a b, l = a ++ e :: b → ¬ LineStart (pre ++ a)) → Typed e start l l := by
  induction l with
  | nil => intro pre start _ _; exact .nil _
  | cons c l ih =>
    intro pre start hs hi
    have hnext : ∃ next : Bool, next = true ↔ Newline c := by
      by_cases h : Newline c
      · exact ⟨true, by simp [h]⟩
      · exact ⟨false, by simp [h]⟩
    obtain ⟨next, hn⟩ := hnext
    refine .once c l l start next ?_ hn (ih (pre := pre ++ [c]) ?_ ?_)
    · rintro ⟨h1, rfl⟩
      exact hi [] l rfl (by simpa using hs.1 h1)
    · rw [hn]
      unfold LineStart
      simp
    · intro a b hl
      have := hi (c :: a) b (by rw [hl]; rfl)
      simpa using this

/-- Where the escape character is not at the beginning of a line, everything is sent as it is. -/
theorem C114_plain {E : Esc} {l : Bytes} (h : Inert E.char l) : escapes E true false l = (l.map .put, (escapes E true false l).2.1, false, .more) := by
  -- without the escape character at the beginning of a line no command matters: use another session with the same character
  have ht : Typed E.char true l l := inert_typed (pre := []) (by simp [LineStart]) (by simpa [Inert] using h)
  have key : ∀ {start : Bool} {l t : Bytes}, Typed E.char start l t → l = t →
      (escapes E start false t).1 = l.map .put ∧ (escapes E start false t).2.2 = (false, .more) := by
    intro start l t ht
    induction ht with
    | nil => intro _; exact ⟨rfl, rfl⟩
    | twice l t start hs ht' ih =>
      intro hlt
      -- doubling makes it longer
      exfalso
      have hlen : ∀ {s : Bool} {l t : Bytes}, Typed E.char s l t → l.length ≤ t.length := by
        intro s l t h
        induction h with
        | nil => exact Nat.le_refl _
        | twice _ _ _ _ _ ih => simp; omega
        | once _ _ _ _ _ _ _ _ ih => simp; omega
      have h1 := hlen ht'
      have h2 := congrArg List.length hlt
      simp at h2
      omega
    | once c l t start next hc hn _ ih =>
      intro hlt
      simp only [List.cons.injEq, true_and] at hlt
      have h1 : escStep E start false c = ([.put c], next, false, .more) := by
        simp only [escStep, Bool.false_eq_true, if_false, if_neg hc, Prod.mk.injEq, true_and, and_true]
        unfold Newline at hn
        by_cases h : c = 13 ∨ c = 10
        · simp [h, hn.2 h]
        · have : next = false := by simpa [h] using hn
          simp [h, this]
      rw [escapes_cons_more h1]
      exact ⟨by simp [(ih hlt).1], (ih hlt).2⟩
  obtain ⟨h1, h2⟩ := key ht rfl
  rw [Prod.eta (escapes E true false l) |>.symm]
  simp only [h1, Prod.mk.injEq, true_and]
  rw [← h2]

/-- An escape character with something after it that is no command is sent with it. -/
theorem C114_other {E : Esc} {a b : Bytes} {ch : UInt8} (hk : ¬ Key ch) (hc : ch ≠ E.char) (hp : (escapes E true false a).2.2 = (false, .more))
    (hl : LineStart (sent (escapes E true false a).1)) :
    sent (escapes E true false (a ++ [E.char, ch])).1 = sent (escapes E true false a).1 ++ [E.char, ch] := by
  have hmore : (escapes E true false a).2.2.2 = .more := by rw [hp]
  have hcr : (escapes E true false a).2.1 = true := by
    rw [(escapes_cr E a true false (by simp) hmore).2]
    rcases hl with h | h
    · exact .inl ⟨h, rfl⟩
    · exact .inr h
  rw [C114_pieces E true false a _ hmore, hcr, hp]
  have h1 : escStep E true false E.char = ([], true, true, .more) := by simp [escStep]
  have h2 : escStep E true true ch = ([.put E.char, .put ch], decide (ch = 13 ∨ ch = 10), false, .more) := by
    simp [escStep, command_none.2 hk, hc]
  rw [escapes_cons_more h1, escapes_cons_more h2]
  simp [escapes, sent_append, sent]

/-- In a session of another client nothing that concerns the whole client is done: it is not ended, suspended or put to the
background, there is no command line, and what it logs does not change. -/
theorem C114_shared {E : Esc} (hs : E.shared = true) {l : Bytes} {c : Cmd} (h : .cmd c ∈ (escapes E true false l).1) :
    c = .close ∨ c = .brk ∨ c = .rekey ∨ c = .help ∨ c = .list := by
  obtain ⟨_, _, _, _, hm, _⟩ := C114_recognised h
  cases hm <;> simp_all

/-- No command line unless EnableEscapeCommandline. -/
theorem C114_cmdline {E : Esc} {l : Bytes} (h : .cmd .cmdline ∈ (escapes E true false l).1) : E.cmdline = true := by
  obtain ⟨_, _, _, _, hm, _⟩ := C114_recognised h
  cases hm; assumption

/-- Full claim: with several sessions over one connection each of them recognises escapes by its own input.  Proved: so it is while
only one of them has input.  Missing: see `C114_separate_original_false`. -/
theorem C114_separate_partial (E : Esc) (s : Two) (l : List Bytes) (h : (escapes E s.cr s.a l.flatten).2.2.2 = .more) :
    two E s (l.map (Prod.mk false)) = (escapes E s.cr s.a l.flatten).1.map (Prod.mk false) := by
  induction l generalizing s with
  | nil => rfl
  | cons x l ih =>
    rw [List.flatten_cons] at h ⊢
    cases hx : (escapes E s.cr s.a x).2.2.2 with
    | done => rw [C114_end E _ _ x _ hx, hx] at h; cases h
    | more =>
      rw [C114_pieces E _ _ x _ hx] at h ⊢
      simp only [List.map_cons, two, List.map_append]
      rw [ih _ h]

end Verif.Loop
