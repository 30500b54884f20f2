/-
C42: full transfers despite partial I/O.
-/
import Verif.Misc.Io

namespace Verif.Misc.Io
open Verif

variable {α : Type}

/-! ## Specification -/

/-- How much a script moves. -/
def total : List Ev → Nat
  | [] => 0
  | e :: es => (match e.res with | .moved k => k | _ => 0) + total es

/-- The contract of the system calls: a call given `n` locations moves at most `n`. -/
def Honest : Nat → List Ev → Prop
  | _, [] => True
  | n, e :: es => match e.res with
    | .moved k => k ≤ n ∧ Honest (n - k) es
    | _ => Honest n es

/-- A script without end of file, permanent error or a callback asking to stop. -/
def Smooth (es : List Ev) : Prop := ∀ e ∈ es, e.stop = false ∧ e.res ≠ .err ∧ e.res ≠ .moved 0

/-! ## atomicio -/

theorem loop_log (buf : List α) (es : List Ev) (pos : Nat) (hp : pos ≤ buf.length)
    (h : Honest (buf.length - pos) es) :
    ∃ m, pos ≤ m ∧ m ≤ buf.length ∧ (atomicio6 buf pos (buf.take pos) es).log = buf.take m ∧
      (∀ n why l, atomicio6 buf pos (buf.take pos) es = .ret n why l →
        (why ≠ .failed → n = m) ∧ (why = .failed → n = 0) ∧ (why = .finished → m = buf.length) ∧
        why ≠ .fault) ∧
      (∀ l, atomicio6 buf pos (buf.take pos) es = .going l → m < buf.length) := by
  induction es generalizing pos with
  | nil =>
    refine ⟨pos, by omega, hp, ?_⟩
    unfold atomicio6
    by_cases hlt : buf.length > pos
    · rw [if_pos hlt]; exact ⟨rfl, fun _ _ _ h => (by cases h), fun _ _ => hlt⟩
    · rw [if_neg hlt]
      refine ⟨rfl, ?_, fun _ h => (by cases h)⟩
      intro n why l h; cases h
      exact ⟨fun _ => rfl, fun h => (by cases h), fun _ => by omega, by decide⟩
  | cons e es ih =>
    unfold atomicio6
    by_cases hlt : buf.length > pos
    · rw [if_pos hlt]
      have same : Honest (buf.length - pos) es → _ := ih pos hp
      cases hr : e.res with
      | intr =>
        simp only [Honest, hr] at h
        by_cases hs : e.stop = true
        · simp only [hs, if_true]
          refine ⟨pos, by omega, hp, rfl, ?_, fun _ h => (by cases h)⟩
          intro n why l h; cases h
          exact ⟨fun _ => rfl, fun h => (by cases h), fun h => (by cases h), by decide⟩
        · simp only [hs]; exact same h
      | again => simp only [Honest, hr] at h; exact same h
      | err =>
        refine ⟨pos, by omega, hp, rfl, ?_, fun _ h => (by cases h)⟩
        intro n why l h; cases h
        exact ⟨fun h => absurd rfl h, fun _ => rfl, fun h => (by cases h), by decide⟩
      | moved k =>
        simp only [Honest, hr] at h
        simp only []
        by_cases hk : k = 0
        · rw [if_pos hk]
          refine ⟨pos, by omega, hp, rfl, ?_, fun _ h => (by cases h)⟩
          intro n why l h; cases h
          exact ⟨fun _ => rfl, fun h => (by cases h), fun h => (by cases h), by decide⟩
        · rw [if_neg hk]
          have ht : buf.take pos ++ (buf.drop pos).take k = buf.take (pos + k) := by
            rw [List.take_add]
          rw [ht]
          by_cases hs : e.stop = true
          · rw [if_pos hs]
            refine ⟨pos + k, by omega, by omega, rfl, ?_, fun _ h => (by cases h)⟩
            intro n why l h; cases h
            exact ⟨fun _ => rfl, fun h => (by cases h), fun h => (by cases h), by decide⟩
          · rw [if_neg hs]
            have h' : Honest (buf.length - (pos + k)) es := by
              have := h.2
              rwa [Nat.sub_sub] at this
            obtain ⟨m, h1, h2, h3⟩ := ih (pos + k) (by omega) h'
            exact ⟨m, by omega, h2, h3⟩
    · rw [if_neg hlt]
      refine ⟨pos, by omega, hp, rfl, ?_, fun _ h => (by cases h)⟩
      intro n why l h; cases h
      exact ⟨fun _ => rfl, fun h => (by cases h), fun _ => by omega, by decide⟩

/-- **C42 (order, nothing twice, nothing skipped).**  Whatever the schedule of results, what has been handed
to the descriptor is always a prefix of the buffer. -/
theorem C42_prefix (buf : List α) (es : List Ev) (h : Honest buf.length es) :
    (atomicio6 buf 0 [] es).log <+: buf := by
  obtain ⟨m, _, _, h3, _⟩ := loop_log buf es 0 (by omega) (by simpa using h)
  have : (atomicio6 buf 0 [] es).log = buf.take m := by simpa using h3
  rw [this]; exact List.take_prefix m buf

/-- **C42 (a full count means a full transfer).**  If the whole length is returned, exactly the buffer was
transferred.  (Nothing is assumed about how the function came to return.) -/
theorem C42_complete (buf : List α) (es : List Ev) (h : Honest buf.length es) (why : Why) (l : List α)
    (hr : atomicio6 buf 0 [] es = .ret buf.length why l) : l = buf := by
  obtain ⟨m, h1, h2, h3, h4, h5⟩ := loop_log buf es 0 (by omega) (by simpa using h)
  simp only [List.take_zero] at h3 h4
  rw [hr] at h3
  have hm : buf.length = m := by
    by_cases hw : why = .failed
    · have := (h4 _ _ _ hr).2.1 hw
      omega
    · exact (h4 _ _ _ hr).1 hw
  simp only [Out.log] at h3
  rw [h3, ← hm, List.take_length]

/-- **C42 (exact counts, the part that holds).**  Unless a permanent error ended the transfer, the value
returned is the number of locations transferred, and a transfer that was not cut short (by end of file or by
the callback) is complete.  On a permanent error the value is 0 and says nothing: see
`C42_error_count_false`. -/
theorem C42_count_partial (buf : List α) (es : List Ev) (h : Honest buf.length es) (n : Nat) (why : Why)
    (l : List α) (hr : atomicio6 buf 0 [] es = .ret n why l) :
    (why ≠ .failed → n = l.length ∧ l = buf.take n) ∧ (why = .finished → l = buf) ∧
      (why = .failed → n = 0) := by
  obtain ⟨m, h1, h2, h3, h4, h5⟩ := loop_log buf es 0 (by omega) (by simpa using h)
  simp only [List.take_zero] at h3 h4
  have h4 := h4 _ _ _ hr
  rw [hr] at h3; simp only [Out.log] at h3
  refine ⟨fun hw => ?_, fun hw => ?_, h4.2.1⟩
  · have := h4.1 hw
    subst this
    exact ⟨by rw [h3, List.length_take]; omega, h3⟩
  · rw [h3, h4.2.2.1 hw, List.take_length]

/-- Why a transfer ended is visible in the schedule: end of file, a permanent error, or the callback. -/
theorem loop_smooth (buf : List α) (es : List Ev) (pos : Nat) (log : List α) (h : Smooth es) :
    (∃ l, atomicio6 buf pos log es = .going l) ∨ (∃ n l, atomicio6 buf pos log es = .ret n .finished l) := by
  induction es generalizing pos log with
  | nil =>
    unfold atomicio6
    by_cases hlt : buf.length > pos
    · rw [if_pos hlt]; exact .inl ⟨_, rfl⟩
    · rw [if_neg hlt]; exact .inr ⟨_, _, rfl⟩
  | cons e es ih =>
    have he := h e (by simp)
    have hes : Smooth es := fun x hx => h x (by simp [hx])
    unfold atomicio6
    by_cases hlt : buf.length > pos
    · rw [if_pos hlt]
      cases hr : e.res with
      | intr => simp only [he.1]; exact ih _ _ hes
      | again => exact ih _ _ hes
      | err => exact absurd hr he.2.1
      | moved k =>
        have hk : k ≠ 0 := fun hk => he.2.2 (by rw [hr, hk])
        simp only [he.1]
        rw [if_neg hk]
        exact ih _ _ hes
    · rw [if_neg hlt]; exact .inr ⟨_, _, rfl⟩

theorem loop_total (buf : List α) (es : List Ev) (pos : Nat) (log : List α) (h : Smooth es)
    (ht : pos + total es ≥ buf.length) : ∃ n l, atomicio6 buf pos log es = .ret n .finished l := by
  induction es generalizing pos log with
  | nil =>
    unfold atomicio6
    simp only [total] at ht
    rw [if_neg (by omega)]; exact ⟨_, _, rfl⟩
  | cons e es ih =>
    have he := h e (by simp)
    have hes : Smooth es := fun x hx => h x (by simp [hx])
    unfold atomicio6
    by_cases hlt : buf.length > pos
    · rw [if_pos hlt]
      cases hr : e.res with
      | intr => simp only [he.1]; simp only [total, hr] at ht; exact ih _ _ hes (by omega)
      | again => simp only [total, hr] at ht; exact ih _ _ hes (by omega)
      | err => exact absurd hr he.2.1
      | moved k =>
        have hk : k ≠ 0 := fun hk => he.2.2 (by rw [hr, hk])
        simp only [total, hr] at ht
        simp only [he.1]
        rw [if_neg hk]
        exact ih _ _ hes (by omega)
    · rw [if_neg hlt]; exact ⟨_, _, rfl⟩

/-- **C42 (short transfers, interruptions and would-block never cut a transfer short).**  With any mixture
of them, as soon as the calls have moved as many bytes as asked for, the function returns the full count
and exactly the buffer has been transferred. -/
theorem C42_full (buf : List α) (es : List Ev) (h : Honest buf.length es) (hs : Smooth es)
    (ht : total es ≥ buf.length) : ∃ why, atomicio6 buf 0 [] es = .ret buf.length why buf := by
  obtain ⟨n, l, hr⟩ := loop_total buf es 0 [] hs (by omega)
  have hc := C42_count_partial buf es h n _ l hr
  have hl := hc.2.1 rfl
  have hn := (hc.1 (by decide)).1
  subst hl
  exact ⟨_, by rw [hr, hn]⟩

/-- ... and until then it keeps trying. -/
theorem C42_keeps_trying (buf : List α) (es : List Ev) (h : Honest buf.length es) (hs : Smooth es)
    (ht : total es < buf.length) : ∃ l, atomicio6 buf 0 [] es = .going l := by
  rcases loop_smooth buf es 0 [] hs with h1 | ⟨n, l, h1⟩
  · exact h1
  · exfalso
    have hc := (C42_count_partial buf es h n _ l h1)
    have hl := hc.2.1 rfl
    have : ∀ (es : List Ev) (pos : Nat) (log : List α) (n : Nat) (l : List α) (why : Why),
        atomicio6 buf pos log es = .ret n why l → l.length ≤ log.length + total es := by
      intro es
      induction es with
      | nil =>
        intro pos log n l why h
        unfold atomicio6 at h
        by_cases hlt : buf.length > pos
        · rw [if_pos hlt] at h; cases h
        · rw [if_neg hlt] at h; cases h; omega
      | cons e es ih =>
        intro pos log n l why h
        unfold atomicio6 at h
        by_cases hlt : buf.length > pos
        · rw [if_pos hlt] at h
          cases hr : e.res with
          | intr =>
            simp only [hr] at h
            simp only [total, hr]
            by_cases hs : e.stop = true
            · simp only [hs, if_true] at h; cases h; omega
            · rw [if_neg hs] at h; have := ih _ _ _ _ _ h; omega
          | again =>
            simp only [hr] at h
            simp only [total, hr]
            have := ih _ _ _ _ _ h; omega
          | err => simp only [hr] at h; cases h; omega
          | moved k =>
            simp only [hr] at h
            simp only [total, hr]
            by_cases hk : k = 0
            · rw [if_pos hk] at h; cases h; omega
            · rw [if_neg hk] at h
              have hx : ((buf.drop pos).take k).length ≤ k := by rw [List.length_take]; omega
              by_cases hs : e.stop = true
              · rw [if_pos hs] at h; cases h; rw [List.length_append]; omega
              · rw [if_neg hs] at h
                have := ih _ _ _ _ _ h
                rw [List.length_append] at this; omega
        · rw [if_neg hlt] at h; cases h; omega
    have := this es 0 [] n l _ h1
    rw [hl] at this
    simp at this; omega

/-- **C42 (where the claim is false).**  After a permanent error the value returned is 0 even though bytes
were transferred: a write of three bytes that moved two and then failed. -/
theorem C42_error_count_false :
    ∃ (buf : List Nat) (es : List Ev), Honest buf.length es ∧
      ∃ n l, atomicio6 buf 0 [] es = .ret n .failed l ∧ n ≠ l.length :=
  ⟨[1, 2, 3], [⟨.moved 2, false⟩, ⟨.err, false⟩], ⟨by decide, trivial⟩, 0, [1, 2], by decide, by decide⟩

/-- A concrete transfer with every kind of harmless disturbance. -/
example : atomicio6 [1, 2, 3, 4, 5] 0 [] [⟨.moved 2, false⟩, ⟨.intr, false⟩, ⟨.again, false⟩, ⟨.moved 1, false⟩,
    ⟨.moved 2, false⟩, ⟨.moved 7, false⟩] = .ret 5 .finished [1, 2, 3, 4, 5] := by decide

example : atomicio6 [1, 2, 3] 0 [] [⟨.moved 1, false⟩, ⟨.moved 0, false⟩] = .ret 1 .eof [1] := by decide

/-- `Smooth` and `Honest` together are met by a schedule with short writes and interruptions. -/
example : Honest 3 [⟨.moved 2, false⟩, ⟨.intr, false⟩, ⟨.moved 1, false⟩] ∧
    Smooth [⟨.moved 2, false⟩, ⟨.intr, false⟩, ⟨.moved 1, false⟩] := by
  refine ⟨⟨by decide, by decide, trivial⟩, ?_⟩
  intro e he; simp at he; rcases he with rfl | rfl | rfl <;> decide

/-! ## atomiciov -/

theorem skip_spec (iov : List (List α)) (k : Nat) :
    (k ≤ iov.flatten.length →
      ((skip iov k).1 = [] ∧ (skip iov k).2 = 0 ∧ iov.flatten.drop k = []) ∨
      (∃ t ts, (skip iov k).1 = t :: ts ∧ (skip iov k).2 < t.length ∧
        iov.flatten.drop k = (t.drop (skip iov k).2 :: ts).flatten)) := by
  induction iov generalizing k with
  | nil => intro h; left; simp at h; simp [skip, h]
  | cons s ss ih =>
    intro h
    unfold skip
    by_cases hk : k ≥ s.length
    · rw [if_pos hk]
      simp only [List.flatten_cons, List.length_append] at h
      rcases ih (k - s.length) (by omega) with ⟨h1, h2, h3⟩ | ⟨t, ts, h1, h2, h3⟩
      · left
        refine ⟨h1, h2, ?_⟩
        rw [List.flatten_cons, List.drop_append, h3, List.drop_eq_nil_of_le hk]; rfl
      · right
        refine ⟨t, ts, h1, h2, ?_⟩
        rw [List.flatten_cons, List.drop_append, h3, List.drop_eq_nil_of_le hk]; rfl
    · rw [if_neg hk]
      right
      refine ⟨s, ss, rfl, by omega, ?_⟩
      rw [List.flatten_cons, List.flatten_cons, List.drop_append, Nat.sub_eq_zero_of_le (by omega)]; rfl

theorem io_eq (buf : List α) (pos : Nat) (log : List α) (e : Ev) (es : List Ev) :
    atomicio6 buf pos log (e :: es) = if buf.length > pos then
      match e.res with
      | .intr => if e.stop then .ret pos .stopped log else atomicio6 buf pos log es
      | .again => atomicio6 buf pos log es
      | .err => .ret 0 .failed log
      | .moved k =>
        if k = 0 then .ret pos .eof log
        else if e.stop then .ret (pos + k) .stopped (log ++ (buf.drop pos).take k)
        else atomicio6 buf (pos + k) (log ++ (buf.drop pos).take k) es
    else .ret pos .finished log := rfl

theorem iov_eq (s : List α) (ss : List (List α)) (pos : Nat) (log : List α) (e : Ev) (es : List Ev) :
    iovLoop (s :: ss) pos log (e :: es) = if s.length > 0 then
      match e.res with
      | .intr => if e.stop then .ret pos .stopped log else iovLoop (s :: ss) pos log es
      | .again => iovLoop (s :: ss) pos log es
      | .err => .ret 0 .failed log
      | .moved k =>
        if k = 0 then .ret pos .eof log
        else match skip (s :: ss) k with
          | ([], rem) =>
            if rem > 0 then .ret 0 .fault (log ++ (s :: ss).flatten.take k)
            else if e.stop then .ret (pos + k) .stopped (log ++ (s :: ss).flatten.take k)
            else iovLoop [] (pos + k) (log ++ (s :: ss).flatten.take k) es
          | (t :: ts, rem) =>
            if rem > 0 ∧ rem > t.length then .ret 0 .fault (log ++ (s :: ss).flatten.take k)
            else if e.stop then .ret (pos + k) .stopped (log ++ (s :: ss).flatten.take k)
            else iovLoop (t.drop rem :: ts) (pos + k) (log ++ (s :: ss).flatten.take k) es
    else .ret pos .finished log := rfl

theorem iov_loop (iov : List (List α)) (buf : List α) (pos : Nat) (log : List α) (es : List Ev)
    (hf : iov.flatten = buf.drop pos) (hp : pos ≤ buf.length) (h1 : iov = [] ∨ ∃ s ss, iov = s :: ss ∧ 0 < s.length)
    (h : Honest (buf.length - pos) es) : iovLoop iov pos log es = atomicio6 buf pos log es := by
  have hlen : iov.flatten.length = buf.length - pos := by rw [hf, List.length_drop]
  induction es generalizing iov pos log with
  | nil =>
    rcases h1 with rfl | ⟨s, ss, rfl, hs⟩
    · simp at hlen
      unfold iovLoop atomicio6; rw [if_neg (by omega)]
    · simp at hlen
      unfold iovLoop atomicio6; rw [if_pos hs, if_pos (by omega)]
  | cons e es ih =>
    rcases h1 with rfl | ⟨s, ss, rfl, hs⟩
    · simp at hlen
      unfold iovLoop atomicio6; rw [if_neg (by omega)]
    · have hlen' := hlen
      simp only [List.flatten_cons, List.length_append] at hlen'
      have hlt : buf.length > pos := by omega
      have hs' : s.length > 0 := hs
      rw [iov_eq, io_eq, if_pos hs', if_pos hlt]
      cases hr : e.res with
      | intr =>
        simp only [Honest, hr] at h
        simp only []
        rw [ih (s :: ss) pos log hf hp (.inr ⟨s, ss, rfl, hs⟩) h hlen]
      | again =>
        simp only [Honest, hr] at h
        exact ih (s :: ss) pos log hf hp (.inr ⟨s, ss, rfl, hs⟩) h hlen
      | err => rfl
      | moved k =>
        simp only [Honest, hr] at h
        simp only []
        by_cases hk : k = 0
        · rw [if_pos hk, if_pos hk]
        · rw [if_neg hk, if_neg hk, hf]
          have hh : Honest (buf.length - (pos + k)) es := by rw [← Nat.sub_sub]; exact h.2
          have hd : (s :: ss).flatten.drop k = buf.drop (pos + k) := by rw [hf, List.drop_drop]
          rcases skip_spec (s :: ss) k (by omega) with ⟨e1, e2, e3⟩ | ⟨t, ts, e1, e2, e3⟩
          · have : skip (s :: ss) k = ([], 0) := Prod.ext e1 e2
            simp only [this]
            rw [if_neg (by omega)]
            rw [ih [] (pos + k) _ (by rw [← hd, e3]; rfl) (by omega) (.inl rfl) hh
              (by rw [← List.length_drop, ← hd, e3]; rfl)]
          · have : skip (s :: ss) k = (t :: ts, (skip (s :: ss) k).2) := Prod.ext e1 rfl
            rw [this]
            simp only []
            rw [if_neg (by omega)]
            rw [ih (t.drop (skip (s :: ss) k).2 :: ts) (pos + k) _ (by rw [← e3, hd]) (by omega)
              (.inr ⟨_, _, rfl, by rw [List.length_drop]; omega⟩) hh
              (by rw [← e3, hd, List.length_drop])]

/-- **C42 (vectors).**  Transferring a vector of buffers is transferring their concatenation: with the same
schedule of results, the same bytes move and the same value is returned, provided the first buffer of the
vector is not empty (or the vector is). -/
theorem C42_vector (iov : List (List α)) (es : List Ev) (hn : iov.length ≤ iovMax)
    (h1 : iov = [] ∨ ∃ s ss, iov = s :: ss ∧ 0 < s.length) (h : Honest iov.flatten.length es) :
    atomiciov6 iov es = atomicio6 iov.flatten 0 [] es := by
  unfold atomiciov6
  rw [if_neg (by omega)]
  exact iov_loop iov iov.flatten 0 [] es (by simp) (by omega) h1 (by simpa using h)

/-- Without that proviso the claim is false: a vector that begins with an empty buffer is taken for
finished, and nothing is transferred. -/
theorem C42_vector_empty_first (ss : List (List α)) (hn : ss.length < iovMax) (es : List Ev) :
    atomiciov6 ([] :: ss) es = .ret 0 .finished [] := by
  unfold atomiciov6
  rw [if_neg (by simp; omega)]
  cases es <;> simp [iovLoop]

/-- A vector with empty buffers in the middle and at the end. -/
example : atomiciov6 [[1, 2], [], [3], []] [⟨.moved 2, false⟩, ⟨.intr, false⟩, ⟨.moved 1, false⟩] =
    .ret 3 .finished [1, 2, 3] := by decide

end Verif.Misc.Io
