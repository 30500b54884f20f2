import Verif.Scp.Spec

namespace Verif.Scp
open Verif

theorem badName_false {n : Bytes} (h : badName n = false) : Safe n := by
  simp only [badName, Bool.or_eq_false_iff, decide_eq_false_iff_not, List.contains_eq_mem] at h
  exact ⟨h.1.1.1, h.1.1.2, h.1.2, h.2⟩

theorem parseEntry_safe {d : Bool} {s : Bytes} {d' mode size name} (h : parseEntry d s = .entry d' mode size name) :
    Safe name ∧ d' = d := by
  unfold parseEntry at h
  split at h <;> try cases h
  split at h <;> try cases h
  split at h <;> try cases h
  split at h <;> try cases h
  split at h <;> try cases h
  split at h <;> try cases h
  rename_i hb
  exact ⟨badName_false (by simpa using hb), rfl⟩

theorem parseTimes_entry {s : Bytes} {d' mode size name} : parseTimes s ≠ .entry d' mode size name := by
  intro h
  unfold parseTimes at h
  repeat' (split at h <;> try cases h)

theorem parseRec_safe {s : Bytes} {d mode size name} (h : parseRec s = .entry d mode size name) : Safe name := by
  unfold parseRec at h
  split at h
  · split at h
    · exact absurd h parseTimes_entry
    · split at h
      · exact (parseEntry_safe h).1
      · split at h
        · exact (parseEntry_safe h).1
        · cases h
  · cases h

theorem wanted_asked {C : Conf} {E : Env} {n : Bytes} (h : wanted C E n = true) : Asked C E n := by
  simpa [wanted, Asked] using h

theorem below_ne_root {targ : Bytes} {ns : List Bytes} (hns : ns ≠ []) (hs : ∀ n ∈ ns, Safe n) :
    below targ ns ≠ [47] := by
  cases ns with
  | nil => exact absurd rfl hns
  | cons n ns =>
    intro h
    have hn := (hs n (List.mem_cons_self ..)).nonempty
    have hl := congrArg List.length h
    simp only [below, List.length_append, List.flatMap_cons, List.length_cons, List.length_nil] at hl
    have : n.length ≠ 0 := fun e => hn (List.eq_nil_of_length_eq_zero e)
    omega

/-- One step down. -/
theorem below_snoc {targ : Bytes} {ns : List Bytes} {n : Bytes} (hs : ∀ n ∈ ns, Safe n) :
    below targ (ns ++ [n]) = below targ ns ++ (if below targ ns = [47] then [] else [47]) ++ n := by
  cases ns with
  | nil =>
    by_cases h : targ = [47] <;> simp [below, h]
  | cons m ns =>
    rw [if_neg (below_ne_root (List.cons_ne_nil _ _) hs)]
    simp [below, List.flatMap_append]

/-- What holds of every event that a part of the receiver adds. -/
def Adds (P : Event → Prop) (s s' : St) : Prop := ∃ evs, s'.tr = s.tr ++ evs ∧ ∀ e ∈ evs, P e

variable {P : Event → Prop}

theorem Adds.refl (s : St) : Adds P s s := ⟨[], by simp, by simp⟩
theorem Adds.trans {a b c : St} (h : Adds P a b) (h' : Adds P b c) : Adds P a c := by
  obtain ⟨x, hx, px⟩ := h
  obtain ⟨y, hy, py⟩ := h'
  refine ⟨x ++ y, by rw [hy, hx, List.append_assoc], fun e he => ?_⟩
  rcases List.mem_append.1 he with h | h
  · exact px e h
  · exact py e h
theorem Adds.of_tr {a b : St} (h : b.tr = a.tr) : Adds P a b := ⟨[], by simp [h], by simp⟩
theorem Adds.one {a b : St} {e : Event} (h : b.tr = a.tr ++ [e]) (he : P e) : Adds P a b :=
  ⟨[e], h, by simpa using he⟩
theorem Adds.emit {a : St} {e : Event} (he : P e) : Adds P a (a.emit e) := .one rfl he
theorem Adds.complain {a : St} (he : P .complain) : Adds P a a.complain := .one rfl he

/-- Events without a path are always allowed. -/
structure Free (P : Event → Prop) : Prop where
  free : ∀ e : Event, e.path? = none → P e

variable (hf : Free P)
include hf

theorem adds_attempt {E : Env} {e : Event} {x : St × Bool} (he : P e) : Adds P x.1 (attempt E e x).1 := by
  unfold attempt
  split
  · exact .emit he
  · exact .one rfl he

theorem adds_truncate {E : Env} {size : Nat} {k : Kind} {w : Bool} {x : St × Bool} :
    Adds P x.1 (truncate E size k w x).1 := by
  unfold truncate
  split
  · exact adds_attempt hf (hf.free _ rfl)
  · exact .refl _

theorem adds_setMode {C : Conf} {E : Env} {mode : Nat} {k : Kind} {x : St × Bool} :
    Adds P x.1 (setMode C E mode k x).1 := by
  unfold setMode
  repeat' split
  all_goals first | exact adds_attempt hf (hf.free _ rfl) | exact .refl _

theorem adds_setTimes {E : Env} {np : Bytes} {t : Option Times} {w : Bool} {x : St × Bool}
    (h : ∀ t, P (.utimes np t)) : Adds P x.1 (setTimes E np t w x).1 := by
  unfold setTimes
  repeat' split
  all_goals first | exact adds_attempt hf (h _) | exact .refl _

theorem adds_answer {x : St × Bool} : Adds P x.1 (answer x) := by
  unfold answer
  split
  · exact .complain (hf.free _ rfl)
  · exact .emit (hf.free _ rfl)

theorem adds_put {E : Env} {d : Bytes} {s : St} {w : Bool} : Adds P s (put E d s w).1 := by
  unfold put
  repeat' split
  · exact .refl _
  · exact .emit (hf.free _ rfl)
  · exact .one rfl (hf.free _ rfl)

omit hf in
theorem response_tr (s : St) : (response s).st.tr = s.tr := by
  unfold response
  split
  · rfl
  · split
    · rfl
    · split
      · rfl
      · split <;> rfl

def Copied.st : Copied → St
  | .lost s => s
  | .done s _ => s

theorem adds_copy {E : Env} {cnt : Nat} : ∀ (fuel rem : Nat) (s : St) (w : Bool),
    Adds P s (copy E cnt fuel rem s w).st := by
  intro fuel
  induction fuel with
  | zero => intro rem s w; exact .refl _
  | succ fuel ih =>
    intro rem s w
    rw [copy]
    split
    · exact .refl _
    · split
      · exact .of_tr rfl
      · refine .trans (adds_put hf (E := E) (d := s.inp.take (min cnt rem)) (w := w)) ?_
        exact .trans (.of_tr rfl) (ih _ _ _)

theorem adds_fileEnd {C : Conf} {E : Env} {np : Bytes} {mode size : Nat} {k : Kind} {t : Option Times} {s : St} {w : Bool}
    (h : ∀ t, P (.utimes np t)) : Adds P s (fileEnd C E np mode size k t s w).st := by
  unfold fileEnd
  have h1 : Adds P s (attempt E .close (setMode C E mode k (truncate E size k w (s, w)))).1 :=
    .trans (.trans (adds_truncate hf (x := (s, w))) (adds_setMode hf)) (adds_attempt hf (hf.free _ rfl))
  generalize attempt E .close (setMode C E mode k (truncate E size k w (s, w))) = y at h1 ⊢
  have h2 := response_tr y.1
  generalize response y.1 = r at h2 ⊢
  cases r with
  | exit s' => exact .trans h1 (.of_tr h2)
  | ret s' =>
    refine .trans (.trans h1 (.of_tr (b := s') h2)) ?_
    exact .trans (adds_setTimes hf h (x := (s', y.2))) (adds_answer hf)

theorem adds_file {C : Conf} {E : Env} {np : Bytes} {mode size : Nat} {k : Kind} {t : Option Times} {s : St}
    (ho : ∀ m, P (.open_ np m)) (h : ∀ t, P (.utimes np t)) : Adds P s (file C E np mode size k t s).1.st := by
  unfold file
  split
  · have h1 : Adds P s ((s.emit (.open_ np (mode ||| 0o200))).emit .ack) := .trans (.emit (ho _)) (.emit (hf.free _ rfl))
    split
    · exact .trans h1 (.trans (.complain (hf.free _ rfl)) (.emit (hf.free _ rfl)))
    · rename_i cnt _
      have h2 := adds_copy hf (E := E) (cnt := cnt) size size ((s.emit (.open_ np (mode ||| 0o200))).emit .ack) false
      split
      · rename_i s' he
        rw [he] at h2
        exact .trans h1 (.trans h2 (.complain (hf.free _ rfl)))
      · rename_i s' w he
        rw [he] at h2
        exact .trans h1 (.trans h2 (adds_fileEnd hf h))
  · exact .trans (.emit (ho _)) (.complain (hf.free _ rfl))

theorem adds_makeDir {C : Conf} {E : Env} {np : Bytes} {mode : Nat} {s : St}
    (hm : ∀ m, P (.mkdir np m)) (hc : ∀ m, P (.chmod np m)) : Adds P s (makeDir C E np mode s).1 := by
  unfold makeDir
  split
  · dsimp only
    split
    · exact .emit (hc _)
    · exact .refl _
  · exact .emit (hm _)
  · exact .refl _

theorem adds_leaveDir {np : Bytes} {mode : Nat} {t : Option Times} {b : Bool} {s : St}
    (hu : ∀ t, P (.utimes np t)) (hc : ∀ m, P (.chmod np m)) : Adds P s (leaveDir np mode t b s) := by
  have h : Adds P s (t.elim s fun t => s.emit (.utimes np t)) := by
    cases t with
    | none => exact .refl _
    | some t => exact .emit (hu _)
  unfold leaveDir
  split
  · exact .trans h (.emit (hc _))
  · exact h

theorem adds_enter {C : Conf} {E : Env} {targ : Bytes} {s s' : St} {f : Frame} (h : enter C E targ s = some (f, s')) :
    Adds P s s' ∧ f.targ = targ := by
  unfold enter at h
  split at h
  · cases h
  · cases h
    exact ⟨.emit (hf.free _ rfl), rfl⟩

omit hf in
theorem pathOf_below {f : Frame} {targ : Bytes} {ns : List Bytes} {name : Bytes} (hs : ∀ n ∈ ns, Safe n)
    (ht : f.targ = below targ ns) : pathOf f name = below targ (if f.isDir then ns ++ [name] else ns) := by
  unfold pathOf
  cases f.isDir with
  | false => simpa using ht
  | true => simp only [if_pos]; rw [below_snoc hs, ht]

omit hf in
theorem confined_free {C : Conf} {E : Env} {targ : Bytes} {lo : Nat} : Free (Confined C E targ lo) :=
  ⟨fun e he p hp => by rw [he] at hp; cases hp⟩

omit hf in
theorem confined_loop {C : Conf} {E : Env} {targ : Bytes} {lo : Nat} : ∀ (fuel : Nat) (f : Frame) (s : St) (ns : List Bytes),
    f.targ = below targ ns → (∀ n ∈ ns, Safe n ∧ Asked C E n) → (C.recursive = false → ns = []) →
    lo ≤ (if f.isDir then ns.length + 1 else ns.length) →
    Adds (Confined C E targ lo) s (loop C E fuel f s).st := by
  intro fuel
  induction fuel with
  | zero => intro f s ns _ _ _ _; exact .refl _
  | succ fuel ih =>
    intro f s ns ht hs hr hlo
    have hf : Free (Confined C E targ lo) := confined_free
    have hc : Confined C E targ lo .complain := hf.free _ rfl
    have ha : Confined C E targ lo .ack := hf.free _ rfl
    rw [loop]
    split
    · exact .refl _
    · rename_i c r _
      split
      · exact .one rfl hc
      · split
        · exact .one rfl hc
        · rename_i l r' _
          split
          · exact .trans (.of_tr rfl) (ih f _ ns ht hs hr hlo)
          · split
            · exact .of_tr rfl
            · split
              · exact .one rfl ha
              · split
                · exact .one rfl hc
                · rename_i t _
                  exact .trans (.one (b := { s with inp := r' }.emit .ack) rfl ha) (ih { f with times := t } _ ns ht hs hr hlo)
                · rename_i isDir mode size name hrec
                  have hsafe := parseRec_safe hrec
                  split
                  · exact .one rfl hc
                  · rename_i hw
                    have hasked : Asked C E name := wanted_asked (by simpa using hw)
                    have hnp := pathOf_below (name := name) (fun n hn => (hs n hn).1) ht
                    generalize hns' : (if f.isDir then ns ++ [name] else ns) = ns' at hnp
                    have hs' : ∀ n ∈ ns', Safe n ∧ Asked C E n := by
                      intro n hn
                      rw [← hns'] at hn
                      split at hn
                      · rcases List.mem_append.1 hn with h | h
                        · exact hs n h
                        · rw [List.mem_singleton.1 h]; exact ⟨hsafe, hasked⟩
                      · exact hs n hn
                    have hlen : ns'.length = if f.isDir then ns.length + 1 else ns.length := by
                      rw [← hns']; split <;> simp
                    have hP : ∀ e : Event, e.path? = some (pathOf f name) →
                        (C.recursive = false → ∀ q m, e ≠ .mkdir q m ∧ e ≠ .chmod q m) → Confined C E targ lo e := by
                      intro e he hm p hp
                      rw [he] at hp
                      cases hp
                      refine ⟨ns', hnp, by omega, hs', fun h => ⟨?_, hm h⟩⟩
                      rw [hlen, hr h]
                      split <;> simp
                    split
                    · split
                      · exact .one rfl hc
                      · rename_i hrec'
                        have hrec' : C.recursive = true := by simpa using hrec'
                        have h1 := adds_makeDir hf (C := C) (E := E) (mode := modeOf C mode) (s := { s with inp := r' })
                          (fun m => hP (.mkdir (pathOf f name) m) rfl (fun h => by rw [hrec'] at h; cases h)) (fun m => hP (.chmod (pathOf f name) m) rfl (fun h => by rw [hrec'] at h; cases h))
                        replace h1 := Adds.trans (.of_tr rfl : Adds _ s { s with inp := r' }) h1
                        split
                        · rename_i s1 he
                          rw [he] at h1
                          exact .trans h1 (.trans (.complain hc) (ih _ _ ns ht hs hr hlo))
                        · rename_i s1 mf he
                          rw [he] at h1
                          split
                          · exact .trans h1 (.complain hc)
                          · rename_i f' s2 hen
                            obtain ⟨h2, hf'⟩ := adds_enter hf hen
                            have h3 := ih f' s2 ns' (hf'.trans hnp) hs' (fun h => by rw [hrec'] at h; cases h)
                              (by split <;> omega)
                            have h123 := Adds.trans h1 (.trans h2 h3)
                            split
                            · rename_i s3 he3
                              rw [he3] at h123
                              exact h123
                            · rename_i s3 he3
                              rw [he3] at h123
                              refine .trans h123 (.trans (adds_leaveDir hf (fun t => hP (.utimes (pathOf f name) t) rfl (fun _ _ _ => ⟨nofun, nofun⟩))
                                (fun m => hP (.chmod (pathOf f name) m) rfl (fun h => by rw [hrec'] at h; cases h))) (ih _ _ ns ht hs hr hlo))
                    · have h1 := adds_file hf (C := C) (E := E) (mode := modeOf C mode) (size := size)
                        (k := E.stat s.tr (pathOf f name)) (t := f.times) (s := { s with inp := r' })
                        (fun m => hP (.open_ (pathOf f name) m) rfl (fun _ _ _ => ⟨nofun, nofun⟩)) (fun t => hP (.utimes (pathOf f name) t) rfl (fun _ _ _ => ⟨nofun, nofun⟩))
                      replace h1 := Adds.trans (.of_tr rfl : Adds _ s { s with inp := r' }) h1
                      split
                      · rename_i s1 t he
                        rw [he] at h1
                        exact h1
                      · rename_i s1 t he
                        rw [he] at h1
                        exact .trans h1 (ih _ _ ns ht hs hr hlo)

omit hf in
/-- **C50.**  Whatever the peer sends and the system answers, every path the receiver makes, opens or changes is the target or
an entry reached from it through names that are safe and were asked for; if the target is a directory, through at least
one; without `-r`, through at most one. -/
theorem C50_confined (C : Conf) (E : Env) (targ inp : Bytes) :
    ∀ e ∈ (sink C E targ inp).st.tr, Confined C E targ (if E.stat [.ack] targ = .dir then 1 else 0) e := by
  have h : ∀ lo, lo = (if E.stat [.ack] targ = .dir then 1 else 0) →
      Adds (Confined C E targ lo) ⟨inp, [], 0⟩ (sink C E targ inp).st := by
    intro lo hlo
    have hf : Free (Confined C E targ lo) := confined_free
    unfold sink
    split
    · exact .one rfl (hf.free _ rfl)
    · rename_i f s he
      refine .trans (adds_enter hf he).1 (confined_loop _ f s [] (adds_enter hf he).2 (by simp) (fun _ => rfl) ?_)
      unfold enter at he
      split at he
      · cases he
      · cases he
        simp [hlo]
  obtain ⟨evs, h1, h2⟩ := h _ rfl
  intro e he
  rw [h1] at he
  exact h2 e (by simpa using he)

end Verif.Scp
