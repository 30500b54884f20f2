/-
C31: which ways of ending earn a penalty.
-/
import Verif.Startup.Props

namespace Verif.Startup
open Verif Addr

/-- The offence that a way of ending counts as (sshd_config(5), PerSourcePenalties): crashes, a login time-out (exit code 3), a
crash of the unprivileged child (4), failed authentication (5), a connection refused by configuration (6), any other exit without
authentication; a clean exit and an ordinary signal are none. -/
inductive Earns : Exit → Kind → Prop
  | crash : Earns (.signal true) .crash
  | stopped : Earns .abnormal .crash
  | killed : Earns (.signal false) .none
  | clean : Earns (.code 0) .none
  | timeout : Earns (.code 3) .grace
  | child : Earns (.code 4) .crash
  | failed : Earns (.code 5) .authfail
  | refused : Earns (.code 6) .refuse
  | other (n : Nat) : n ≠ 0 → n ≠ 3 → n ≠ 4 → n ≠ 5 → n ≠ 6 → Earns (.code n) .noauth

theorem kindOf_earns (e : Exit) : Earns e (kindOf e) := by
  unfold kindOf
  split
  · exact .crash
  · exact .killed
  · exact .stopped
  · exact .clean
  · exact .timeout
  · exact .child
  · exact .failed
  · exact .refused
  · rename_i n h0 h3 h4 h5 h6
    exact .other n h0 h3 h4 h5 h6

theorem earns_unique {e : Exit} {k k' : Kind} (h : Earns e k) (h' : Earns e k') : k = k' := by
  cases h <;> cases h' <;> first | rfl | contradiction

/-- Nobody is marked as having ended. -/
def Settled (l : List Child) : Prop := ∀ k ∈ l, k.status = none

theorem settled_set {l : List Child} (h : Settled l) (i : Nat) {k : Child} (hk : k.status = none) : Settled (l.set i k) := by
  intro x hx
  rcases mem_set' hx with rfl | hx
  · exact hk
  · exact h x hx

theorem settled_place {k : Child} (hk : k.status = none) : ∀ {l l' : List Child}, Settled l → place k l = some l' → Settled l'
  | [], l', _, h => by cases h
  | x :: l, l', hs, h => by
    unfold place at h
    split at h
    · obtain ⟨m, hm, rfl⟩ := Option.map_eq_some_iff.1 h
      have := settled_place hk (fun y hy => hs y (List.mem_cons_of_mem _ hy)) hm
      intro y hy
      rcases List.mem_cons.1 hy with rfl | hy
      · exact hs _ List.mem_cons_self
      · exact this y hy
    · cases h
      intro y hy
      rcases List.mem_cons.1 hy with rfl | hy
      · exact hk
      · exact hs y (List.mem_cons_of_mem _ hy)

theorem reap_children {c : Cfg} {now : Int} {i : Nat} {k : Child} {e : Exit} {s s' : State} (h : reap c now i k e s = some s') :
    ∃ k' : Child, k'.status = none ∧ s'.children = s.children.set i k' := by
  unfold reap at h
  split at h
  · cases h
  · split at h
    · unfold finish at h
      split at h
      · cases h
      · cases h; exact ⟨noChild, rfl, rfl⟩
    · cases h; exact ⟨{ k with pid := none, status := none }, rfl, rfl⟩

theorem reap_penal {c : Cfg} {now : Int} {i : Nat} {k : Child} {e : Exit} {s s' : State} (h : reap c now i k e s = some s') :
    penaliseChild c now k e s.penal = some s'.penal := by
  unfold reap at h
  split at h
  · cases h
  · rename_i p hp
    split at h
    · unfold finish at h
      split at h
      · cases h
      · cases h; exact hp
    · cases h; exact hp

theorem reapFrom_settled {c : Cfg} {now : Int} : ∀ (n i : Nat) (s s' : State), reapFrom c now n i s = some s' →
    (∀ j k, s.children[j]? = some k → j < i ∨ i + n ≤ j → k.status = none) → Settled s'.children
  | 0, i, s, s', h, hs => by
    cases h
    intro k hk
    obtain ⟨j, hj⟩ := List.getElem?_of_mem hk
    exact hs j k hj (by omega)
  | n + 1, i, s, s', h, hs => by
    unfold reapFrom at h
    cases hi : s.children[i]? with
    | none =>
      rw [hi] at h
      refine reapFrom_settled n (i + 1) s s' h fun j k hj hc => ?_
      by_cases e : j = i
      · subst e; rw [hi] at hj; cases hj
      · exact hs j k hj (by omega)
    | some x =>
      rw [hi] at h
      simp only at h
      cases he : x.status with
      | none =>
        rw [he] at h
        refine reapFrom_settled n (i + 1) s s' h fun j k hj hc => ?_
        by_cases e : j = i
        · subst e; rw [hi] at hj; cases hj; exact he
        · exact hs j k hj (by omega)
      | some ex =>
        rw [he] at h
        simp only [Option.bind_eq_some_iff] at h
        obtain ⟨s1, h1, h2⟩ := h
        obtain ⟨k', hk', hch⟩ := reap_children h1
        refine reapFrom_settled n (i + 1) s1 s' h2 fun j k hj hc => ?_
        rw [hch] at hj
        by_cases e : j = i
        · subst e
          rw [List.getElem?_set_self (List.getElem?_eq_some_iff.1 hi).1] at hj
          cases hj; exact hk'
        · rw [List.getElem?_set_ne (fun e' => e e'.symm)] at hj
          exact hs j k hj (by omega)

theorem close_settled {i : Nat} {k : Child} {f : Bool} {s s' : State} (hs : Settled s.children) (hk : k.status = none)
    (h : close i k f s = some s') : Settled s'.children := by
  unfold close at h
  split at h
  · unfold finish at h
    split at h
    · cases h
    · cases h; exact settled_set hs i rfl
  · cases h; exact settled_set hs i hk

theorem lost_settled {c : Cfg} {i : Nat} {k : Child} {fd : Nat} {s s' : State} (hs : Settled s.children) (hk : k.status = none)
    (h : lost c i k fd s = some s') : Settled s'.children := by
  unfold lost at h
  exact close_settled (by exact hs) hk h

theorem childExits_length (l : List (Nat × Exit)) : ∀ ch : List Child, (l.foldl (fun ch x => childExit x.1 x.2 ch) ch).length = ch.length := by
  induction l with
  | nil => intro ch; rfl
  | cons x l ih =>
    intro ch
    rw [List.foldl_cons, ih]
    rcases childExit_spec x.1 x.2 ch with h | ⟨i, k, _, _, h⟩
    · rw [h]
    · rw [h, List.length_set]

theorem step_settled {c : Cfg} {s s' : State} {ev : Ev} {o : Out} (hs : Settled s.children) (h : step c s ev = some (s', o)) :
    Settled s'.children := by
  cases ev with
  | accept now peer fd r pid =>
    simp only [step, onAccept] at h
    have hd : ∀ q, dropConn c now peer fd r s = some q → q.1.children = s.children := by
      intro q hq
      unfold dropConn at hq
      repeat' split at hq
      all_goals cases hq
      all_goals rfl
    split at h
    · cases h
    · rename_i q d hq
      cases h
      rw [hd _ hq]; exact hs
    · rename_i q hq
      simp only [Option.map_eq_some_iff, Prod.mk.injEq] at h
      obtain ⟨s2, h2, rfl, _⟩ := h
      unfold register at h2
      split at h2
      · cases h2
      · rename_i l hl
        split at h2
        · cases h2
        · cases h2
          exact settled_place rfl (by rw [hd _ hq]; exact hs) hl
  | writable i w =>
    simp only [step, quiet, Option.map_eq_some_iff, Prod.mk.injEq] at h
    obtain ⟨s2, h2, rfl, _⟩ := h
    unfold onWritable at h2
    split at h2
    · cases h2; exact hs
    · rename_i k hk
      have hst := hs k (List.mem_of_getElem? hk)
      split at h2
      · cases h2; exact hs
      · split at h2
        · cases h2; exact hs
        · split at h2
          · cases h2; exact hs
          · cases h2; exact hs
          · exact lost_settled hs hst h2
          · split at h2 <;> (cases h2; exact settled_set hs i hst)
  | readable i g =>
    simp only [step] at h
    unfold onReadable at h
    split at h
    · cases h; exact hs
    · rename_i k hk
      have hst := hs k (List.mem_of_getElem? hk)
      have lost_s : ∀ fd s2, lost c i k fd s = some s2 → Settled s2.children := fun fd s2 h2 =>
        lost_settled hs hst h2
      split at h
      · cases h; exact hs
      · split at h
        · cases h; exact hs
        · simp only [quiet, Option.map_eq_some_iff, Prod.mk.injEq] at h
          obtain ⟨s2, h2, rfl, _⟩ := h
          exact lost_s _ _ h2
        · unfold onByte at h
          split at h
          · simp only [quiet, Option.map_eq_some_iff, Prod.mk.injEq] at h
            obtain ⟨s2, h2, rfl, _⟩ := h
            exact lost_s _ _ h2
          split at h
          · cases h; exact settled_set hs i hst
          split at h
          · simp only [Option.map_eq_some_iff, Prod.mk.injEq] at h
            obtain ⟨s2, h2, rfl, _⟩ := h
            exact close_settled hs hst h2
          · cases h; exact hs
  | exits now l =>
    simp only [step, quiet, Option.map_eq_some_iff, Prod.mk.injEq] at h
    obtain ⟨s2, h2, rfl, _⟩ := h
    unfold reapAll at h2
    refine reapFrom_settled _ _ _ _ h2 fun j k hj hc => ?_
    have := (List.getElem?_eq_some_iff.1 hj).1
    simp only [childExits_length] at this
    omega

theorem hist_settled {c : Cfg} {h : List (Ev × Out)} {s : State} {t : Int} (hh : Hist c h s t) : Settled s.children := by
  induction hh with
  | init t =>
    intro k hk
    have := List.eq_of_mem_replicate hk
    rw [this]; rfl
  | step _ _ _ hs ih => exact step_settled ih hs

/-- Only entry `j` is marked. -/
theorem reapFrom_one {c : Cfg} {now : Int} {j : Nat} {k : Child} {e : Exit} (he : k.status = some e) :
    ∀ (n i : Nat) (s s' : State), reapFrom c now n i s = some s' → s.children[j]? = some k →
      (∀ m x, s.children[m]? = some x → m ≠ j → x.status = none) → i ≤ j → j < i + n →
      penaliseChild c now k e s.penal = some s'.penal
  | 0, i, s, s', h, hj, hs, h1, h2 => by omega
  | n + 1, i, s, s', h, hj, hs, h1, h2 => by
    unfold reapFrom at h
    by_cases hij : i = j
    · subst hij
      rw [hj] at h
      simp only [he, Option.bind_eq_some_iff] at h
      obtain ⟨s1, h3, h4⟩ := h
      obtain ⟨k', hk', hch⟩ := reap_children h3
      have hall : ∀ (n i : Nat) (s s' : State), reapFrom c now n i s = some s' → Settled s.children → s'.penal = s.penal := by
        intro n
        induction n with
        | zero => intro i s s' h _; cases h; rfl
        | succ n ih =>
          intro i s s' h hs
          unfold reapFrom at h
          split at h
          · exact ih _ _ _ h hs
          · rename_i x hx
            rw [hs x (List.mem_of_getElem? hx)] at h
            exact ih _ _ _ h hs
      have hset : Settled s1.children := by
        intro x hx
        rw [hch] at hx
        obtain ⟨m, hm⟩ := List.getElem?_of_mem hx
        by_cases hmi : m = i
        · subst hmi
          rw [List.getElem?_set_self (List.getElem?_eq_some_iff.1 hj).1] at hm
          cases hm; exact hk'
        · rw [List.getElem?_set_ne (fun e' => hmi e'.symm)] at hm
          exact hs m x hm hmi
      rw [hall n (i + 1) s1 s' h4 hset]
      exact reap_penal h3
    · have step : reapFrom c now n (i + 1) s = some s' := by
        split at h
        · exact h
        · rename_i x hx
          rw [hs i x hx hij] at h
          exact h
      exact reapFrom_one he n (i + 1) s s' step hj hs (by omega) (by omega)

/-- C31.  When a child of a connection from `a` ends before authentication, exactly the offence that its way of ending stands for
is put on the account of `a`. -/
theorem C31_exit (c : Cfg) (h : List (Ev × Out)) (s s' : State) (t now : Int) (hh : Hist c h s t) (l1 l2 : List Child) (k : Child) (pid : Nat)
    (a : XAddr) (e : Exit) (o : Out) (hk : s.children = l1 ++ k :: l2) (hpid : k.pid = some pid) (hfirst : ∀ x ∈ l1, x.pid ≠ some pid)
    (ha : k.addr = some a) (hs : step c s (.exits now [(pid, e)]) = some (s', o)) :
    ∃ kind eff, Earns e kind ∧ penalise c now a kind s.penal = some (s'.penal, eff) := by
  have hset := hist_settled hh
  simp only [step, quiet, Option.map_eq_some_iff, Prod.mk.injEq] at hs
  obtain ⟨s2, h2, rfl, _⟩ := hs
  unfold reapAll at h2
  have hce : ∀ l1 : List Child, (∀ x ∈ l1, x.pid ≠ some pid) →
      childExit pid e (l1 ++ k :: l2) = l1 ++ { k with status := some e } :: l2 := by
    intro l1
    induction l1 with
    | nil => intro _; simp [childExit, hpid]
    | cons x l ih =>
      intro hx
      rw [List.cons_append, childExit, if_neg (hx x List.mem_cons_self), ih (fun y hy => hx y (List.mem_cons_of_mem _ hy))]
      rfl
  simp only [List.foldl_cons, List.foldl_nil, hk, hce l1 hfirst] at h2
  have hp := reapFrom_one (c := c) (now := now) (j := l1.length) (k := { k with status := some e }) (e := e) rfl _ _ _ _ h2
    (by simp) (fun m x hm hne => ?_) (Nat.zero_le _) (by simp)
  · unfold penaliseChild at hp
    rw [ha] at hp
    simp only [Option.map_eq_some_iff] at hp
    obtain ⟨r, hr, hr2⟩ := hp
    exact ⟨kindOf e, r.2, kindOf_earns e, by rw [hr, ← hr2]⟩
  · simp only at hm
    have hm' : (l1 ++ k :: l2)[m]? = some x := by
      by_cases hlt : m < l1.length
      · rw [List.getElem?_append_left hlt] at hm ⊢; exact hm
      · rw [List.getElem?_append_right (by omega)] at hm ⊢
        obtain ⟨d, hd⟩ : ∃ d, m - l1.length = d + 1 := ⟨m - l1.length - 1, by omega⟩
        rw [hd] at hm ⊢
        simpa using hm
    exact hset x (by rw [hk]; exact List.mem_of_getElem? hm')

/-- A child that ends with a failed login: the address is penalised for that. -/
example : Earns (.code 5) .authfail ∧ ∃ s, step Toy.cfg (init Toy.cfg) (.accept 0 (some (Toy.ip 0 1)) 7 50 (some 100)) = some (s, .started) ∧
    (step Toy.cfg s (.exits 5 [(100, .code 5)])).map (fun r => (r.1.penal = ((penalise Toy.cfg 5 (Toy.ip 0 1) .authfail s.penal).map (·.1)).getD penalInit : Bool)) = some true :=
  ⟨.failed, _, rfl, by decide +kernel⟩

end Verif.Startup
