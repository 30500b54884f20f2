/- Setting options keeps them as the log has them. -/
import Verif.Conf.Spec

namespace Verif.Conf
open Verif Match

attribute [ext] Opts

/-- Options that come in twos. -/
def pairs : List (Key × Key) := [(.controlPersist, .controlPersistTimeout), (.tunLocal, .tunRemote),
  (.qosInteractive, .qosBulk), (.addKeysToAgent, .addKeysLifespan)]

/-- A setting the reader can make. -/
def Setting.Ok : Setting → Prop
  | .int k _ => ordinary k = true ∧ ∀ p ∈ pairs, k ≠ p.1 ∧ k ≠ p.2
  | .pair a b v w => (a, b) ∈ pairs ∧ v ≠ -1 ∧ w ≠ -1
  | .str k _ => ordinaryStr k = true
  | .list k _ => k ≠ .sendEnv ∧ k ≠ .localForward ∧ k ≠ .remoteForward
  | .array k _ _ => k ≠ .sendEnv ∧ k ≠ .localForward ∧ k ≠ .remoteForward
  | .addForward k _ => k = .localForward ∨ k = .remoteForward
  | _ => True

def LogOk (log : Log) : Prop := ∀ x ∈ log, x.2.Ok

theorem said_append (l m : Log) : said (l ++ m) = said l ++ said m := List.filterMap_append

theorem said_snoc (l : Log) (a : Bool) (s : Setting) : said (l ++ [(a, s)]) = said l ++ if a then [s] else [] := by
  rw [said_append]; cases a <;> rfl

theorem said_mem {l : Log} {s : Setting} (h : s ∈ said l) : (true, s) ∈ l := by
  simp only [said, List.mem_filterMap] at h
  obtain ⟨⟨a, t⟩, hm, ha⟩ := h
  cases a <;> simp_all

theorem first_append (f : Setting → Option α) (l m : List Setting) : first f (l ++ m) = (first f l).or (first f m) := by
  simp [first, List.filterMap_append, List.head?_append]

theorem firstInt_append (k : Key) (l m : List Setting) : firstInt k (l ++ m) = (firstInt k l).or (firstInt k m) := by
  simp [firstInt, List.filterMap_append, List.find?_append]

theorem firstInt_ne {k : Key} {l : List Setting} {v : Int} (h : firstInt k l = some v) : v ≠ -1 := by
  have := List.find?_some h; simpa using this

theorem once_snoc [DecidableEq α] (l : List α) (x : α) : once (l ++ [x]) = if x ∈ once l then once l else once l ++ [x] := by
  rw [once, List.foldl_append]; rfl

theorem pair_first {log : Log} (hok : LogOk log) {a b : Key} (hp : (a, b) ∈ pairs)
    (h : firstInt a (said log) = none) : firstInt b (said log) = none := by
  simp only [firstInt, List.find?_eq_none, List.mem_filterMap] at h ⊢
  rintro v ⟨s, hs, hv⟩
  have hs' := hok _ (said_mem hs)
  exfalso
  cases s with
  | int k v =>
    simp only [saysInt] at hv
    split at hv
    · rename_i hk; subst hk; exact (hs'.2 _ hp).2 rfl
    · simp at hv
  | pair c d v w =>
    have hcd : c = a := by
      obtain ⟨hcd, -⟩ := hs'
      simp only [saysInt] at hv
      simp only [pairs, List.mem_cons, Prod.mk.injEq, List.not_mem_nil, or_false] at hp hcd
      rcases hp with ⟨rfl, rfl⟩ | ⟨rfl, rfl⟩ | ⟨rfl, rfl⟩ | ⟨rfl, rfl⟩ <;>
        rcases hcd with ⟨rfl, rfl⟩ | ⟨rfl, rfl⟩ | ⟨rfl, rfl⟩ | ⟨rfl, rfl⟩ <;> simp at hv ⊢
    have := h v ⟨_, hs, by simp [saysInt, hcd]⟩
    exact hs'.2.1 (by simpa using this)
  | facility v =>
    simp only [saysInt] at hv
    simp only [pairs, List.mem_cons, Prod.mk.injEq, List.not_mem_nil, or_false] at hp
    rcases hp with ⟨rfl, rfl⟩ | ⟨rfl, rfl⟩ | ⟨rfl, rfl⟩ | ⟨rfl, rfl⟩ <;> simp at hv
  | mask v =>
    simp only [saysInt] at hv
    simp only [pairs, List.mem_cons, Prod.mk.injEq, List.not_mem_nil, or_false] at hp
    rcases hp with ⟨rfl, rfl⟩ | ⟨rfl, rfl⟩ | ⟨rfl, rfl⟩ | ⟨rfl, rfl⟩ <;> simp at hv
  | _ => simp [saysInt] at hv

theorem said_false (l : Log) (s : Setting) : said (l ++ [(false, s)]) = said l := by rw [said_snoc]; simp

theorem filterMap_quiet {f : Setting → Option α} {s : Setting} (h : f s = none) (l : Log) (a : Bool) :
    (said (l ++ [(a, s)])).filterMap f = (said l).filterMap f := by
  rw [said_snoc, List.filterMap_append]; cases a <;> simp [h]

theorem filterMap_said {f : Setting → Option α} {s : Setting} {x : α} (h : f s = some x) (l : Log) :
    (said (l ++ [(true, s)])).filterMap f = (said l).filterMap f ++ [x] := by
  rw [said_snoc, List.filterMap_append]; simp [h]

theorem map_quiet {f : Setting → Option α} {s : Setting} (h : f s = none) (l : Log) (a : Bool) :
    ((l ++ [(a, s)]).map (·.2)).filterMap f = (l.map (·.2)).filterMap f := by
  simp [List.filterMap_append, h]

theorem first_quiet {f : Setting → Option α} {s : Setting} (h : f s = none) (l : Log) (a : Bool) :
    first f (said (l ++ [(a, s)])) = first f (said l) := by
  rw [first, filterMap_quiet h]; rfl

theorem first_said {f : Setting → Option α} {s : Setting} {x : α} (h : f s = some x) (l : Log) :
    first f (said (l ++ [(true, s)])) = (first f (said l)).or (some x) := by
  rw [first, filterMap_said h, List.head?_append]; rfl

theorem firstInt_quiet {k : Key} {s : Setting} (h : saysInt k s = none) (l : Log) (a : Bool) :
    firstInt k (said (l ++ [(a, s)])) = firstInt k (said l) := by
  rw [firstInt, filterMap_quiet h]; rfl

theorem firstInt_said {k : Key} {s : Setting} {v : Int} (h : saysInt k s = some v) (l : Log) :
    firstInt k (said (l ++ [(true, s)])) = (firstInt k (said l)).or (if v = -1 then none else some v) := by
  rw [firstInt, filterMap_said h, List.find?_append]
  by_cases hv : v = -1 <;> simp [firstInt, hv]

/-- What a setting does not speak of stays. -/
theorem int_quiet {k : Key} {s : Setting} (h : saysInt k s = none) (hw : saysWay s = none) (l : Log) (a : Bool) :
    viewInt (l ++ [(a, s)]) k = viewInt l k := by
  simp only [viewInt, firstInt_quiet h, first_quiet hw, map_quiet h]
  simp only [firstInt, map_quiet h]

theorem str_quiet {k : Key} {s : Setting} (h : saysStr k s = none) (hw : saysWay s = none) (l : Log) (a : Bool) :
    viewStr (l ++ [(a, s)]) k = viewStr l k := by
  simp only [viewStr, first_quiet h, first_quiet hw]

theorem list_quiet {k : Key} {s : Setting} (h : saysList k s = none) (hf : saysForward k s = none) (he : saysEnv s = none)
    (l : Log) (a : Bool) : viewList (l ++ [(a, s)]) k = viewList l k := by
  simp only [viewList, first_quiet h, filterMap_quiet hf, filterMap_quiet he]

theorem files_quiet {k : Key} {s : Setting} (h : saysFile k s = none) (l : Log) (a : Bool) :
    (view (l ++ [(a, s)])).files k = (view l).files k := by
  simp only [view, filterMap_quiet h]

/-- Nothing that does not apply changes anything, but for two options. -/
theorem view_false {s : Setting} (hf : ∀ v, s ≠ .facility v) (hm : ∀ v, s ≠ .mask v) (l : Log) (hs : s.Ok) :
    view (l ++ [(false, s)]) = view l := by
  have hx : ∀ k, k = .logFacility ∨ k = .bindMask → saysInt k s = none := by
    intro k hk
    cases s with
    | facility v => exact absurd rfl (hf v)
    | mask v => exact absurd rfl (hm v)
    | int k' v =>
      have := hs.1
      simp only [saysInt]
      split
      · rename_i h; subst h; rcases hk with rfl | rfl <;> simp [ordinary] at this
      · rfl
    | pair a b v w =>
      have := hs.1
      simp only [pairs, List.mem_cons, Prod.mk.injEq, List.not_mem_nil, or_false] at this
      rcases this with ⟨rfl, rfl⟩ | ⟨rfl, rfl⟩ | ⟨rfl, rfl⟩ | ⟨rfl, rfl⟩ <;> rcases hk with rfl | rfl <;> simp [saysInt]
    | _ => rfl
  refine Opts.ext ?_ ?_ ?_ ?_
  · funext k
    simp only [view, viewInt, said_false]
    by_cases h1 : k = .logFacility
    · subst h1; simp only [firstInt, map_quiet (hx _ (.inl rfl))]
    · by_cases h2 : k = .bindMask
      · subst h2; simp only [map_quiet (hx _ (.inr rfl))]; simp
      · simp [h1, h2]
  · funext k; simp only [view, viewStr, said_false]
  · funext k; simp only [view, viewList, said_false]
  · funext k; simp only [view, said_false]

theorem ord_ne {k : Key} (h : ordinary k = true) : k ≠ .logFacility ∧ k ≠ .bindMask ∧ k ≠ .jumpPort := by
  simpa [ordinary, and_assoc] using h

theorem pairs_ord {a b : Key} (h : (a, b) ∈ pairs) : ordinary a = true ∧ ordinary b = true ∧ a ≠ b := by
  simp only [pairs, List.mem_cons, Prod.mk.injEq, List.not_mem_nil, or_false] at h
  rcases h with ⟨rfl, rfl⟩ | ⟨rfl, rfl⟩ | ⟨rfl, rfl⟩ | ⟨rfl, rfl⟩ <;> decide

theorem getD_neg {x : Option Int} (hx : ∀ v, x = some v → v ≠ -1) : x.getD (-1) = -1 ↔ x = none := by
  cases x with
  | none => simp
  | some v => simpa using hx v rfl

theorem upd_self (f : Key → α) (k : Key) : upd f k (f k) = f := by funext x; simp only [upd]; split <;> simp_all

theorem apply_int (log : Log) (k : Key) (v : Int) (hs : (Setting.int k v).Ok) :
    setInt true k v (view log) = view (log ++ [(true, .int k v)]) := by
  have hk := hs.1
  have hv : (view log).int k = (firstInt k (said log)).getD (-1) := by simp [view, viewInt, hk]
  have hn := getD_neg (fun v => firstInt_ne (k := k) (l := said log) (v := v))
  refine Opts.ext ?_ ?_ ?_ ?_
  · funext x
    by_cases hx : x = k
    · subst hx
      have hi : saysInt x (.int x v) = some v := by simp [saysInt]
      have : (view (log ++ [(true, .int x v)])).int x = ((firstInt x (said log)).or (if v = -1 then none else some v)).getD (-1) := by
        simp only [view, viewInt, hk, firstInt_said hi]; simp
      rw [this, setInt, hv]
      cases hc : firstInt x (said log) with
      | none => by_cases hv1 : v = -1 <;> simp [upd, hv1]
      | some w => simp [firstInt_ne hc, hv, hc]
    · have hi : saysInt x (.int k v) = none := by simp [saysInt, Ne.symm hx]
      have : (view (log ++ [(true, .int k v)])).int x = (view log).int x := int_quiet hi rfl log true
      rw [this, setInt]; split <;> simp [upd, hx]
  · funext x
    have : (view (log ++ [(true, .int k v)])).str x = (view log).str x := str_quiet rfl rfl log true
    rw [this, setInt]; split <;> rfl
  · funext x
    have : (view (log ++ [(true, .int k v)])).list x = (view log).list x := list_quiet rfl rfl rfl log true
    rw [this, setInt]; split <;> rfl
  · funext x
    rw [files_quiet rfl, setInt]; split <;> rfl

theorem apply_pair (log : Log) (a b : Key) (v w : Int) (hs : (Setting.pair a b v w).Ok) (hl : LogOk log) :
    (if true && decide ((view log).int a = -1) then { view log with int := upd (upd (view log).int a v) b w } else view log)
      = view (log ++ [(true, .pair a b v w)]) := by
  obtain ⟨hp, hv, hw⟩ := hs
  obtain ⟨ha, hb, hab⟩ := pairs_ord hp
  have hva : (view log).int a = (firstInt a (said log)).getD (-1) := by simp [view, viewInt, ha]
  have hvb : (view log).int b = (firstInt b (said log)).getD (-1) := by simp [view, viewInt, hb]
  have hia : saysInt a (.pair a b v w) = some v := by simp [saysInt]
  have hib : saysInt b (.pair a b v w) = some w := by simp [saysInt, hab]
  have h1 : (view (log ++ [(true, .pair a b v w)])).int a = ((firstInt a (said log)).or (some v)).getD (-1) := by
    simp only [view, viewInt, ha, firstInt_said hia, hv]; simp
  have h2 : (view (log ++ [(true, .pair a b v w)])).int b = ((firstInt b (said log)).or (some w)).getD (-1) := by
    simp only [view, viewInt, hb, firstInt_said hib, hw]; simp
  have hn : (view log).int a = -1 ↔ firstInt a (said log) = none := by
    rw [hva]; exact getD_neg fun v => firstInt_ne
  refine Opts.ext ?_ ?_ ?_ ?_
  · funext x
    by_cases hxa : x = a
    · subst hxa
      rw [h1]
      cases hc : firstInt x (said log) with
      | none => simp [hn.2 hc, upd, hab]
      | some u =>
        have : ¬ (view log).int x = -1 := fun h => by rw [hn.1 h] at hc; cases hc
        simp [this, hva, hc]
        rw [if_neg (by rw [hc] at hva; rw [hva] at this; simpa using this)]; simp [hva, hc]
    · by_cases hxb : x = b
      · subst hxb
        rw [h2]
        by_cases hc : (view log).int a = -1
        · have := pair_first hl hp (hn.1 hc)
          simp [hc, upd, this]
        · simp only [hc, decide_false, Bool.and_false, Bool.false_eq_true, if_false, hvb]
          cases hd : firstInt x (said log) with
          | some u => simp
          | none =>
            exfalso
            -- an earlier pair that set `a` has set `x` too
            cases hca : firstInt a (said log) with
            | none => exact hc (hn.2 hca)
            | some u =>
              have hm := List.mem_of_find?_eq_some hca
              obtain ⟨s, hsm, hsv⟩ := List.mem_filterMap.1 hm
              have hso := hl _ (said_mem hsm)
              cases s with
              | int k z =>
                simp only [saysInt] at hsv
                split at hsv
                · rename_i hk; subst hk; exact (hso.2 _ hp).1 rfl
                · cases hsv
              | pair c d y z =>
                have hcd : c = a ∧ d = x := by
                  have hcd := hso.1
                  simp only [saysInt] at hsv
                  simp only [pairs, List.mem_cons, Prod.mk.injEq, List.not_mem_nil, or_false] at hp hcd
                  rcases hp with ⟨rfl, rfl⟩ | ⟨rfl, rfl⟩ | ⟨rfl, rfl⟩ | ⟨rfl, rfl⟩ <;>
                    rcases hcd with ⟨rfl, rfl⟩ | ⟨rfl, rfl⟩ | ⟨rfl, rfl⟩ | ⟨rfl, rfl⟩ <;> simp at hsv ⊢
                rw [firstInt, List.find?_eq_none] at hd
                have := hd z (List.mem_filterMap.2 ⟨_, hsm, by simp [saysInt, hcd.1, hcd.2, hab]⟩)
                exact hso.2.2 (by simpa using this)
              | facility y => exact absurd (by simpa [saysInt] using hsv : a = .logFacility ∧ y = u).1 (ord_ne ha).1
              | mask y => exact absurd (by simpa [saysInt] using hsv : a = .bindMask ∧ y = u).1 (ord_ne ha).2.1
              | _ => cases hsv
      · have hi : saysInt x (.pair a b v w) = none := by simp [saysInt, Ne.symm hxa, Ne.symm hxb]
        have : (view (log ++ [(true, .pair a b v w)])).int x = (view log).int x := int_quiet hi rfl log true
        rw [this]; split <;> simp [upd, hxa, hxb]
  · funext x
    have : (view (log ++ [(true, .pair a b v w)])).str x = (view log).str x := str_quiet rfl rfl log true
    rw [this]; split <;> rfl
  · funext x
    have : (view (log ++ [(true, .pair a b v w)])).list x = (view log).list x := list_quiet rfl rfl rfl log true
    rw [this]; split <;> rfl
  · funext x
    rw [files_quiet rfl]; split <;> rfl

theorem apply_str (log : Log) (k : Key) (v : Bytes) (hk : ordinaryStr k = true) :
    setStr true k v (view log) = view (log ++ [(true, .str k v)]) := by
  have hv : (view log).str k = first (saysStr k) (said log) := by simp [view, viewStr, hk]
  refine Opts.ext ?_ ?_ ?_ ?_
  · funext x
    have : (view (log ++ [(true, .str k v)])).int x = (view log).int x := int_quiet rfl rfl log true
    rw [this, setStr]; split <;> rfl
  · funext x
    by_cases hx : x = k
    · subst hx
      have hi : saysStr x (.str x v) = some v := by simp [saysStr]
      have : (view (log ++ [(true, .str x v)])).str x = (first (saysStr x) (said log)).or (some v) := by
        simp only [view, viewStr, hk, first_said hi, if_true]
      rw [this, setStr, hv]
      cases hc : first (saysStr x) (said log) with
      | none => simp [upd]
      | some w => simp [hv, hc]
    · have hi : saysStr x (.str k v) = none := by simp [saysStr, Ne.symm hx]
      have : (view (log ++ [(true, .str k v)])).str x = (view log).str x := str_quiet hi rfl log true
      rw [this, setStr]; split <;> simp [upd, hx]
  · funext x
    have : (view (log ++ [(true, .str k v)])).list x = (view log).list x := list_quiet rfl rfl rfl log true
    rw [this, setStr]; split <;> rfl
  · funext x
    rw [files_quiet rfl, setStr]; split <;> rfl

theorem first_list_ne {k : Key} {l : List Setting} {x : List Bytes} (h : first (saysList k) l = some x) : x ≠ [] := by
  have := List.mem_of_mem_head? h
  obtain ⟨s, -, hs⟩ := List.mem_filterMap.1 this
  cases s <;> simp only [saysList] at hs <;> first | (split at hs <;> simp_all) | cases hs

/-- For both ways of giving a list. -/
theorem apply_list (log : Log) (s : Setting) (k : Key) (l : List Bytes)
    (hk : k ≠ .sendEnv ∧ k ≠ .localForward ∧ k ≠ .remoteForward)
    (hl : ∀ x, saysList x s = if k = x ∧ l ≠ [] then some l else none) (hi : ∀ x, saysInt x s = none)
    (hs : ∀ x, saysStr x s = none) (hf : ∀ x, saysFile x s = none) (hfw : ∀ x, saysForward x s = none)
    (he : saysEnv s = none) (hw : saysWay s = none) :
    setList true k l (view log) = view (log ++ [(true, s)]) := by
  have hv : (view log).list k = (first (saysList k) (said log)).getD [] := by
    simp [view, viewList, hk.1, hk.2.1, hk.2.2]
  refine Opts.ext ?_ ?_ ?_ ?_
  · funext x
    have : (view (log ++ [(true, s)])).int x = (view log).int x := int_quiet (hi x) hw log true
    rw [this, setList]; split <;> rfl
  · funext x
    have : (view (log ++ [(true, s)])).str x = (view log).str x := str_quiet (hs x) hw log true
    rw [this, setList]; split <;> rfl
  · funext x
    by_cases hx : k = x ∧ l ≠ []
    · obtain ⟨rfl, hne⟩ := hx
      have hi : saysList k s = some l := by simp [hl, hne]
      have : (view (log ++ [(true, s)])).list k = ((first (saysList k) (said log)).or (some l)).getD [] := by
        simp [view, viewList, hk.1, hk.2.1, hk.2.2, first_said hi]
      rw [this, setList, hv]
      cases hc : first (saysList k) (said log) with
      | none => simp [upd]
      | some w => simp [first_list_ne hc, hv, hc]
    · have hi : saysList x s = none := by rw [hl, if_neg hx]
      have : (view (log ++ [(true, s)])).list x = (view log).list x := list_quiet hi (hfw x) he log true
      rw [this, setList]
      split
      · rename_i h
        simp only [upd]
        split
        · rename_i hxk
          subst hxk
          have hl0 : l = [] := Decidable.byContradiction fun hc => hx ⟨rfl, hc⟩
          simp only [Bool.true_and, decide_eq_true_eq] at h
          rw [hl0, h]
        · rfl
      · rfl
  · funext x
    rw [files_quiet (hf x), setList]; split <;> rfl

theorem apply_file (log : Log) (k : Key) (f : Bytes) (u : Bool) (m : Nat) :
    (if (f, u) ∈ (view log).files k then view log
      else { view log with files := upd (view log).files k ((view log).files k ++ [(f, u)]) })
      = view (log ++ [(true, .addFile k f u m)]) := by
  refine Opts.ext ?_ ?_ ?_ ?_
  · funext x
    have : (view (log ++ [(true, .addFile k f u m)])).int x = (view log).int x := int_quiet rfl rfl log true
    rw [this]; split <;> rfl
  · funext x
    have : (view (log ++ [(true, .addFile k f u m)])).str x = (view log).str x := str_quiet rfl rfl log true
    rw [this]; split <;> rfl
  · funext x
    have : (view (log ++ [(true, .addFile k f u m)])).list x = (view log).list x := list_quiet rfl rfl rfl log true
    rw [this]; split <;> rfl
  · funext x
    by_cases hx : x = k
    · subst hx
      have hi : saysFile x (.addFile x f u m) = some (f, u) := by simp [saysFile]
      have : (view (log ++ [(true, .addFile x f u m)])).files x =
          if (f, u) ∈ (view log).files x then (view log).files x else (view log).files x ++ [(f, u)] := by
        simp only [view, filterMap_said hi, once_snoc]
        split <;> rename_i h <;> simp [h]
      rw [this]; split <;> simp [upd]
    · have hi : saysFile x (.addFile k f u m) = none := by simp [saysFile, Ne.symm hx]
      rw [files_quiet hi]; split <;> simp [upd, hx]

theorem apply_forward (log : Log) (k : Key) (f : Bytes) (hk : k = .localForward ∨ k = .remoteForward) :
    (if f ∈ (view log).list k then view log
      else { view log with list := upd (view log).list k ((view log).list k ++ [f]) })
      = view (log ++ [(true, .addForward k f)]) := by
  have hks : k ≠ .sendEnv := by rcases hk with rfl | rfl <;> decide
  refine Opts.ext ?_ ?_ ?_ ?_
  · funext x
    have : (view (log ++ [(true, .addForward k f)])).int x = (view log).int x := int_quiet rfl rfl log true
    rw [this]; split <;> rfl
  · funext x
    have : (view (log ++ [(true, .addForward k f)])).str x = (view log).str x := str_quiet rfl rfl log true
    rw [this]; split <;> rfl
  · funext x
    by_cases hx : x = k
    · subst hx
      have hi : saysForward x (.addForward x f) = some f := by simp [saysForward]
      have : (view (log ++ [(true, .addForward x f)])).list x =
          if f ∈ (view log).list x then (view log).list x else (view log).list x ++ [f] := by
        simp only [view, viewList, hks, hk, if_false, if_true, filterMap_said hi, once_snoc]
        split <;> rename_i h <;> simp [h]
      rw [this]; split <;> simp [upd]
    · have hi : saysForward x (.addForward k f) = none := by simp [saysForward, Ne.symm hx]
      have : (view (log ++ [(true, .addForward k f)])).list x = (view log).list x := list_quiet rfl hi rfl log true
      rw [this]; split <;> simp [upd, hx]
  · funext x
    rw [files_quiet rfl]; split <;> rfl

theorem apply_env (log : Log) (l : List Bytes) :
    ({ view log with list := upd (view log).list .sendEnv (l.foldl envArg ((view log).list .sendEnv)) } : Opts)
      = view (log ++ [(true, .env l)]) := by
  refine Opts.ext ?_ ?_ ?_ ?_
  · funext x; exact (int_quiet rfl rfl log true).symm
  · funext x; exact (str_quiet rfl rfl log true).symm
  · funext x
    by_cases hx : x = .sendEnv
    · subst hx
      have hi : saysEnv (.env l) = some l := rfl
      simp [upd, view, viewList, filterMap_said hi, List.flatten_append, List.foldl_append]
    · show upd (view log).list .sendEnv _ x = viewList _ x
      simp [upd, hx, viewList, first_quiet (show saysList x (.env l) = none from rfl),
        filterMap_quiet (show saysForward x (.env l) = none from rfl), view]
  · funext x; exact (files_quiet rfl log true).symm

theorem apply_facility (log : Log) (a : Bool) (v : Int) (hl : LogOk log) :
    setInt true .logFacility v (view log) = view (log ++ [(a, .facility v)]) := by
  have hv : (view log).int .logFacility = (firstInt .logFacility (log.map (·.2))).getD (-1) := by simp [view, viewInt, ordinary]
  refine Opts.ext ?_ ?_ ?_ ?_
  · funext x
    by_cases hx : x = .logFacility
    · subst hx
      have : (view (log ++ [(a, .facility v)])).int .logFacility =
          ((firstInt .logFacility (log.map (·.2))).or (if v = -1 then none else some v)).getD (-1) := by
        simp only [view, viewInt, ordinary, List.map_append, firstInt_append]
        by_cases hv1 : v = -1 <;> simp [firstInt, saysInt, hv1]
      rw [this, setInt, hv]
      cases hc : firstInt .logFacility (log.map (·.2)) with
      | none => by_cases hv1 : v = -1 <;> simp [upd, hv1]
      | some w => simp [firstInt_ne hc, hv, hc]
    · have hi : saysInt x (.facility v) = none := by simp [saysInt, hx]
      have : (view (log ++ [(a, .facility v)])).int x = (view log).int x := int_quiet hi rfl log a
      rw [this, setInt]; split <;> simp [upd, hx]
  · funext x
    have : (view (log ++ [(a, .facility v)])).str x = (view log).str x := str_quiet rfl rfl log a
    rw [this, setInt]; split <;> rfl
  · funext x
    have : (view (log ++ [(a, .facility v)])).list x = (view log).list x := list_quiet rfl rfl rfl log a
    rw [this, setInt]; split <;> rfl
  · funext x
    rw [files_quiet rfl, setInt]; split <;> rfl

theorem apply_mask (log : Log) (a : Bool) (v : Int) :
    ({ view log with int := upd (view log).int .bindMask v } : Opts) = view (log ++ [(a, .mask v)]) := by
  refine Opts.ext ?_ ?_ ?_ ?_
  · funext x
    by_cases hx : x = .bindMask
    · subst hx
      simp [upd, view, viewInt, ordinary, saysInt, List.filterMap_append]
    · have hi : saysInt x (.mask v) = none := by simp [saysInt, hx]
      have : (view (log ++ [(a, .mask v)])).int x = (view log).int x := int_quiet hi rfl log a
      rw [this]; simp [upd, hx]
  · funext x; exact (str_quiet rfl rfl log a).symm
  · funext x; exact (list_quiet rfl rfl rfl log a).symm
  · funext x; exact (files_quiet rfl log a).symm

/-- The keys of the way to the server. -/
theorem way_unset (log : Log) : ((view log).str .proxyCommand = none ∧ (view log).str .jumpHost = none) ↔
    first saysWay (said log) = none := by
  have h1 : (view log).str .proxyCommand = wayStr (first saysWay (said log)) .proxyCommand := by
    simp [view, viewStr, ordinaryStr]
  have h2 : (view log).str .jumpHost = wayStr (first saysWay (said log)) .jumpHost := by
    simp [view, viewStr, ordinaryStr]
  rw [h1, h2]
  cases first saysWay (said log) with
  | none => simp [wayStr]
  | some w => cases w <;> simp [wayStr]

theorem view_way (log : Log) (s : Setting) (w : Way) (hs : saysWay s = some w) (hi : ∀ x, saysInt x s = none)
    (hst : ∀ x, saysStr x s = none) (hf : ∀ x, saysFile x s = none) (hfw : ∀ x, saysForward x s = none)
    (hl : ∀ x, saysList x s = none) (he : saysEnv s = none) :
    view (log ++ [(true, s)]) = if first saysWay (said log) = none then
      { view log with
        int := upd (view log).int .jumpPort (wayInt (some w))
        str := fun k => if ordinaryStr k then (view log).str k else wayStr (some w) k } else view log := by
  have hint : ∀ x, ordinary x = true ∨ x = .logFacility ∨ x = .bindMask → viewInt (log ++ [(true, s)]) x = viewInt log x := by
    intro x hx
    simp only [viewInt, firstInt_quiet (hi x), map_quiet (hi x)]
    by_cases ho : ordinary x = true
    · simp [ho]
    · rcases hx with h | rfl | rfl
      · exact absurd h ho
      · simp only [firstInt, map_quiet (hi _)]; simp [ordinary]
      · simp [ordinary]
  have hstr : ∀ x, ordinaryStr x = true → viewStr (log ++ [(true, s)]) x = viewStr log x := by
    intro x hx; simp [viewStr, hx, first_quiet (hst x)]
  have hlist : ∀ x, viewList (log ++ [(true, s)]) x = viewList log x := fun x => list_quiet (hl x) (hfw x) he log true
  split
  · rename_i hn
    have hw : first saysWay (said (log ++ [(true, s)])) = some w := by rw [first_said hs, hn]; rfl
    refine Opts.ext ?_ ?_ ?_ ?_
    · funext x
      by_cases hx : x = .jumpPort
      · subst hx; simp [view, viewInt, ordinary, upd, hw]
      · have : ordinary x = true ∨ x = .logFacility ∨ x = .bindMask := by
          by_cases h1 : x = .logFacility
          · exact .inr (.inl h1)
          · by_cases h2 : x = .bindMask
            · exact .inr (.inr h2)
            · exact .inl (by simp [ordinary, h1, h2, hx])
        show viewInt _ x = upd (viewInt log) _ _ x
        rw [hint x this]; simp [upd, hx]
    · funext x
      show viewStr _ x = if ordinaryStr x then viewStr log x else _
      split
      · rename_i ho; exact hstr x ho
      · rename_i ho; simp [viewStr, ho, hw]
    · funext x; exact hlist x
    · funext x; exact files_quiet (hf x) log true
  · rename_i hn
    have hw : first saysWay (said (log ++ [(true, s)])) = first saysWay (said log) := by
      rw [first_said hs]; cases h : first saysWay (said log) with
      | none => exact absurd h hn
      | some y => rfl
    refine Opts.ext ?_ ?_ ?_ ?_
    · funext x
      simp only [view, viewInt, firstInt_quiet (hi x), map_quiet (hi x), hw]
      simp only [firstInt, map_quiet (hi x)]
    · funext x; simp only [view, viewStr, first_quiet (hst x), hw]
    · funext x; exact hlist x
    · funext x; exact files_quiet (hf x) log true

theorem ordStr_iff (k : Key) : ordinaryStr k = false ↔ k = .proxyCommand ∨ k = .jumpHost ∨ k = .jumpUser ∨ k = .jumpExtra := by
  cases k <;> decide

theorem viewStr_way (log : Log) (k : Key) (h : ordinaryStr k = false) : (view log).str k = wayStr (first saysWay (said log)) k := by
  simp [view, viewStr, h]

theorem viewInt_port (log : Log) : (view log).int .jumpPort = wayInt (first saysWay (said log)) := by
  simp [view, viewInt, ordinary]

theorem apply_proxyCommand (log : Log) (c : Bytes) :
    (if (view log).str .jumpHost = none then setStr true .proxyCommand c (view log) else view log)
      = view (log ++ [(true, .proxyCommand c)]) := by
  rw [view_way log (.proxyCommand c) (.command c) rfl (fun _ => rfl) (fun _ => rfl) (fun _ => rfl) (fun _ => rfl) (fun _ => rfl) rfl]
  have hu := way_unset log
  by_cases h : first saysWay (said log) = none
  · rw [if_pos h, if_pos (hu.2 h).2, setStr, if_pos (by simp [(hu.2 h).1])]
    refine Opts.ext ?_ ?_ rfl rfl
    · funext x
      by_cases hx : x = .jumpPort
      · subst hx; simp [upd, viewInt_port, h, wayInt]
      · simp [upd, hx]
    · funext x
      show upd _ _ _ x = if ordinaryStr x then _ else _
      cases ho : ordinaryStr x with
      | true =>
        have : x ≠ .proxyCommand := fun hx => by subst hx; simp [ordinaryStr] at ho
        simp [upd, this]
      | false =>
        rcases (ordStr_iff x).1 ho with rfl | rfl | rfl | rfl <;> simp [upd, wayStr, viewStr_way, ordinaryStr, h]
  · rw [if_neg h]
    split
    · rename_i hj
      have hp : (view log).str .proxyCommand ≠ none := fun hp => h (hu.1 ⟨hp, hj⟩)
      rw [setStr, if_neg (by simp [hp])]
    · rfl

theorem apply_noJump (log : Log) :
    (if true && decide ((view log).str .proxyCommand = none) && decide ((view log).str .jumpHost = none) then
      ({ view log with str := upd (view log).str .jumpHost (some b!"none"), int := upd (view log).int .jumpPort 0 } : Opts)
      else view log) = view (log ++ [(true, .noJump)]) := by
  rw [view_way log .noJump .noJump rfl (fun _ => rfl) (fun _ => rfl) (fun _ => rfl) (fun _ => rfl) (fun _ => rfl) rfl]
  have hu := way_unset log
  by_cases h : first saysWay (said log) = none
  · rw [if_pos h, if_pos (by simp [hu.2 h])]
    refine Opts.ext rfl ?_ rfl rfl
    funext x
    show upd _ _ _ x = if ordinaryStr x then _ else _
    cases ho : ordinaryStr x with
    | true =>
      have : x ≠ .jumpHost := fun hx => by subst hx; simp [ordinaryStr] at ho
      simp [upd, this]
    | false => rcases (ordStr_iff x).1 ho with rfl | rfl | rfl | rfl <;> simp [upd, wayStr, viewStr_way, ordinaryStr, h]
  · rw [if_neg h, if_neg]
    intro hc
    simp only [Bool.true_and, Bool.and_eq_true, decide_eq_true_eq] at hc
    exact h (hu.1 hc)

theorem apply_jump (log : Log) (hst : Bytes) (u : Option Bytes) (p : Int) (e : Option Bytes) :
    apply true (.jump hst u p e) (view log) = some (view (log ++ [(true, .jump hst u p e)])) := by
  rw [view_way log (.jump hst u p e) (.jump hst u p e) rfl (fun _ => rfl) (fun _ => rfl) (fun _ => rfl) (fun _ => rfl)
    (fun _ => rfl) rfl]
  have hu := way_unset log
  simp only [apply, Option.some.injEq]
  by_cases h : first saysWay (said log) = none
  · rw [if_pos h, if_pos (by simp [hu.2 h])]
    refine Opts.ext rfl ?_ rfl rfl
    funext x
    show upd _ _ _ x = if ordinaryStr x then _ else _
    cases ho : ordinaryStr x with
    | true =>
      have : x ≠ .jumpHost ∧ x ≠ .proxyCommand ∧ x ≠ .jumpUser ∧ x ≠ .jumpExtra := by
        refine ⟨?_, ?_, ?_, ?_⟩ <;> (intro hx; subst hx; simp [ordinaryStr] at ho)
      simp [upd, this]
    | false =>
      rcases (ordStr_iff x).1 ho with rfl | rfl | rfl | rfl <;> simp [upd, wayStr, viewStr_way, ordinaryStr, h]
      cases e <;> rfl
  · rw [if_neg h, if_neg]
    intro hc
    simp only [Bool.true_and, Bool.and_eq_true, decide_eq_true_eq] at hc
    exact h (hu.1 hc)

/-- The options after a setting are those of the log with it. -/
theorem apply_view {log : Log} {a : Bool} {s : Setting} {o : Opts} (hs : s.Ok) (hl : LogOk log)
    (h : apply a s (view log) = some o) : o = view (log ++ [(a, s)]) := by
  cases s with
  | facility v => simp only [apply, Option.some.injEq] at h; rw [← h]; exact apply_facility log a v hl
  | mask v => simp only [apply, Option.some.injEq] at h; rw [← h]; exact apply_mask log a v
  | _ =>
    cases a with
    | false =>
      rw [view_false (by simp) (by simp) log hs]
      simp [apply, setInt, setStr, setList] at h
      exact h.symm
    | true =>
      first
      | (rename_i k v; simp only [apply, Option.some.injEq] at h; rw [← h]; exact apply_int log k v hs)
      | (rename_i a b v w; simp only [apply, Option.some.injEq] at h; rw [← h]; exact apply_pair log a b v w hs hl)
      | (rename_i k v; simp only [apply, Option.some.injEq] at h; rw [← h]; exact apply_str log k v hs)
      | (rename_i k v; simp only [apply, Option.some.injEq] at h; rw [← h]
         exact apply_list log _ k v hs (fun _ => rfl) (fun _ => rfl) (fun _ => rfl) (fun _ => rfl) (fun _ => rfl) rfl rfl)
      | (rename_i k v m; simp only [apply] at h; split at h
         · cases h
         · simp only [Option.some.injEq] at h; rw [← h]
           exact apply_list log _ k v hs (fun _ => rfl) (fun _ => rfl) (fun _ => rfl) (fun _ => rfl) (fun _ => rfl) rfl rfl)
      | (rename_i k f u m; simp only [apply, if_true] at h; split at h
         · cases h
         · simp only [Option.some.injEq] at h; rw [← h]; exact apply_file log k f u m)
      | (rename_i k f; simp only [apply, if_true, Option.some.injEq] at h; rw [← h]; exact apply_forward log k f hs)
      | (rename_i l; simp only [apply, if_true, Option.some.injEq] at h; rw [← h]; exact apply_env log l)
      | (rename_i c; simp only [apply, Option.some.injEq] at h; rw [← h]; exact apply_proxyCommand log c)
      | (simp only [apply, Option.some.injEq] at h; rw [← h]; exact apply_noJump log)
      | (rw [apply_jump, Option.some.injEq] at h; exact h.symm)

end Verif.Conf
