/-
C32, C33: what the agent promises about the keys it holds.
-/
import Verif.Agent.Inv
import Verif.Agent.Encode

namespace Verif.Agent
open Verif Wire Match

/-- The handlers, one by one. -/
theorem dispatch_cases {w : World} {st : State} {now c : Nat} {ty : UInt8} {req : Bytes} {a : Ans} {q : Option (State × Out)}
    (h : dispatch w st now c ty req a = q) :
    (ty = 22 ∧ processLock w st true req a = q) ∨ (ty = 23 ∧ processLock w st false req a = q) ∨
    (ty = 9 ∧ q = some (removeAll st, say true)) ∨ (ty = 13 ∧ q = some (st, processSign w st (st.conns c) req a)) ∨
    (ty = 11 ∧ q = some (st, ⟨.keys (listed w st (st.conns c)), none⟩)) ∨ (ty = 17 ∧ q = some (processAdd w st (st.conns c) now req)) ∨
    (ty = 25 ∧ q = some (processAdd w st (st.conns c) now req)) ∨ (ty = 18 ∧ processRemove w st (st.conns c) req = q) ∨
    (ty = 19 ∧ q = some (removeAll st, say true)) ∨ (ty = 20 ∧ q = some (processAddP11 w st (st.conns c) now req a)) ∨
    (ty = 26 ∧ q = some (processAddP11 w st (st.conns c) now req a)) ∨ (ty = 21 ∧ q = some (processDelP11 w st req a)) ∨
    (ty = 27 ∧ q = some (processExt w st c req)) ∨ q = some (st, say false) := by
  subst h
  unfold dispatch
  by_cases e22 : ty = 22
  · rw [if_pos e22]
    exact Or.inl ⟨e22, rfl⟩
  rw [if_neg e22]
  by_cases e23 : ty = 23
  · rw [if_pos e23]
    exact Or.inr (Or.inl ⟨e23, rfl⟩)
  rw [if_neg e23]
  by_cases e9 : ty = 9
  · rw [if_pos e9]
    exact Or.inr (Or.inr (Or.inl ⟨e9, rfl⟩))
  rw [if_neg e9]
  by_cases e13 : ty = 13
  · rw [if_pos e13]
    exact Or.inr (Or.inr (Or.inr (Or.inl ⟨e13, rfl⟩)))
  rw [if_neg e13]
  by_cases e11 : ty = 11
  · rw [if_pos e11]
    exact Or.inr (Or.inr (Or.inr (Or.inr (Or.inl ⟨e11, rfl⟩))))
  rw [if_neg e11]
  by_cases e17 : ty = 17
  · rw [if_pos e17]
    exact Or.inr (Or.inr (Or.inr (Or.inr (Or.inr (Or.inl ⟨e17, rfl⟩)))))
  rw [if_neg e17]
  by_cases e25 : ty = 25
  · rw [if_pos e25]
    exact Or.inr (Or.inr (Or.inr (Or.inr (Or.inr (Or.inr (Or.inl ⟨e25, rfl⟩))))))
  rw [if_neg e25]
  by_cases e18 : ty = 18
  · rw [if_pos e18]
    exact Or.inr (Or.inr (Or.inr (Or.inr (Or.inr (Or.inr (Or.inr (Or.inl ⟨e18, rfl⟩)))))))
  rw [if_neg e18]
  by_cases e19 : ty = 19
  · rw [if_pos e19]
    exact Or.inr (Or.inr (Or.inr (Or.inr (Or.inr (Or.inr (Or.inr (Or.inr (Or.inl ⟨e19, rfl⟩))))))))
  rw [if_neg e19]
  by_cases e20 : ty = 20
  · rw [if_pos e20]
    exact Or.inr (Or.inr (Or.inr (Or.inr (Or.inr (Or.inr (Or.inr (Or.inr (Or.inr (Or.inl ⟨e20, rfl⟩)))))))))
  rw [if_neg e20]
  by_cases e26 : ty = 26
  · rw [if_pos e26]
    exact Or.inr (Or.inr (Or.inr (Or.inr (Or.inr (Or.inr (Or.inr (Or.inr (Or.inr (Or.inr (Or.inl ⟨e26, rfl⟩))))))))))
  rw [if_neg e26]
  by_cases e21 : ty = 21
  · rw [if_pos e21]
    exact Or.inr (Or.inr (Or.inr (Or.inr (Or.inr (Or.inr (Or.inr (Or.inr (Or.inr (Or.inr (Or.inr (Or.inl ⟨e21, rfl⟩)))))))))))
  rw [if_neg e21]
  by_cases e27 : ty = 27
  · rw [if_pos e27]
    exact Or.inr (Or.inr (Or.inr (Or.inr (Or.inr (Or.inr (Or.inr (Or.inr (Or.inr (Or.inr (Or.inr (Or.inr (Or.inl ⟨e27, rfl⟩))))))))))))
  rw [if_neg e27]
  exact Or.inr (Or.inr (Or.inr (Or.inr (Or.inr (Or.inr (Or.inr (Or.inr (Or.inr (Or.inr (Or.inr (Or.inr (Or.inr rfl))))))))))))

/-! ### Totality -/

/-- C32.  The agent dies only of a lock or unlock request: when its password cannot be read, or the hash function
fails. -/
theorem C32_total {w : World} {h : List (Ev × Option Out)} {s : State} {t : Nat} (hh : Hist w h s t) {ev : Ev} (hs : step w s ev = none) :
    ∃ now c ty req a, ev = .msg now c ty req a ∧ (ty = 22 ∨ ty = 23) ∧
      (readPw req = none ∨ ∃ pw salt, readPw req = some pw ∧ w.kdf pw salt = none) := by
  have hi := hist_ainv hh
  cases ev with
  | round now => simp [step] at hs
  | drop => simp [step] at hs
  | conn c => simp [step] at hs
  | msg now c ty req a =>
    refine ⟨now, c, ty, req, a, rfl, ?_⟩
    simp only [step, Option.map_eq_none_iff] at hs
    have lock : ∀ b, processLock w s b req a = none → readPw req = none ∨ ∃ pw salt, readPw req = some pw ∧ w.kdf pw salt = none := by
      intro b hb
      unfold processLock at hb
      split at hb
      · rename_i hp; exact Or.inl hp
      · rename_i pw hp
        refine Or.inr ⟨pw, ?_⟩
        split at hb
        · cases hb
        split at hb
        · split at hb
          · rename_i hk; exact ⟨_, hp, hk⟩
          · split at hb <;> cases hb
        split at hb
        · split at hb
          · rename_i hk; exact ⟨_, hp, hk⟩
          · cases hb
        · cases hb
    unfold process at hs
    split at hs
    · split at hs <;> cases hs
    · obtain ⟨q, h1, _⟩ := processRemove_tab (w := w) hi.tab (e := s.conns c) (req := req)
      rcases dispatch_cases hs with ⟨e, h⟩ | ⟨e, h⟩ | ⟨_, h⟩ | ⟨_, h⟩ | ⟨_, h⟩ | ⟨_, h⟩ | ⟨_, h⟩ | ⟨_, h⟩ | ⟨_, h⟩ | ⟨_, h⟩ | ⟨_, h⟩ |
        ⟨_, h⟩ | ⟨_, h⟩ | h
      · exact ⟨Or.inl e, lock _ h⟩
      · exact ⟨Or.inr e, lock _ h⟩
      all_goals first | (cases h; done) | (rw [h1] at h; cases h)

/-- C32.  At any time the agent holds at most one entry per key, and its counter is the number of entries. -/
theorem C32_table {w : World} {h : List (Ev × Option Out)} {s : State} {t : Nat} (hh : Hist w h s t) :
    s.ids.Pairwise (fun x y => x.key ≠ y.key) ∧ s.n = s.ids.length := by
  have hi := hist_ainv hh
  exact ⟨List.pairwise_map.1 hi.tab.keys, hi.tab.n⟩

/-! ### The lock -/

/-- C32.  The agent is locked exactly when the last successful lock request was not followed by a successful unlock
request. -/
theorem C32_lock_state {w : World} {h : List (Ev × Option Out)} {s : State} {t : Nat} (hh : Hist w h s t) :
    s.locked = (lockedBy h).isSome := by
  have hi := (hist_ainv hh).lock
  cases hl : lockedBy h with
  | none => rw [hl] at hi; exact hi
  | some p => rw [hl] at hi; exact hi.1

/-- C32.  While the agent is locked, every request but unlock is answered with an empty list or failure, uses no key
and changes nothing. -/
theorem C32_locked {w : World} {h : List (Ev × Option Out)} {s : State} {t : Nat} (hh : Hist w h s t) (hl : (lockedBy h).isSome = true)
    {now c : Nat} {ty : UInt8} (hty : ty ≠ 23) {req : Bytes} {a : Ans} :
    step w s (.msg now c ty req a) = some (s, some ⟨if ty = 11 then .keys [] else .status false, none⟩) := by
  have := C32_lock_state hh
  simp only [step, process]
  rw [if_pos ⟨this.trans hl, hty⟩]
  split <;> simp [say]

/-- C32.  An unlock request while locked: it succeeds exactly when the hash of its password, not empty, equals the hash of
the password of the lock, both with the salt of the lock; nothing but the lock changes. -/
theorem C32_unlock {w : World} {h : List (Ev × Option Out)} {s : State} {t : Nat} (hh : Hist w h s t) {p salt : Bytes}
    (hl : lockedBy h = some (p, salt)) {now c : Nat} {req pw : Bytes} {a : Ans} (hr : readPw req = some pw) {s' : State} {o : Option Out}
    (hs : step w s (.msg now c 23 req a) = some (s', o)) :
    (o = some (say true) ∨ o = some (say false)) ∧ (o = some (say true) ↔ pw ≠ [] ∧ w.kdf pw salt = w.kdf p salt) ∧
      s'.ids = s.ids ∧ s'.conns = s.conns ∧ (s'.locked = false ↔ o = some (say true)) := by
  have hi := (hist_ainv hh).lock
  rw [hl] at hi
  obtain ⟨l1, l2, l3, l4⟩ := hi
  simp only [step, process] at hs
  rw [if_neg (by simp)] at hs
  simp only [dispatch, show ((23 : UInt8) = 22) = False by decide, if_false, if_true] at hs
  unfold processLock at hs
  rw [hr] at hs
  simp only [l1, true_and, if_true, l2] at hs
  by_cases hp : pw = []
  · rw [if_pos hp] at hs
    simp only [Option.map_some, Option.some.injEq, Prod.mk.injEq] at hs
    obtain ⟨rfl, rfl⟩ := hs
    simp [hp, say, l1]
  · rw [if_neg hp] at hs
    cases hk : w.kdf pw salt with
    | none => rw [hk] at hs; simp at hs
    | some hash =>
      rw [hk] at hs
      simp only at hs
      split at hs
      · rename_i e
        simp only [Option.map_some, Option.some.injEq, Prod.mk.injEq] at hs
        obtain ⟨rfl, rfl⟩ := hs
        simp [hp, say, l4, e]
      · rename_i e
        simp only [Option.map_some, Option.some.injEq, Prod.mk.injEq] at hs
        obtain ⟨rfl, rfl⟩ := hs
        simp [hp, say, l4, e, l1]

/-- C32.  A lock request to an agent that is not locked: with a password that is not empty it succeeds, and the agent is locked
with that password. -/
theorem C32_lock {w : World} {h : List (Ev × Option Out)} {s : State} {t : Nat} (hh : Hist w h s t)
    (hl : lockedBy h = none) {now c : Nat} {req pw hash : Bytes} {a : Ans} (hr : readPw req = some pw) (hne : pw ≠ [])
    (hk : w.kdf pw a.salt = some hash) :
    ∃ s', step w s (.msg now c 22 req a) = some (s', some (say true)) ∧ s'.ids = s.ids ∧ s'.conns = s.conns ∧
      lockedBy (h ++ [(.msg now c 22 req a, some (say true))]) = some (pw, a.salt) := by
  have hi := (hist_ainv hh).lock
  rw [hl] at hi
  have hi' : s.locked = false := hi
  simp only [step, process]
  rw [if_neg (by simp [hi'])]
  simp only [dispatch, if_true]
  unfold processLock
  rw [hr]
  simp only [hne, if_false, hi', Bool.false_eq_true, false_and, true_and, if_true, hk]
  refine ⟨_, rfl, rfl, rfl, ?_⟩
  rw [lockedBy_append]
  simp [lockStep, say, hr]

/-! ### Use of keys -/

theorem use_sign {w : World} {s : State} {ev : Ev} {s' : State} {o : Out} {u : Use} (hs : step w s ev = some (s', some o))
    (hu : o.use = some u) :
    ∃ now c req a, ev = .msg now c 13 req a ∧ s.locked = false ∧ s' = s ∧ ∃ key data, parseSign w req = some (key, data) ∧
      lookup key s.ids = some u.id ∧ signWith w u.id (s.conns c) key data a = o := by
  cases ev with
  | round now => simp [step] at hs
  | drop => simp [step] at hs
  | conn c => simp [step] at hs
  | msg now c ty req a =>
    simp only [step, Option.map_eq_some_iff] at hs
    obtain ⟨q, hq, he⟩ := hs
    simp only [Prod.mk.injEq, Option.some.injEq] at he
    obtain ⟨rfl, rfl⟩ := he
    unfold process at hq
    split at hq
    · split at hq <;> (cases hq; simp [say] at hu)
    rename_i hlk
    have nolock : ∀ b, processLock w s b req a = some q → False := by
      intro b hb
      unfold processLock at hb
      repeat' split at hb
      all_goals first | (cases hb; simp [say] at hu) | cases hb
    have norem : processRemove w s (s.conns c) req = some q → False := by
      intro hb
      unfold processRemove at hb
      repeat' split at hb
      all_goals first | (cases hb; simp [say] at hu) | cases hb
    have noadd : (processAdd w s (s.conns c) now req).2.use = none := by
      unfold processAdd
      split
      · rfl
      · unfold place
        repeat' split
        all_goals rfl
    have nop11 : (processAddP11 w s (s.conns c) now req a).2.use = none := by
      unfold processAddP11
      split <;> rfl
    have nodel : (processDelP11 w s req a).2.use = none := by
      unfold processDelP11
      split <;> rfl
    have noext : (processExt w s c req).2.use = none := by
      unfold processExt
      split
      · rfl
      · split <;> rfl
    rcases dispatch_cases hq with ⟨e, h⟩ | ⟨e, h⟩ | ⟨e, hq⟩ | ⟨e, hq⟩ | ⟨e, hq⟩ | ⟨e, hq⟩ | ⟨e, hq⟩ | ⟨e, h⟩ | ⟨e, hq⟩ | ⟨e, hq⟩ | ⟨e, hq⟩ |
        ⟨e, hq⟩ | ⟨e, hq⟩ | hq
    · exact (nolock _ h).elim
    · exact (nolock _ h).elim
    · cases hq; simp [say] at hu
    · cases hq
      subst e
      have hl : s.locked = false := by
        cases hb : s.locked with
        | false => rfl
        | true => exact absurd ⟨hb, by decide⟩ hlk
      refine ⟨now, c, req, a, rfl, hl, rfl, ?_⟩
      unfold processSign at hu ⊢
      split at hu
      · simp [say] at hu
      · rename_i key data hp
        split at hu
        · simp [say] at hu
        · rename_i x hx
          have hid : u.id = x := by
            unfold signWith at hu
            split at hu
            · simp [say] at hu
            split at hu
            · simp [say] at hu
            split at hu
            · simp [say] at hu
            unfold signOut at hu
            split at hu <;> (cases hu; rfl)
          rw [hid]
          exact ⟨key, data, hp, hx, by simp [hp, hx]⟩
    · cases hq; simp at hu
    · cases hq; rw [noadd] at hu; cases hu
    · cases hq; rw [noadd] at hu; cases hu
    · exact (norem h).elim
    · cases hq; simp [say] at hu
    · cases hq; rw [nop11] at hu; cases hu
    · cases hq; rw [nop11] at hu; cases hu
    · cases hq; rw [nodel] at hu; cases hu
    · cases hq; rw [noext] at hu; cases hu
    · cases hq; simp [say] at hu

theorem parseSign_some {w : World} {req : Bytes} {key : Key} {data : Bytes} (h : parseSign w req = some (key, data)) :
    ∃ blob rest, req = str blob ++ str data ++ rest ∧ w.readPub blob = some key := by
  unfold parseSign at h
  simp only [Option.bind_eq_bind, Option.bind_eq_some_iff] at h
  obtain ⟨k, h1, d, h2, f, h3, h4⟩ := h
  cases h4
  obtain ⟨blob, e1, e2, _⟩ := readKey_some (k := k.1) (r := k.2) h1
  obtain ⟨e3, _⟩ := getStr_some (v := d.1) (rest := d.2) h2
  exact ⟨blob, d.2, by rw [e1, e3]; simp, e2⟩

theorem signWith_use {w : World} {x : Ident} {e : Conn} {key : Key} {data : Bytes} {a : Ans} {u : Use} (h : (signWith w x e key data a).use = some u) :
    destOk w x e key data = true ∧ (x.confirm = true → a.confirm = true) ∧ u = ⟨x, data, x.confirm && a.confirm⟩ := by
  unfold signWith at h
  split at h
  · simp [say] at h
  split at h
  · simp [say] at h
  split at h
  · simp [say] at h
  rename_i h1 h2 _
  refine ⟨by simpa using h1, ?_, ?_⟩
  · intro hc
    cases ha : a.confirm with
    | true => rfl
    | false => exact absurd ⟨hc, ha⟩ h2
  · unfold signOut at h
    split at h <;> (cases h; rfl)

/-- C32.  A key is used only to answer a sign request, while the agent is not locked; the request names the key, which is in
the table at that moment, and carries the data that is signed; and if the key was added with confirmation, the user agreed to this
use. -/
theorem C32_use {w : World} {h : List (Ev × Option Out)} {s : State} {t : Nat} (hh : Hist w h s t) {ev : Ev} {s' : State} {o : Out}
    {u : Use} (hs : step w s ev = some (s', some o)) (hu : o.use = some u) :
    lockedBy h = none ∧ u.id ∈ s.ids ∧ (u.id.confirm = true → u.approved = true) ∧
      ∃ now c req a, ev = .msg now c 13 req a ∧ (u.approved = true → a.confirm = true) ∧
        ∃ blob rest, req = str blob ++ str u.data ++ rest ∧ w.readPub blob = some u.id.key := by
  obtain ⟨now, c, req, a, e, hl, _, key, data, hp, hx, rfl⟩ := use_sign hs hu
  obtain ⟨_, h2, h3⟩ := signWith_use hu
  obtain ⟨hm, hk⟩ := lookup_some hx
  refine ⟨?_, hm, ?_, now, c, req, a, e, ?_, ?_⟩
  · have := C32_lock_state hh
    rw [hl] at this
    cases hb : lockedBy h with
    | none => rfl
    | some _ => rw [hb] at this; cases this
  · intro hc; rw [h3]; simp [hc, h2 hc]
  · intro hc; rw [h3] at hc; simp at hc; exact hc.2
  · have hd : u.data = data := by rw [h3]
    rw [hk, hd]
    exact parseSign_some hp

/-- C32.  Every signature in an answer comes from such a use. -/
theorem C32_signature {w : World} {s : State} {ev : Ev} {s' : State} {o : Out} {sig : Bytes} (hs : step w s ev = some (s', some o))
    (hr : o.reply = .signature sig) : ∃ u now c req a, o.use = some u ∧ ev = .msg now c 13 req a ∧ a.sign = some sig := by
  cases ev with
  | round now => simp [step] at hs
  | drop => simp [step] at hs
  | conn c => simp [step] at hs
  | msg now c ty req a =>
    simp only [step, Option.map_eq_some_iff] at hs
    obtain ⟨q, hq, he⟩ := hs
    simp only [Prod.mk.injEq, Option.some.injEq] at he
    obtain ⟨rfl, rfl⟩ := he
    unfold process at hq
    split at hq
    · split at hq <;> (cases hq; simp [say] at hr)
    have nolock : ∀ b, processLock w s b req a = some q → False := by
      intro b hb
      unfold processLock at hb
      repeat' split at hb
      all_goals first | (cases hb; simp [say] at hr) | cases hb
    have norem : processRemove w s (s.conns c) req = some q → False := by
      intro hb
      unfold processRemove at hb
      repeat' split at hb
      all_goals first | (cases hb; simp [say] at hr) | cases hb
    have noadd : ∃ b, (processAdd w s (s.conns c) now req).2.reply = .status b := by
      unfold processAdd
      split
      · exact ⟨_, rfl⟩
      · unfold place
        repeat' split
        all_goals exact ⟨_, rfl⟩
    have nop11 : ∃ b, (processAddP11 w s (s.conns c) now req a).2.reply = .status b := by
      unfold processAddP11
      split <;> exact ⟨_, rfl⟩
    have nodel : ∃ b, (processDelP11 w s req a).2.reply = .status b := by
      unfold processDelP11
      split <;> exact ⟨_, rfl⟩
    have noext : ∃ b, (processExt w s c req).2.reply = .status b := by
      unfold processExt
      split
      · exact ⟨_, rfl⟩
      · split <;> exact ⟨_, rfl⟩
    rcases dispatch_cases hq with ⟨e, h⟩ | ⟨e, h⟩ | ⟨e, hq⟩ | ⟨e, hq⟩ | ⟨e, hq⟩ | ⟨e, hq⟩ | ⟨e, hq⟩ | ⟨e, h⟩ | ⟨e, hq⟩ | ⟨e, hq⟩ | ⟨e, hq⟩ |
        ⟨e, hq⟩ | ⟨e, hq⟩ | hq
    · exact (nolock _ h).elim
    · exact (nolock _ h).elim
    · cases hq; simp [say] at hr
    · cases hq
      subst e
      unfold processSign at hr ⊢
      split at hr
      · simp [say] at hr
      · split at hr
        · simp [say] at hr
        · rename_i hx
          simp only [hx]
          unfold signWith at hr ⊢
          split at hr
          · simp [say] at hr
          rename_i c1
          rw [if_neg c1]
          split at hr
          · simp [say] at hr
          rename_i c2
          rw [if_neg c2]
          split at hr
          · simp [say] at hr
          rename_i c3
          rw [if_neg c3]
          unfold signOut at hr ⊢
          cases hsig : a.sign with
          | none => rw [hsig] at hr; simp at hr
          | some sg =>
            rw [hsig] at hr
            simp only [Reply.signature.injEq] at hr
            subst hr
            exact ⟨_, now, c, req, a, rfl, rfl, hsig⟩
    · cases hq; simp at hr
    · cases hq; obtain ⟨b, hb⟩ := noadd; rw [hb] at hr; cases hr
    · cases hq; obtain ⟨b, hb⟩ := noadd; rw [hb] at hr; cases hr
    · exact (norem h).elim
    · cases hq; simp [say] at hr
    · cases hq; obtain ⟨b, hb⟩ := nop11; rw [hb] at hr; cases hr
    · cases hq; obtain ⟨b, hb⟩ := nop11; rw [hb] at hr; cases hr
    · cases hq; obtain ⟨b, hb⟩ := nodel; rw [hb] at hr; cases hr
    · cases hq; obtain ⟨b, hb⟩ := noext; rw [hb] at hr; cases hr
    · cases hq; simp [say] at hr

/-- C32, in part.  A key that is used had not expired when the last round of the agent's loop began.  What is missing: it may
expire during the round, see `C32_expired_false`. -/
theorem C32_expired_partial {w : World} {h : List (Ev × Option Out)} {s : State} {t : Nat} (hh : Hist w h s t) {ev : Ev} {s' : State}
    {o : Out} {u : Use} (hs : step w s ev = some (s', some o)) (hu : o.use = some u) : u.id.death = 0 ∨ lastRound h ≤ u.id.death :=
  (hist_ainv hh).tab.death _ (C32_use hh hs hu).2.1

/-! ### The table as a map -/

/-- C32.  A round removes exactly the keys whose time has come. -/
theorem C32_round (w : World) (s : State) (now : Nat) : ∃ s', step w s (.round now) = some (s', none) ∧
    (∀ x, x ∈ s'.ids ↔ x ∈ s.ids ∧ (x.death = 0 ∨ now < x.death)) ∧ s'.locked = s.locked ∧ s'.conns = s.conns := by
  refine ⟨_, rfl, fun x => ?_, rfl, rfl⟩
  simp only [reaper, reap_eq, List.mem_filter, decide_eq_true_eq]

/-- C32.  Removing all keys: by request 9 or 19, or by signal. -/
theorem C32_remove_all {w : World} {h : List (Ev × Option Out)} {s : State} {t : Nat} (hh : Hist w h s t) {ev : Ev}
    (he : ev = .drop ∨ ∃ now c req a, lockedBy h = none ∧ (ev = .msg now c 9 req a ∨ ev = .msg now c 19 req a)) :
    ∃ s' o, step w s ev = some (s', o) ∧ s'.ids = [] ∧ s'.locked = s.locked := by
  rcases he with rfl | ⟨now, c, req, a, hl, he⟩
  · exact ⟨_, _, rfl, rfl, rfl⟩
  · have hk := C32_lock_state hh
    rw [hl] at hk
    rcases he with rfl | rfl
    · simp only [step, process]
      rw [if_neg (by rw [hk]; simp)]
      exact ⟨_, _, rfl, rfl, rfl⟩
    · simp only [step, process]
      rw [if_neg (by rw [hk]; simp)]
      exact ⟨_, _, rfl, rfl, rfl⟩

theorem step_add {w : World} {s : State} (hl : s.locked = false) {now c : Nat} {ty : UInt8} (hty : ty = 17 ∨ ty = 25) {req : Bytes} {a : Ans} :
    step w s (.msg now c ty req a) = some ((processAdd w s (s.conns c) now req).1, some (processAdd w s (s.conns c) now req).2) := by
  simp only [step, process]
  rw [if_neg (by rw [hl]; simp)]
  rcases hty with rfl | rfl <;> rfl

/-- C32.  Adding a key that is not there puts the new entry in the table and changes nothing else. -/
theorem C32_add_new {w : World} {h : List (Ev × Option Out)} {s : State} {t : Nat} (hh : Hist w h s t) (hl : lockedBy h = none)
    {now c : Nat} {ty : UInt8} (hty : ty = 17 ∨ ty = 25) {req : Bytes} {a : Ans} {x : Ident} (hp : parseAdd w (s.conns c) now req = some x)
    (hx : ∀ y ∈ s.ids, y.key ≠ x.key) :
    ∃ s', step w s (.msg now c ty req a) = some (s', some (say true)) ∧ s'.ids = s.ids ++ [x] ∧ s'.locked = s.locked ∧ s'.conns = s.conns := by
  have hk := C32_lock_state hh
  rw [hl] at hk
  rw [step_add hk hty]
  have hn : lookup x.key s.ids = none := lookup_none.2 (by
    intro hm
    obtain ⟨y, hy, e⟩ := List.mem_map.1 hm
    exact hx y hy e)
  simp only [processAdd, hp, place, hn]
  exact ⟨_, rfl, rfl, rfl, rfl⟩

/-- C32.  Adding a key that is there replaces its entry, if the connection may use the old one, and changes no other. -/
theorem C32_add_again {w : World} {h : List (Ev × Option Out)} {s : State} {t : Nat} (hh : Hist w h s t) (hl : lockedBy h = none)
    {now c : Nat} {ty : UInt8} (hty : ty = 17 ∨ ty = 25) {req : Bytes} {a : Ans} {x y : Ident} (hp : parseAdd w (s.conns c) now req = some x)
    (hy : y ∈ s.ids) (hxy : y.key = x.key) :
    ∃ s', (identityPermitted w y (s.conns c) none = false → step w s (.msg now c ty req a) = some (s, some (say false))) ∧
      (identityPermitted w y (s.conns c) none = true → step w s (.msg now c ty req a) = some (s', some (say true)) ∧
        s'.locked = s.locked ∧ s'.conns = s.conns ∧
        ∀ z, z ∈ s'.ids ↔ (z ∈ s.ids ∧ z.key ≠ x.key) ∨ z = { x with provider := y.provider }) := by
  have hk := C32_lock_state hh
  rw [hl] at hk
  have hi := hist_ainv hh
  rw [step_add hk hty]
  have hn : lookup x.key s.ids = some y := by rw [← hxy]; exact lookup_mem hi.tab.keys hy
  refine ⟨{ s with ids := update x s.ids }, fun hf => ?_, fun hf => ⟨?_, rfl, rfl, fun z => ?_⟩⟩
  · simp [processAdd, hp, place, hn, hf]
  · simp [processAdd, hp, place, hn, hf]
  · have hkeys : ((update x s.ids).map (·.key)).Nodup := by rw [update_keys]; exact hi.tab.keys
    have hlk : ∀ z : Ident, ∀ l : List Ident, (l.map (·.key)).Nodup → (z ∈ l ↔ lookup z.key l = some z) :=
      fun z l hn => ⟨fun hm => lookup_mem hn hm, fun hm => (lookup_some hm).1⟩
    rw [hlk z _ hkeys, hlk z s.ids hi.tab.keys, update_lookup]
    by_cases hz : z.key = x.key
    · rw [if_pos hz, hz, hn]
      simp only [Option.map_some, Option.some.injEq, ne_eq, not_true_eq_false, and_false, false_or]
      exact eq_comm
    · rw [if_neg hz]
      simp only [hz, ne_eq, not_false_eq_true, and_true]
      constructor
      · exact Or.inl
      · rintro (h | rfl)
        · exact h
        · exact absurd rfl hz

/-- C32.  An add request that cannot be read changes nothing. -/
theorem C32_add_bad {w : World} {h : List (Ev × Option Out)} {s : State} {t : Nat} (hh : Hist w h s t) (hl : lockedBy h = none)
    {now c : Nat} {ty : UInt8} (hty : ty = 17 ∨ ty = 25) {req : Bytes} {a : Ans} (hp : parseAdd w (s.conns c) now req = none) :
    step w s (.msg now c ty req a) = some (s, some (say false)) := by
  have hk := C32_lock_state hh
  rw [hl] at hk
  rw [step_add hk hty]
  simp [processAdd, hp]

/-- C32.  Removing a key: its entry, which the connection may use, goes, the others stay. -/
theorem C32_remove {w : World} {h : List (Ev × Option Out)} {s : State} {t : Nat} (hh : Hist w h s t) (hl : lockedBy h = none)
    {now c : Nat} {blob rest : Bytes} {key : Key} (hb : w.readPub blob = some key) (hlen : blob.length ≤ maxString) {a : Ans} :
    ∃ s' b, step w s (.msg now c 18 (str blob ++ rest) a) = some (s', some (say b)) ∧ s'.locked = s.locked ∧ s'.conns = s.conns ∧
      (b = true ↔ ∃ y ∈ s.ids, y.key = key ∧ identityPermitted w y (s.conns c) none = true) ∧
      (b = true → ∀ z, z ∈ s'.ids ↔ z ∈ s.ids ∧ z.key ≠ key) ∧ (b = false → s' = s) := by
  have hk := C32_lock_state hh
  rw [hl] at hk
  have hi := hist_ainv hh
  simp only [step, process]
  rw [if_neg (by rw [hk]; simp)]
  have hd : dispatch w s now c 18 (str blob ++ rest) a = processRemove w s (s.conns c) (str blob ++ rest) := rfl
  rw [hd]
  unfold processRemove
  rw [readKey_str hb hlen]
  simp only
  cases hx : lookup key s.ids with
  | none =>
    refine ⟨s, false, rfl, rfl, rfl, ?_, by simp, fun _ => rfl⟩
    simp only [Bool.false_eq_true, false_iff]
    rintro ⟨y, hy, e, _⟩
    exact lookup_none.1 hx (List.mem_map.2 ⟨y, hy, e⟩)
  | some x =>
    obtain ⟨hm, he⟩ := lookup_some hx
    simp only
    have huniq : ∀ y ∈ s.ids, y.key = key → y = x := by
      intro y hy e
      have := lookup_mem hi.tab.keys hy
      rw [e, hx] at this
      exact (Option.some.inj this).symm
    cases hp : identityPermitted w x (s.conns c) none with
    | false =>
      refine ⟨s, false, rfl, rfl, rfl, ?_, by simp, fun _ => rfl⟩
      simp only [Bool.false_eq_true, false_iff]
      rintro ⟨y, hy, e, hpy⟩
      rw [huniq y hy e, hp] at hpy
      cases hpy
    | true =>
      have hn : ¬ s.n < 1 := by
        have := hi.tab.n
        have : 0 < s.ids.length := List.length_pos_of_mem hm
        omega
      rw [if_neg (by simp), if_neg hn]
      refine ⟨_, true, rfl, rfl, rfl, ?_, fun _ z => ?_, by simp⟩
      · simp only [true_iff]; exact ⟨x, hm, he, hp⟩
      · have hkeys : ((removeKey key s.ids).map (·.key)).Nodup := by rw [removeKey_keys]; exact hi.tab.keys.erase _
        have hlk : ∀ z : Ident, ∀ l : List Ident, (l.map (·.key)).Nodup → (z ∈ l ↔ lookup z.key l = some z) :=
          fun z l hn => ⟨fun hm => lookup_mem hn hm, fun hm => (lookup_some hm).1⟩
        simp only
        rw [hlk z _ hkeys, hlk z s.ids hi.tab.keys, removeKey_lookup hi.tab.keys]
        by_cases hz : z.key = key
        · simp [hz]
        · simp [hz]

/-- C32.  Lock, unlock, sign, list and extension requests, and unknown ones, leave the table alone. -/
theorem C32_unchanged {w : World} {s : State} {now c : Nat} {ty : UInt8} {req : Bytes} {a : Ans} {s' : State} {o : Option Out}
    (hty : ty ≠ 9 ∧ ty ≠ 17 ∧ ty ≠ 25 ∧ ty ≠ 18 ∧ ty ≠ 19 ∧ ty ≠ 20 ∧ ty ≠ 26 ∧ ty ≠ 21)
    (hs : step w s (.msg now c ty req a) = some (s', o)) : s'.ids = s.ids := by
  obtain ⟨t1, t2, t3, t4, t5, t6, t7, t8⟩ := hty
  simp only [step, Option.map_eq_some_iff] at hs
  obtain ⟨q, hq, he⟩ := hs
  simp only [Prod.mk.injEq] at he
  obtain ⟨rfl, rfl⟩ := he
  have lock : ∀ b, processLock w s b req a = some q → q.1.ids = s.ids := by
    intro b hb
    unfold processLock at hb
    repeat' split at hb
    all_goals cases hb
    all_goals rfl
  unfold process at hq
  split at hq
  · split at hq <;> (cases hq; rfl)
  rcases dispatch_cases hq with ⟨e, h⟩ | ⟨e, h⟩ | ⟨e, hq⟩ | ⟨e, hq⟩ | ⟨e, hq⟩ | ⟨e, hq⟩ | ⟨e, hq⟩ | ⟨e, h⟩ | ⟨e, hq⟩ | ⟨e, hq⟩ | ⟨e, hq⟩ |
        ⟨e, hq⟩ | ⟨e, hq⟩ | hq
  · exact lock _ h
  · exact lock _ h
  · exact absurd e t1
  · cases hq; rfl
  · cases hq; rfl
  · exact absurd e t2
  · exact absurd e t3
  · exact absurd e t4
  · exact absurd e t5
  · exact absurd e t6
  · exact absurd e t7
  · exact absurd e t8
  · cases hq
    unfold processExt
    split
    · rfl
    · split <;> rfl
  · cases hq; rfl

/-- What one token request may do to the table: keep every entry, and add entries of the token for keys not there. -/
def Grows (t : Token) (l l' : List Ident) : Prop :=
  ∃ m, l' = l ++ m ∧ ∀ y ∈ m, y.provider = some t.provider ∧ y.death = t.death ∧ y.confirm = t.confirm ∧ y.dests = t.dests ∧ y.key ∉ l.map (·.key)

theorem Grows.refl (t : Token) (l : List Ident) : Grows t l l := ⟨[], by simp, by simp⟩

theorem Grows.trans {t : Token} {a b c : List Ident} (h : Grows t a b) (h' : Grows t b c) : Grows t a c := by
  obtain ⟨m, rfl, hm⟩ := h
  obtain ⟨m', rfl, hm'⟩ := h'
  refine ⟨m ++ m', by simp, fun y hy => ?_⟩
  rcases List.mem_append.1 hy with hy | hy
  · exact hm y hy
  · obtain ⟨h1, h2, h3, h4, h5⟩ := hm' y hy
    exact ⟨h1, h2, h3, h4, fun hk => h5 (by rw [List.map_append]; exact List.mem_append_left _ hk)⟩

theorem addP11_grows (t : Token) (k : Key) (cm : Bytes) (s : State) : Grows t s.ids (addP11 (t.ident k cm) s).ids := by
  unfold addP11
  split
  · exact Grows.refl t _
  · rename_i hn
    exact ⟨[t.ident k cm], rfl, by simp only [List.mem_singleton, forall_eq]; exact ⟨rfl, rfl, rfl, rfl, lookup_none.1 hn⟩⟩

theorem addCerts_grows {w : World} {t : Token} {k : Key} {cm : Bytes} : ∀ (l : List Key) (s : State × Bool), Grows t s.1.ids (addCerts w t k cm l s).1.ids
  | [], s => Grows.refl t _
  | c :: l, s => by
    unfold addCerts
    split
    · exact addCerts_grows l s
    · split
      · exact addCerts_grows l s
      · exact (addP11_grows t _ cm s.1).trans (addCerts_grows l _)

theorem addBare_grows {t : Token} {co : Bool} {k : Key} {cm : Bytes} {s : State × Bool} : Grows t s.1.ids (addBare t co k cm s).1.ids := by
  unfold addBare
  split
  · exact addP11_grows t _ _ _
  · exact Grows.refl t _

theorem addKeys_grows {w : World} {t : Token} {co : Bool} {certs : List Key} : ∀ (l : List (Key × Bytes)) (s : State × Bool),
    Grows t s.1.ids (addKeys w t co certs l s).1.ids
  | [], s => Grows.refl t _
  | (k, cm) :: l, s => by
    unfold addKeys
    refine Grows.trans ?_ (addKeys_grows l _)
    refine (addCerts_grows (w := w) (k := k) (cm := if cm = [] then t.provider else cm) certs s).trans addBare_grows

/-- C32.  Adding the keys of a token keeps every entry and adds only keys that were not there, with the constraints of the
request; the library is on the list of allowed ones, and a connection that carries forwarded requests can do this only if that is
configured. -/
theorem C32_token {w : World} {h : List (Ev × Option Out)} {s : State} {t : Nat} (hh : Hist w h s t) (hl : lockedBy h = none)
    {now c : Nat} {ty : UInt8} (hty : ty = 20 ∨ ty = 26) {req : Bytes} {a : Ans} :
    ∃ s' b, step w s (.msg now c ty req a) = some (s', some (say b)) ∧
      (parseP11 w (s.conns c) now req = none → s' = s ∧ b = false) ∧
      (∀ tok, parseP11 w (s.conns c) now req = some tok → Grows tok.1 s.ids s'.ids ∧ matchPatternList tok.1.provider w.allowed false = 1 ∧
        (bound w c h ≠ [] → w.remoteAdd = true)) := by
  have hk := C32_lock_state hh
  rw [hl] at hk
  have hi := hist_ainv hh
  have hst : step w s (.msg now c ty req a) = some ((processAddP11 w s (s.conns c) now req a).1, some (processAddP11 w s (s.conns c) now req a).2) := by
    simp only [step, process]
    rw [if_neg (by rw [hk]; simp)]
    rcases hty with rfl | rfl <;> rfl
  rw [hst]
  unfold processAddP11
  cases hp : parseP11 w (s.conns c) now req with
  | none => exact ⟨s, false, rfl, fun _ => ⟨rfl, rfl⟩, fun _ h => by cases h⟩
  | some tok =>
    simp only
    refine ⟨_, _, rfl, (fun h => nomatch h), fun tok' ht => ?_⟩
    obtain rfl := Option.some.inj ht
    refine ⟨addKeys_grows _ _, ?_⟩
    unfold parseP11 at hp
    simp only [Option.bind_eq_bind, Option.bind_eq_some_iff] at hp
    obtain ⟨prov, _, pin, _, cc, _, hp⟩ := hp
    split at hp
    · cases hp
    · rename_i hrem
      simp only [Option.bind_eq_some_iff] at hp
      obtain ⟨r, _, hp⟩ := hp
      split at hp
      · cases hp
      · rename_i hm
        cases hp
        refine ⟨by simpa using hm, fun hb => ?_⟩
        cases hra : w.remoteAdd with
        | true => rfl
        | false =>
          refine absurd ⟨?_, hra⟩ hrem
          unfold isRemote
          rw [hi.tried c hb]; rfl

/-- C32.  Removing a token removes exactly its keys. -/
theorem C32_token_remove {w : World} {h : List (Ev × Option Out)} {s : State} {t : Nat} (hh : Hist w h s t) (hl : lockedBy h = none)
    {now c : Nat} {req : Bytes} {a : Ans} {r : Bytes} (hp : parseDelP11 w req = some r) :
    ∃ s', step w s (.msg now c 21 req a) = some (s', some (say a.p11del)) ∧ (∀ z, z ∈ s'.ids ↔ z ∈ s.ids ∧ z.provider ≠ some r) := by
  have hk := C32_lock_state hh
  rw [hl] at hk
  simp only [step, process]
  rw [if_neg (by rw [hk]; simp)]
  have hd : dispatch w s now c 21 req a = some (processDelP11 w s req a) := rfl
  rw [hd]
  simp only [processDelP11, hp]
  exact ⟨_, rfl, fun z => by simp [List.mem_filter]⟩

/-! ### What a client asks for is what the entry says -/

/-- C32.  An add request with a lifetime, confirmation and destination constraints, as `ssh-add` writes it, makes an entry with
exactly these: it dies `life` seconds from now (or after the agent's default lifetime), asks for confirmation if requested, and
carries the constraints. -/
theorem C32_add_request {w : World} {e : Conn} {now : Nat} {priv comment : Bytes} {key : Key} {life : Option Nat} {confirm : Bool}
    {ds : List Dest} (hk : ∀ r, w.readPriv (priv ++ r) = some (key, r)) (hc : (0 : UInt8) ∉ comment) (hcl : comment.length ≤ maxString)
    (hlife : ∀ n, life = some n → n < 4294967296) (hd : ∀ d ∈ ds, GoodDest w d) (hn : ds.length ≤ 1024)
    (hdl : (encDests w ds).length ≤ maxString) :
    parseAdd w e now (priv ++ str comment ++ encLife life ++ encConfirm confirm ++ encRestrict w ds) =
      some ⟨key, comment, none, lifeOf w now ((life.map (now + ·)).getD 0), confirm, none, ds⟩ := by
  have cons_restrict : ∀ f c, c.dests = [] → parseCons w false now (f + 2) (encRestrict w ds) c = some { c with dests := ds } := by
    intro f c hcd
    unfold encRestrict
    by_cases hds : ds = []
    · rw [if_pos hds]
      unfold parseCons
      simp only [hds]
      rw [← hcd]
    · rw [if_neg hds]
      unfold parseCons
      simp only [List.cons_append, List.nil_append, List.append_assoc]
      rw [if_neg (by decide), if_neg (by decide), if_pos trivial]
      unfold parseExt
      rw [getCstr_append _ _ (by decide) (by decide)]
      simp only [Option.bind_eq_bind, Option.bind_some]
      rw [if_neg (by decide), if_pos trivial]
      simp only [hcd, ne_eq, not_true_eq_false, if_false]
      have e1 : getStr (str (encDests w ds)) = some (encDests w ds, []) := by
        have := getStr_append (encDests w ds) [] hdl
        rwa [List.append_nil] at this
      rw [e1]
      simp only [Option.bind_some]
      rw [parseDests_enc ds 1024 hn hd]
      simp only [Option.bind_some, Option.pure_def]
      unfold parseCons
      rfl
  have cons_confirm : ∀ f c, c.dests = [] → c.confirm = false →
      parseCons w false now (f + 3) (encConfirm confirm ++ encRestrict w ds) c = some { c with confirm := confirm, dests := ds } := by
    intro f c h1 h2
    cases confirm with
    | false =>
      simp only [encConfirm, Bool.false_eq_true, if_false, List.nil_append]
      rw [cons_restrict (f + 1) c h1, ← h2]
    | true =>
      simp only [encConfirm, if_true, List.cons_append, List.nil_append]
      rw [parseCons]
      simp only
      rw [if_neg (by decide), if_pos trivial, if_neg (by rw [h2]; decide)]
      exact cons_restrict f { c with confirm := true } h1
  have cons_life : ∀ f, parseCons w false now (f + 4) (encLife life ++ (encConfirm confirm ++ encRestrict w ds)) {} =
      some { death := (life.map (now + ·)).getD 0, confirm := confirm, dests := ds } := by
    intro f
    cases life with
    | none =>
      simp only [encLife, List.nil_append]
      rw [cons_confirm (f + 1) {} rfl rfl]
      rfl
    | some n =>
      simp only [encLife, List.cons_append, List.nil_append]
      rw [parseCons]
      simp only
      rw [if_pos trivial, if_neg (by decide), getInt_append 4 n _ (by have := hlife n rfl; simpa using this)]
      simp only
      rw [cons_confirm f _ rfl rfl]
      rfl
  have fuel : ∀ f m c r, parseCons w false now f m c = some r → ∀ f', f ≤ f' → parseCons w false now f' m c = some r := by
    intro f
    induction f with
    | zero => intro m c r h; cases h
    | succ f ih =>
      intro m c r h f' hf
      obtain ⟨g, rfl⟩ : ∃ g, f' = g + 1 := ⟨f' - 1, by omega⟩
      unfold parseCons at h ⊢
      cases m with
      | nil => exact h
      | cons ty m =>
        simp only at h ⊢
        split at h
        · rename_i e1
          rw [if_pos e1]
          split at h
          · cases h
          · rename_i e2
            rw [if_neg e2]
            split at h
            · cases h
            · exact ih _ _ _ h g (by omega)
        · rename_i e1
          rw [if_neg e1]
          split at h
          · rename_i e2
            rw [if_pos e2]
            split at h
            · cases h
            · rename_i e3; rw [if_neg e3]; exact ih _ _ _ h g (by omega)
          · rename_i e2
            rw [if_neg e2]
            split at h
            · rename_i e3
              rw [if_pos e3]
              split at h
              · cases h
              · exact ih _ _ _ h g (by omega)
            · cases h
  have any : ∀ f r, parseCons w false now 4 (encLife life ++ (encConfirm confirm ++ encRestrict w ds)) {} = some r →
      (encLife life ++ (encConfirm confirm ++ encRestrict w ds)).length < f →
      parseCons w false now f (encLife life ++ (encConfirm confirm ++ encRestrict w ds)) {} = some r := by
    intro f r h4 hlen
    by_cases hf : 4 ≤ f
    · exact fuel 4 _ _ _ h4 f hf
    · have hnil : encRestrict w ds = [] := by
        by_cases hds : ds = []
        · simp [encRestrict, hds]
        · have : 40 ≤ (encRestrict w ds).length := by
            unfold encRestrict
            rw [if_neg hds]
            simp [str_length]
            omega
          simp only [List.length_append] at hlen
          omega
      have hl0 : life = none := by
        cases life with
        | none => rfl
        | some n =>
          simp [encLife] at hlen
          omega
      subst hl0
      rw [hnil] at h4 hlen ⊢
      cases confirm with
      | false =>
        simp only [encLife, encConfirm, Bool.false_eq_true, if_false, List.append_nil, List.nil_append] at h4 hlen ⊢
        obtain ⟨g, rfl⟩ : ∃ g, f = g + 1 := ⟨f - 1, by simp at hlen; omega⟩
        exact h4
      | true =>
        simp only [encLife, encConfirm, if_true, List.append_nil, List.nil_append] at h4 hlen ⊢
        obtain ⟨g, rfl⟩ : ∃ g, f = g + 2 := ⟨f - 2, by simp at hlen; omega⟩
        exact h4
  unfold parseAdd
  simp only [List.append_assoc]
  rw [hk]
  simp only [Option.bind_eq_bind, Option.bind_some]
  rw [getCstr_append _ _ hc hcl]
  simp only [Option.bind_some]
  rw [any _ _ (cons_life 0) (by omega)]
  simp only [Option.bind_some, provider]
  rfl

end Verif.Agent
