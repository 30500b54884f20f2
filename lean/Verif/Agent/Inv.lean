/-
The agent's invariant over all histories.
-/
import Verif.Agent.Lemmas

namespace Verif.Agent
open Verif Wire Match

/-- The table: distinct keys, the counter is right, no entry expired before `r`. -/
structure Tab (s : State) (r : Nat) : Prop where
  keys : (s.ids.map (·.key)).Nodup
  n : s.n = s.ids.length
  death : ∀ x ∈ s.ids, x.death = 0 ∨ r ≤ x.death

/-- Everything but the table is the same. -/
def Rest (s s' : State) : Prop := s'.locked = s.locked ∧ s'.hash = s.hash ∧ s'.salt = s.salt ∧ s'.conns = s.conns

theorem Rest.refl (s : State) : Rest s s := ⟨rfl, rfl, rfl, rfl⟩
theorem Rest.trans {a b c : State} (h : Rest a b) (h' : Rest b c) : Rest a c :=
  ⟨h'.1.trans h.1, h'.2.1.trans h.2.1, h'.2.2.1.trans h.2.2.1, h'.2.2.2.trans h.2.2.2⟩

theorem tab_filter {s : State} {r : Nat} (h : Tab s r) (p : Ident → Bool) (m : Int) (hm : m = s.n - (s.ids.length - (s.ids.filter p).length : Nat)) :
    Tab { s with ids := s.ids.filter p, n := m } r := by
  refine ⟨h.keys.sublist (List.filter_sublist.map _), ?_, fun x hx => h.death x (List.mem_filter.1 hx).1⟩
  simp only
  have := List.length_filter_le p s.ids
  rw [hm, h.n]
  omega

theorem reaper_tab {s : State} {r now : Nat} (h : Tab s r) (hr : r ≤ now) : Tab (reaper now s) now := by
  have h1 := tab_filter h (fun x => x.death = 0 ∨ now < x.death) _ rfl
  unfold reaper
  rw [reap_eq]
  refine ⟨h1.keys, h1.n, fun x hx => ?_⟩
  have := (List.mem_filter.1 hx).2
  simp at this
  omega

theorem removeAll_tab {s : State} {r : Nat} : Tab (removeAll s) r := ⟨by simp [removeAll], by simp [removeAll], by simp [removeAll]⟩

theorem add_tab {s : State} {r : Nat} (h : Tab s r) {x : Ident} (hx : lookup x.key s.ids = none) (hd : x.death = 0 ∨ r ≤ x.death) :
    Tab { s with ids := s.ids ++ [x], n := s.n + 1 } r := by
  refine ⟨?_, by simp [h.n], ?_⟩
  · simp only [List.map_append, List.map_cons, List.map_nil]
    refine List.nodup_append.2 ⟨h.keys, by simp, ?_⟩
    intro a ha b hb e
    simp only [List.mem_singleton] at hb
    exact lookup_none.1 hx (by rw [← hb, ← e]; exact ha)
  · intro y hy
    rcases List.mem_append.1 hy with hy | hy
    · exact h.death y hy
    · simp only [List.mem_singleton] at hy; rw [hy]; exact hd

theorem mem_update {x y : Ident} : ∀ {l : List Ident}, y ∈ update x l → y ∈ l ∨ y.death = x.death
  | [], h => by simp [update] at h
  | z :: l, h => by
    unfold update at h
    split at h
    · rcases List.mem_cons.1 h with rfl | h
      · exact Or.inr rfl
      · exact Or.inl (by simp [h])
    · rcases List.mem_cons.1 h with rfl | h
      · exact Or.inl (by simp)
      · rcases mem_update h with h | h
        · exact Or.inl (by simp [h])
        · exact Or.inr h

theorem place_tab {w : World} {s : State} {r : Nat} (h : Tab s r) {e : Conn} {x : Ident} (hd : x.death = 0 ∨ r ≤ x.death) :
    Tab (place w s e x).1 r ∧ Rest s (place w s e x).1 := by
  unfold place
  split
  · rename_i hl
    exact ⟨add_tab h hl hd, Rest.refl s⟩
  · split
    · exact ⟨h, Rest.refl s⟩
    · refine ⟨⟨by simp only [update_keys]; exact h.keys, ?_, ?_⟩, Rest.refl s⟩
      · have := congrArg List.length (update_keys x s.ids)
        simp only [List.length_map] at this
        simp only [h.n, this]
      · intro y hy
        rcases mem_update hy with hy | hy
        · exact h.death y hy
        · rw [hy]; exact hd

theorem parseCons_death {w : World} {p11 : Bool} {now : Nat} : ∀ (f : Nat) (m : Bytes) (c c' : Cons),
    parseCons w p11 now f m c = some c' → c.death = 0 ∨ now ≤ c.death → c'.death = 0 ∨ now ≤ c'.death
  | 0, m, c, c', h, _ => by cases h
  | f + 1, m, c, c', h, hd => by
    unfold parseCons at h
    split at h
    · cases h; exact hd
    · split at h
      · split at h
        · cases h
        · split at h
          · cases h
          · exact parseCons_death f _ _ _ h (Or.inr (by simp))
      · split at h
        · split at h
          · cases h
          · exact parseCons_death f _ _ _ h hd
        · split at h
          · split at h
            · cases h
            · rename_i r hr
              refine parseCons_death f _ _ _ h ?_
              have : r.1.death = c.death := by
                unfold parseExt at hr
                simp only [Option.bind_eq_bind, Option.bind_eq_some_iff] at hr
                obtain ⟨name, _, hr⟩ := hr
                split at hr
                · split at hr
                  · cases hr
                  · simp only [Option.bind_eq_some_iff] at hr
                    obtain ⟨_, _, hr⟩ := hr
                    cases hr; rfl
                · split at hr
                  · split at hr
                    · cases hr
                    · simp only [Option.bind_eq_some_iff] at hr
                      obtain ⟨_, _, _, _, hr⟩ := hr
                      cases hr; rfl
                  · split at hr
                    · split at hr
                      · cases hr
                      · simp only [Option.bind_eq_some_iff] at hr
                        obtain ⟨_, _, _, _, _, _, hr⟩ := hr
                        cases hr; rfl
                    · cases hr
              rw [this]; exact hd
          · cases h

theorem lifeOf_death {w : World} {now d : Nat} (h : d = 0 ∨ now ≤ d) : lifeOf w now d = 0 ∨ now ≤ lifeOf w now d := by
  unfold lifeOf
  split
  · exact Or.inr (by omega)
  · exact h

theorem processAdd_tab {w : World} {s : State} {r now : Nat} (h : Tab s r) (hr : r ≤ now) {e : Conn} {req : Bytes} :
    Tab (processAdd w s e now req).1 r ∧ Rest s (processAdd w s e now req).1 := by
  unfold processAdd
  split
  · exact ⟨h, Rest.refl s⟩
  · rename_i x hx
    refine place_tab h ?_
    unfold parseAdd at hx
    simp only [Option.bind_eq_bind, Option.bind_eq_some_iff] at hx
    obtain ⟨k, _, cm, _, c, hc, sk, _, hx⟩ := hx
    cases hx
    have := lifeOf_death (w := w) (parseCons_death _ _ _ _ hc (Or.inl rfl))
    simp only
    omega

theorem addP11_tab {s : State} {r : Nat} (h : Tab s r) {x : Ident} (hd : x.death = 0 ∨ r ≤ x.death) :
    Tab (addP11 x s) r ∧ Rest s (addP11 x s) := by
  unfold addP11
  split
  · exact ⟨h, Rest.refl s⟩
  · rename_i hl
    exact ⟨add_tab h hl hd, Rest.refl s⟩

theorem addCerts_tab {w : World} {t : Token} {r : Nat} (hd : t.death = 0 ∨ r ≤ t.death) {k : Key} {cm : Bytes} :
    ∀ (l : List Key) (s : State × Bool), Tab s.1 r → Tab (addCerts w t k cm l s).1 r ∧ Rest s.1 (addCerts w t k cm l s).1
  | [], s, h => ⟨h, Rest.refl _⟩
  | c :: l, s, h => by
    unfold addCerts
    split
    · exact addCerts_tab hd l s h
    · split
      · exact addCerts_tab hd l s h
      · rename_i k' _
        have h1 := addP11_tab h (x := t.ident k' cm) hd
        have h2 := addCerts_tab (w := w) (k := k) (cm := cm) hd l (addP11 (t.ident k' cm) s.1, true) h1.1
        exact ⟨h2.1, h1.2.trans h2.2⟩

theorem addBare_tab {t : Token} {r : Nat} (hd : t.death = 0 ∨ r ≤ t.death) {co : Bool} {k : Key} {cm : Bytes} {s : State × Bool}
    (h : Tab s.1 r) : Tab (addBare t co k cm s).1 r ∧ Rest s.1 (addBare t co k cm s).1 := by
  unfold addBare
  split
  · exact addP11_tab h hd
  · exact ⟨h, Rest.refl _⟩

theorem addKeys_tab {w : World} {t : Token} {r : Nat} (hd : t.death = 0 ∨ r ≤ t.death) {co : Bool} {certs : List Key} :
    ∀ (l : List (Key × Bytes)) (s : State × Bool), Tab s.1 r → Tab (addKeys w t co certs l s).1 r ∧ Rest s.1 (addKeys w t co certs l s).1
  | [], s, h => ⟨h, Rest.refl _⟩
  | (k, cm) :: l, s, h => by
    unfold addKeys
    have h1 := addCerts_tab (w := w) hd (k := k) (cm := if cm = [] then t.provider else cm) certs s h
    have h2 := addBare_tab hd (co := co) (k := k) (cm := if cm = [] then t.provider else cm) h1.1
    have h3 := addKeys_tab (w := w) (co := co) (certs := certs) hd l _ h2.1
    exact ⟨h3.1, h1.2.trans (h2.2.trans h3.2)⟩

theorem parseP11_death {w : World} {e : Conn} {now : Nat} {req : Bytes} {t : Token × Bool × List Key}
    (h : parseP11 w e now req = some t) : t.1.death = 0 ∨ now ≤ t.1.death := by
  unfold parseP11 at h
  simp only [Option.bind_eq_bind, Option.bind_eq_some_iff] at h
  obtain ⟨prov, _, pin, _, c, hc, h⟩ := h
  split at h
  · cases h
  · simp only [Option.bind_eq_some_iff] at h
    obtain ⟨r, _, h⟩ := h
    split at h
    · cases h
    · cases h
      exact lifeOf_death (parseCons_death _ _ _ _ hc (Or.inl rfl))

theorem processAddP11_tab {w : World} {s : State} {r now : Nat} (h : Tab s r) (hr : r ≤ now) {e : Conn} {req : Bytes} {a : Ans} :
    Tab (processAddP11 w s e now req a).1 r ∧ Rest s (processAddP11 w s e now req a).1 := by
  unfold processAddP11
  split
  · exact ⟨h, Rest.refl s⟩
  · rename_i t ht
    exact addKeys_tab (by have := parseP11_death ht; omega) a.p11 (s, false) h

theorem processDelP11_tab {w : World} {s : State} {r : Nat} (h : Tab s r) {req : Bytes} {a : Ans} :
    Tab (processDelP11 w s req a).1 r ∧ Rest s (processDelP11 w s req a).1 := by
  unfold processDelP11
  split
  · exact ⟨h, Rest.refl s⟩
  · rename_i p hp
    refine ⟨tab_filter h _ _ ?_, Rest.refl s⟩
    congr 2
    have := List.length_eq_countP_add_countP (fun x : Ident => decide (x.provider = some p)) (l := s.ids)
    rw [← List.countP_eq_length_filter]
    have e : (fun x : Ident => decide (x.provider ≠ some p)) = fun x => decide ¬ (decide (x.provider = some p)) = true := by
      funext x; simp
    rw [e]
    omega

theorem processRemove_tab {w : World} {s : State} {r : Nat} (h : Tab s r) {e : Conn} {req : Bytes} :
    ∃ q, processRemove w s e req = some q ∧ Tab q.1 r ∧ Rest s q.1 := by
  unfold processRemove
  split
  · exact ⟨_, rfl, h, Rest.refl s⟩
  · rename_i k hk
    split
    · exact ⟨_, rfl, h, Rest.refl s⟩
    · rename_i id hid
      split
      · exact ⟨_, rfl, h, Rest.refl s⟩
      · have hlen := removeKey_length hid
        have h1 : ¬ s.n < 1 := by rw [h.n]; omega
        rw [if_neg h1]
        refine ⟨_, rfl, ⟨?_, ?_, ?_⟩, Rest.refl s⟩
        · simp only [removeKey_keys]; exact h.keys.erase _
        · simp only [h.n]; omega
        · intro x hx
          have : ∀ l : List Ident, x ∈ removeKey k.1 l → x ∈ l := by
            intro l
            induction l with
            | nil => exact fun h => h
            | cons y l ih =>
              unfold removeKey
              split
              · intro h; simp [h]
              · intro h
                rcases List.mem_cons.1 h with rfl | h
                · simp
                · simp [ih h]
          exact h.death x (this _ hx)

/-! ### Bindings -/

/-- Bindings on a connection: at most 16, different sessions, vouched for by the host's signature, and only
the last may be for authentication. -/
structure Binds (w : World) (l : List Bind) : Prop where
  len : l.length ≤ 16
  sids : (l.map (·.sid)).Nodup
  vouched : ∀ b ∈ l, ∃ sig, w.verify b.key sig b.sid = true
  short : ∀ b ∈ l, b.sid.length ≤ 128
  fwd : ∀ b ∈ l.dropLast, b.fwd = true

theorem binds_nil (w : World) : Binds w [] := ⟨by simp, by simp, by simp, by simp, by simp⟩

theorem bindScan_none {key sid : Bytes} : ∀ {l : List Bind}, bindScan key sid l = none ↔ (∀ b ∈ l, b.fwd = true) ∧ sid ∉ l.map (·.sid)
  | [] => by simp [bindScan]
  | b :: l => by
    have ih := bindScan_none (key := key) (sid := sid) (l := l)
    unfold bindScan
    cases hf : b.fwd with
    | false => simp [hf]
    | true =>
      simp only [Bool.true_eq_false, if_false, List.mem_cons, forall_eq_or_imp, hf, true_and, List.map_cons, not_or]
      by_cases hs : sid = b.sid
      · by_cases hk : key = b.key
        · simp [hs, hk]
        · simp [hs, hk]
      · simp only [hs, false_and, if_false, ih, not_false_eq_true, true_and]

theorem bindScan_true {key sid : Bytes} : ∀ {l : List Bind}, bindScan key sid l = some true → sid ∈ l.map (·.sid)
  | [], h => by cases h
  | b :: l, h => by
    unfold bindScan at h
    split at h
    · simp at h
    · split at h
      · rename_i e; simp [e.1]
      · split at h
        · simp at h
        · have := bindScan_true h
          simp only [List.map_cons, List.mem_cons]
          exact Or.inr this

/-- What an accepted or refused binding does to the list. -/
theorem bindTo_spec {w : World} {key sid sig : Bytes} {fwd : Bool} {l : List Bind} (h : Binds w l) :
    Binds w (bindTo w key sid sig fwd l).1 ∧
    (bindTo w key sid sig fwd l).1 =
      (if (bindTo w key sid sig fwd l).2 = true ∧ sid.length ≤ 128 ∧ sid ∉ l.map (·.sid) then l ++ [⟨key, sid, fwd⟩] else l) ∧
    ((bindTo w key sid sig fwd l).2 = true → sid.length ≤ 128 → w.verify key sig sid = true) := by
  unfold bindTo
  by_cases h1 : sid.length > 128
  · rw [if_pos h1]
    refine ⟨h, ?_, fun _ h2 => by omega⟩
    have : ¬ sid.length ≤ 128 := by omega
    simp [this]
  · rw [if_neg h1]
    by_cases h2 : w.verify key sig sid = false
    · rw [if_pos h2]
      exact ⟨h, by simp, fun h => by cases h⟩
    · rw [if_neg h2]
      have h2 : w.verify key sig sid = true := by simpa using h2
      cases hs : bindScan key sid l with
      | some r =>
        refine ⟨h, ?_, fun _ _ => h2⟩
        cases r with
        | false => simp
        | true =>
          have := bindScan_true hs
          simp [this]
      | none =>
        obtain ⟨s1, s2⟩ := bindScan_none.1 hs
        by_cases h3 : l.length ≥ 16
        · simp only [if_pos h3]
          exact ⟨h, by simp, fun h => by cases h⟩
        · simp only [if_neg h3]
          refine ⟨⟨by simp; omega, ?_, ?_, ?_, ?_⟩, ?_, fun _ _ => h2⟩
          · rw [List.map_append]
            refine List.nodup_append.2 ⟨h.sids, by simp, ?_⟩
            intro a ha b hb e
            simp only [List.map_cons, List.map_nil, List.mem_singleton] at hb
            exact s2 (by rw [← hb, ← e]; exact ha)
          · intro b hb
            rcases List.mem_append.1 hb with hb | hb
            · exact h.vouched b hb
            · simp only [List.mem_singleton] at hb; subst hb; exact ⟨sig, h2⟩
          · intro b hb
            rcases List.mem_append.1 hb with hb | hb
            · exact h.short b hb
            · simp only [List.mem_singleton] at hb; subst hb; simp only; omega
          · rw [List.dropLast_concat]; exact s1
          · have : sid.length ≤ 128 := by omega
            simp [this, s2]

/-! ### The whole -/

def LockOk (w : World) (s : State) : Option (Bytes × Bytes) → Prop
  | none => s.locked = false
  | some (p, salt) => s.locked = true ∧ s.salt = salt ∧ p ≠ [] ∧ w.kdf p salt = some s.hash

structure AInv (w : World) (h : List (Ev × Option Out)) (s : State) (t : Nat) : Prop where
  tab : Tab s (lastRound h)
  last : lastRound h ≤ t
  pos : 0 < t
  lock : LockOk w s (lockedBy h)
  binds : ∀ c, (s.conns c).binds = bound w c h
  good : ∀ c, Binds w (bound w c h)
  tried : ∀ c, bound w c h ≠ [] → (s.conns c).attempted = true

theorem LockOk.rest {w : World} {s s' : State} {l : Option (Bytes × Bytes)} (h : LockOk w s l) (hr : Rest s s') : LockOk w s' l := by
  cases l with
  | none => exact hr.1.trans h
  | some p =>
    obtain ⟨p, salt⟩ := p
    obtain ⟨h1, h2, h3, h4⟩ := h
    exact ⟨hr.1.trans h1, hr.2.2.1.trans h2, h3, by rw [hr.2.1]; exact h4⟩

theorem LockOk.conn {w : World} {s : State} {l : Option (Bytes × Bytes)} (h : LockOk w s l) (c : Nat) (e : Conn) : LockOk w (setConn s c e) l := by
  cases l with
  | none => exact h
  | some p => exact h

theorem lastRound_append (h : List (Ev × Option Out)) (x : Ev × Option Out) :
    lastRound (h ++ [x]) = lastRoundStep (lastRound h) x := by simp [lastRound]
theorem lockedBy_append (h : List (Ev × Option Out)) (x : Ev × Option Out) :
    lockedBy (h ++ [x]) = lockStep (lockedBy h) x := by simp [lockedBy]
theorem bound_append (w : World) (c : Nat) (h : List (Ev × Option Out)) (x : Ev × Option Out) :
    bound w c (h ++ [x]) = bindStep w c (bound w c h) x := by simp [bound]

/-- A message other than lock, unlock and extension: what it leaves alone. -/
theorem inv_table {w : World} {h : List (Ev × Option Out)} {s : State} {t : Nat} (hi : AInv w h s t) {now c : Nat} {ty : UInt8} {req : Bytes}
    {a : Ans} {s' : State} {o : Out} (ht : t ≤ now) (h22 : o.reply = .status true → ty ≠ 22 ∧ ty ≠ 23 ∧ ty ≠ 27)
    (htab : Tab s' (lastRound h)) (hr : Rest s s') : AInv w (h ++ [(.msg now c ty req a, some o)]) s' now := by
  have hb : ∀ c', bound w c' (h ++ [(.msg now c ty req a, some o)]) = bound w c' h := by
    intro c'
    rw [bound_append]
    simp only [bindStep]
    rw [if_neg]
    rintro ⟨_, h1, h2⟩
    exact (h22 h2).2.2 h1
  refine ⟨by rw [lastRound_append]; exact htab, by rw [lastRound_append]; exact Nat.le_trans hi.last ht,
    Nat.lt_of_lt_of_le hi.pos ht, ?_, fun c' => ?_, fun c' => ?_, fun c' => ?_⟩
  · rw [lockedBy_append]
    simp only [lockStep]
    by_cases h1 : o.reply = .status true
    · have := h22 h1
      simp only [h1, if_true, this.1, this.2.1, if_false]
      exact hi.lock.rest hr
    · rw [if_neg h1]; exact hi.lock.rest hr
  · rw [hb, hr.2.2.2]; exact hi.binds c'
  · rw [hb]; exact hi.good c'
  · rw [hb, hr.2.2.2]; exact hi.tried c'

theorem lock_inv {w : World} {h : List (Ev × Option Out)} {s : State} {t : Nat} (hi : AInv w h s t) {now c : Nat} {lock : Bool} {req : Bytes}
    {a : Ans} {q : State × Out} (ht : t ≤ now) (hq : processLock w s lock req a = some q) :
    AInv w (h ++ [(.msg now c (if lock then 22 else 23) req a, some q.2)]) q.1 now := by
  have hb : ∀ c' ty, ty ≠ 27 → bound w c' (h ++ [(.msg now c ty req a, some q.2)]) = bound w c' h := by
    intro c' ty hty
    rw [bound_append]
    simp only [bindStep]
    rw [if_neg]
    rintro ⟨_, h1, _⟩
    exact hty h1
  have hty : (if lock then (22 : UInt8) else 23) ≠ 27 := by cases lock <;> decide
  have key : q.1.conns = s.conns ∧ q.1.ids = s.ids ∧ q.1.n = s.n ∧
      LockOk w q.1 (lockStep (lockedBy h) (.msg now c (if lock then 22 else 23) req a, some q.2)) := by
    unfold processLock at hq
    cases hp : readPw req with
    | none => rw [hp] at hq; cases hq
    | some pw =>
      rw [hp] at hq
      simp only at hq
      by_cases h0 : pw = []
      · rw [if_pos h0] at hq
        cases hq
        exact ⟨rfl, rfl, rfl, by simpa [lockStep, say] using hi.lock⟩
      · rw [if_neg h0] at hq
        by_cases h1 : s.locked = true ∧ lock = false
        · rw [if_pos h1] at hq
          cases hk : w.kdf pw s.salt with
          | none => rw [hk] at hq; cases hq
          | some hh =>
            rw [hk] at hq
            simp only at hq
            split at hq
            · cases hq
              refine ⟨rfl, rfl, rfl, ?_⟩
              simp [lockStep, say, h1.2, LockOk]
            · cases hq
              exact ⟨rfl, rfl, rfl, by simpa [lockStep, say] using hi.lock⟩
        · rw [if_neg h1] at hq
          by_cases h2 : s.locked = false ∧ lock = true
          · rw [if_pos h2] at hq
            cases hk : w.kdf pw a.salt with
            | none => rw [hk] at hq; cases hq
            | some hh =>
              rw [hk] at hq
              cases hq
              refine ⟨rfl, rfl, rfl, ?_⟩
              simp [lockStep, say, h2.2, hp, LockOk, h0, hk]
          · rw [if_neg h2] at hq
            cases hq
            exact ⟨rfl, rfl, rfl, by simpa [lockStep, say] using hi.lock⟩
  obtain ⟨k1, k2, k3, k4⟩ := key
  refine ⟨?_, by rw [lastRound_append]; exact Nat.le_trans hi.last ht, Nat.lt_of_lt_of_le hi.pos ht, ?_, fun c' => ?_, fun c' => ?_, fun c' => ?_⟩
  · rw [lastRound_append]
    exact ⟨by rw [k2]; exact hi.tab.keys, by rw [k2, k3]; exact hi.tab.n, by rw [k2]; exact hi.tab.death⟩
  · rw [lockedBy_append]; exact k4
  · rw [hb _ _ hty, k1]; exact hi.binds c'
  · rw [hb _ _ hty]; exact hi.good c'
  · rw [hb _ _ hty, k1]; exact hi.tried c'

theorem ext_inv {w : World} {h : List (Ev × Option Out)} {s : State} {t : Nat} (hi : AInv w h s t) {now c : Nat} {req : Bytes}
    {a : Ans} (ht : t ≤ now) :
    AInv w (h ++ [(.msg now c 27 req a, some (processExt w s c req).2)]) (processExt w s c req).1 now := by
  have e1 := lastRound_append h (.msg now c 27 req a, some (processExt w s c req).2)
  have hlk : lockedBy (h ++ [(.msg now c 27 req a, some (processExt w s c req).2)]) = lockedBy h := by
    rw [lockedBy_append]
    simp [lockStep]
  have key : Tab (processExt w s c req).1 (lastRound h) ∧ LockOk w (processExt w s c req).1 (lockedBy h) ∧
      ∀ c', ((processExt w s c req).1.conns c').binds = bindStep w c' (bound w c' h) (.msg now c 27 req a, some (processExt w s c req).2) ∧
        Binds w (((processExt w s c req).1.conns c').binds) ∧
        (((processExt w s c req).1.conns c').binds ≠ [] → ((processExt w s c req).1.conns c').attempted = true) := by
    have same : Tab s (lastRound h) ∧ LockOk w s (lockedBy h) ∧
      ∀ c', ((s.conns c').binds = bindStep w c' (bound w c' h) (.msg now c 27 req a, some (say false))) ∧
        Binds w ((s.conns c').binds) ∧ ((s.conns c').binds ≠ [] → (s.conns c').attempted = true) := by
      refine ⟨hi.tab, hi.lock, fun c' => ⟨?_, ?_, ?_⟩⟩
      · simp only [bindStep, say]
        rw [if_neg (by simp)]; exact hi.binds c'
      · rw [hi.binds]; exact hi.good c'
      · rw [hi.binds]; exact hi.tried c'
    unfold processExt
    cases hn : getCstr req with
    | none => exact same
    | some name =>
      simp only
      split
      · rename_i hname
        refine ⟨⟨hi.tab.keys, hi.tab.n, hi.tab.death⟩, hi.lock.conn _ _, fun c' => ?_⟩
        simp only [setConn, bindStep, say, hn]
        by_cases hc : c' = c
        · subst hc
          simp only [if_true, true_and]
          unfold sessionBind
          cases hp : parseBind w name.2 with
          | none =>
            simp only [Reply.status.injEq, Bool.false_eq_true, if_false]
            refine ⟨hi.binds c', ?_, fun _ => trivial⟩
            rw [hi.binds]; exact hi.good c'
          | some r =>
            simp only [Reply.status.injEq]
            have hg := hi.good c'
            rw [← hi.binds] at hg ⊢
            obtain ⟨b1, b2, _⟩ := bindTo_spec (key := r.key) (sid := r.sid) (sig := r.sig) (fwd := r.fwd) hg
            refine ⟨?_, b1, fun _ => trivial⟩
            rw [b2]
            cases (bindTo w r.key r.sid r.sig r.fwd (s.conns c').binds).2 <;> simp
        · have hc' : ¬ c = c' := fun e => hc e.symm
          simp only [hc, hc', if_false, false_and]
          refine ⟨hi.binds c', ?_, ?_⟩
          · rw [hi.binds]; exact hi.good c'
          · rw [hi.binds]; exact hi.tried c'
      · exact same
  obtain ⟨k1, k2, k3⟩ := key
  refine ⟨by rw [e1]; exact k1, by rw [e1]; exact Nat.le_trans hi.last ht, Nat.lt_of_lt_of_le hi.pos ht, by rw [hlk]; exact k2,
    fun c' => ?_, fun c' => ?_, fun c' => ?_⟩
  · rw [bound_append]; exact (k3 c').1
  · rw [bound_append, ← (k3 c').1]; exact (k3 c').2.1
  · rw [bound_append, ← (k3 c').1]; exact (k3 c').2.2

/-- One event keeps the invariant. -/
theorem step_ainv {w : World} {h : List (Ev × Option Out)} {s : State} {t : Nat} (hi : AInv w h s t) {ev : Ev} {s' : State} {o : Option Out}
    (ht : t ≤ ev.time.getD t) (hs : step w s ev = some (s', o)) : AInv w (h ++ [(ev, o)]) s' (ev.time.getD t) := by
  cases ev with
  | round now =>
    simp only [step] at hs
    cases hs
    simp only [Ev.time, Option.getD_some] at ht ⊢
    have hb : ∀ c, bound w c (h ++ [(.round now, none)]) = bound w c h := fun c => by rw [bound_append]; rfl
    have hl : lockedBy (h ++ [(.round now, none)]) = lockedBy h := by rw [lockedBy_append]; rfl
    have hr : lastRound (h ++ [(.round now, none)]) = now := by rw [lastRound_append]; rfl
    refine ⟨?_, by rw [hr]; exact Nat.le_refl _, Nat.lt_of_lt_of_le hi.pos ht, ?_, fun c => ?_, fun c => ?_, fun c => ?_⟩
    · rw [hr]; exact reaper_tab hi.tab (Nat.le_trans hi.last ht)
    · rw [hl]; exact hi.lock.rest ⟨rfl, rfl, rfl, rfl⟩
    · rw [hb]; exact hi.binds c
    · rw [hb]; exact hi.good c
    · rw [hb]; exact hi.tried c
  | drop =>
    simp only [step] at hs
    cases hs
    simp only [Ev.time, Option.getD_none] at ht ⊢
    have hb : ∀ c, bound w c (h ++ [(.drop, none)]) = bound w c h := fun c => by rw [bound_append]; rfl
    have hl : lockedBy (h ++ [(.drop, none)]) = lockedBy h := by rw [lockedBy_append]; rfl
    have hr : lastRound (h ++ [(.drop, none)]) = lastRound h := by rw [lastRound_append]; rfl
    refine ⟨removeAll_tab, by rw [hr]; exact hi.last, hi.pos, ?_, fun c => ?_, fun c => ?_, fun c => ?_⟩
    · rw [hl]; exact hi.lock.rest ⟨rfl, rfl, rfl, rfl⟩
    · rw [hb]; exact hi.binds c
    · rw [hb]; exact hi.good c
    · rw [hb]; exact hi.tried c
  | conn c =>
    simp only [step] at hs
    cases hs
    simp only [Ev.time, Option.getD_none] at ht ⊢
    have hb : ∀ c', bound w c' (h ++ [(.conn c, none)]) = if c = c' then [] else bound w c' h := fun c' => by rw [bound_append]; rfl
    have hl : lockedBy (h ++ [(.conn c, none)]) = lockedBy h := by rw [lockedBy_append]; rfl
    have hr : lastRound (h ++ [(.conn c, none)]) = lastRound h := by rw [lastRound_append]; rfl
    refine ⟨?_, by rw [hr]; exact hi.last, hi.pos, ?_, fun c' => ?_, fun c' => ?_, fun c' => ?_⟩
    · rw [hr]; exact ⟨hi.tab.keys, hi.tab.n, hi.tab.death⟩
    · rw [hl]; exact hi.lock.conn _ _
    · rw [hb]
      simp only [setConn]
      by_cases hc : c' = c
      · simp [hc, noConn]
      · have hc' : ¬ c = c' := fun e => hc e.symm
        simp only [hc, hc', if_false]; exact hi.binds c'
    · rw [hb]; split
      · exact binds_nil w
      · exact hi.good c'
    · rw [hb]
      simp only [setConn]
      by_cases hc : c' = c
      · simp [hc]
      · have hc' : ¬ c = c' := fun e => hc e.symm
        simp only [hc, hc', if_false]; exact hi.tried c'
  | msg now c ty req a =>
    simp only [step, Option.map_eq_some_iff] at hs
    obtain ⟨q, hq, he⟩ := hs
    cases he
    simp only [Ev.time, Option.getD_some] at ht ⊢
    have hr := Nat.le_trans hi.last ht
    unfold process at hq
    split at hq
    · split at hq
      · cases hq
        exact inv_table hi ht (by simp) hi.tab (Rest.refl s)
      · cases hq
        exact inv_table hi ht (by simp [say]) hi.tab (Rest.refl s)
    · unfold dispatch at hq
      by_cases e : ty = 22
      · rw [if_pos e] at hq; subst e
        exact lock_inv (lock := true) hi ht hq
      rw [if_neg e] at hq
      by_cases e2 : ty = 23
      · rw [if_pos e2] at hq; subst e2
        exact lock_inv (lock := false) hi ht hq
      rw [if_neg e2] at hq
      by_cases e27 : ty = 27
      · subst e27
        simp only [show ((27 : UInt8) = 9) = False by decide, show ((27 : UInt8) = 13) = False by decide,
          show ((27 : UInt8) = 11) = False by decide, show ((27 : UInt8) = 17) = False by decide,
          show ((27 : UInt8) = 25) = False by decide, show ((27 : UInt8) = 18) = False by decide,
          show ((27 : UInt8) = 19) = False by decide, show ((27 : UInt8) = 20) = False by decide,
          show ((27 : UInt8) = 26) = False by decide, show ((27 : UInt8) = 21) = False by decide, if_false, if_true,
          Option.some.injEq] at hq
        subst hq
        exact ext_inv hi ht
      · have hne : q.2.reply = .status true → ty ≠ 22 ∧ ty ≠ 23 ∧ ty ≠ 27 := fun _ => ⟨e, e2, e27⟩
        have fin : Tab q.1 (lastRound h) ∧ Rest s q.1 := by
          split at hq
          · cases hq; exact ⟨removeAll_tab, ⟨rfl, rfl, rfl, rfl⟩⟩
          split at hq
          · cases hq; exact ⟨hi.tab, Rest.refl s⟩
          split at hq
          · cases hq; exact ⟨hi.tab, Rest.refl s⟩
          split at hq
          · cases hq; exact processAdd_tab hi.tab hr
          split at hq
          · cases hq; exact processAdd_tab hi.tab hr
          split at hq
          · obtain ⟨q', h1, h2⟩ := processRemove_tab (w := w) hi.tab (e := s.conns c) (req := req)
            rw [h1] at hq; cases hq; exact h2
          split at hq
          · cases hq; exact ⟨removeAll_tab, ⟨rfl, rfl, rfl, rfl⟩⟩
          split at hq
          · cases hq; exact processAddP11_tab hi.tab hr
          split at hq
          · cases hq; exact processAddP11_tab hi.tab hr
          split at hq
          · cases hq; exact processDelP11_tab hi.tab
          cases hq; exact ⟨hi.tab, Rest.refl s⟩
        exact inv_table hi ht hne fin.1 fin.2

theorem hist_ainv {w : World} {h : List (Ev × Option Out)} {s : State} {t : Nat} (hh : Hist w h s t) : AInv w h s t := by
  induction hh with
  | init t ht => exact ⟨⟨by simp [init], rfl, by simp [init]⟩, Nat.zero_le _, ht, rfl, fun _ => rfl, fun _ => binds_nil w, fun _ h => absurd rfl h⟩
  | step _ ht hs ih => exact step_ainv ih ht hs

end Verif.Agent
