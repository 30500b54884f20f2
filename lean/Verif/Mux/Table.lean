/-
C127: forwardings that a client opens and closes.
-/
import Verif.Mux.Fwd

namespace Verif.Mux
open Verif Wire

theorem invalid_iff {kind : Nat} {f : Fwd} : invalid kind f = false ↔ Possible kind f := by
  unfold invalid Possible
  rw [show fLocal = 1 from rfl, show fRemote = 2 from rfl, show fDynamic = 3 from rfl]
  by_cases h1 : kind = 1
  · subst h1
    cases hh : f.connectHost <;> cases hp : f.connectPath <;> by_cases hc : f.connectPort = 0 <;> simp [hc]
  · by_cases h2 : kind = 2
    · subst h2
      cases hh : f.connectHost <;> cases hp : f.connectPath <;> simp
    · by_cases h3 : kind = 3
      · subst h3
        cases hl : f.listenPath <;> simp
      · simp [h1, h2, h3]

theorem format_nosense {C : Conf} {kind : Nat} {f : Fwd} (h : ∀ t, format C kind f ≠ .text t) : NoSense kind f := by
  rcases format_bad (C := C) (kind := kind) (f := f) with ⟨t, ht⟩ | h'
  · exact absurd ht (h t)
  · exact h'

theorem permit_out (C : Conf) (W : World) (s : St) (d : Bytes) : ∃ q, Questions q ∧ (permit C W s d).2.out = s.out ++ q ∧
    (permit C W s d).2.locals = s.locals ∧ (permit C W s d).2.remotes = s.remotes := by
  rcases permit_cases C W s d with ⟨_, e⟩ | ⟨_, e⟩ <;> rw [e]
  · exact ⟨[], by simp [Questions], by simp, rfl, rfl⟩
  · exact ⟨[.asked (prompt d)], by simp [Questions], rfl, rfl, rfl⟩

theorem find_none {f : Fwd} {l : List Fwd} (h : l.find? (same f) = none) : ∀ g ∈ l, ¬ Same f g := by
  intro g hg hs
  have := List.find?_eq_none.1 h g hg
  exact this ((same_iff f g).2 hs)

theorem any_false {f : Fwd} {l : List Fwd} (h : ¬ l.any (same f) = true) : ∀ g ∈ l, ¬ Same f g := by
  intro g hg hs
  exact h (List.any_eq_true.2 ⟨g, hg, (same_iff f g).2 hs⟩)

theorem askOpen_opened {C : Conf} {W : World} {s : St} {rid kind : Nat} {f : Fwd} {d : Bytes} (hp : Possible kind f)
    (h2 : kind = 2 → ∀ g ∈ s.remotes, ¬ Same f g) (h1 : kind ≠ 2 → ∀ g ∈ s.locals, ¬ Same f g) :
    ∃ k, (askOpen C W s rid kind f d).out = s.out ++ k ∧ Opened W rid kind f s (askOpen C W s rid kind f d) k := by
  obtain ⟨q, hq, ho, hl, hm⟩ := permit_out C W s (askFwd C d)
  unfold askOpen
  split
  · unfold openIt
    split
    · rename_i hk
      have hk2 : kind ≠ 2 := by
        have h1 : fLocal = 1 := rfl
        have h3 : fDynamic = 3 := rfl
        omega
      split
      · rename_i hw
        refine ⟨q ++ [.listen f, .reply (okReply rid)], ?_, .listens q hk2 hp (h1 hk2) hw hq rfl ?_ hm⟩
        · simp [St.act, St.ok, ho]
        · simp [hl]
      · refine ⟨q ++ [.reply (errReply sFailure rid fwdFailed)], by simp [St.err, St.act, ho], .refused q sFailure _ (.inr rfl) hq rfl hl hm⟩
    · rename_i hk
      have hk2 : kind = 2 := by
        have h1 : fLocal = 1 := rfl
        have h3 : fDynamic = 3 := rfl
        rcases hp with h | h | h
        · exact absurd (.inl h.1) hk
        · exact h.1
        · exact absurd (.inr h.1) hk
      split
      · rename_i hw
        refine ⟨q ++ [.askRemote f], by simp [St.act, ho], .remote q hk2 hp (h2 hk2) hw hq rfl hl (by simp [hm]) (by simp [hm])⟩
      · refine ⟨q ++ [.reply (errReply sFailure rid fwdFailed)], by simp [St.err, St.act, ho], .refused q sFailure _ (.inr rfl) hq rfl hl hm⟩
  · refine ⟨q ++ [.reply (errReply sDenied rid denied)], by simp [St.err, St.act, ho], .refused q sDenied _ (.inl rfl) hq rfl hl hm⟩

theorem openFwd_opened {C : Conf} {W : World} {s : St} {rid kind : Nat} {b : Bytes} {f : Fwd} (hb : Wants b kind f) :
    ∃ k, (openFwd C W s rid b).out = s.out ++ k ∧ Opened W rid kind f s (openFwd C W s rid b) k := by
  have hg := getFwd_iff.2 hb
  unfold openFwd
  simp only [hg]
  split
  · rename_i hd
    exact ⟨[], by simp, .gone (format_nosense (by rw [hd]; simp)) rfl rfl rfl (by simp)⟩
  · rename_i hd
    exact ⟨[], by simp, .gone (format_nosense (by rw [hd]; simp)) rfl rfl rfl (by simp)⟩
  · rename_i d _
    split
    · exact ⟨[.reply (errReply sFailure rid invalidFwd)], rfl, .refused [] sFailure _ (.inr rfl) (by simp [Questions]) rfl rfl rfl⟩
    · rename_i hi
      have hp := invalid_iff.1 (Bool.eq_false_iff.2 hi)
      unfold openNew
      have hf : fRemote = 2 := rfl
      split
      · rename_i hk
        split
        · rename_i g hfind
          have hm := List.mem_of_find?_eq_some hfind
          have hs := (same_iff f g).1 (List.find?_some hfind)
          split
          · rename_i hl
            exact ⟨[.reply (okReply rid)], rfl, .had g hs (fun _ => ⟨hm, hl⟩) (fun h => absurd hk h) rfl rfl rfl⟩
          · rename_i hl
            exact ⟨[.reply (portReply rid g.allocated)], rfl, .hadPort g hk (by omega) hm hs rfl rfl rfl⟩
        · rename_i hn
          exact askOpen_opened hp (fun _ => find_none hn) (fun h => absurd hk h)
      · rename_i hk
        split
        · rename_i ha
          obtain ⟨g, hm, hs⟩ := List.any_eq_true.1 ha
          exact ⟨[.reply (okReply rid)], rfl, .had g ((same_iff f g).1 hs) (fun h => absurd h hk) (fun _ => hm) rfl rfl rfl⟩
        · rename_i ha
          exact askOpen_opened hp (fun h => absurd h hk) (fun _ => any_false ha)

theorem opened_step {C : Conf} {s : St} (hr : Ready s) (W : World) {p b : Bytes} {rid kind : Nat} {f : Fwd}
    (hp : request? p = some (0x10000006, rid, b)) (hb : Wants b kind f) :
    ∃ k, (step C W s (.packet p)).out = s.out ++ k ∧ Opened W rid kind f s (step C W s (.packet p)) k := by
  rw [step_request hr W hp]
  exact openFwd_opened hb

/-- C127: when the client is told that a forwarding is open, or which port it has, then something has been made to listen, or there is an
entry in the table. Nothing else is told it while the table is left alone. What is missing is that the entry is one of a forwarding
that has not been closed since, see `C127_opened_original_false`. -/
theorem C127_opened_partial {C : Conf} {s : St} (hr : Ready s) (W : World) {p b : Bytes} {rid kind : Nat} {f : Fwd}
    (hp : request? p = some (0x10000006, rid, b)) (hb : Wants b kind f) :
    ∃ k, (step C W s (.packet p)).out = s.out ++ k ∧ Opened W rid kind f s (step C W s (.packet p)) k :=
  opened_step hr W hp hb

/-- C127: a forwarding that can be and is not there is opened, unless the user or the system refuses. -/
theorem C127_opens {C : Conf} {s : St} (hr : Ready s) (W : World) {p b : Bytes} {rid kind : Nat} {f : Fwd}
    (hp : request? p = some (0x10000006, rid, b)) (hb : Wants b kind f) (hf : Possible kind f) (ha : ¬ Asking C) :
    (kind ≠ 2 → (∀ g ∈ s.locals, ¬ Same f g) → W.listens f = true →
      (step C W s (.packet p)).out = s.out ++ [.listen f, .reply (be 4 0x80000001 ++ be 4 rid)]) ∧
    (kind = 2 → (∀ g ∈ s.remotes, ¬ Same f g) → W.asks f = true →
      (step C W s (.packet p)).out = s.out ++ [.askRemote f]) := by
  rw [step_request hr W hp]
  have h1 : fLocal = 1 := rfl
  have h2 : fRemote = 2 := rfl
  have h3 : fDynamic = 3 := rfl
  have hq : asks C = false := by
    cases h : asks C with
    | false => rfl
    | true => exact absurd ((asks_iff C).1 h) ha
  have hpm : ∀ d, permit C W s d = (true, s) := fun d => by
    rcases permit_cases C W s d with ⟨_, e⟩ | ⟨h, _⟩
    · exact e
    · rw [hq] at h; cases h
  show _ ∧ _
  have hh : handle C W s 0x10000006 rid b = openFwd C W s rid b := rfl
  rw [hh]
  unfold openFwd
  simp only [getFwd_iff.2 hb]
  obtain ⟨d, hd⟩ : ∃ d, format C kind f = .text d := by
    rcases format_bad (C := C) (kind := kind) (f := f) with h | h
    · exact h
    · unfold Possible at hf
      rcases hf with ⟨rfl, _, hf⟩ | ⟨rfl, hf⟩ | ⟨rfl, _⟩
      · rcases h with h | ⟨_, ha, hb⟩
        · omega
        · simp [ha, hb] at hf
      · rcases h with h | ⟨_, ha, hb⟩
        · omega
        · simp [ha, hb] at hf
      · omega
  simp only [hd]
  rw [if_neg (by rw [invalid_iff.2 hf]; simp)]
  unfold openNew
  refine ⟨fun hk hn hw => ?_, fun hk hn hw => ?_⟩
  · rw [if_neg (by omega), if_neg]
    · unfold askOpen
      rw [hpm]
      simp only [if_true]
      unfold openIt
      rw [if_pos, if_pos hw]
      · simp [St.act, St.ok, okReply, sOk]
      · rcases hf with ⟨h, _⟩ | ⟨h, _⟩ | ⟨h, _⟩ <;> omega
    · intro h
      obtain ⟨g, hm, hs⟩ := List.any_eq_true.1 h
      exact hn g hm ((same_iff f g).1 hs)
  · rw [if_pos (by omega)]
    have : s.remotes.find? (same f) = none := by
      rw [List.find?_eq_none]
      intro g hm hs
      exact hn g hm ((same_iff f g).1 hs)
    simp only [this]
    unfold askOpen
    rw [hpm]
    simp only [if_true]
    unfold openIt
    rw [if_neg (by omega), if_pos hw]
    rfl

/-! ### Closing -/

theorem blankFirst_length (f : Fwd) (l : List Fwd) : (blankFirst f l).length = l.length := by
  induction l with
  | nil => rfl
  | cons g l ih =>
    rw [blankFirst]
    split <;> simp [ih]

theorem blankFirst_split {f : Fwd} {l : List Fwd} (h : ∃ g ∈ l, Same f g) :
    ∃ a g b, l = a ++ g :: b ∧ (∀ x ∈ a, ¬ Same f x) ∧ Same f g ∧ blankFirst f l = a ++ blank g :: b := by
  induction l with
  | nil => obtain ⟨g, hg, _⟩ := h; simp at hg
  | cons x l ih =>
    by_cases hx : same f x = true
    · exact ⟨[], x, l, rfl, by simp, (same_iff f x).1 hx, by rw [blankFirst, if_pos hx]; rfl⟩
    · obtain ⟨g, hg, hs⟩ := h
      rcases List.mem_cons.1 hg with rfl | hg
      · exact absurd ((same_iff f g).2 hs) hx
      · obtain ⟨a, g', b, h1, h2, h3, h4⟩ := ih ⟨g, hg, hs⟩
        refine ⟨x :: a, g', b, by rw [h1]; rfl, ?_, h3, by rw [blankFirst, if_neg hx, h4]; rfl⟩
        intro y hy
        rcases List.mem_cons.1 hy with rfl | hy
        · exact fun h => hx ((same_iff f y).2 h)
        · exact h2 y hy

theorem any_split {f : Fwd} {l : List Fwd} (h : l.any (same f) = true) : ∃ g ∈ l, Same f g := by
  obtain ⟨g, hm, hs⟩ := List.any_eq_true.1 h
  exact ⟨g, hm, (same_iff f g).1 hs⟩

theorem find_split {f g : Fwd} {l : List Fwd} (h : l.find? (same f) = some g) :
    ∃ a b, l = a ++ g :: b ∧ (∀ x ∈ a, ¬ Same f x) ∧ Same f g ∧ blankFirst f l = a ++ blank g :: b := by
  induction l with
  | nil => simp at h
  | cons x l ih =>
    by_cases hx : same f x = true
    · rw [List.find?_cons_of_pos hx, Option.some.injEq] at h
      subst h
      exact ⟨[], l, rfl, by simp, (same_iff f x).1 hx, by rw [blankFirst, if_pos hx]; rfl⟩
    · rw [List.find?_cons_of_neg hx] at h
      obtain ⟨a, b, h1, h2, h3, h4⟩ := ih h
      refine ⟨x :: a, b, by rw [h1]; rfl, ?_, h3, by rw [blankFirst, if_neg hx, h4]; rfl⟩
      intro y hy
      rcases List.mem_cons.1 hy with rfl | hy
      · exact fun h => hx ((same_iff f y).2 h)
      · exact h2 y hy

theorem closeFwd_closed {C : Conf} {W : World} {s : St} {rid kind : Nat} {b : Bytes} {f : Fwd} (hb : Wants b kind f) :
    ∃ k, (closeFwd C W s rid b).out = s.out ++ k ∧ Closed W rid kind f s (closeFwd C W s rid b) k := by
  have h1 : fLocal = 1 := rfl
  have h2 : fRemote = 2 := rfl
  have h3 : fDynamic = 3 := rfl
  have hg := getFwd_iff.2 hb
  unfold closeFwd
  simp only [hg]
  split
  · rename_i hd
    exact ⟨[], by simp, .gone (format_nosense (C := C) (by rw [hd]; simp)) rfl rfl rfl (by simp)⟩
  · rename_i hd
    exact ⟨[], by simp, .gone (format_nosense (C := C) (by rw [hd]; simp)) rfl rfl rfl (by simp)⟩
  · rename_i hd
    have hkind : kind = 1 ∨ kind = 2 ∨ kind = 3 := by
      unfold format at hd
      rw [h1, h2, h3] at hd
      split at hd
      · exact .inl ‹_›
      · split at hd
        · exact .inr (.inr ‹_›)
        · split at hd
          · exact .inr (.inl ‹_›)
          · cases hd
    unfold closeFound
    split
    · rename_i hk
      split
      · rename_i hn
        exact ⟨[.reply _], rfl, .refused _ (fun _ => .inl (find_none hn)) (fun h => absurd hk h) rfl rfl rfl⟩
      · rename_i g hf
        obtain ⟨a, c, e1, e2, e3, e4⟩ := find_split hf
        split
        · rename_i hw
          exact ⟨[.cancelRemote g, .reply (okReply rid)], by simp [St.act, St.ok],
            .remote g hk hw ⟨a, c, blank g, e1, e4, e3, blank_empty g, e2⟩ rfl rfl⟩
        · rename_i hw
          exact ⟨[.reply _], rfl, .refused _ (fun _ => .inr ⟨g, List.mem_of_find?_eq_some hf, e3, by simpa using hw⟩)
            (fun h => absurd hk h) rfl rfl rfl⟩
    · rename_i hk
      split
      · rename_i ha
        obtain ⟨a, g, c, e1, e2, e3, e4⟩ := blankFirst_split (any_split ha.2)
        have hem : Emptied f g s.locals (blankFirst f s.locals) := ⟨a, c, blank g, e1, e4, e3, blank_empty g, e2⟩
        by_cases hw : W.unlistens f = true
        · exact ⟨[.unlisten f, .reply (okReply rid)], by simp [hw, St.act, St.ok],
            .local_ g ha.1 hem (by simp [hw, St.act, St.ok]) (by simp [hw, okReply, sOk])⟩
        · exact ⟨[.reply (okReply rid)], by simp [hw, St.act, St.ok],
            .local_ g ha.1 hem (by simp [hw, St.act, St.ok]) (by simp [hw, okReply, sOk])⟩
      · rename_i ha
        refine ⟨[.reply _], rfl, .refused _ (fun h => absurd h hk) (fun _ g hm hs => ha ⟨by omega, ?_⟩) rfl rfl rfl⟩
        exact List.any_eq_true.2 ⟨g, hm, (same_iff f g).2 hs⟩

/-- C127: a client is told that a forwarding is closed exactly if the table had it; then that entry is emptied, and nothing else is
changed. A remote one is cancelled at the server. What is missing is that something that listens is closed for a local one,
see `C127_closed_original_false`. -/
theorem C127_closed_partial {C : Conf} {s : St} (hr : Ready s) (W : World) {p b : Bytes} {rid kind : Nat} {f : Fwd}
    (hp : request? p = some (0x10000007, rid, b)) (hb : Wants b kind f) :
    ∃ k, (step C W s (.packet p)).out = s.out ++ k ∧ Closed W rid kind f s (step C W s (.packet p)) k := by
  rw [step_request hr W hp]
  exact closeFwd_closed hb

/-! ### The tables -/

theorem distinct_snoc {l : List Fwd} {f : Fwd} (h : Distinct l) (hf : ∀ g ∈ l, ¬ Same f g) : Distinct (l ++ [f]) := by
  unfold Distinct at *
  rw [List.pairwise_append]
  refine ⟨h, by simp, fun a ha b hb hs => ?_⟩
  simp only [List.mem_cons, List.not_mem_nil, or_false] at hb
  subst hb
  exact absurd (same_symm hs) (hf a ha)

theorem distinct_replace {a b : List Fwd} {g e : Fwd} (h : Distinct (a ++ g :: b)) (he : Empty e ∨ Same g e) : Distinct (a ++ e :: b) := by
  unfold Distinct at *
  rw [List.pairwise_append, List.pairwise_cons] at h ⊢
  obtain ⟨h1, ⟨h2, h3⟩, h4⟩ := h
  refine ⟨h1, ⟨fun x hx hs => ?_, h3⟩, fun x hx y hy hs => ?_⟩
  · rcases he with he | he
    · exact he
    · exact same_empty (same_symm he) (h2 x hx (same_trans he hs))
  · rcases List.mem_cons.1 hy with rfl | hy
    · rcases he with he | he
      · exact same_empty hs he
      · exact h4 x hx g (List.mem_cons_self ..) (same_trans hs (same_symm he))
    · exact h4 x hx y (List.mem_cons_of_mem _ hy) hs

theorem distinct_set {l : List Fwd} {i : Nat} {f e : Fwd} (h : Distinct l) (hf : l[i]? = some f) (he : Empty e ∨ Same f e) :
    Distinct (l.set i e) := by
  obtain ⟨hi, rfl⟩ := List.getElem?_eq_some_iff.1 hf
  have h1 : l = l.take i ++ l[i] :: l.drop (i + 1) := by simp
  have h2 : l.set i e = l.take i ++ e :: l.drop (i + 1) := by
    rw [List.set_eq_take_append_cons_drop, if_pos hi]
  rw [h2]
  exact distinct_replace (h1 ▸ h) he

/-- Both tables -/
def TInv (s : St) : Prop := Distinct s.locals ∧ Distinct s.remotes

theorem handle_tables {C : Conf} {W : World} {s : St} {t rid : Nat} {b : Bytes} (h : TInv s) : TInv (handle C W s t rid b) := by
  have same : ∀ {u : St}, u.locals = s.locals → u.remotes = s.remotes → TInv u := fun h1 h2 => by
    unfold TInv; rw [h1, h2]; exact h
  have pl : ∀ d, (permit C W s d).2.locals = s.locals := fun d => (permit_out C W s d).choose_spec.2.2.1
  have pr : ∀ d, (permit C W s d).2.remotes = s.remotes := fun d => (permit_out C W s d).choose_spec.2.2.2
  unfold handle
  split
  · unfold newSession
    repeat' split
    · exact same rfl rfl
    · exact same rfl rfl
    · exact same rfl rfl
    · exact same (pl _) (pr _)
    · exact same (pl _) (pr _)
  split
  · exact same rfl rfl
  split
  · unfold terminate
    split <;> exact same (pl _) (pr _)
  split
  · cases hg : getFwd b with
    | none =>
      unfold openFwd
      simp only [hg]
      exact same rfl rfl
    | some x =>
      obtain ⟨k, _, ho⟩ := openFwd_opened (C := C) (W := W) (s := s) (rid := rid) (getFwd_iff.1 (show getFwd b = some (x.1, x.2) from hg))
      cases ho with
      | had g _ _ _ _ h1 h2 => exact same h1 h2
      | hadPort g _ _ _ _ _ h1 h2 => exact same h1 h2
      | listens q _ _ hn _ _ _ h1 h2 => unfold TInv; rw [h1, h2]; exact ⟨distinct_snoc h.1 hn, h.2⟩
      | remote q _ _ hn _ _ _ h1 h2 _ => unfold TInv; rw [h1, h2]; exact ⟨h.1, distinct_snoc h.2 hn⟩
      | refused q _ _ _ _ _ h1 h2 => exact same h1 h2
      | gone _ _ h1 h2 _ => exact same h1 h2
  split
  · cases hg : getFwd b with
    | none =>
      unfold closeFwd
      simp only [hg]
      exact same rfl rfl
    | some x =>
      obtain ⟨k, _, ho⟩ := closeFwd_closed (C := C) (W := W) (s := s) (rid := rid) (getFwd_iff.1 (show getFwd b = some (x.1, x.2) from hg))
      cases ho with
      | local_ g _ h1 h2 _ =>
        obtain ⟨a, c, e, e1, e2, _, e4, _⟩ := h1
        unfold TInv; rw [e2, h2]; exact ⟨distinct_replace (e1 ▸ h.1) (.inl e4), h.2⟩
      | remote g _ _ h1 h2 _ =>
        obtain ⟨a, c, e, e1, e2, _, e4, _⟩ := h1
        unfold TInv; rw [e2, h2]; exact ⟨h.1, distinct_replace (e1 ▸ h.2) (.inl e4)⟩
      | refused _ _ _ h1 h2 _ => exact same h1 h2
      | gone _ _ h1 h2 _ => exact same h1 h2
  split
  · unfold stdioFwd
    repeat' split
    · exact same rfl rfl
    · exact same rfl rfl
    · exact same rfl rfl
    · exact same (pl _) (pr _)
    · exact same (pl _) (pr _)
  split
  · unfold stopListening
    repeat' split
    all_goals exact same (pl _) (pr _)
  split
  · exact same rfl rfl
  · exact same rfl rfl

theorem forwardConfirm_tables {s : St} {rid fid : Nat} {success : Bool} {p : Bytes} (h : TInv s) : TInv (forwardConfirm s rid fid success p) := by
  unfold forwardConfirm
  split
  · exact h
  · rename_i f hf
    split
    · exact h
    · split
      · split
        · split
          · exact h
          · split
            · exact h
            · exact ⟨h.1, distinct_set h.2 hf (.inr ⟨rfl, rfl, rfl, rfl, rfl, rfl⟩)⟩
        · exact h
      · have : ∀ {u : St} {m : Bytes}, u.locals = s.locals → (St.err u sFailure rid m).locals = s.locals := fun h => h
        refine ⟨?_, distinct_set h.2 hf (.inl ⟨rfl, rfl, rfl, rfl, rfl, rfl⟩)⟩
        show Distinct (St.err _ sFailure rid (remoteFailed f)).locals
        rw [this]
        · exact h.1
        · split <;> rfl

theorem step_tables {C : Conf} {s : St} (h : TInv s) (W : World) {e : Event} (he : ∀ a b, e = .others a b → Distinct a ∧ Distinct b) :
    TInv (step C W s e) := by
  unfold step
  split
  · exact h
  · cases e with
    | packet p =>
      simp only []
      split
      · exact h
      · unfold packet
        split
        · exact h
        · split
          · unfold hello
            repeat' split
            all_goals exact h
          · split
            · exact h
            · split
              · exact h
              · exact handle_tables h
    | opened success =>
      simp only []
      split
      · unfold sessionConfirm
        split <;> exact h
      · unfold stdioConfirm
        split <;> exact h
      · exact h
    | forwarded success p =>
      simp only []
      split
      · exact forwardConfirm_tables h
      · exact h
    | exit status => simp only []; split <;> exact h
    | ttyFailed => simp only []; split <;> exact h
    | childClosed => simp only []; split <;> exact h
    | others a b => exact he a b rfl

/-- C127: no forwarding is in a table twice, whatever clients do, if it is not from the start. -/
theorem C127_once {C : Conf} : ∀ (l : List (World × Event)) (s : St), Distinct s.locals → Distinct s.remotes →
    (∀ W a b, (W, Event.others a b) ∈ l → Distinct a ∧ Distinct b) → Distinct (run C s l).locals ∧ Distinct (run C s l).remotes := by
  intro l
  induction l with
  | nil => intro s h1 h2 _; exact ⟨h1, h2⟩
  | cons x l ih =>
    intro s h1 h2 h
    obtain ⟨W, e⟩ := x
    have := step_tables (C := C) (s := s) ⟨h1, h2⟩ W (e := e) fun a b he => h W a b (by rw [he]; exact List.mem_cons_self ..)
    exact ih _ this.1 this.2 fun W' a b hm => h W' a b (List.mem_cons_of_mem _ hm)

/-- C127: when a forwarding has been closed, no entry of it is left, so that it can be opened again. -/
theorem C127_closed_gone {f g : Fwd} {l m : List Fwd} (hd : Distinct l) (he : Emptied f g l m) (hf : ¬ Empty f) : ∀ x ∈ m, ¬ Same f x := by
  obtain ⟨a, b, e, rfl, rfl, h1, h2, h3⟩ := he
  unfold Distinct at hd
  rw [List.pairwise_append, List.pairwise_cons] at hd
  intro x hx hs
  rcases List.mem_append.1 hx with hx | hx
  · exact h3 x hx hs
  · rcases List.mem_cons.1 hx with rfl | hx
    · exact hf (same_empty hs h2)
    · exact hf (same_empty h1 (hd.2.1.1 x hx (same_trans (same_symm h1) hs)))

/-- C127: the answer of the server to a request for a remote forwarding is passed on: with the port, if it is the server that has chosen it,
which is kept in the table; and if the server has refused, the entry is emptied, so that it can be asked for again. -/
theorem C127_confirmed {C : Conf} {s : St} (hs : s.status = .running) {rid fid : Nat} (hw : s.wait = some (.forward rid fid)) {f : Fwd}
    (hf : s.remotes[fid]? = some f) (hc : f.connectHost ≠ none ∨ f.connectPath ≠ none) (W : World) (p : Bytes) :
    (f.listenPort ≠ 0 → (step C W s (.forwarded true p)).out = s.out ++ [.reply (be 4 0x80000001 ++ be 4 rid)] ∧
      (step C W s (.forwarded true p)).remotes = s.remotes ∧ (step C W s (.forwarded true p)).wait = none) ∧
    (∀ port rest, f.listenPort = 0 → port ≤ 65535 → p = be 4 port ++ rest →
      (step C W s (.forwarded true p)).out = s.out ++ [.reply (be 4 0x80000007 ++ be 4 rid ++ be 4 port), .allocate f (some port)] ∧
      (step C W s (.forwarded true p)).remotes = s.remotes.set fid { f with allocated := port } ∧
      (step C W s (.forwarded true p)).wait = none) ∧
    (∃ k msg e, (step C W s (.forwarded false p)).out = s.out ++ k ++ [.reply (be 4 0x80000003 ++ be 4 rid ++ str msg)] ∧
      k = (if f.listenPort = 0 then [.allocate f none] else []) ∧
      (step C W s (.forwarded false p)).remotes = s.remotes.set fid e ∧ Empty e ∧
      (step C W s (.forwarded false p)).wait = none) := by
  have hstep : ∀ ok, step C W s (.forwarded ok p) = forwardConfirm s rid fid ok p := fun ok => by
    unfold step
    rw [if_neg (by simp [hs])]
    simp only [hw]
  have hn : ¬ (f.connectPath = none ∧ f.connectHost = none) := by
    rintro ⟨h1, h2⟩
    simp [h1, h2] at hc
  rw [hstep, hstep]
  unfold forwardConfirm
  simp only [hf]
  rw [if_neg hn, if_neg hn]
  refine ⟨fun hl => ?_, fun port rest hl hp hpe => ?_, ?_⟩
  · simp only [if_true]
    rw [if_neg hl]
    exact ⟨rfl, rfl, rfl⟩
  · simp only [if_true]
    rw [if_pos hl, hpe, getInt_append 4 port _ (by omega)]
    simp only []
    rw [if_neg (by omega)]
    exact ⟨by simp [St.act, portReply, sPort], rfl, rfl⟩
  · simp only [Bool.false_eq_true, if_false]
    refine ⟨_, remoteFailed f, _, ?_, rfl, rfl, ⟨rfl, rfl, rfl, rfl, rfl, rfl⟩, trivial⟩
    by_cases hl : f.listenPort = 0 <;> simp [hl, St.err, St.act, errReply, sFailure]

end Verif.Mux
