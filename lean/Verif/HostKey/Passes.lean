/-
What one pass of the check does, case by case.
-/
import Verif.HostKey.Lemmas

namespace Verif.HostKey
open Verif Verif.Hostfile

/-- What is left of the replies. -/
def Left (a b : List Bytes) : Prop := ∃ used, a = used ++ b

theorem Left.refl (a : List Bytes) : Left a a := ⟨[], rfl⟩

theorem Left.trans {a b c : List Bytes} (h : Left a b) (h' : Left b c) : Left a c := by
  obtain ⟨u, rfl⟩ := h; obtain ⟨v, rfl⟩ := h'; exact ⟨u ++ v, by simp⟩

/-- Having agreed, at some moment, to a question about this fingerprint. -/
def Agreed (C : Cfg) (fp : Option Bytes) (rs : List Bytes) : Prop :=
  C.strict = .ask ∧ C.batch = false ∧ ∃ r', Left rs r' ∧ Agrees fp r'

theorem Agreed.of_left {C : Cfg} {fp : Option Bytes} {a b : List Bytes} (h : Left a b) (h' : Agreed C fp b) :
    Agreed C fp a := by
  obtain ⟨x, y, r, l, g⟩ := h'; exact ⟨x, y, r, h.trans l, g⟩

theorem confirmLoop_iff (fp : Option Bytes) (rs : List Bytes) : (confirmLoop fp rs).1 = true ↔ Agrees fp rs := by
  induction rs with
  | nil =>
    constructor
    · intro h; cases h
    · rintro ⟨pre, r, rest, h, _⟩; simp at h
  | cons r rs ih =>
    unfold confirmLoop
    cases hj : judge fp (replyWord r) with
    | none =>
      show (confirmLoop fp rs).1 = true ↔ _
      rw [ih]
      have hn := judge_none.mp hj
      constructor
      · rintro ⟨pre, x, rest, rfl, hp, hx⟩
        refine ⟨r :: pre, x, rest, rfl, ?_, hx⟩
        intro y hy
        rcases List.mem_cons.mp hy with rfl | hy
        · exact hn
        · exact hp y hy
      · rintro ⟨pre, x, rest, h, hp, hx⟩
        cases pre with
        | nil =>
          simp only [List.nil_append, List.cons.injEq] at h
          obtain ⟨rfl, rfl⟩ := h
          obtain ⟨_, _, h3⟩ := hx
          rcases h3 with h3 | h3
          · exact absurd h3 hn.2.2.1
          · exact absurd h3 hn.2.2.2
        | cons p pre =>
          simp only [List.cons_append, List.cons.injEq] at h
          obtain ⟨rfl, rfl⟩ := h
          exact ⟨pre, x, rest, rfl, fun y hy => hp y (List.mem_cons_of_mem _ hy), hx⟩
    | some b =>
      show b = true ↔ _
      constructor
      · rintro rfl
        exact ⟨[], r, rs, rfl, by simp, judge_true.mp hj⟩
      · rintro ⟨pre, x, rest, h, hp, hx⟩
        cases pre with
        | nil =>
          simp only [List.nil_append, List.cons.injEq] at h
          obtain ⟨rfl, rfl⟩ := h
          have := judge_true.mpr hx
          rw [hj] at this; exact Option.some.inj this
        | cons p pre =>
          simp only [List.cons_append, List.cons.injEq] at h
          obtain ⟨rfl, rfl⟩ := h
          have := judge_none.mpr (hp r List.mem_cons_self)
          rw [hj] at this; cases this

theorem confirm_iff {b : Bool} {fp : Option Bytes} {rs : List Bytes} :
    (confirm b fp rs).1 = true ↔ b = false ∧ Agrees fp rs := by
  unfold confirm
  cases b
  · simp only [Bool.false_eq_true, if_false, true_and]; exact confirmLoop_iff fp rs
  · simp

/-! ## After the switch -/

/-- What a step leaves as it is. -/
structure Same (s s' : St) : Prop where
  adds : s'.adds = s.adds
  left : Left s.replies s'.replies
  opts : Weaker s'.opts s.opts

theorem Weaker.refl (o : Opts) : Weaker o o := by
  unfold Weaker; exact ⟨id, id, id, id, Nat.le_refl _, Nat.le_refl _, id, id, id⟩

theorem Weaker.trans {a b c : Opts} (h : Weaker a b) (h' : Weaker b c) : Weaker a c := by
  obtain ⟨a1, a2, a3, a4, a5, a6, a7, a8, a9⟩ := h
  obtain ⟨b1, b2, b3, b4, b5, b6, b7, b8, b9⟩ := h'
  exact ⟨fun x => b1 (a1 x), fun x => b2 (a2 x), fun x => b3 (a3 x), fun x => b4 (a4 x), Nat.le_trans a5 b5,
    Nat.le_trans a6 b6, fun x => b7 (a7 x), fun x => b8 (a8 x), fun x => b9 (a9 x)⟩

theorem Harmless.of_weaker {a b : Opts} (h : Weaker a b) (h' : Harmless b) : Harmless a := by
  obtain ⟨a1, a2, a3, a4, a5, a6, a7, a8, _⟩ := h
  obtain ⟨b1, b2, b3, b4, b5, b6, b7, b8⟩ := h'
  rw [b1] at a1; rw [b2] at a2; rw [b3] at a3; rw [b4] at a4; rw [b5] at a5; rw [b6] at a6; rw [b7] at a7; rw [b8] at a8
  refine ⟨?_, ?_, ?_, ?_, by omega, by omega, ?_, ?_⟩
  · cases h : a.password; rfl; exact absurd (a1 h) (by simp)
  · cases h : a.kbdint; rfl; exact absurd (a2 h) (by simp)
  · cases h : a.agent; rfl; exact absurd (a3 h) (by simp)
  · cases h : a.x11; rfl; exact absurd (a4 h) (by simp)
  · cases h : a.tun; rfl; exact absurd (a7 h) (by simp)
  · cases h : a.update; rfl; exact absurd (a8 h) (by simp)

theorem Same.refl (s : St) : Same s s := ⟨rfl, Left.refl _, Weaker.refl _⟩

theorem Same.trans {a b c : St} (h : Same a b) (h' : Same b c) : Same a c :=
  ⟨h'.adds.trans h.adds, h.left.trans h'.left, h'.opts.trans h.opts⟩

theorem noUpdate_same (s : St) : Same s (noUpdate s) :=
  ⟨rfl, Left.refl _, ⟨id, id, id, id, Nat.le_refl _, Nat.le_refl _, id, fun h => (by cases h), id⟩⟩

theorem disarm_same (s : St) : Same s { s with opts := disarm s.opts } :=
  ⟨rfl, Left.refl _, ⟨fun h => (by cases h), fun h => (by cases h), fun h => (by cases h), fun h => (by cases h),
    Nat.zero_le _, Nat.zero_le _, fun h => (by cases h), fun h => (by cases h), id⟩⟩

theorem replies_same (s : St) {rs : List Bytes} (h : Left s.replies rs) : Same s { s with replies := rs } :=
  ⟨rfl, h, Weaker.refl _⟩

/-- The state an outcome carries. -/
def Out.st : Out → St
  | .done _ s => s
  | .fail _ _ s => s

/-- The address gave no reason to stop. -/
def IpFine (C : Cfg) (F : Found) (s : St) : Prop :=
  s.opts.checkIp = true → F.status ≠ .changed → F.ipStatus = .changed → C.strict = .off ∨ Agreed C none s.replies

theorem afterSwitch_same (C : Cfg) (F : Found) (ro : RO) (t : Bool) (s : St) : Same s (afterSwitch C F ro t s).st := by
  have h0 : Same s (if t then s else noUpdate s) := by
    cases t
    · exact noUpdate_same s
    · exact Same.refl s
  have hc := confirm_suffix C.batch none s.replies
  have hr : Same s { s with replies := (confirm C.batch none s.replies).2 } := replies_same s hc
  unfold afterSwitch
  split
  · split
    · split
      · cases t
        · exact hr.trans (noUpdate_same _)
        · exact hr
      · exact hr
    · exact h0
    · exact Same.refl s
  · exact h0

theorem afterSwitch_done {C : Cfg} {F : Found} {ro : RO} {t : Bool} {s s' : St} {r : Res}
    (h : afterSwitch C F ro t s = .done r s') :
    r = .accept ∧ IpFine C F s ∧ (s'.opts.update = true → t = true) := by
  unfold afterSwitch at h
  split at h
  · rename_i c
    split at h
    · rename_i hs
      split at h
      · rename_i hc
        cases h
        refine ⟨rfl, ?_, ?_⟩
        · intro _ _ _
          obtain ⟨a, b⟩ := confirm_iff.mp hc
          exact .inr ⟨hs, a, _, Left.refl _, b⟩
        · cases t
          · intro h; cases h
          · intro _; rfl
      · cases h
    · rename_i hs
      cases h
      refine ⟨rfl, fun _ _ _ => .inl hs, ?_⟩
      cases t
      · intro h; cases h
      · intro _; rfl
    · cases h
  · rename_i c
    cases h
    refine ⟨rfl, ?_, ?_⟩
    · intro a b d; exact absurd ⟨a, b, d⟩ c
    · cases t
      · intro h; cases h
      · intro _; rfl

/-- When nothing speaks against the address, the key is accepted. -/
theorem afterSwitch_noip {C : Cfg} {F : Found} {ro : RO} {t : Bool} {s : St} (h : s.opts.checkIp = false) :
    ∃ s', afterSwitch C F ro t s = .done .accept s' := by
  unfold afterSwitch
  rw [if_neg (by rw [h]; simp)]
  exact ⟨_, rfl⟩

/-! ## The lookups -/

theorem found_host (X : Ctx) (k : Key) : (found X k).status = (findKey X.hostKeys k).1 ∧
    (found X k).ent = (findKey X.hostKeys k).2 := by
  unfold found; split <;> exact ⟨rfl, rfl⟩

theorem found_ip {X : Ctx} {k : Key} {es : List Ent} (h : X.ipKeys = some es) (hk : k.isCert = false) :
    (found X k).ipStatus = (findKey es k).1 ∧ (found X k).ipEnt = (findKey es k).2 := by
  unfold found; rw [hk, h]; exact ⟨rfl, rfl⟩

theorem status_cases (X : Ctx) (k : Key) :
    ((found X k).status = .ok ∧ ¬ Revoked X.hostKeys k ∧ Listed X.hostKeys k) ∨
    ((found X k).status = .new ∧ Unknown X.hostKeys k) ∨
    ((found X k).status = .revoked ∧ Revoked X.hostKeys k) ∨
    ((found X k).status = .changed ∧ ¬ Revoked X.hostKeys k ∧ Changed X.hostKeys k) := by
  rw [(found_host X k).1]
  by_cases hr : Revoked X.hostKeys k
  · exact .inr (.inr (.inl ⟨status_revoked.mpr hr, hr⟩))
  obtain ⟨h1, h2, h3⟩ := status_rest hr
  cases h : (findKey X.hostKeys k).1 with
  | ok => exact .inl ⟨rfl, hr, h1.mp h⟩
  | new => exact .inr (.inl ⟨rfl, h3.mp h⟩)
  | revoked => exact absurd (status_revoked.mp h) hr
  | changed => exact .inr (.inr (.inr ⟨rfl, hr, h2.mp h⟩))
  | found => exact absurd h status_found

/-! ## Additions -/

/-- Adding leaves everything else alone. -/
theorem add_same (W : World) (n : Bytes) (k : Key) (s : St) : (add W n k s).opts = s.opts ∧
    (add W n k s).replies = s.replies := by
  unfold add; split <;> exact ⟨rfl, rfl⟩

theorem add_adds (W : World) (n : Bytes) (k : Key) (s : St) :
    (add W n k s).adds = s.adds ∨ (add W n k s).adds = s.adds ++ [(n, k)] := by
  unfold add; split
  · exact .inr rfl
  · exact .inl rfl

theorem record_same (C : Cfg) (W : World) (X : Ctx) (F : Found) (k : Key) (s : St) :
    (record C W X F k s).opts = s.opts ∧ (record C W X F k s).replies = s.replies := by
  unfold record
  split
  · split
    · split
      · rw [(add_same W X.ip k _).1, (add_same W X.ip k _).2]; exact add_same W _ k s
      · exact ⟨rfl, rfl⟩
    · exact add_same W _ k s
  · exact add_same W _ k s

/-- The names a new key is recorded under. -/
theorem record_adds (C : Cfg) (W : World) (X : Ctx) (F : Found) (k : Key) (s : St) :
    ∃ new, (record C W X F k s).adds = s.adds ++ new ∧ ∀ a ∈ new, a.2 = k ∧
      (a.1 = X.host ∨ (s.opts.checkIp = true ∧ F.ipStatus = .new ∧
        (a.1 = X.ip ∨ a.1 = (X.host ++ b!"," ++ X.ip).take 999))) := by
  unfold record
  split
  · rename_i c
    split
    · split
      · rcases add_adds W X.ip k (add W X.host k s) with h | h <;> rcases add_adds W X.host k s with h' | h'
        · exact ⟨[], by rw [h, h']; simp, by simp⟩
        · refine ⟨[(X.host, k)], by rw [h, h'], ?_⟩
          intro a ha; simp at ha; rw [ha]; exact ⟨rfl, .inl rfl⟩
        · refine ⟨[(X.ip, k)], by rw [h, h'], ?_⟩
          intro a ha; simp at ha; rw [ha]; exact ⟨rfl, .inr ⟨c.1, c.2, .inl rfl⟩⟩
        · refine ⟨[(X.host, k), (X.ip, k)], by rw [h, h']; simp, ?_⟩
          intro a ha; simp at ha
          rcases ha with rfl | rfl
          · exact ⟨rfl, .inl rfl⟩
          · exact ⟨rfl, .inr ⟨c.1, c.2, .inl rfl⟩⟩
      · exact ⟨[], by simp, by simp⟩
    · rcases add_adds W ((X.host ++ b!"," ++ X.ip).take 999) k s with h | h
      · exact ⟨[], by rw [h]; simp, by simp⟩
      · refine ⟨_, h, ?_⟩
        intro a ha; simp at ha; rw [ha]; exact ⟨rfl, .inr ⟨c.1, c.2, .inr (by simp)⟩⟩
  · rcases add_adds W X.host k s with h | h
    · exact ⟨[], by rw [h]; simp, by simp⟩
    · refine ⟨_, h, ?_⟩
      intro a ha; simp at ha; rw [ha]; exact ⟨rfl, .inl rfl⟩

end Verif.HostKey
