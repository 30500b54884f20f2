/-
C46: account lists.
-/
import Verif.Access.Model
import Verif.Match.Props
import Verif.Addr.Props

namespace Verif.Access

open Match Addr Text

namespace Spec

/-- the client, as the patterns see it -/
structure Client where
  user : Bytes
  host : Bytes
  ip : Bytes
  addr : XAddr

/-- an entry of a host list that counts against this client, by address or by name -/
def Excludes (pton : Bytes → Option XAddr) (w : Client) (list : Bytes) : Prop :=
  (∃ e ∈ split 44 list, eNeg e ∧ eHit pton w.ip w.addr e) ∨
  (∃ pre e post, entries list = pre ++ e :: post ∧ (∀ x ∈ pre, short x) ∧ short e ∧ isNeg e ∧ hits (w.host.map toLower) true e)

/-- an entry of a host list that covers this client, by address or by name -/
def Includes (pton : Bytes → Option XAddr) (w : Client) (list : Bytes) : Prop :=
  (∃ e ∈ split 44 list, eHit pton w.ip w.addr e) ∨
  ((∀ e ∈ entries list, short e) ∧ ∃ e ∈ entries list, ¬ isNeg e ∧ hits (w.host.map toLower) true e)

/-- A host list covers a client when all its entries are well formed, none excludes and one includes it. -/
def HostList (pton : Bytes → Option XAddr) (w : Client) (list : Bytes) : Prop :=
  (∀ e ∈ split 44 list, ¬ eBad pton e) ∧ ¬ Excludes pton w list ∧ Includes pton w list

/-- `p` is `u@l`, cut at the last at-sign -/
def Cut (p u l : Bytes) : Prop := p = u ++ 64 :: l ∧ (64 : UInt8) ∉ l

/-- A user pattern covers a client: by its user part alone, or with its host list. -/
def Covers (pton : Bytes → Option XAddr) (w : Client) (p : Bytes) : Prop :=
  ((64 : UInt8) ∉ p ∧ Glob p w.user) ∨ ∃ u l, Cut p u l ∧ Glob u w.user ∧ HostList pton w l

/-- The pattern's host list is unusable, and is reached before an entry decides against the client. -/
def Broken (pton : Bytes → Option XAddr) (w : Client) (p : Bytes) : Prop :=
  ∃ u l, Cut p u l ∧ Glob u w.user ∧ ∃ x e y, split 44 l = x ++ e :: y ∧ eBad pton e ∧
    ∀ z ∈ x, ¬ eBad pton z ∧ ¬ (eNeg z ∧ eHit pton w.ip w.addr z)

/-- The shell is a regular file somebody may execute, unless the session is put in another root. -/
def ShellGood (c : Config) (a : Account) : Prop :=
  a.shell = .found true true ∨ ∃ d, c.chroot = some d ∧ d.map toLower ≠ b!"none"

end Spec

open Spec

theorem splitLast_none {c : UInt8} {s : Bytes} : splitLast c s = none ↔ c ∉ s := by
  induction s with
  | nil => simp [splitLast]
  | cons x s ih =>
    simp only [splitLast]
    cases h : splitLast c s with
    | none =>
      have := ih.1 h
      by_cases hx : x = c
      · simp [hx]
      · simp [hx, this, Ne.symm hx]
    | some y =>
      have : c ∈ s := by
        apply Classical.byContradiction
        intro hc
        rw [ih.2 hc] at h
        cases h
      simp [this]

theorem splitLast_some {c : UInt8} {s u l : Bytes} : splitLast c s = some (u, l) ↔ s = u ++ c :: l ∧ c ∉ l := by
  induction s generalizing u l with
  | nil => simp [splitLast]
  | cons x s ih =>
    simp only [splitLast]
    cases h : splitLast c s with
    | none =>
      have hn := splitLast_none.1 h
      by_cases hx : x = c
      · subst hx
        simp only [if_true, Option.some.injEq, Prod.mk.injEq]
        constructor
        · rintro ⟨rfl, rfl⟩; exact ⟨rfl, hn⟩
        · rintro ⟨h1, h2⟩
          cases u with
          | nil => simp at h1; exact ⟨rfl, h1⟩
          | cons y u => simp at h1; exact absurd (by rw [h1.2]; simp) hn
      · simp only [hx, if_false, reduceCtorEq, false_iff]
        rintro ⟨h1, h2⟩
        cases u with
        | nil => simp at h1; exact hx h1.1
        | cons y u => simp at h1; exact absurd (by rw [h1.2]; simp) hn
    | some y =>
      obtain ⟨a, b⟩ := y
      simp only [Option.some.injEq, Prod.mk.injEq]
      constructor
      · rintro ⟨rfl, rfl⟩
        have := ih.1 h
        exact ⟨by rw [this.1]; rfl, this.2⟩
      · rintro ⟨h1, h2⟩
        cases u with
        | nil =>
          simp at h1
          exfalso
          have := (ih.1 h).1
          rw [← h1.2] at h2
          exact h2 (by rw [this]; simp)
        | cons z u =>
          simp at h1
          have := ih.2 ⟨h1.2, h2⟩
          rw [h] at this
          simp at this
          exact ⟨by rw [h1.1, this.1], this.2⟩

theorem first_of {α : Type} (P Q : α → Prop) (l : List α) (h : ∃ e ∈ l, P e) :
    (∃ x e y, l = x ++ e :: y ∧ P e ∧ ∀ z ∈ x, ¬ P z) := by
  induction l with
  | nil => simp at h
  | cons a l ih =>
    by_cases ha : P a
    · exact ⟨[], a, l, rfl, ha, by simp⟩
    · have : ∃ e ∈ l, P e := by
        obtain ⟨e, he, hp⟩ := h
        rcases List.mem_cons.1 he with rfl | he
        · exact absurd hp ha
        · exact ⟨e, he, hp⟩
      obtain ⟨x, e, y, h1, h2, h3⟩ := ih this
      refine ⟨a :: x, e, y, by rw [h1]; rfl, h2, ?_⟩
      intro z hz
      rcases List.mem_cons.1 hz with rfl | hz
      · exact ha
      · exact h3 z hz

/-- What a host list says of a client. -/
theorem hostList_one {pton : Bytes → Option XAddr} (hp : ∀ s a, pton s = some a → Known a) {w : Client}
    (ha : pton w.ip = some w.addr) (l : Bytes) :
    matchHostAndIp (some w.host) (some w.ip) l (Addr.matchList pton) = 1 ↔ HostList pton w l := by
  obtain ⟨a1, a2, a3, a4⟩ := C51_list pton hp w.ip l w.addr ha
  have n1 := C06_negative_iff (w.host.map toLower) l true
  have n2 := C06_positive_iff (w.host.map toLower) l true
  have n3 := C06_results (w.host.map toLower) l true
  have key : Addr.matchList pton (some w.ip) l = -2 ∨ Addr.matchList pton (some w.ip) l = -1 ∨
      Addr.matchList pton (some w.ip) l = 1 ∨ Addr.matchList pton (some w.ip) l = 0 := by
    rw [a1, a2, a3, a4]
    by_cases h : ∃ e ∈ split 44 l, eBad pton e ∨ (eNeg e ∧ eHit pton w.ip w.addr e)
    · obtain ⟨x, e, y, h1, h2, h3⟩ := first_of _ (fun _ => True) _ h
      have h3' : ∀ z ∈ x, ¬ eBad pton z ∧ ¬ (eNeg z ∧ eHit pton w.ip w.addr z) := fun z hz => by
        have := h3 z hz
        exact ⟨fun hb => this (.inl hb), fun hb => this (.inr hb)⟩
      by_cases hb : eBad pton e
      · exact .inl ⟨x, e, y, h1, h3', hb⟩
      · refine .inr (.inl ⟨x, e, y, h1, h3', hb, ?_⟩)
        rcases h2 with h2 | h2
        · exact absurd h2 hb
        · exact h2
    · have hq : ∀ z ∈ split 44 l, ¬ eBad pton z ∧ ¬ (eNeg z ∧ eHit pton w.ip w.addr z) := fun z hz =>
        ⟨fun hb => h ⟨z, hz, .inl hb⟩, fun hb => h ⟨z, hz, .inr hb⟩⟩
      by_cases hh : ∃ e ∈ split 44 l, eHit pton w.ip w.addr e
      · exact .inr (.inr (.inl ⟨hq, hh⟩))
      · exact .inr (.inr (.inr ⟨hq, fun e he hx => hh ⟨e, he, hx⟩⟩))
  unfold matchHostAndIp matchHostname
  simp only
  rcases key with k | k | k | k <;> simp only [k]
  · obtain ⟨x, e, y, h1, -, h2⟩ := a1.1 k
    simp only [if_true, reduceCtorEq, false_iff, Int.reduceNeg, Int.reduceEq]
    intro h
    exact h.1 e (by rw [h1]; simp) h2
  · obtain ⟨x, e, y, h1, -, -, h2⟩ := a2.1 k
    simp only [Int.reduceNeg, Int.reduceEq, if_false, if_true, false_iff]
    intro h
    exact h.2.1 (.inl ⟨e, by rw [h1]; simp, h2⟩)
  · obtain ⟨hq, e, he, hit⟩ := a3.1 k
    simp only [Int.reduceNeg, Int.reduceEq, if_false]
    rcases n3 with n | n | n
    · simp only [n, if_true, Int.reduceEq, false_iff]
      intro h
      exact h.2.1 (.inr (n1.1 n))
    · simp only [n, Int.reduceNeg, Int.reduceEq, if_false, and_false, true_iff]
      refine ⟨fun e he => (hq e he).1, ?_, .inl ⟨e, he, hit⟩⟩
      rintro (⟨e', he', hx⟩ | hx)
      · exact (hq e' he').2 hx
      · rw [← n1] at hx; omega
    · simp only [n, Int.reduceNeg, Int.reduceEq, if_false, and_false, true_iff]
      refine ⟨fun e he => (hq e he).1, ?_, .inl ⟨e, he, hit⟩⟩
      rintro (⟨e', he', hx⟩ | hx)
      · exact (hq e' he').2 hx
      · rw [← n1] at hx; omega
  · obtain ⟨hq, hno⟩ := a4.1 k
    simp only [Int.reduceNeg, Int.reduceEq, if_false]
    rcases n3 with n | n | n
    · simp only [n, if_true, Int.reduceEq, false_iff]
      intro h
      exact h.2.1 (.inr (n1.1 n))
    · simp only [n, Int.reduceNeg, Int.reduceEq, if_false, and_self, if_true, false_iff]
      rintro ⟨-, hx, hi⟩
      rcases hi with ⟨e, he, hit⟩ | ⟨hs, e, he, h1, h2⟩
      · exact hno e he hit
      · have : matchPatternList (w.host.map toLower) l true = 1 := by
          rw [n2]
          refine ⟨fun e' he' => ⟨hs e' he', fun hneg => ?_⟩, e, he, h1, h2⟩
          apply hx
          right
          obtain ⟨pre, post, hpp⟩ := List.append_of_mem he'
          exact ⟨pre, e', post, hpp, fun z hz => hs z (by rw [hpp]; simp [hz]), hs e' he', hneg⟩
        omega
    · simp only [n, Int.reduceNeg, Int.reduceEq, if_false, false_and, true_iff]
      obtain ⟨m1, m2⟩ := n2.1 n
      refine ⟨fun e he => (hq e he).1, ?_, .inr ⟨fun e he => (m1 e he).1, m2⟩⟩
      rintro (⟨e', he', hx⟩ | hx)
      · exact (hq e' he').2 hx
      · rw [← n1] at hx; omega

theorem hostAndIp_cases (h ip l : Bytes) (f : Option Bytes → Bytes → Int) :
    matchHostAndIp (some h) (some ip) l f = 1 ∨ matchHostAndIp (some h) (some ip) l f = 0 ∨
      (matchHostAndIp (some h) (some ip) l f = -1 ∧ f (some ip) l = -2) := by
  unfold matchHostAndIp
  simp only
  split
  · rename_i h; exact .inr (.inr ⟨rfl, h⟩)
  · split
    · exact .inr (.inl rfl)
    · split
      · exact .inr (.inl rfl)
      · split
        · exact .inr (.inl rfl)
        · exact .inl rfl

theorem hostAndIp_neg {h ip l : Bytes} {f : Option Bytes → Bytes → Int} :
    matchHostAndIp (some h) (some ip) l f = -1 ↔ f (some ip) l = -2 := by
  rcases hostAndIp_cases h ip l f with h1 | h1 | ⟨h1, h2⟩
  · constructor
    · intro h; omega
    · intro h2; unfold matchHostAndIp at h1; simp only [h2] at h1; simp at h1
  · constructor
    · intro h; omega
    · intro h2; unfold matchHostAndIp at h1; simp only [h2] at h1; simp at h1
  · exact ⟨fun _ => h2, fun _ => h1⟩

/-- What one pattern of AllowUsers or DenyUsers says. -/
theorem matchUser_spec {pton : Bytes → Option XAddr} (hp : ∀ s a, pton s = some a → Known a) {w : Client}
    (ha : pton w.ip = some w.addr) (p : Bytes) :
    (matchUser (some w.user) (some w.host) (some w.ip) p (Addr.matchList pton) = 1 ↔ Covers pton w p) ∧
    (matchUser (some w.user) (some w.host) (some w.ip) p (Addr.matchList pton) = -1 ↔ Broken pton w p) ∧
    (matchUser (some w.user) (some w.host) (some w.ip) p (Addr.matchList pton) = 1 ∨
     matchUser (some w.user) (some w.host) (some w.ip) p (Addr.matchList pton) = 0 ∨
     matchUser (some w.user) (some w.host) (some w.ip) p (Addr.matchList pton) = -1) := by
  unfold matchUser
  simp only
  cases h : splitLast AT p with
  | none =>
    have hn : (64 : UInt8) ∉ p := splitLast_none.1 h
    have hc : ∀ u l, ¬ Cut p u l := fun u l hc => hn (by rw [hc.1]; simp)
    simp only
    by_cases hm : matchPattern w.user p = true
    · simp only [hm, if_true, true_or, and_true, true_iff]
      refine ⟨.inl ⟨hn, (C05_match_pattern _ _).1 hm⟩, ?_⟩
      simp only [Int.reduceNeg, Int.reduceEq, false_iff]
      rintro ⟨u, l, hc', -⟩; exact hc u l hc'
    · simp only [hm, Bool.false_eq_true, if_false]
      refine ⟨?_, ?_, by simp⟩
      · simp only [Int.reduceEq, false_iff]
        rintro (⟨-, hg⟩ | ⟨u, l, hc', -⟩)
        · exact hm ((C05_match_pattern _ _).2 hg)
        · exact hc u l hc'
      · simp only [Int.reduceNeg, Int.reduceEq, false_iff]
        rintro ⟨u, l, hc', -⟩; exact hc u l hc'
  | some x =>
    obtain ⟨u, l⟩ := x
    have hcut : Cut p u l := splitLast_some.1 h
    have huniq : ∀ u' l', Cut p u' l' → u' = u ∧ l' = l := fun u' l' hc => by
      have := splitLast_some.2 hc
      rw [h] at this
      simp at this
      exact ⟨this.1.symm, this.2.symm⟩
    have hin : (64 : UInt8) ∈ p := by rw [hcut.1]; simp
    simp only
    by_cases hm : matchPattern w.user u = true
    · have hg := (C05_match_pattern _ _).1 hm
      simp only [hm, if_true]
      refine ⟨?_, ?_, ?_⟩
      · rw [hostList_one hp ha]
        constructor
        · intro hh; exact .inr ⟨u, l, hcut, hg, hh⟩
        · rintro (⟨hn, -⟩ | ⟨u', l', hc, -, hh⟩)
          · exact absurd hin hn
          · rw [(huniq _ _ hc).2] at hh; exact hh
      · rw [hostAndIp_neg, (C51_list pton hp w.ip l w.addr ha).1]
        constructor
        · rintro ⟨x, e, y, h1, h2, h3⟩; exact ⟨u, l, hcut, hg, x, e, y, h1, h3, h2⟩
        · rintro ⟨u', l', hc, -, x, e, y, h1, h2, h3⟩
          rw [(huniq _ _ hc).2] at h1
          exact ⟨x, e, y, h1, h3, h2⟩
      · rcases hostAndIp_cases w.host w.ip l (Addr.matchList pton) with h1 | h1 | ⟨h1, -⟩ <;> simp [h1]
    · simp only [hm, Bool.false_eq_true, if_false]
      refine ⟨?_, ?_, by simp⟩
      · simp only [Int.reduceEq, false_iff]
        rintro (⟨hn, -⟩ | ⟨u', l', hc, hg, -⟩)
        · exact hn hin
        · rw [(huniq _ _ hc).1] at hg; exact hm ((C05_match_pattern _ _).2 hg)
      · simp only [Int.reduceNeg, Int.reduceEq, false_iff]
        rintro ⟨u', l', hc, hg, -⟩
        rw [(huniq _ _ hc).1] at hg; exact hm ((C05_match_pattern _ _).2 hg)

theorem denyUsers_none {m : Bytes → Int} {l : List Bytes} (hm : ∀ p, m p = 1 ∨ m p = 0 ∨ m p = -1) :
    denyUsers m l = none ↔ ∀ p ∈ l, m p ≠ 1 ∧ m p ≠ -1 := by
  induction l with
  | nil => simp [denyUsers]
  | cons p l ih =>
    simp only [denyUsers, List.mem_cons, forall_eq_or_imp]
    rcases hm p with h | h | h <;> simp [h, ih]

theorem denyUsers_not_allowed {m : Bytes → Int} {l : List Bytes} : denyUsers m l ≠ some .allowed := by
  induction l with
  | nil => simp [denyUsers]
  | cons p l ih =>
    simp only [denyUsers]
    split
    · simp
    · split
      · simp
      · exact ih

theorem allowUsers_none {m : Bytes → Int} {l : List Bytes} (hm : ∀ p, m p = 1 ∨ m p = 0 ∨ m p = -1) :
    allowUsersGo m l = none ↔ ∃ x p y, l = x ++ p :: y ∧ m p = 1 ∧ ∀ q ∈ x, m q ≠ -1 := by
  induction l with
  | nil => simp [allowUsersGo]
  | cons p l ih =>
    simp only [allowUsersGo]
    rcases hm p with h | h | h <;> simp only [h]
    · simp only [Int.reduceLT, if_false, if_true, true_iff]
      exact ⟨[], p, l, rfl, h, by simp⟩
    · simp only [Int.reduceLT, if_false, Int.reduceEq, Int.zero_ne_one]
      rw [ih]
      constructor
      · rintro ⟨x, q, y, h1, h2, h3⟩
        refine ⟨p :: x, q, y, by rw [h1]; rfl, h2, ?_⟩
        intro z hz
        rcases List.mem_cons.1 hz with rfl | hz
        · omega
        · exact h3 z hz
      · rintro ⟨x, q, y, h1, h2, h3⟩
        cases x with
        | nil => simp at h1; rw [← h1.1] at h2; omega
        | cons a x => simp at h1; exact ⟨x, q, y, h1.2, h2, fun z hz => h3 z (by simp [hz])⟩
    · simp only [Int.reduceNeg, Int.reduceLT, if_true, reduceCtorEq, false_iff]
      rintro ⟨x, q, y, h1, h2, h3⟩
      cases x with
      | nil => simp at h1; rw [← h1.1] at h2; omega
      | cons a x => simp at h1; exact h3 a (by simp) (by rw [← h1.1]; exact h)

theorem allowUsers_not_allowed {m : Bytes → Int} {l : List Bytes} : allowUsersGo m l ≠ some .allowed := by
  induction l with
  | nil => simp [allowUsersGo]
  | cons p l ih =>
    simp only [allowUsersGo]
    split
    · simp
    · split
      · simp
      · exact ih

theorem gaMatch_iff {groups pats : List Bytes} : gaMatch groups pats = true ↔ ∃ g ∈ groups, ∃ p ∈ pats, Glob p g := by
  simp [gaMatch, C05_match_pattern]

theorem shellOk_iff {c : Config} {a : Account} : shellOk c a = true ↔ ShellGood c a := by
  unfold shellOk ShellGood
  cases h : c.chroot with
  | none => simp
  | some d =>
    by_cases hd : d.map toLower = b!"none"
    · simp [hd]
    · simp [hd]

/-- **C46: who may log in.**  An account is admitted exactly when it is not locked (unless PAM decides that),
its shell can be run, no DenyUsers pattern covers it, AllowUsers is unset or covers it, and, if group lists
are set, it is in a named group, in none that DenyGroups names, and in one that AllowGroups names if that is
set.  A user pattern's host list is honoured entry by entry, and a list that cannot be read admits nobody. -/
theorem C46_allowed {pton : Bytes → Option XAddr} (hp : ∀ s a, pton s = some a → Known a) {getgrgid : Nat → Option Bytes}
    {c : Config} {a : Account} {host ip : Bytes} {addr : XAddr} (ha : pton ip = some addr) :
    allowedUser pton getgrgid c a host ip = .allowed ↔
      (c.usePam = true ∨ a.locked = false) ∧ ShellGood c a ∧
      (∀ p ∈ c.denyUsers, ¬ Covers pton ⟨a.name, host, ip, addr⟩ p ∧ ¬ Broken pton ⟨a.name, host, ip, addr⟩ p) ∧
      (c.allowUsers ≠ [] → ∃ x p y, c.allowUsers = x ++ p :: y ∧ Covers pton ⟨a.name, host, ip, addr⟩ p ∧
        ∀ q ∈ x, ¬ Broken pton ⟨a.name, host, ip, addr⟩ q) ∧
      (c.denyGroups ≠ [] ∨ c.allowGroups ≠ [] → ∃ id ∈ a.gids, getgrgid id ≠ none) ∧
      (∀ id ∈ a.gids, ∀ g, getgrgid id = some g → ∀ p ∈ c.denyGroups, ¬ Glob p g) ∧
      (c.allowGroups ≠ [] → ∃ id ∈ a.gids, ∃ g, getgrgid id = some g ∧ ∃ p ∈ c.allowGroups, Glob p g) := by
  have hs := fun p => matchUser_spec hp (w := ⟨a.name, host, ip, addr⟩) ha p
  have hm : ∀ p, (fun p => matchUser (some a.name) (some host) (some ip) p (Addr.matchList pton)) p = 1 ∨
      (fun p => matchUser (some a.name) (some host) (some ip) p (Addr.matchList pton)) p = 0 ∨
      (fun p => matchUser (some a.name) (some host) (some ip) p (Addr.matchList pton)) p = -1 := fun p => (hs p).2.2
  have h1 := fun p => (hs p).1
  have h2 := fun p => (hs p).2.1
  have d1 := denyUsers_none (l := c.denyUsers) hm
  have a1 := allowUsers_none (l := c.allowUsers) hm
  simp only [ne_eq, h1, h2] at d1 a1
  have hg : groupsOk (gaInit getgrgid a.gids) c = true ↔
      (c.denyGroups ≠ [] ∨ c.allowGroups ≠ [] → ∃ id ∈ a.gids, getgrgid id ≠ none) ∧
      (∀ id ∈ a.gids, ∀ g, getgrgid id = some g → ∀ p ∈ c.denyGroups, ¬ Glob p g) ∧
      (c.allowGroups ≠ [] → ∃ id ∈ a.gids, ∃ g, getgrgid id = some g ∧ ∃ p ∈ c.allowGroups, Glob p g) := by
    have e1 : gaMatch (gaInit getgrgid a.gids) c.denyGroups = true ↔
        ∃ id ∈ a.gids, ∃ g, getgrgid id = some g ∧ ∃ p ∈ c.denyGroups, Glob p g := by
      rw [gaMatch_iff]
      simp only [gaInit, List.mem_filterMap]
      constructor
      · rintro ⟨g, ⟨id, h1, h2⟩, h3⟩; exact ⟨id, h1, g, h2, h3⟩
      · rintro ⟨id, h1, g, h2, h3⟩; exact ⟨g, ⟨id, h1, h2⟩, h3⟩
    have e2 : gaMatch (gaInit getgrgid a.gids) c.allowGroups = true ↔
        ∃ id ∈ a.gids, ∃ g, getgrgid id = some g ∧ ∃ p ∈ c.allowGroups, Glob p g := by
      rw [gaMatch_iff]
      simp only [gaInit, List.mem_filterMap]
      constructor
      · rintro ⟨g, ⟨id, h1, h2⟩, h3⟩; exact ⟨id, h1, g, h2, h3⟩
      · rintro ⟨id, h1, g, h2, h3⟩; exact ⟨g, ⟨id, h1, h2⟩, h3⟩
    have e3 : (gaInit getgrgid a.gids).length = 0 ↔ ¬ ∃ id ∈ a.gids, getgrgid id ≠ none := by
      rw [List.length_eq_zero_iff, gaInit, List.filterMap_eq_nil_iff]
      simp
    have l1 : c.denyGroups.length > 0 ↔ c.denyGroups ≠ [] := List.length_pos_iff
    have l2 : c.allowGroups.length > 0 ↔ c.allowGroups ≠ [] := List.length_pos_iff
    have e4 : (∀ id ∈ a.gids, ∀ g, getgrgid id = some g → ∀ p ∈ c.denyGroups, ¬ Glob p g) ↔
        gaMatch (gaInit getgrgid a.gids) c.denyGroups = false := by
      rw [← Bool.not_eq_true, e1]
      constructor
      · rintro h ⟨id, h1, g, h2, p, h3, h4⟩; exact h id h1 g h2 p h3 h4
      · intro h id h1 g h2 p h3 h4; exact h ⟨id, h1, g, h2, p, h3, h4⟩
    rw [← e2, e4]
    have e5 : (∃ id ∈ a.gids, getgrgid id ≠ none) ↔ ¬ (gaInit getgrgid a.gids).length = 0 := by
      rw [e3, Classical.not_not]
    rw [e5]
    unfold groupsOk
    simp only [l1, l2]
    have z1 : c.denyGroups = [] → gaMatch (gaInit getgrgid a.gids) c.denyGroups = false := by
      intro h; rw [h]; simp [gaMatch]
    generalize (gaInit getgrgid a.gids).length = n
    generalize gaMatch (gaInit getgrgid a.gids) c.denyGroups = x at *
    generalize gaMatch (gaInit getgrgid a.gids) c.allowGroups = y
    by_cases hd : c.denyGroups = [] <;> by_cases hl : c.allowGroups = [] <;> by_cases hn : n = 0 <;>
      cases x <;> cases y <;> simp_all
  unfold allowedUser
  by_cases hl : c.usePam = false ∧ a.locked = true
  · rw [if_pos hl]
    simp only [reduceCtorEq, false_iff]
    rintro ⟨h | h, -⟩
    · rw [hl.1] at h; cases h
    · rw [hl.2] at h; cases h
  · rw [if_neg hl]
    have hl' : c.usePam = true ∨ a.locked = false := by
      cases h1 : c.usePam <;> cases h2 : a.locked <;> simp_all
    simp only [hl', true_and]
    by_cases hsh : shellOk c a = true
    · rw [if_neg (by rw [hsh]; simp)]
      simp only [shellOk_iff.1 hsh, true_and]
      cases hd : denyUsers (fun p => matchUser (some a.name) (some host) (some ip) p (Addr.matchList pton)) c.denyUsers with
      | some v =>
        simp only
        constructor
        · intro hv; rw [hv] at hd; exact absurd hd denyUsers_not_allowed
        · rintro ⟨h, -⟩
          rw [d1.2 h] at hd; cases hd
      | none =>
        simp only [d1.1 hd, not_false_eq_true, and_self, implies_true, true_and]
        have d3 : ∀ p ∈ c.denyUsers, ¬ Covers pton ⟨a.name, host, ip, addr⟩ p ∧ ¬ Broken pton ⟨a.name, host, ip, addr⟩ p := d1.1 hd
        have hau : ∀ v, allowUsers (fun p => matchUser (some a.name) (some host) (some ip) p (Addr.matchList pton)) c.allowUsers = v →
            (v = none ↔ (c.allowUsers ≠ [] → ∃ x p y, c.allowUsers = x ++ p :: y ∧ Covers pton ⟨a.name, host, ip, addr⟩ p ∧
              ∀ q ∈ x, ¬ Broken pton ⟨a.name, host, ip, addr⟩ q)) ∧ v ≠ some .allowed := by
          intro v hv
          unfold allowUsers at hv
          by_cases hz : c.allowUsers.length > 0
          · rw [if_pos hz] at hv
            have hz' : c.allowUsers ≠ [] := List.length_pos_iff.1 hz
            refine ⟨?_, ?_⟩
            · rw [← hv, a1]; simp [hz']
            · rw [← hv]; exact allowUsers_not_allowed
          · rw [if_neg hz] at hv
            have hz' : c.allowUsers = [] := by
              cases h : c.allowUsers with
              | nil => rfl
              | cons x l => rw [h] at hz; simp at hz
            simp [← hv, hz']
        cases hal : allowUsers (fun p => matchUser (some a.name) (some host) (some ip) p (Addr.matchList pton)) c.allowUsers with
        | some v =>
          have := hau _ hal
          simp only
          constructor
          · intro hv; rw [hv] at this; exact absurd rfl this.2
          · rintro ⟨-, h, -⟩
            have := this.1.2 h
            cases this
        | none =>
          have := (hau _ hal).1.1 rfl
          simp only
          have hfin : (if groupsOk (gaInit getgrgid a.gids) c = true then Verdict.allowed else Verdict.refused) = .allowed ↔
              groupsOk (gaInit getgrgid a.gids) c = true := by
            by_cases hx : groupsOk (gaInit getgrgid a.gids) c = true <;> simp [hx]
          rw [hfin, hg]
          constructor
          · intro h; exact ⟨d3, this, h⟩
          · rintro ⟨-, -, h⟩; exact h
    · have hsf : shellOk c a = false := by simpa using hsh
      rw [if_pos hsf]
      simp only [reduceCtorEq, false_iff]
      rintro ⟨h, -⟩
      exact hsh (shellOk_iff.2 h)

/-- **C46: deny wins.**  An account covered by a DenyUsers pattern, or in a group DenyGroups names, is never
admitted, whatever the other lists say. -/
theorem C46_deny {pton : Bytes → Option XAddr} (hp : ∀ s a, pton s = some a → Known a) {getgrgid : Nat → Option Bytes}
    {c : Config} {a : Account} {host ip : Bytes} {addr : XAddr} (ha : pton ip = some addr)
    (h : (∃ p ∈ c.denyUsers, Covers pton ⟨a.name, host, ip, addr⟩ p) ∨
      ∃ id ∈ a.gids, ∃ g, getgrgid id = some g ∧ ∃ p ∈ c.denyGroups, Glob p g) :
    allowedUser pton getgrgid c a host ip ≠ .allowed := by
  intro hx
  obtain ⟨-, -, h1, -, -, h2, -⟩ := (C46_allowed hp ha).1 hx
  rcases h with ⟨p, hp, hc⟩ | ⟨id, hi, g, hg, p, hp, hc⟩
  · exact (h1 p hp).1 hc
  · exact h2 id hi g hg p hp hc

/-- **C46: allow lists are exhaustive.** -/
theorem C46_allow {pton : Bytes → Option XAddr} (hp : ∀ s a, pton s = some a → Known a) {getgrgid : Nat → Option Bytes}
    {c : Config} {a : Account} {host ip : Bytes} {addr : XAddr} (ha : pton ip = some addr)
    (h : allowedUser pton getgrgid c a host ip = .allowed) :
    (c.allowUsers = [] ∨ ∃ p ∈ c.allowUsers, Covers pton ⟨a.name, host, ip, addr⟩ p) ∧
    (c.allowGroups = [] ∨ ∃ id ∈ a.gids, ∃ g, getgrgid id = some g ∧ ∃ p ∈ c.allowGroups, Glob p g) := by
  obtain ⟨-, -, -, h1, -, -, h2⟩ := (C46_allowed hp ha).1 h
  constructor
  · by_cases hx : c.allowUsers = []
    · exact .inl hx
    · obtain ⟨x, p, y, e, hc, -⟩ := h1 hx
      exact .inr ⟨p, by rw [e]; simp, hc⟩
  · by_cases hx : c.allowGroups = []
    · exact .inl hx
    · exact .inr (h2 hx)

/-- **C46: group conditions of Match blocks.**  A group list matches when none of the account's groups is
excluded by it and one is included. -/
theorem C46_group_list (groups : List Bytes) (pattern : Bytes) :
    gaMatchPatternList groups pattern = true ↔
      (∀ g ∈ groups, ¬ ∃ pre e post, entries pattern = pre ++ e :: post ∧ (∀ x ∈ pre, short x) ∧ short e ∧ isNeg e ∧ hits g false e) ∧
      ∃ g ∈ groups, (∀ e ∈ entries pattern, short e) ∧ ∃ e ∈ entries pattern, ¬ isNeg e ∧ hits g false e := by
  have hgo : ∀ (gs : List Bytes) (f : Bool), gaMatchPatternListGo pattern gs f = true ↔
      (∀ g ∈ gs, matchPatternList g pattern false ≠ -1) ∧ (f = true ∨ ∃ g ∈ gs, matchPatternList g pattern false = 1) := by
    intro gs
    induction gs with
    | nil => intro f; simp [gaMatchPatternListGo]
    | cons g gs ih =>
      intro f
      simp only [gaMatchPatternListGo, matchUsergroup]
      rcases C06_results g pattern false with h | h | h <;> simp [h, ih]
  rw [gaMatchPatternList, hgo]
  have hneg := fun g => C06_negative_iff g pattern false
  have hpos := fun g => C06_positive_iff g pattern false
  simp only [ne_eq, hneg, hpos, Bool.false_eq_true, false_or]
  constructor
  · rintro ⟨h1, g, hg, h2, h3⟩
    exact ⟨h1, g, hg, fun e he => (h2 e he).1, h3⟩
  · rintro ⟨h1, g, hg, h2, h3⟩
    refine ⟨h1, g, hg, fun e he => ⟨h2 e he, fun hx => h1 g hg ?_⟩, h3⟩
    obtain ⟨pre, post, hpp⟩ := List.append_of_mem he
    exact ⟨pre, e, post, hpp, fun z hz => h2 z (by rw [hpp]; simp [hz]), h2 e he, hx⟩

/-- Non-vacuity: one account, several lists. -/
def exAccount : Account := { name := b!"bob", locked := false, shell := .found true true, gids := [10, 20] }

def exGroups : Nat → Option Bytes
  | 10 => some b!"staff"
  | 20 => some b!"wheel"
  | _ => none

def exConfig : Config := { usePam := false, chroot := none, denyUsers := [], allowUsers := [], denyGroups := [], allowGroups := [] }

example : allowedUser Addr.toyPton exGroups { exConfig with allowUsers := [b!"alice", b!"b?b@!6,5,*.org"] } exAccount b!"h.com" b!"5" = .allowed ∧
    allowedUser Addr.toyPton exGroups { exConfig with allowUsers := [b!"alice", b!"b?b@!5,*.com"] } exAccount b!"h.com" b!"5" = .refused ∧
    allowedUser Addr.toyPton exGroups { exConfig with denyUsers := [b!"bob"], allowUsers := [b!"bob"] } exAccount b!"h.com" b!"5" = .refused ∧
    allowedUser Addr.toyPton exGroups { exConfig with denyGroups := [b!"wh*"] } exAccount b!"h.com" b!"5" = .refused ∧
    allowedUser Addr.toyPton exGroups { exConfig with allowGroups := [b!"wh*"] } exAccount b!"h.com" b!"5" = .allowed ∧
    allowedUser Addr.toyPton exGroups { exConfig with denyUsers := [b!"bob@1/8"] } exAccount b!"h.com" b!"5" = .fatal ∧
    allowedUser Addr.toyPton exGroups exConfig { exAccount with shell := .found true false } b!"h.com" b!"5" = .refused := by
  decide +kernel

end Verif.Access
