/- C22: forwarding restrictions. -/
import Verif.Permit.Spec
import Verif.Match.Props

namespace Verif.Permit
open Verif Match

variable {serv : Bytes → Option Nat}

/-! ### Entries -/

theorem takeWhile_append_drop {α : Type} (f : α → Bool) (l : List α) : l.takeWhile f ++ l.dropWhile f = l :=
  List.takeWhile_append_dropWhile

theorem takeWhile_stop {α : Type} {f : α → Bool} {a : List α} {d : α} {r : List α} (h : ∀ x ∈ a, f x = true) (hd : f d = false) :
    (a ++ d :: r).takeWhile f = a ∧ (a ++ d :: r).dropWhile f = d :: r := by
  induction a with
  | nil => simp [hd]
  | cons x a ih =>
    have hx := h x (by simp)
    obtain ⟨h1, h2⟩ := ih (fun y hy => h y (by simp [hy]))
    simp [hx, h1, h2]

theorem dropWhile_head {α : Type} {f : α → Bool} {l : List α} {d : α} {r : List α} (h : l.dropWhile f = d :: r) : f d = false := by
  induction l with
  | nil => simp at h
  | cons x l ih =>
    by_cases hx : f x = true
    · rw [List.dropWhile_cons_of_pos hx] at h; exact ih h
    · rw [List.dropWhile_cons_of_neg hx] at h
      simp only [List.cons.injEq] at h
      rw [← h.1]; simpa using hx

theorem takeWhile_all {α : Type} {f : α → Bool} {l : List α} {x : α} (h : x ∈ l.takeWhile f) : f x = true := by
  induction l with
  | nil => simp at h
  | cons y l ih =>
    by_cases hy : f y = true
    · rw [List.takeWhile_cons_of_pos hy] at h
      rcases List.mem_cons.mp h with rfl | h
      · exact hy
      · exact ih h
    · rw [List.takeWhile_cons_of_neg hy] at h; simp at h

/-- The two shapes of a field followed by more. -/
def Field (e h : Bytes) (d : UInt8) (q : Bytes) : Prop :=
  (e = h ++ d :: q ∧ (58 : UInt8) ∉ h ∧ (47 : UInt8) ∉ h ∧ h.head? ≠ some 91) ∨
  (e = 91 :: (h ++ 93 :: d :: q) ∧ (93 : UInt8) ∉ h)

theorem hpdelim2_spec (e h : Bytes) (d : UInt8) (q : Bytes) :
    ((∃ h', hpdelim2 e = some (h', some (d, q)) ∧ cleanhostname h' = h) ↔ (d = 58 ∨ d = 47) ∧ Field e h d q) := by
  constructor
  · rintro ⟨h', h1, rfl⟩
    unfold hpdelim2 at h1
    split at h1
    · next hb =>
      have happ := takeWhile_append_drop (fun x : UInt8 => decide (x ≠ 93)) e
      split at h1
      · simp at h1
      · simp at h1
      · next c d' r hd =>
        split at h1
        · next hd' =>
          simp only [Option.some.injEq, Prod.mk.injEq] at h1
          obtain ⟨rfl, rfl, rfl⟩ := h1
          have hc : c = 93 := by have := dropWhile_head hd; simpa using this
          subst hc
          refine ⟨hd', .inr ?_⟩
          rw [hd] at happ
          have hn : (93 : UInt8) ∉ e.takeWhile (fun x => decide (x ≠ 93)) := by
            intro hm; have := takeWhile_all hm; simp at this
          generalize e.takeWhile (fun x => decide (x ≠ 93)) = t at *
          cases t with
          | nil => rw [← happ] at hb; simp at hb
          | cons x t =>
            rw [← happ] at hb
            simp only [List.cons_append, List.head?_cons, Option.some.injEq] at hb
            subst hb
            have : cleanhostname (91 :: t ++ [93]) = t := by simp [cleanhostname, List.getLast?_cons]
            rw [this]
            refine ⟨by rw [← happ]; simp, ?_⟩
            simp only [List.mem_cons, not_or] at hn
            exact hn.2
        · simp at h1
    · next hb =>
      have happ := takeWhile_append_drop (fun x : UInt8 => decide (x ≠ 58 ∧ x ≠ 47)) e
      split at h1
      · simp at h1
      · next d' r hd =>
        simp only [Option.some.injEq, Prod.mk.injEq] at h1
        obtain ⟨rfl, rfl, rfl⟩ := h1
        have hd2 : d' = 58 ∨ d' = 47 := by
          have := dropWhile_head hd
          simp only [decide_eq_false_iff_not, ne_eq] at this
          by_cases h58 : d' = 58
          · exact .inl h58
          · exact .inr (Classical.byContradiction fun h47 => this ⟨h58, h47⟩)
        refine ⟨hd2, .inl ?_⟩
        rw [hd] at happ
        have hn : ∀ x ∈ e.takeWhile (fun x => decide (x ≠ 58 ∧ x ≠ 47)), x ≠ 58 ∧ x ≠ 47 := by
          intro x hm; have := takeWhile_all hm; simpa using this
        generalize e.takeWhile (fun x => decide (x ≠ 58 ∧ x ≠ 47)) = t at *
        have ht : t.head? ≠ some 91 := by
          intro hh
          cases t with
          | nil => simp at hh
          | cons x t => rw [← happ] at hb; simp at hh hb; exact hb hh
        have : cleanhostname t = t := by simp [cleanhostname, ht]
        rw [this]
        exact ⟨happ.symm, fun hm => (hn _ hm).1 rfl, fun hm => (hn _ hm).2 rfl, ht⟩
  · rintro ⟨hd, ⟨rfl, h1, h2, h3⟩ | ⟨rfl, h1⟩⟩
    · refine ⟨h, ?_, by simp [cleanhostname, h3]⟩
      unfold hpdelim2
      have hb : (h ++ d :: q).head? ≠ some 91 := by
        cases h with
        | nil => simp; rcases hd with rfl | rfl <;> decide
        | cons x h => simpa using h3
      rw [if_neg hb]
      obtain ⟨k1, k2⟩ := takeWhile_stop (f := fun x : UInt8 => decide (x ≠ 58 ∧ x ≠ 47)) (a := h) (d := d) (r := q)
        (by intro x hx
            simp only [ne_eq, decide_eq_true_eq]
            exact ⟨fun e => h1 (e ▸ hx), fun e => h2 (e ▸ hx)⟩)
        (by rcases hd with rfl | rfl <;> decide)
      rw [k1, k2]
    · refine ⟨91 :: h ++ [93], ?_, by simp [cleanhostname, List.getLast?_cons]⟩
      unfold hpdelim2
      rw [if_pos (by simp)]
      obtain ⟨k1, k2⟩ := takeWhile_stop (f := fun x : UInt8 => decide (x ≠ 93)) (a := 91 :: h) (d := 93) (r := d :: q)
        (by intro x hx
            simp only [ne_eq, decide_eq_true_eq]
            rintro rfl
            rcases List.mem_cons.mp hx with h | h
            · exact absurd h (by decide)
            · exact h1 h)
        (by decide)
      simp only [List.cons_append] at k1 k2
      rw [k1, k2]
      simp only [hd, if_true, List.cons_append]

theorem permitopenPort_spec (q : Bytes) (p : Int) : (permitopenPort serv q = p ∧ 0 ≤ p) ↔ PortField serv q p := by
  unfold permitopenPort PortField a2port
  by_cases hs : q = b!"*"
  · simp only [hs, if_true, true_and, ne_eq, not_true_eq_false, false_and, or_false]
    constructor
    · rintro ⟨rfl, _⟩; rfl
    · rintro rfl; exact ⟨rfl, by decide⟩
  · simp only [hs, if_false, false_and, false_or, ne_eq, not_false_eq_true, true_and]
    cases hn : Num.strtonum q 0 65535 with
    | some v =>
      simp only [Option.some.injEq, reduceCtorEq, false_and, or_false]
      split <;> constructor <;> intro h <;> omega
    | none =>
      simp only [reduceCtorEq, false_or, true_and]
      cases hv : serv q with
      | some n =>
        simp only [Option.some.injEq]
        constructor
        · rintro ⟨h1, h2⟩
          split at h1
          · exact ⟨by omega, n, rfl, h1.symm⟩
          · omega
        · rintro ⟨h1, m, rfl, rfl⟩
          rw [if_pos h1]; exact ⟨rfl, by omega⟩
      | none =>
        simp only [reduceCtorEq, false_and, exists_false, and_false, iff_false]
        rintro ⟨h1, h2⟩
        simp at h1; omega

theorem parseEntry_iff (slash : Bool) (e h : Bytes) (p : Int) : parseEntry serv slash e = some (h, p) ↔ Entry serv slash e h p := by
  have key : parseEntry serv slash e = some (h, p) ↔ ∃ h' d q,
      (if slash then hpdelim2 e else hpdelim e) = some (h', some (d, q)) ∧ cleanhostname h' = h ∧ PortField serv q p := by
    unfold parseEntry
    constructor
    · intro hx
      split at hx
      · next h' d q he =>
        split at hx
        · simp at hx
        · simp only [Option.some.injEq, Prod.mk.injEq] at hx
          obtain ⟨h1, h2⟩ := hx
          exact ⟨h', d, q, he, h1, (permitopenPort_spec q p).mp ⟨h2, by omega⟩⟩
      · simp at hx
    · rintro ⟨h', d, q, he, h1, h2⟩
      obtain ⟨h3, h4⟩ := (permitopenPort_spec q p).mpr h2
      rw [he]
      dsimp only
      rw [if_neg (by omega), h3, h1]
  rw [key]
  unfold Entry
  cases slash with
  | true =>
    simp only [if_true, true_and]
    constructor
    · rintro ⟨h', d, q, h1, h2, h3⟩
      obtain ⟨h4, h5⟩ := (hpdelim2_spec e h d q).mp ⟨h', h1, h2⟩
      exact ⟨d, q, h4, h5, h3⟩
    · rintro ⟨d, q, h1, h2, h3⟩
      obtain ⟨h', h4, h5⟩ := (hpdelim2_spec e h d q).mpr ⟨h1, h2⟩
      exact ⟨h', d, q, h4, h5, h3⟩
  | false =>
    simp only [Bool.false_eq_true, if_false, false_and, or_false]
    have hp : ∀ h' d q, hpdelim e = some (h', some (d, q)) ↔ hpdelim2 e = some (h', some (d, q)) ∧ d ≠ 47 := by
      intro h' d q
      unfold hpdelim
      constructor
      · intro hx
        split at hx
        · next a b c hc =>
          split at hx
          · simp at hx
          · simp only [Option.some.injEq, Prod.mk.injEq] at hx
            obtain ⟨rfl, rfl, rfl⟩ := hx
            exact ⟨hc, by assumption⟩
        · next hno => exact absurd hx (by intro hx; exact hno _ _ _ hx)
      · rintro ⟨h1, h2⟩
        rw [h1]; simp [h2]
    constructor
    · rintro ⟨h', d, q, h1, h2, h3⟩
      obtain ⟨h1, h1'⟩ := (hp _ _ _).mp h1
      obtain ⟨h4, h5⟩ := (hpdelim2_spec e h d q).mp ⟨h', h1, h2⟩
      exact ⟨d, q, h4.resolve_right h1', h5, h3⟩
    · rintro ⟨d, q, rfl, h2, h3⟩
      obtain ⟨h', h4, h5⟩ := (hpdelim2_spec e h 58 q).mpr ⟨.inl rfl, h2⟩
      exact ⟨h', 58, q, (hp _ _ _).mpr ⟨h4, by decide⟩, h5, h3⟩

/-! ### Lists -/

theorem addList_user {slash : Bool} {d : Dir} {es : List Bytes} {s s' : PermSet}
    (h : addList serv slash (addUser d) es s = some s') :
    s'.user.length = s.user.length + es.length ∧ s'.admin = s.admin ∧ (s'.all = true → es = [] ∧ s.all = true) ∧
    (es = [] → s'.all = s.all) ∧
    ∀ m : Perm → Bool, s'.user.any m = true ↔ s.user.any m = true ∨ ∃ e ∈ es, ∃ x, parseEntry serv slash e = some x ∧ m (mkPerm d x.1 x.2) = true := by
  induction es generalizing s with
  | nil => simp only [addList, Option.some.injEq] at h; subst h; simp
  | cons e es ih =>
    simp only [addList] at h
    split at h
    · simp at h
    · next x hx =>
      obtain ⟨h1, h2, h3, _, h4⟩ := ih h
      refine ⟨by rw [h1]; simp [addUser]; omega, h2, fun ha => ?_, by simp, fun m => ?_⟩
      · have := (h3 ha).2; simp [addUser] at this
      · rw [h4]
        simp only [addUser, List.any_append, List.any_cons, List.any_nil, Bool.or_false, Bool.or_eq_true, List.mem_cons,
          exists_eq_or_imp, hx, Option.some.injEq, exists_eq_left', or_assoc]

theorem addList_admin {slash : Bool} {d : Dir} {es : List Bytes} {s s' : PermSet}
    (h : addList serv slash (addAdmin d) es s = some s') :
    s'.admin.length = s.admin.length + es.length ∧ s'.user = s.user ∧ (s'.all = true → s.all = true) ∧
    ∀ m : Perm → Bool, s'.admin.any m = true ↔ s.admin.any m = true ∨ ∃ e ∈ es, ∃ x, parseEntry serv slash e = some x ∧ m (mkPerm d x.1 x.2) = true := by
  induction es generalizing s with
  | nil => simp only [addList, Option.some.injEq] at h; subst h; simp
  | cons e es ih =>
    simp only [addList] at h
    split at h
    · simp at h
    · next x hx =>
      obtain ⟨h1, h2, h3, h4⟩ := ih h
      refine ⟨by rw [h1]; simp [addAdmin]; omega, h2, fun ha => ?_, fun m => ?_⟩
      · have := h3 ha; simp [addAdmin] at this
      · rw [h4]
        simp only [addAdmin, List.any_append, List.any_cons, List.any_nil, Bool.or_false, Bool.or_eq_true, List.mem_cons,
          exists_eq_or_imp, hx, Option.some.injEq, exists_eq_left', or_assoc]

/-- Some entry of the list is matched. -/
def Hit (serv : Bytes → Option Nat) (slash : Bool) (d : Dir) (m : Perm → Bool) (e : Bytes) : Prop :=
  ∃ x, parseEntry serv slash e = some x ∧ m (mkPerm d x.1 x.2) = true

theorem adminList_spec {d : Dir} {opens : List Bytes} {s : PermSet} (h : adminList serv d opens {} = some s) :
    s.user = [] ∧ s.all = false ∧
    ∀ m : Perm → Bool, m {} = false → ((s.admin.length == 0 || s.admin.any m) = true ↔ AdminAllows opens (Hit serv false d m)) := by
  unfold adminList at h
  dsimp only at h
  unfold AdminAllows
  split at h
  · next ho => simp only [Option.some.injEq] at h; subst h; simp [ho]
  next ho =>
  split at h
  · next h2 => simp only [Option.some.injEq] at h; subst h; simp [h2]
  next h2 =>
  split at h
  · next h3 =>
    simp only [Option.some.injEq] at h; subst h
    refine ⟨rfl, rfl, fun m hm => ?_⟩
    simp [disableAdmin, hm, h3]
  next h3 =>
    obtain ⟨k1, k2, k3, k4⟩ := addList_admin h
    refine ⟨k2, by cases hh : s.all with
      | false => rfl
      | true => have := k3 hh; simp at this, fun m _ => ?_⟩
    have hne : s.admin.length ≠ 0 := by
      rw [k1]; cases opens with
      | nil => exact absurd rfl ho
      | cons a b => simp
    simp only [Bool.or_eq_true, beq_iff_eq, hne, false_or]
    rw [k4 m]
    simp only [List.any_nil, Bool.false_eq_true, false_or, ho, h2, ne_eq, h3, not_false_eq_true, true_and]
    rfl

/-- The decision in the normal case: forwarding allowed in this direction. -/
theorem setup_on {c : Cfg} {d : Dir} {admin user : List Bytes} {s : PermSet} (h : setup serv c d true admin user = some s)
    (hk : c.keyForward = true) (hd : c.disable = false) (m : Perm → Bool) (hm : m {} = false) :
    permitted s m = true ↔ KeyAllows user (Hit serv (d = .loc) d m) ∧ AdminAllows admin (Hit serv false d m) := by
  unfold setup at h
  split at h
  · simp at h
  next s1 h1 =>
  obtain ⟨a1, a2, a3⟩ := adminList_spec h1
  simp only [if_true] at h
  split at h
  · simp at h
  next s2 h2 =>
  simp only [hk, hd, Bool.not_true, Bool.or_self, Bool.false_eq_true, if_false, Option.some.injEq] at h
  subst h
  obtain ⟨b1, b2, b3, b4, b5⟩ := addList_user h2
  have b1 : s2.user.length = user.length := by simpa using b1
  have hadm : ((permitAll s2).admin.length == 0 || (permitAll s2).admin.any m) = true ↔ AdminAllows admin (Hit serv false d m) := by
    have : (permitAll s2).admin = s1.admin := by unfold permitAll; split <;> exact b2
    rw [this]; exact a3 m hm
  have husr : ((permitAll s2).all || (permitAll s2).user.any m) = true ↔ KeyAllows user (Hit serv (d = .loc) d m) := by
    unfold permitAll KeyAllows
    by_cases hu : user = []
    · subst hu
      rw [if_pos (by simpa using b1)]; simp
    · have : s2.user.length ≠ 0 := by rw [b1]; simpa using hu
      rw [if_neg this]
      have hall : s2.all = false := by
        cases hh : s2.all with
        | false => rfl
        | true => exact absurd (b3 hh).1 hu
      rw [hall, Bool.false_or, b5 m]
      simp only [List.any_nil, Bool.false_eq_true, false_or, hu]
      rfl
  unfold permitted
  rw [Bool.and_eq_true, husr, hadm]

/-- When the direction is off, nothing in it is permitted. -/
theorem setup_off {c : Cfg} {d : Dir} {admin user : List Bytes} {s : PermSet} (h : setup serv c d false admin user = some s)
    (m : Perm → Bool) : permitted s m = false := by
  unfold setup at h
  split at h
  · simp at h
  next s1 h1 =>
  obtain ⟨a1, a2, _⟩ := adminList_spec h1
  simp only [Bool.false_eq_true, if_false] at h
  have : s = disableAdmin s1 := by
    split at h <;> exact (Option.some.inj h).symm
  subst this
  simp [permitted, disableAdmin, a1, a2]

theorem openMatch_iff (q : Perm) (host : Bytes) (port : Int) : openMatch q host port = true ↔
    ∃ h, q.host = some h ∧ (q.port = 0 ∨ q.port = port) ∧ (h = b!"*" ∨ h = host) := by
  unfold openMatch
  cases q.host with
  | none => simp
  | some h =>
    by_cases h1 : q.port = 0 <;> by_cases h2 : q.port = port <;> by_cases h3 : h = b!"*" <;> by_cases h4 : h = host <;>
      simp [h1, h2, h3, h4]

theorem remoteOpenMatch_iff (q : Perm) (host : Bytes) (port : Int) : remoteOpenMatch q (.inr (host, port)) = true ↔
    ∃ h, q.lhost = some h ∧ (q.lport = 0 ∨ q.lport = port) ∧ Glob h (host.map toLower) := by
  unfold remoteOpenMatch
  cases q.lhost with
  | none => simp
  | some h =>
    dsimp only
    by_cases h1 : q.lport = 0 <;> by_cases h2 : q.lport = port <;> simp [h1, h2, C05_match_pattern]

theorem hit_open {slash : Bool} {host : Bytes} {port : Int} {e : Bytes} :
    Hit serv slash .loc (fun p => openMatch p host port) e ↔ PermitsOpen serv slash e host port := by
  unfold Hit PermitsOpen
  constructor
  · rintro ⟨⟨h, p⟩, h1, h2⟩
    obtain ⟨h', h3, h4, h5⟩ := (openMatch_iff _ _ _).mp h2
    simp only [mkPerm, Option.some.injEq] at h3 h4
    subst h3
    exact ⟨h, p, (parseEntry_iff slash e h p).mp h1, h4, h5⟩
  · rintro ⟨h, p, h1, h2, h3⟩
    exact ⟨(h, p), (parseEntry_iff slash e h p).mpr h1, (openMatch_iff _ _ _).mpr ⟨h, rfl, h2, h3⟩⟩

theorem hit_listen {host : Bytes} {port : Int} {e : Bytes} :
    Hit serv false .rem (fun p => remoteOpenMatch p (.inr (host, port))) e ↔ PermitsListen serv e host port := by
  unfold Hit PermitsListen
  constructor
  · rintro ⟨⟨h, p⟩, h1, h2⟩
    obtain ⟨h', h3, h4, h5⟩ := (remoteOpenMatch_iff _ _ _).mp h2
    simp only [mkPerm, Option.some.injEq] at h3 h4
    subst h3
    exact ⟨h, p, (parseEntry_iff false e h p).mp h1, h4, h5⟩
  · rintro ⟨h, p, h1, h2, h3⟩
    exact ⟨(h, p), (parseEntry_iff false e h p).mpr h1, (remoteOpenMatch_iff _ _ _).mpr ⟨h, rfl, h2, h3⟩⟩

theorem AdminAllows.congr {l : List Bytes} {P Q : Bytes → Prop} (h : ∀ e, P e ↔ Q e) : AdminAllows l P ↔ AdminAllows l Q := by
  simp only [AdminAllows, h]
theorem KeyAllows.congr {l : List Bytes} {P Q : Bytes → Prop} (h : ∀ e, P e ↔ Q e) : KeyAllows l P ↔ KeyAllows l Q := by
  simp only [KeyAllows, h]

theorem setupAll_some {c : Cfg} {l r : PermSet} (h : setupAll serv c = some (l, r)) :
    setup serv c .loc c.tcpLocal c.permitOpen c.keyOpen = some l ∧
    setup serv c .rem c.tcpRemote c.permitListen c.keyListen = some r := by
  unfold setupAll at h
  split at h
  · next h1 h2 => simp only [Option.some.injEq, Prod.mk.injEq] at h; obtain ⟨rfl, rfl⟩ := h; exact ⟨h1, h2⟩
  · simp at h

/-- C22: a direct-tcpip request leads to a connection attempt exactly when TCP forwarding is allowed by the server and the
key, and both the key's permitopen list and the server's PermitOpen list permit the destination. -/
theorem C22_direct_tcpip {c : Cfg} {l r : PermSet} (h : setupAll serv c = some (l, r)) (host : Bytes) (port orig : Nat) :
    directTcpip c l host port orig = true ↔
      port ≤ 65535 ∧ orig ≤ 65535 ∧ c.tcpLocal = true ∧ c.keyForward = true ∧ c.disable = false ∧
      KeyAllows c.keyOpen (PermitsOpen serv true · host port) ∧ AdminAllows c.permitOpen (PermitsOpen serv false · host port) := by
  obtain ⟨h1, _⟩ := setupAll_some h
  unfold directTcpip
  by_cases hp : port > 65535
  · rw [if_pos hp]; simp; omega
  rw [if_neg hp]
  by_cases ho : orig > 65535
  · rw [if_pos ho]; simp; omega
  rw [if_neg ho]
  cases ht : c.tcpLocal <;> cases hk : c.keyForward <;> cases hd : c.disable <;> simp [-Bool.and_eq_true]
  rw [ht] at h1
  have := setup_on h1 hk hd (fun p => openMatch p host port) rfl
  rw [this, KeyAllows.congr (fun e => hit_open), AdminAllows.congr (fun e => hit_open)]
  simp only [decide_true]
  constructor
  · intro h; exact ⟨by omega, by omega, h⟩
  · intro h; exact h.2.2

/-- C22: a direct-streamlocal request (a connection to a Unix-domain socket) is subject to the same lists, "host" being the
path and only "*" fitting its port; it also needs TCP forwarding to be allowed. -/
theorem C22_direct_streamlocal {c : Cfg} {l r : PermSet} (h : setupAll serv c = some (l, r)) (path : Bytes) (orig : Nat) :
    directStreamlocal c l path orig = true ↔
      orig ≤ 65535 ∧ c.streamLocal = true ∧ c.tcpLocal = true ∧ c.keyForward = true ∧ c.disable = false ∧
      KeyAllows c.keyOpen (PermitsOpen serv true · path (-2)) ∧ AdminAllows c.permitOpen (PermitsOpen serv false · path (-2)) := by
  obtain ⟨h1, _⟩ := setupAll_some h
  unfold directStreamlocal
  by_cases ho : orig > 65535
  · rw [if_pos ho]; simp; omega
  rw [if_neg ho]
  cases hs : c.streamLocal <;> cases hk : c.keyForward <;> cases hd : c.disable <;> cases ht : c.tcpLocal <;>
    simp [-Bool.and_eq_true]
  · rw [ht] at h1
    have := setup_off h1 (fun p => openMatch p path (-2))
    exact this
  · rw [ht] at h1
    have := setup_on h1 hk hd (fun p => openMatch p path (-2)) rfl
    rw [this, KeyAllows.congr (fun e => hit_open), AdminAllows.congr (fun e => hit_open)]
    simp only [decide_true]
    constructor
    · intro h; exact ⟨by omega, h⟩
    · intro h; exact h.2

/-- C22: a tcpip-forward request leads to a listener exactly when remote forwarding is allowed and both the key's
permitlisten list and the server's PermitListen list permit the address. -/
theorem C22_tcpip_forward {c : Cfg} {l r : PermSet} (h : setupAll serv c = some (l, r)) (host : Bytes) (port : Nat) (want : Bool) :
    tcpipForward c r host port want = true ↔
      port < 2 ^ 31 ∧ (want = true ∨ port ≠ 0) ∧ c.tcpRemote = true ∧ c.keyForward = true ∧ c.disable = false ∧
      KeyAllows c.keyListen (PermitsListen serv · host port) ∧ AdminAllows c.permitListen (PermitsListen serv · host port) := by
  obtain ⟨_, h1⟩ := setupAll_some h
  unfold tcpipForward
  have e31 : (2 : Nat) ^ 31 = 2147483648 := by decide
  rw [e31]
  by_cases hp : port > 0x7FFFFFFF
  · simp [hp]; omega
  cases ht : c.tcpRemote <;> cases hk : c.keyForward <;> cases hd : c.disable <;> cases want <;>
    simp [-Bool.and_eq_true, hp]
  all_goals
    rw [ht] at h1
    have := setup_on h1 hk hd (fun p => remoteOpenMatch p (.inr (host, port))) rfl
    simp only [reduceCtorEq, decide_false] at this
    rw [KeyAllows.congr (fun e => hit_listen), AdminAllows.congr (fun e => hit_listen)] at this
  · rw [Bool.and_eq_true, this]
    simp only [Bool.not_eq_true', decide_eq_false_iff_not]
    constructor
    · intro h; exact ⟨by omega, h.1, h.2⟩
    · intro h; exact ⟨h.2.1, h.2.2⟩
  · rw [this]
    constructor
    · intro h; exact ⟨by omega, h⟩
    · intro h; exact h.2

/-- Finding: listening on a Unix-domain socket is not restricted by PermitListen or permitlisten at all, not even by
"PermitListen none" (unlike connecting to one): it only needs forwarding of both kinds to be allowed. -/
theorem C22_streamlocal_forward {c : Cfg} {l r : PermSet} (h : setupAll serv c = some (l, r)) (path : Bytes) :
    streamlocalForward c r path = true ↔ c.streamRemote = true ∧ c.tcpRemote = true ∧ c.keyForward = true ∧ c.disable = false := by
  obtain ⟨_, h1⟩ := setupAll_some h
  unfold streamlocalForward
  cases hs : c.streamRemote <;> cases hk : c.keyForward <;> cases hd : c.disable <;> cases ht : c.tcpRemote <;>
    simp [-Bool.and_eq_true]
  · rw [ht] at h1; exact setup_off h1 _
  · rw [ht] at h1
    unfold setup at h1
    split at h1
    · simp at h1
    next s1 e1 =>
    simp only [if_true] at h1
    split at h1
    · simp at h1
    next s2 e2 =>
    simp only [hk, hd, Bool.not_true, Bool.or_self, Bool.false_eq_true, if_false, Option.some.injEq] at h1
    subst h1
    obtain ⟨b1, _⟩ := addList_user e2
    simp only [permitted, remoteOpenMatch, permitAll]
    by_cases hu : s2.user.length = 0
    · rw [if_pos hu]
      cases hh : s2.admin <;> simp
    · rw [if_neg hu]
      cases hx : s2.user with
      | nil => simp [hx] at hu
      | cons a b => cases hh : s2.admin <;> simp

/-- Finding: a key's permitlisten="[::1]/80" passes the check made when the key's options are read (auth-options.c:285-304
uses `hpdelim2`) but ends the session when permissions are set up, which uses `hpdelim`. -/
theorem C22_permitlisten_slash_fatal (c : Cfg) (hl : c.keyListen = [b!"[::1]/80"]) (ht : c.tcpRemote = true) :
    setupAll serv c = none ∧ ∃ x, parseEntry serv true b!"[::1]/80" = some x := by
  have hu : ∀ s, userList serv .rem c.keyListen s = none := by
    intro s; rw [hl]; rfl
  refine ⟨?_, (b!"::1", 80), ?_⟩
  · unfold setupAll
    have : setup serv c .rem c.tcpRemote c.permitListen c.keyListen = none := by
      unfold setup
      split
      · rfl
      · simp [ht, hu]
    rw [this]
    split
    · next h => simp at h
    · rfl
  · rw [parseEntry_iff]
    refine ⟨47, b!"80", .inr ⟨rfl, rfl⟩, .inr ⟨by decide, by decide⟩, .inr ⟨by decide, by decide, .inl (by decide)⟩⟩

/-- The ordinary cases. -/
def exCfg : Cfg :=
  { tcpLocal := true, tcpRemote := true, streamLocal := true, streamRemote := true, disable := false
    permitOpen := [b!"db:5432", b!"[::1]:*"], permitListen := [b!"none"], keyForward := true
    keyOpen := [b!"*:5432"], keyListen := [] }
example : (setupAll (fun _ => none) exCfg).map (fun s =>
    (directTcpip exCfg s.1 b!"db" 5432 1, directTcpip exCfg s.1 b!"::1" 5432 1, directTcpip exCfg s.1 b!"::1" 22 1,
     directTcpip exCfg s.1 b!"web" 5432 1, tcpipForward exCfg s.2 b!"localhost" 8080 true, streamlocalForward exCfg s.2 b!"/tmp/s")) =
    some (true, true, false, false, false, true) := by decide

/-! ### The client -/

/-- What a forwarding's listen address is sent to the server as. -/
def Fwd.bind (f : Fwd) : Option Bytes :=
  match f.listen with
  | .inl _ => none
  | .inr (h, _) => some (bindHost h)

/-- Where a forwarding leads. -/
def Fwd.target (f : Fwd) : Target :=
  match f.connect with
  | .inl p => .connect p (-2)
  | .inr (h, n) => if n = 0 then .socks else .connect h n

/-- Each live entry belongs to a forwarding that was asked for; only its port may have been chosen by the server. -/
def Owned (ops : List COp) (p : Perm) : Prop :=
  p.host ≠ none → ∃ f, COp.request f ∈ ops ∧ p.host = f.perm.host ∧ p.port = f.perm.port ∧ p.lhost = f.perm.lhost ∧
    p.lpath = f.perm.lpath ∧ p.down = none ∧
    (p.lport = f.perm.lport ∨ ∃ i n, COp.update i (some n) ∈ ops ∧ p.lport = n)

theorem Owned.mono {ops ops' : List COp} {p : Perm} (h : Owned ops p) (hs : ∀ o ∈ ops, o ∈ ops') : Owned ops' p := by
  intro hp
  obtain ⟨f, h1, h2, h3, h4, h5, h6, h7⟩ := h hp
  refine ⟨f, hs _ h1, h2, h3, h4, h5, h6, ?_⟩
  rcases h7 with h7 | ⟨i, n, h7, h8⟩
  · exact .inl h7
  · exact .inr ⟨i, n, hs _ h7, h8⟩

theorem clearFirst_mem {m : Perm → Bool} {l : List Perm} {p : Perm} (h : p ∈ clearFirst m l) : p = {} ∨ p ∈ l := by
  induction l with
  | nil => simp [clearFirst] at h
  | cons q l ih =>
    simp only [clearFirst] at h
    split at h
    · rcases List.mem_cons.mp h with h | h
      · exact .inl h
      · exact .inr (by simp [h])
    · rcases List.mem_cons.mp h with h | h
      · exact .inr (by simp [h])
      · rcases ih h with h | h
        · exact .inl h
        · exact .inr (by simp [h])

theorem owned_empty (ops : List COp) : Owned ops {} := fun h => absurd rfl h

theorem cstep_owned {l : List Perm} {ops : List COp} {o : COp} (h : ∀ p ∈ l, Owned ops p) :
    ∀ p ∈ cstep l o, Owned (ops ++ [o]) p := by
  intro p hp
  have old : ∀ q ∈ l, Owned (ops ++ [o]) q := fun q hq => (h q hq).mono (fun x hx => by simp [hx])
  cases o with
  | request f =>
    simp only [cstep, List.mem_append, List.mem_singleton] at hp
    rcases hp with hp | rfl
    · exact old p hp
    · intro _
      exact ⟨f, by simp, rfl, rfl, rfl, rfl, rfl, .inl rfl⟩
  | update i port =>
    simp only [cstep] at hp
    split at hp
    · exact old p hp
    · next q hq =>
      rcases List.mem_or_eq_of_mem_set hp with hp | rfl
      · exact old p hp
      · have hql := List.mem_of_getElem? hq
        cases port with
        | none => exact owned_empty _
        | some n =>
          simp only [updatePerm]
          split
          · exact owned_empty _
          · intro hh
            obtain ⟨f, h1, h2, h3, h4, h5, h6, _⟩ := old q hql hh
            exact ⟨f, h1, h2, h3, h4, h5, h6, .inr ⟨i, n, by simp, rfl⟩⟩
  | cancelTcp a n =>
    rcases clearFirst_mem hp with rfl | hp
    · exact owned_empty _
    · exact old p hp
  | cancelPath a =>
    rcases clearFirst_mem hp with rfl | hp
    · exact owned_empty _
    · exact old p hp

theorem crun_owned (ops : List COp) : ∀ p ∈ crun [] ops, Owned ops p := by
  suffices H : ∀ (ops done : List COp) (l : List Perm), (∀ p ∈ l, Owned done p) → ∀ p ∈ crun l ops, Owned (done ++ ops) p by
    simpa using H ops [] [] (by simp)
  intro ops
  induction ops with
  | nil => intro done l h; simpa [crun] using h
  | cons o ops ih =>
    intro done l h
    have := ih (done ++ [o]) (cstep l o) (cstep_owned h)
    simpa [crun] using this

/-- C22 (client): when the server opens a connection for a TCP listener, the client connects only where one of the remote
forwardings it asked for leads, and only if that forwarding's listen address is the one the server names. -/
theorem C22_client_tcp {ops : List COp} {host : Bytes} {port : Nat} (h : byListenAddress (crun [] ops) host port ≠ .refuse) :
    ∃ f, COp.request f ∈ ops ∧ byListenAddress (crun [] ops) host port = f.target ∧
      (f.bind = some host ∨ (f.listen.isLeft = true ∧ host = b!"localhost")) ∧
      (f.perm.lport = port ∨ ∃ i, COp.update i (some port) ∈ ops) := by
  unfold byListenAddress at h ⊢
  cases hf : (crun [] ops).find? (fun p => listenMatchTcpip p (some host) port true) with
  | none => rw [hf] at h; exact absurd rfl h
  | some p =>
    have hm := List.find?_some hf
    have hmem := List.mem_of_find?_eq_some hf
    simp only [listenMatchTcpip, if_true] at hm
    split at hm
    · simp at hm
    next hh =>
    split at hm
    · simp at hm
    next hp =>
    simp only [Bool.true_eq_false, false_and, if_false, decide_eq_true_eq] at hm
    obtain ⟨f, h1, h2, h3, h4, h5, h6, h7⟩ := crun_owned ops p hmem hh
    refine ⟨f, h1, ?_, ?_, ?_⟩
    · simp only [targetOf, h6, h3, h2, Fwd.target, Fwd.perm]
      cases f.connect with
      | inl q => simp
      | inr x =>
        obtain ⟨a, n⟩ := x
        simp only
        by_cases hn : n = 0
        · simp [hn]
        · simp [hn]
    · rw [h4] at hm
      simp only [Fwd.perm] at hm
      unfold Fwd.bind
      cases hl : f.listen with
      | inl q => rw [hl] at hm; exact .inr ⟨rfl, hm.symm⟩
      | inr x => rw [hl] at hm; exact .inl (by simp [hm])
    · have hp : p.lport = port := Classical.byContradiction fun e => hp e
      rcases h7 with h7 | ⟨i, n, h7, h8⟩
      · exact .inl (by rw [← h7, hp])
      · refine .inr ⟨i, ?_⟩
        have : n = port := by rw [hp] at h8; exact (Int.ofNat.inj h8).symm
        rw [← this]; exact h7

/-- C22 (client): the same for Unix-domain listeners. -/
theorem C22_client_path {ops : List COp} {path : Bytes} (h : byListenPath (crun [] ops) path ≠ .refuse) :
    ∃ f, COp.request f ∈ ops ∧ f.listen = .inl path ∧
      byListenPath (crun [] ops) path = (match f.connect with | .inl p => .connect p (-2) | .inr (a, n) => .connect a n) := by
  unfold byListenPath at h ⊢
  cases hf : (crun [] ops).find? (fun p => listenMatchPath p path) with
  | none => rw [hf] at h; exact absurd rfl h
  | some p =>
    have hm := List.find?_some hf
    have hmem := List.mem_of_find?_eq_some hf
    simp only [listenMatchPath] at hm
    split at hm
    · simp at hm
    next hh =>
    split at hm
    · simp at hm
    obtain ⟨f, h1, h2, h3, h4, h5, h6, h7⟩ := crun_owned ops p hmem hh
    refine ⟨f, h1, ?_, ?_⟩
    · rw [h5] at hm
      simp only [Fwd.perm, beq_iff_eq] at hm
      cases hl : f.listen with
      | inl q => rw [hl] at hm; simp only [Option.some.injEq] at hm; rw [hm]
      | inr x => rw [hl] at hm; simp at hm
    · simp only [h2, h3, Fwd.perm]
      cases f.connect with
      | inl q => rfl
      | inr x => rfl

/-- Two forwardings, one with a port the server chooses; the second is cancelled again. -/
def exOps : List COp :=
  [.request { listen := .inr (none, 0), connect := .inr (b!"web", 80) }, .update 0 (some 40001),
   .request { listen := .inr (some b!"*", 8080), connect := .inr (b!"db", 5432) }]
example : byListenAddress (crun [] exOps) b!"localhost" 40001 = .connect b!"web" 80 ∧
    byListenAddress (crun [] exOps) b!"" 8080 = .connect b!"db" 5432 ∧
    byListenAddress (crun [] (exOps ++ [.cancelTcp (some b!"*") 8080])) b!"" 8080 = .refuse ∧
    byListenAddress (crun [] exOps) b!"localhost" 22 = .refuse := by decide

end Verif.Permit
