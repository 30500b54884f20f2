/- Proof work for `Verif.SshBuf.HeapProps`: the heap invariant. -/
import Verif.SshBuf.Heap

namespace Verif.SshBuf
open Verif Wire

@[simp] theorem upd_same (f : Nat → Option α) (i : Nat) (v : Option α) : upd f i v i = v := by simp [upd]
theorem upd_ne (f : Nat → Option α) {i j : Nat} (v : Option α) (h : j ≠ i) : upd f i v j = f j := by simp [upd, h]

/-- `ext i` references to object `i` are held outside the heap; `kids p` lists the objects derived from `p`. -/
structure Inv (ext : Nat → Nat) (h : Heap) (kids : Nat → List Nat) : Prop where
  ltO : ∀ {i o}, h.objs i = some o → i < h.nextO
  ltB : ∀ {b x}, h.blks b = some x → b < h.nextB
  ltE : ∀ {b}, h.extern b = true → b < h.nextB
  blk : ∀ {i o}, h.objs i = some o → ∃ x, h.blks o.blk = some x
  par : ∀ {c o p}, h.objs c = some o → o.parent = some p →
    p < c ∧ o.readonly = true ∧ ∃ op, h.objs p = some op ∧ op.blk = o.blk
  root : ∀ {i o}, h.objs i = some o → o.readonly = true → o.parent = none → h.extern o.blk = true
  own : ∀ {i o}, h.objs i = some o → o.readonly = false → o.parent = none ∧ h.extern o.blk = false ∧ o.base = 0 ∧
    ∀ {j oj}, h.objs j = some oj → oj.readonly = false → oj.blk = o.blk → j = i
  nodup : ∀ p, (kids p).Nodup
  kid : ∀ {c p}, c ∈ kids p ↔ ∃ o, h.objs c = some o ∧ o.parent = some p
  cnt : ∀ {i o}, h.objs i = some o → o.refcount = ext i + (kids i).length
  pos : ∀ {i o}, h.objs i = some o → 1 ≤ o.refcount
  ref : ∀ {i}, 1 ≤ ext i → ∃ o, h.objs i = some o
  noleak : ∀ {b x}, h.blks b = some x → h.extern b = false →
    ∃ i o, h.objs i = some o ∧ o.blk = b ∧ o.readonly = false

variable {ext : Nat → Nat} {h : Heap} {kids : Nat → List Nat}

/-- Another object on an owner's block means the owner has a child. -/
theorem Inv.shared (I : Inv ext h kids) {i : Nat} {o : Obj} (ho : h.objs i = some o) (hr : o.readonly = false) :
    ∀ {j : Nat} {oj : Obj}, h.objs j = some oj → oj.blk = o.blk → j ≠ i → kids i ≠ [] := by
  obtain ⟨h1, h2, h3, h4⟩ := I.own ho hr
  intro j
  induction j using Nat.strongRecOn with
  | _ j ih =>
    intro oj hj hb hne
    cases hro : oj.readonly with
    | false => exact absurd (h4 hj hro hb) hne
    | true =>
      cases hp : oj.parent with
      | none =>
        have := I.root hj hro hp
        rw [hb, h2] at this
        cases this
      | some p =>
        obtain ⟨hlt, _, op, hop, hbp⟩ := I.par hj hp
        by_cases hpi : p = i
        · subst hpi
          intro hk
          have : j ∈ kids p := I.kid.2 ⟨oj, hj, hp⟩
          rw [hk] at this
          cases this
        · exact ih p hlt hop (hbp.trans hb) hpi

/-- Changing only offsets and sizes of an object, and bytes of blocks. -/
theorem Inv.touch (I : Inv ext h kids) {i : Nat} {o o' : Obj} (ho : h.objs i = some o) (hb : o'.blk = o.blk)
    (hp : o'.parent = o.parent) (hr : o'.readonly = o.readonly) (hc : o'.refcount = o.refcount) (hs : o'.base = o.base) :
    Inv ext (h.setO i (some o')) kids := by
  have key : ∀ {j oj}, upd h.objs i (some o') j = some oj → ∃ o2, h.objs j = some o2 ∧ oj.blk = o2.blk ∧
      oj.parent = o2.parent ∧ oj.readonly = o2.readonly ∧ oj.refcount = o2.refcount ∧ oj.base = o2.base := by
    intro j oj hj
    by_cases hji : j = i
    · subst hji
      rw [upd_same] at hj
      cases hj
      exact ⟨o, ho, hb, hp, hr, hc, hs⟩
    · rw [upd_ne _ _ hji] at hj
      exact ⟨oj, hj, rfl, rfl, rfl, rfl, rfl⟩
  have key' : ∀ {j oj}, h.objs j = some oj → ∃ o2, upd h.objs i (some o') j = some o2 ∧ o2.blk = oj.blk ∧
      o2.parent = oj.parent ∧ o2.readonly = oj.readonly := by
    intro j oj hj
    by_cases hji : j = i
    · subst hji
      rw [ho] at hj
      cases hj
      exact ⟨o', upd_same _ _ _, hb, hp, hr⟩
    · exact ⟨oj, by rw [upd_ne _ _ hji]; exact hj, rfl, rfl, rfl⟩
  constructor
  case ltO => intro j oj hj; obtain ⟨o2, h1, _⟩ := key hj; exact I.ltO h1
  case ltB => exact I.ltB
  case ltE => exact I.ltE
  case blk => intro j oj hj; obtain ⟨o2, h1, h2, _⟩ := key hj; rw [h2]; exact I.blk h1
  case par =>
    intro c oc p hc' hp'
    obtain ⟨o2, h1, h2, h3, h4, _⟩ := key hc'
    obtain ⟨a1, a2, op, a3, a4⟩ := I.par h1 (h3 ▸ hp')
    obtain ⟨o3, b1, b2, _⟩ := key' a3
    exact ⟨a1, h4.trans a2, o3, b1, by rw [b2, a4, h2]⟩
  case root =>
    intro j oj hj hr' hp'
    obtain ⟨o2, h1, h2, h3, h4, _⟩ := key hj
    rw [h2]; exact I.root h1 (h4 ▸ hr') (h3 ▸ hp')
  case own =>
    intro j oj hj hr'
    obtain ⟨o2, h1, h2, h3, h4, h5, h6⟩ := key hj
    obtain ⟨a1, a2, a3, a4⟩ := I.own h1 (h4 ▸ hr')
    refine ⟨h3.trans a1, by rw [h2]; exact a2, h6.trans a3, ?_⟩
    intro k ok hk hrk hbk
    obtain ⟨o3, c1, c2, c3, c4, _⟩ := key hk
    exact a4 c1 (c4 ▸ hrk) (by rw [← c2, hbk, h2])
  case nodup => exact I.nodup
  case kid =>
    intro c p
    rw [I.kid]
    constructor
    · rintro ⟨oc, h1, h2⟩
      obtain ⟨o2, a1, a2, a3, _⟩ := key' h1
      exact ⟨o2, a1, a3.trans h2⟩
    · rintro ⟨oc, h1, h2⟩
      obtain ⟨o2, a1, a2, a3, _⟩ := key h1
      exact ⟨o2, a1, a3 ▸ h2⟩
  case cnt => intro j oj hj; obtain ⟨o2, h1, h2, h3, h4, h5, h6⟩ := key hj; rw [h5]; exact I.cnt h1
  case pos => intro j oj hj; obtain ⟨o2, h1, h2, h3, h4, h5, h6⟩ := key hj; rw [h5]; exact I.pos h1
  case ref => intro j hj; obtain ⟨o2, h1⟩ := I.ref hj; obtain ⟨o3, h2, _⟩ := key' h1; exact ⟨o3, h2⟩
  case noleak =>
    intro b x hx he
    obtain ⟨j, oj, h1, h2, h3⟩ := I.noleak hx he
    obtain ⟨o3, a1, a2, a3, a4⟩ := key' h1
    exact ⟨j, o3, a1, a2.trans h2, a4.trans h3⟩

/-- Writing the bytes of a live block. -/
theorem Inv.bytes (I : Inv ext h kids) {b : Nat} {x : Bytes} (hx : h.blks b = some x) (y : Bytes) :
    Inv ext { h with blks := upd h.blks b (some y) } kids := by
  have key : ∀ {c z}, upd h.blks b (some y) c = some z → ∃ z', h.blks c = some z' := by
    intro c z hz
    by_cases hcb : c = b
    · exact ⟨x, hcb ▸ hx⟩
    · rw [upd_ne _ _ hcb] at hz; exact ⟨z, hz⟩
  constructor
  case ltO => exact I.ltO
  case ltB => intro c z hz; obtain ⟨_, h1⟩ := key hz; exact I.ltB h1
  case ltE => exact I.ltE
  case blk =>
    intro i o ho
    show ∃ x, upd h.blks b (some y) o.blk = some x
    by_cases hcb : o.blk = b
    · exact ⟨y, by rw [hcb, upd_same]⟩
    · rw [upd_ne _ _ hcb]; exact I.blk ho
  case par => exact I.par
  case root => exact I.root
  case own => exact I.own
  case nodup => exact I.nodup
  case kid => exact I.kid
  case cnt => exact I.cnt
  case pos => exact I.pos
  case ref => exact I.ref
  case noleak => intro c z hz he; obtain ⟨_, h1⟩ := key hz; exact I.noleak h1 he

/-- Moving an unshared buffer to a new block. -/
theorem Inv.move (I : Inv ext h kids) {i : Nat} {o o' : Obj} (ho : h.objs i = some o) (hr : o.readonly = false)
    (hk : kids i = []) (hb : o'.blk = h.nextB)
    (hp : o'.parent = o.parent) (hr' : o'.readonly = o.readonly) (hc : o'.refcount = o.refcount) (hs : o'.base = o.base)
    (y : Bytes) :
    Inv ext { h.setO i (some o') with blks := upd (upd h.blks o.blk none) h.nextB (some y), nextB := h.nextB + 1 } kids := by
  obtain ⟨w1, w2, w3, w4⟩ := I.own ho hr
  have hnb : ∀ {j oj}, h.objs j = some oj → oj.blk ≠ h.nextB := by
    intro j oj hj he
    obtain ⟨x, hx⟩ := I.blk hj
    have := I.ltB hx
    omega
  have hob : ∀ {j oj}, h.objs j = some oj → j ≠ i → oj.blk ≠ o.blk := fun hj hji he => I.shared ho hr hj he hji hk
  have hex : h.extern h.nextB = false := by
    cases he : h.extern h.nextB with
    | false => rfl
    | true => have := I.ltE he; omega
  have key : ∀ {j oj}, upd h.objs i (some o') j = some oj → j = i ∧ oj = o' ∨ j ≠ i ∧ h.objs j = some oj := by
    intro j oj hj
    by_cases hji : j = i
    · subst hji; rw [upd_same] at hj; cases hj; exact .inl ⟨rfl, rfl⟩
    · rw [upd_ne _ _ hji] at hj; exact .inr ⟨hji, hj⟩
  have keyb : ∀ {c z}, upd (upd h.blks o.blk none) h.nextB (some y) c = some z →
      c = h.nextB ∨ c ≠ h.nextB ∧ c ≠ o.blk ∧ h.blks c = some z := by
    intro c z hz
    by_cases hcn : c = h.nextB
    · exact .inl hcn
    · rw [upd_ne _ _ hcn] at hz
      by_cases hcb : c = o.blk
      · rw [hcb, upd_same] at hz; cases hz
      · rw [upd_ne _ _ hcb] at hz; exact .inr ⟨hcn, hcb, hz⟩
  constructor
  case ltO =>
    intro j oj hj
    rcases key hj with ⟨rfl, _⟩ | ⟨_, hj0⟩
    · exact I.ltO ho
    · exact I.ltO hj0
  case ltB =>
    intro c z hz
    show c < h.nextB + 1
    rcases keyb hz with rfl | ⟨_, _, hz⟩
    · omega
    · have := I.ltB hz; omega
  case ltE => intro c hc'; have := I.ltE hc'; show c < h.nextB + 1; omega
  case blk =>
    intro j oj hj
    show ∃ x, upd (upd h.blks o.blk none) h.nextB (some y) oj.blk = some x
    rcases key hj with ⟨rfl, rfl⟩ | ⟨hji, hj0⟩
    · exact ⟨y, by rw [hb, upd_same]⟩
    · rw [upd_ne _ _ (hnb hj0), upd_ne _ _ (hob hj0 hji)]; exact I.blk hj0
  case par =>
    intro c oc p hc' hp'
    rcases key hc' with ⟨rfl, rfl⟩ | ⟨hji, hj0⟩
    · rw [hp, w1] at hp'; cases hp'
    · obtain ⟨a1, a2, op, a3, a4⟩ := I.par hj0 hp'
      by_cases hpi : p = i
      · subst hpi
        have : c ∈ kids p := I.kid.2 ⟨oc, hj0, hp'⟩
        rw [hk] at this; cases this
      · exact ⟨a1, a2, op, by show upd h.objs i _ p = _; rw [upd_ne _ _ hpi]; exact a3, a4⟩
  case root =>
    intro j oj hj hr2 hp2
    rcases key hj with ⟨rfl, rfl⟩ | ⟨hji, hj0⟩
    · rw [hr', hr] at hr2; cases hr2
    · exact I.root hj0 hr2 hp2
  case own =>
    intro j oj hj hr2
    rcases key hj with ⟨rfl, rfl⟩ | ⟨hji, hj0⟩
    · refine ⟨hp.trans w1, by rw [hb]; exact hex, hs.trans w3, ?_⟩
      intro k ok hk' hrk hbk
      rcases key hk' with ⟨rfl, rfl⟩ | ⟨hki, hk'⟩
      · rfl
      · exact absurd (hbk.trans hb) (hnb hk')
    · obtain ⟨a1, a2, a3, a4⟩ := I.own hj0 hr2
      refine ⟨a1, a2, a3, ?_⟩
      intro k ok hk' hrk hbk
      rcases key hk' with ⟨rfl, rfl⟩ | ⟨hki, hk'⟩
      · exact absurd (hbk.symm.trans hb) (hnb hj0)
      · exact a4 hk' hrk hbk
  case nodup => exact I.nodup
  case kid =>
    intro c p
    rw [I.kid]
    constructor
    · rintro ⟨oc, h1, h2⟩
      by_cases hci : c = i
      · subst hci; rw [ho] at h1; cases h1
        exact ⟨o', upd_same _ _ _, hp.trans h2⟩
      · exact ⟨oc, by show upd h.objs i _ c = _; rw [upd_ne _ _ hci]; exact h1, h2⟩
    · rintro ⟨oc, h1, h2⟩
      rcases key h1 with ⟨rfl, rfl⟩ | ⟨hji, hj0⟩
      · exact ⟨o, ho, hp ▸ h2⟩
      · exact ⟨oc, hj0, h2⟩
  case cnt =>
    intro j oj hj
    rcases key hj with ⟨rfl, rfl⟩ | ⟨hji, hj0⟩
    · rw [hc]; exact I.cnt ho
    · exact I.cnt hj0
  case pos =>
    intro j oj hj
    rcases key hj with ⟨rfl, rfl⟩ | ⟨hji, hj0⟩
    · rw [hc]; exact I.pos ho
    · exact I.pos hj0
  case ref =>
    intro j hj
    by_cases hji : j = i
    · exact ⟨o', by rw [hji]; exact upd_same _ _ _⟩
    · obtain ⟨oj, h1⟩ := I.ref hj
      exact ⟨oj, by show upd h.objs i _ j = _; rw [upd_ne _ _ hji]; exact h1⟩
  case noleak =>
    intro c z hz he
    rcases keyb hz with rfl | ⟨hcn, hcb, hz⟩
    · exact ⟨i, o', upd_same _ _ _, hb, hr'.trans hr⟩
    · obtain ⟨j, oj, h1, h2, h3⟩ := I.noleak hz he
      have hji : j ≠ i := by
        rintro rfl; rw [ho] at h1; cases h1; exact hcb h2.symm
      exact ⟨j, oj, by show upd h.objs i _ j = _; rw [upd_ne _ _ hji]; exact h1, h2, h3⟩

/-- Adding a parentless object on a new block. -/
theorem Inv.add (I : Inv ext h kids) (he0 : ext h.nextO = 0) {o : Obj} (hb : o.blk = h.nextB) (hp : o.parent = none)
    (hc : o.refcount = 1) (hs : o.base = 0) (y : Bytes) :
    Inv (fun j => if j = h.nextO then 1 else ext j)
      { objs := upd h.objs h.nextO (some o), blks := upd h.blks h.nextB (some y)
        extern := fun b => if b = h.nextB then o.readonly else h.extern b, nextO := h.nextO + 1, nextB := h.nextB + 1 }
      kids := by
  have hnew : h.objs h.nextO = none := by
    cases hh : h.objs h.nextO with
    | none => rfl
    | some o => have := I.ltO hh; omega
  have hnb : ∀ {j oj}, h.objs j = some oj → oj.blk ≠ h.nextB := by
    intro j oj hj he
    obtain ⟨x, hx⟩ := I.blk hj
    have := I.ltB hx
    omega
  have hk : kids h.nextO = [] := by
    apply List.eq_nil_iff_forall_not_mem.2
    intro c hc'
    obtain ⟨oc, h1, h2⟩ := I.kid.1 hc'
    obtain ⟨_, _, op, h3, _⟩ := I.par h1 h2
    rw [hnew] at h3; cases h3
  have key : ∀ {j oj}, upd h.objs h.nextO (some o) j = some oj → j = h.nextO ∧ oj = o ∨ j ≠ h.nextO ∧ h.objs j = some oj := by
    intro j oj hj
    by_cases hji : j = h.nextO
    · subst hji; rw [upd_same] at hj; cases hj; exact .inl ⟨rfl, rfl⟩
    · rw [upd_ne _ _ hji] at hj; exact .inr ⟨hji, hj⟩
  have key' : ∀ {j oj}, h.objs j = some oj → upd h.objs h.nextO (some o) j = some oj := by
    intro j oj hj
    rw [upd_ne]; exact hj
    rintro rfl; rw [hnew] at hj; cases hj
  constructor
  case ltO =>
    intro j oj hj
    show j < h.nextO + 1
    rcases key hj with ⟨rfl, _⟩ | ⟨_, hj0⟩
    · omega
    · have := I.ltO hj0; omega
  case ltB =>
    intro c z hz
    show c < h.nextB + 1
    by_cases hcb : c = h.nextB
    · omega
    · have := I.ltB ((upd_ne _ _ hcb).symm.trans hz); omega
  case ltE =>
    intro c hc'
    show c < h.nextB + 1
    by_cases hcb : c = h.nextB
    · omega
    · simp only [hcb, if_false] at hc'
      have := I.ltE hc'; omega
  case blk =>
    intro j oj hj
    show ∃ x, upd h.blks h.nextB (some y) oj.blk = some x
    rcases key hj with ⟨rfl, rfl⟩ | ⟨hji, hj0⟩
    · exact ⟨y, by rw [hb, upd_same]⟩
    · rw [upd_ne _ _ (hnb hj0)]; exact I.blk hj0
  case par =>
    intro c oc p hc' hp'
    rcases key hc' with ⟨rfl, rfl⟩ | ⟨hji, hj0⟩
    · rw [hp] at hp'; cases hp'
    · obtain ⟨a1, a2, op, a3, a4⟩ := I.par hj0 hp'
      exact ⟨a1, a2, op, key' a3, a4⟩
  case root =>
    intro j oj hj hr2 hp2
    rcases key hj with ⟨rfl, rfl⟩ | ⟨hji, hj0⟩
    · simp [hb, hr2]
    · simp only [hnb hj0, if_false]; exact I.root hj0 hr2 hp2
  case own =>
    intro j oj hj hr2
    rcases key hj with ⟨rfl, rfl⟩ | ⟨hji, hj0⟩
    · refine ⟨hp, by simp [hb, hr2], hs, ?_⟩
      intro k ok hk' hrk hbk
      rcases key hk' with ⟨rfl, rfl⟩ | ⟨hki, hk'⟩
      · rfl
      · exact absurd (hbk.trans hb) (hnb hk')
    · obtain ⟨a1, a2, a3, a4⟩ := I.own hj0 hr2
      refine ⟨a1, by simp only [hnb hj0, if_false]; exact a2, a3, ?_⟩
      intro k ok hk' hrk hbk
      rcases key hk' with ⟨rfl, rfl⟩ | ⟨hki, hk'⟩
      · exact absurd (hbk.symm.trans hb) (hnb hj0)
      · exact a4 hk' hrk hbk
  case nodup => exact I.nodup
  case kid =>
    intro c p
    rw [I.kid]
    constructor
    · rintro ⟨oc, h1, h2⟩
      exact ⟨oc, key' h1, h2⟩
    · rintro ⟨oc, h1, h2⟩
      rcases key h1 with ⟨rfl, rfl⟩ | ⟨hji, hj0⟩
      · rw [hp] at h2; cases h2
      · exact ⟨oc, hj0, h2⟩
  case cnt =>
    intro j oj hj
    rcases key hj with ⟨rfl, rfl⟩ | ⟨hji, hj0⟩
    · simp [hk, hc]
    · simp only [hji, if_false]; exact I.cnt hj0
  case pos =>
    intro j oj hj
    rcases key hj with ⟨rfl, rfl⟩ | ⟨hji, hj0⟩
    · omega
    · exact I.pos hj0
  case ref =>
    intro j hj
    by_cases hji : j = h.nextO
    · exact ⟨o, by rw [hji]; exact upd_same _ _ _⟩
    · simp only [hji, if_false] at hj
      obtain ⟨oj, h1⟩ := I.ref hj
      exact ⟨oj, key' h1⟩
  case noleak =>
    intro c z hz he
    by_cases hcb : c = h.nextB
    · simp only [hcb, if_true] at he
      exact ⟨h.nextO, o, upd_same _ _ _, hb.trans hcb.symm, he⟩
    · simp only [hcb, if_false] at he
      obtain ⟨j, oj, h1, h2⟩ := I.noleak ((upd_ne _ _ hcb).symm.trans hz) he
      exact ⟨j, oj, key' h1, h2⟩

/-- Deriving a child from `i`. -/
theorem Inv.adopt (I : Inv ext h kids) (he0 : ext h.nextO = 0) {i : Nat} {o child : Obj} (ho : h.objs i = some o)
    (hb : child.blk = o.blk) (hr : child.readonly = true) (hc : child.refcount = 1) :
    Inv (fun j => if j = h.nextO then 1 else ext j) (adopt h i o child)
      (fun p => if p = i then h.nextO :: kids i else kids p) := by
  have hnew : h.objs h.nextO = none := by
    cases hh : h.objs h.nextO with
    | none => rfl
    | some o => have := I.ltO hh; omega
  have hk : kids h.nextO = [] := by
    apply List.eq_nil_iff_forall_not_mem.2
    intro c hc'
    obtain ⟨oc, h1, h2⟩ := I.kid.1 hc'
    obtain ⟨_, _, op, h3, _⟩ := I.par h1 h2
    rw [hnew] at h3; cases h3
  have hin : i ≠ h.nextO := by rintro rfl; rw [hnew] at ho; cases ho
  have key : ∀ {j oj}, (SshBuf.adopt h i o child).objs j = some oj →
      j = h.nextO ∧ oj = { child with parent := some i } ∨
      j = i ∧ oj = { o with refcount := o.refcount + 1 } ∨ j ≠ h.nextO ∧ j ≠ i ∧ h.objs j = some oj := by
    intro j oj hj
    by_cases hjn : j = h.nextO
    · subst hjn
      have := (upd_same _ _ _).symm.trans hj
      cases this; exact .inl ⟨rfl, rfl⟩
    · have hj := (upd_ne _ _ hjn).symm.trans hj
      by_cases hji : j = i
      · subst hji
        have := (upd_same _ _ _).symm.trans hj
        cases this; exact .inr (.inl ⟨rfl, rfl⟩)
      · exact .inr (.inr ⟨hjn, hji, (upd_ne _ _ hji).symm.trans hj⟩)
  have knew : (SshBuf.adopt h i o child).objs h.nextO = some { child with parent := some i } := upd_same _ _ _
  have ki : (SshBuf.adopt h i o child).objs i = some { o with refcount := o.refcount + 1 } :=
    (upd_ne _ _ hin).trans (upd_same _ _ _)
  have kother : ∀ {j oj}, h.objs j = some oj → j ≠ i → (SshBuf.adopt h i o child).objs j = some oj := by
    intro j oj hj hji
    refine (upd_ne _ _ ?_).trans ((upd_ne _ _ hji).trans hj)
    rintro rfl; rw [hnew] at hj; cases hj
  have key' : ∀ {j oj}, h.objs j = some oj → ∃ o2, (SshBuf.adopt h i o child).objs j = some o2 ∧ o2.blk = oj.blk ∧
      o2.parent = oj.parent ∧ o2.readonly = oj.readonly := by
    intro j oj hj
    by_cases hji : j = i
    · subst hji; rw [ho] at hj; cases hj; exact ⟨_, ki, rfl, rfl, rfl⟩
    · exact ⟨oj, kother hj hji, rfl, rfl, rfl⟩
  constructor
  case ltO =>
    intro j oj hj
    show j < h.nextO + 1
    rcases key hj with ⟨rfl, _⟩ | ⟨rfl, _⟩ | ⟨_, _, hj0⟩
    · omega
    · have := I.ltO ho; omega
    · have := I.ltO hj0; omega
  case ltB => exact I.ltB
  case ltE => exact I.ltE
  case blk =>
    intro j oj hj
    rcases key hj with ⟨rfl, rfl⟩ | ⟨rfl, rfl⟩ | ⟨_, _, hj0⟩
    · show ∃ x, h.blks child.blk = some x
      rw [hb]; exact I.blk ho
    · exact I.blk (o := o) ho
    · exact I.blk hj0
  case par =>
    intro c oc p hc' hp'
    rcases key hc' with ⟨rfl, rfl⟩ | ⟨rfl, rfl⟩ | ⟨_, _, hj0⟩
    · cases hp'
      exact ⟨I.ltO ho, hr, _, ki, hb.symm⟩
    · obtain ⟨a1, a2, op, a3, a4⟩ := I.par ho hp'
      obtain ⟨o2, b1, b2, _⟩ := key' a3
      exact ⟨a1, a2, o2, b1, b2.trans a4⟩
    · obtain ⟨a1, a2, op, a3, a4⟩ := I.par hj0 hp'
      obtain ⟨o2, b1, b2, _⟩ := key' a3
      exact ⟨a1, a2, o2, b1, b2.trans a4⟩
  case root =>
    intro j oj hj hr2 hp2
    rcases key hj with ⟨rfl, rfl⟩ | ⟨rfl, rfl⟩ | ⟨_, _, hj0⟩
    · cases hp2
    · exact I.root (o := o) ho hr2 hp2
    · exact I.root hj0 hr2 hp2
  case own =>
    intro j oj hj hr2
    have hu : ∀ {j oj}, h.objs j = some oj → oj.readonly = false → ∀ {k ok}, (SshBuf.adopt h i o child).objs k = some ok →
        ok.readonly = false → ok.blk = oj.blk → k = j := by
      intro j oj hj9 hr9 k ok hk' hrk hbk
      rcases key hk' with ⟨rfl, rfl⟩ | ⟨rfl, rfl⟩ | ⟨_, _, hk'⟩
      · have : child.readonly = false := hrk
        rw [hr] at this; cases this
      · exact (I.own hj9 hr9).2.2.2 ho hrk hbk
      · exact (I.own hj9 hr9).2.2.2 hk' hrk hbk
    rcases key hj with ⟨rfl, rfl⟩ | ⟨rfl, rfl⟩ | ⟨_, _, hj0⟩
    · have : child.readonly = false := hr2
      rw [hr] at this; cases this
    · obtain ⟨a1, a2, a3, a4⟩ := I.own ho hr2
      exact ⟨a1, a2, a3, hu ho hr2⟩
    · obtain ⟨a1, a2, a3, a4⟩ := I.own hj0 hr2
      exact ⟨a1, a2, a3, hu hj0 hr2⟩
  case nodup =>
    intro p
    by_cases hpi : p = i
    · simp only [hpi, if_true]
      refine List.nodup_cons.2 ⟨?_, I.nodup i⟩
      intro hm
      obtain ⟨oc, h1, _⟩ := I.kid.1 hm
      rw [hnew] at h1; cases h1
    · simp only [hpi, if_false]; exact I.nodup p
  case kid =>
    intro c p
    constructor
    · intro hm
      by_cases hpi : p = i
      · simp only [hpi, if_true, List.mem_cons] at hm
        rcases hm with rfl | hm
        · exact ⟨_, knew, by rw [hpi]⟩
        · obtain ⟨oc, h1, h2⟩ := I.kid.1 hm
          obtain ⟨o2, b1, b2, b3, _⟩ := key' h1
          exact ⟨o2, b1, by rw [b3, h2, hpi]⟩
      · simp only [hpi, if_false] at hm
        obtain ⟨oc, h1, h2⟩ := I.kid.1 hm
        obtain ⟨o2, b1, b2, b3, _⟩ := key' h1
        exact ⟨o2, b1, by rw [b3, h2]⟩
    · rintro ⟨oc, h1, h2⟩
      have up : c ∈ kids p → c ∈ (if p = i then h.nextO :: kids i else kids p) := by
        intro hm
        by_cases hpi : p = i
        · simp only [hpi, if_true]; rw [hpi] at hm; exact List.mem_cons_of_mem _ hm
        · simp only [hpi, if_false]; exact hm
      rcases key h1 with ⟨rfl, rfl⟩ | ⟨rfl, rfl⟩ | ⟨_, _, hj0⟩
      · cases h2; simp
      · exact up (I.kid.2 ⟨_, ho, h2⟩)
      · exact up (I.kid.2 ⟨_, hj0, h2⟩)
  case cnt =>
    intro j oj hj
    rcases key hj with ⟨rfl, rfl⟩ | ⟨rfl, rfl⟩ | ⟨hjn, hji, hj0⟩
    · simp [hc, hk, Ne.symm hin]
    · have := I.cnt ho
      simp [hin]; omega
    · simp only [hjn, hji, if_false]; exact I.cnt hj0
  case pos =>
    intro j oj hj
    rcases key hj with ⟨rfl, rfl⟩ | ⟨rfl, rfl⟩ | ⟨hjn, hji, hj0⟩
    · simp [hc]
    · simp
    · exact I.pos hj0
  case ref =>
    intro j hj
    by_cases hji : j = h.nextO
    · exact ⟨_, by rw [hji]; exact knew⟩
    · simp only [hji, if_false] at hj
      obtain ⟨oj, h1⟩ := I.ref hj
      obtain ⟨o2, b1, _⟩ := key' h1
      exact ⟨o2, b1⟩
  case noleak =>
    intro c z hz he
    obtain ⟨j, oj, h1, h2, h3⟩ := I.noleak hz he
    obtain ⟨o2, b1, b2, b3, b4⟩ := key' h1
    exact ⟨j, o2, b1, b2.trans h2, b4.trans h3⟩

/-- One outside reference less. -/
def dec (ext : Nat → Nat) (i : Nat) : Nat → Nat := fun j => if j = i then ext j - 1 else ext j

/-- Dropping a reference that is not the last. -/
theorem Inv.drop (I : Inv ext h kids) {i : Nat} {o : Obj} (ho : h.objs i = some o) (he : 1 ≤ ext i)
    (hr : o.refcount - 1 > 0) : Inv (dec ext i) (h.setO i (some { o with refcount := o.refcount - 1 })) kids := by
  have key : ∀ {j oj}, upd h.objs i (some { o with refcount := o.refcount - 1 }) j = some oj →
      j = i ∧ oj = { o with refcount := o.refcount - 1 } ∨ j ≠ i ∧ h.objs j = some oj := by
    intro j oj hj
    by_cases hji : j = i
    · subst hji; rw [upd_same] at hj; cases hj; exact .inl ⟨rfl, rfl⟩
    · rw [upd_ne _ _ hji] at hj; exact .inr ⟨hji, hj⟩
  have key' : ∀ {j oj}, h.objs j = some oj → ∃ o2, upd h.objs i (some { o with refcount := o.refcount - 1 }) j = some o2 ∧
      o2.blk = oj.blk ∧ o2.parent = oj.parent ∧ o2.readonly = oj.readonly := by
    intro j oj hj
    by_cases hji : j = i
    · subst hji; rw [ho] at hj; cases hj; exact ⟨_, upd_same _ _ _, rfl, rfl, rfl⟩
    · exact ⟨oj, (upd_ne _ _ hji).trans hj, rfl, rfl, rfl⟩
  constructor
  case ltO => intro j oj hj; rcases key hj with ⟨rfl, _⟩ | ⟨_, hj⟩; exact I.ltO ho; exact I.ltO hj
  case ltB => exact I.ltB
  case ltE => exact I.ltE
  case blk => intro j oj hj; rcases key hj with ⟨rfl, rfl⟩ | ⟨_, hj⟩; exact I.blk (o := o) ho; exact I.blk hj
  case par =>
    intro c oc p hc' hp'
    have : ∀ {oc}, h.objs c = some oc → oc.parent = some p → p < c ∧ oc.readonly = true ∧
        ∃ op, upd h.objs i (some { o with refcount := o.refcount - 1 }) p = some op ∧ op.blk = oc.blk := by
      intro oc h1 h2
      obtain ⟨a1, a2, op, a3, a4⟩ := I.par h1 h2
      obtain ⟨o2, b1, b2, _⟩ := key' a3
      exact ⟨a1, a2, o2, b1, b2.trans a4⟩
    rcases key hc' with ⟨rfl, rfl⟩ | ⟨_, hj0⟩
    · exact this (oc := o) ho hp'
    · exact this hj0 hp'
  case root =>
    intro j oj hj h1 h2
    rcases key hj with ⟨rfl, rfl⟩ | ⟨_, hj0⟩
    · exact I.root (o := o) ho h1 h2
    · exact I.root hj0 h1 h2
  case own =>
    intro j oj hj hr2
    have hu : ∀ {j oj}, h.objs j = some oj → oj.readonly = false → ∀ {k ok},
        upd h.objs i (some { o with refcount := o.refcount - 1 }) k = some ok →
        ok.readonly = false → ok.blk = oj.blk → k = j := by
      intro j oj hj9 hr9 k ok hk' hrk hbk
      rcases key hk' with ⟨rfl, rfl⟩ | ⟨_, hk'⟩
      · exact (I.own hj9 hr9).2.2.2 ho hrk hbk
      · exact (I.own hj9 hr9).2.2.2 hk' hrk hbk
    rcases key hj with ⟨rfl, rfl⟩ | ⟨_, hj0⟩
    · obtain ⟨a1, a2, a3, a4⟩ := I.own ho hr2
      exact ⟨a1, a2, a3, hu ho hr2⟩
    · obtain ⟨a1, a2, a3, a4⟩ := I.own hj0 hr2
      exact ⟨a1, a2, a3, hu hj0 hr2⟩
  case nodup => exact I.nodup
  case kid =>
    intro c p
    rw [I.kid]
    constructor
    · rintro ⟨oc, h1, h2⟩
      obtain ⟨o2, b1, b2, b3, _⟩ := key' h1
      exact ⟨o2, b1, by rw [b3, h2]⟩
    · rintro ⟨oc, h1, h2⟩
      rcases key h1 with ⟨rfl, rfl⟩ | ⟨_, hj0⟩
      · exact ⟨_, ho, h2⟩
      · exact ⟨_, hj0, h2⟩
  case cnt =>
    intro j oj hj
    rcases key hj with ⟨rfl, rfl⟩ | ⟨hji, hj0⟩
    · have := I.cnt ho
      simp only [dec, if_true]; omega
    · simp only [dec, hji, if_false]; exact I.cnt hj0
  case pos =>
    intro j oj hj
    rcases key hj with ⟨rfl, rfl⟩ | ⟨hji, hj0⟩
    · exact hr
    · exact I.pos hj0
  case ref =>
    intro j hj
    have : 1 ≤ ext j := by unfold dec at hj; split at hj <;> omega
    obtain ⟨oj, h1⟩ := I.ref this
    obtain ⟨o2, b1, _⟩ := key' h1
    exact ⟨o2, b1⟩
  case noleak =>
    intro c z hz he'
    obtain ⟨j, oj, h1, h2, h3⟩ := I.noleak hz he'
    obtain ⟨o2, b1, b2, b3, b4⟩ := key' h1
    exact ⟨j, o2, b1, b2.trans h2, b4.trans h3⟩

/-- Removing an object with its last reference; its reference to its parent becomes an outside one. -/
theorem Inv.remove (I : Inv ext h kids) {i : Nat} {o : Obj} (ho : h.objs i = some o) (he : ext i = 1) (hk : kids i = [])
    (blks' : Nat → Option Bytes)
    (hbl : blks' = if o.readonly then h.blks else upd h.blks o.blk none) :
    Inv (fun j => if j = i then 0 else if o.parent = some j then ext j + 1 else ext j)
      { h.setO i none with blks := blks' }
      (fun q => if o.parent = some q then (kids q).erase i else kids q) := by
  have key : ∀ {j oj}, upd h.objs i none j = some oj → j ≠ i ∧ h.objs j = some oj := by
    intro j oj hj
    by_cases hji : j = i
    · subst hji; rw [upd_same] at hj; cases hj
    · rw [upd_ne _ _ hji] at hj; exact ⟨hji, hj⟩
  have key' : ∀ {j oj}, h.objs j = some oj → j ≠ i → upd h.objs i none j = some oj :=
    fun hj hji => (upd_ne _ _ hji).trans hj
  have hsub : ∀ {b x}, blks' b = some x → h.blks b = some x ∧ (o.readonly = false → b ≠ o.blk) := by
    intro b x hx
    rw [hbl] at hx
    by_cases hr : o.readonly = true
    · rw [if_pos hr] at hx; exact ⟨hx, fun hf => by rw [hr] at hf; cases hf⟩
    · rw [if_neg hr] at hx
      by_cases hb : b = o.blk
      · rw [hb, upd_same] at hx; cases hx
      · rw [upd_ne _ _ hb] at hx; exact ⟨hx, fun _ => hb⟩
  constructor
  case ltO => intro j oj hj; exact I.ltO (key hj).2
  case ltB => intro b x hx; exact I.ltB (hsub hx).1
  case ltE => exact I.ltE
  case blk =>
    intro j oj hj
    obtain ⟨hji, hj⟩ := key hj
    show ∃ x, blks' oj.blk = some x
    rw [hbl]
    by_cases hr : o.readonly = true
    · rw [if_pos hr]; exact I.blk hj
    · rw [if_neg hr, upd_ne _ _ (fun hb => I.shared ho (by simpa using hr) hj hb hji hk)]; exact I.blk hj
  case par =>
    intro c oc p hc' hp'
    obtain ⟨hci, hc0⟩ := key hc'
    obtain ⟨a1, a2, op, a3, a4⟩ := I.par hc0 hp'
    refine ⟨a1, a2, op, key' a3 ?_, a4⟩
    rintro rfl
    have : c ∈ kids p := I.kid.2 ⟨oc, hc0, hp'⟩
    rw [hk] at this; cases this
  case root => intro j oj hj; exact I.root (key hj).2
  case own =>
    intro j oj hj hr2
    obtain ⟨a1, a2, a3, a4⟩ := I.own (key hj).2 hr2
    exact ⟨a1, a2, a3, fun hk' => a4 (key hk').2⟩
  case nodup =>
    intro p
    show (if _ then _ else _ : List Nat).Nodup
    split
    · exact (I.nodup p).erase i
    · exact I.nodup p
  case kid =>
    intro c p
    constructor
    · intro hm
      have hm' : c ∈ kids p ∧ c ≠ i := by
        by_cases hp : o.parent = some p
        · simp only [hp, if_true] at hm
          have := (I.nodup p).mem_erase_iff.1 hm
          exact ⟨this.2, this.1⟩
        · simp only [hp, if_false] at hm
          refine ⟨hm, ?_⟩
          rintro rfl
          obtain ⟨oc, h1, h2⟩ := I.kid.1 hm
          rw [ho] at h1; cases h1; exact hp h2
      obtain ⟨oc, h1, h2⟩ := I.kid.1 hm'.1
      exact ⟨oc, key' h1 hm'.2, h2⟩
    · rintro ⟨oc, h1, h2⟩
      obtain ⟨hci, h1⟩ := key h1
      have hm := I.kid.2 ⟨oc, h1, h2⟩
      show c ∈ (if _ then _ else _ : List Nat)
      split
      · exact (I.nodup p).mem_erase_iff.2 ⟨hci, hm⟩
      · exact hm
  case cnt =>
    intro j oj hj
    obtain ⟨hji, hj⟩ := key hj
    have := I.cnt hj
    simp only [hji, if_false]
    by_cases hp : o.parent = some j
    · simp only [hp, if_true]
      have hm : i ∈ kids j := I.kid.2 ⟨o, ho, hp⟩
      rw [List.length_erase_of_mem hm]
      have : 1 ≤ (kids j).length := List.length_pos_of_mem hm
      omega
    · simp only [hp, if_false]; exact this
  case pos => intro j oj hj; exact I.pos (key hj).2
  case ref =>
    intro j hj
    by_cases hji : j = i
    · simp [hji] at hj
    · simp only [hji, if_false] at hj
      by_cases hp : o.parent = some j
      · obtain ⟨_, _, op, a3, _⟩ := I.par ho hp
        exact ⟨op, key' a3 hji⟩
      · simp only [hp, if_false] at hj
        obtain ⟨oj, h1⟩ := I.ref hj
        exact ⟨oj, key' h1 hji⟩
  case noleak =>
    intro c z hz he'
    obtain ⟨hz, hne⟩ := hsub hz
    obtain ⟨j, oj, h1, h2, h3⟩ := I.noleak hz he'
    refine ⟨j, oj, key' h1 ?_, h2, h3⟩
    rintro rfl
    rw [ho] at h1; cases h1
    exact hne h3 h2.symm

/-! ### freeing -/

def Out.map (f : α → β) : Out α → Out β
  | .ok a => .ok (f a)
  | .fault => .fault
  | .stop => .stop

/-- Parents are older than their children. -/
def Older (h : Heap) : Prop := ∀ c o p, h.objs c = some o → o.parent = some p → p < c

theorem setO_comm (h : Heap) {i j : Nat} (x y : Option Obj) (hne : i ≠ j) :
    (h.setO i x).setO j y = (h.setO j y).setO i x := by
  unfold Heap.setO
  congr 1
  funext k
  unfold upd
  by_cases h1 : k = j
  · subst h1; simp [Ne.symm hne]
  · by_cases h2 : k = i <;> simp [h1, h2, hne]

theorem setO_setO (h : Heap) (i : Nat) (x y : Option Obj) : (h.setO i x).setO i y = h.setO i y := by
  unfold Heap.setO
  congr 1
  funext k
  unfold upd
  by_cases h1 : k = i <;> simp [h1]

theorem release_comm (h : Heap) {p i : Nat} (x : Option Obj) (o : Obj) (hne : i ≠ p) :
    release (h.setO i x) p o = (release h p o).map (·.setO i x) := by
  unfold release
  split
  · exact congrArg Out.ok (setO_comm h x none hne)
  · show (match h.blks o.blk with | none => _ | some _ => _) = _
    cases h.blks o.blk with
    | none => rfl
    | some b =>
      show (if h.extern o.blk then _ else _) = Out.map _ (if h.extern o.blk then _ else _)
      split
      · rfl
      · show Out.ok _ = Out.ok _
        congr 1
        have := congrArg Heap.objs (setO_comm h x none hne)
        simp only [Heap.setO] at this ⊢
        rw [this]

/-- Freeing `p` neither reads nor writes younger objects. -/
theorem free_comm : ∀ (fuel : Nat) (h : Heap) (p i : Nat) (x : Option Obj), p < i → Older h →
    free fuel (h.setO i x) p = (free fuel h p).map (·.setO i x)
  | 0, _, _, _, _, _, _ => rfl
  | fuel + 1, h, p, i, x, hlt, hold => by
    have hne : p ≠ i := by omega
    unfold free
    rw [show (h.setO i x).objs p = h.objs p from upd_ne _ _ hne]
    cases ho : h.objs p with
    | none => rfl
    | some o =>
      show (if insane (o.view []) then _ else _) = Out.map _ (if insane (o.view []) then _ else _)
      by_cases h1 : insane (o.view []) = true
      · rw [if_pos h1, if_pos h1]; rfl
      · rw [if_neg h1, if_neg h1]
        by_cases h2 : o.refcount - 1 > 0
        · rw [if_pos h2, if_pos h2]
          exact congrArg Out.ok (setO_comm h x _ (Ne.symm hne))
        · rw [if_neg h2, if_neg h2]
          simp only []
          rw [setO_comm h x _ (Ne.symm hne)]
          have hold' : Older (h.setO p (some { o with refcount := o.refcount - 1 })) := by
            intro c oc r hc hr
            by_cases hcp : c = p
            · subst hcp
              have := (upd_same _ _ _).symm.trans hc
              cases this
              exact hold _ o r ho hr
            · exact hold c oc r ((upd_ne _ _ hcp).symm.trans hc) hr
          generalize ({ o with refcount := o.refcount - 1 } : Obj) = o1 at *
          cases hp : o.parent with
          | none => exact release_comm _ _ _ (Ne.symm hne)
          | some q =>
            have hqp : q < p := hold p o q ho hp
            simp only []
            rw [free_comm fuel _ q i x (by omega) hold']
            cases free fuel (h.setO p (some o1)) q with
            | fault => rfl
            | stop => rfl
            | ok h' => exact release_comm _ _ _ (Ne.symm hne)

theorem Inv.older (I : Inv ext h kids) : Older h := fun _ _ _ h1 h2 => (I.par h1 h2).1

/-- What freeing leaves alone. -/
structure Less (h h' : Heap) : Prop where
  objs : ∀ {j o'}, h'.objs j = some o' → ∃ o, h.objs j = some o ∧ o' = { o with refcount := o'.refcount }
  blks : ∀ {b x}, h'.blks b = some x → h.blks b = some x
  extern : h'.extern = h.extern
  nextO : h'.nextO = h.nextO

theorem Less.trans {a b c : Heap} (h1 : Less a b) (h2 : Less b c) : Less a c := by
  refine ⟨?_, fun h => h1.blks (h2.blks h), h2.extern.trans h1.extern, h2.nextO.trans h1.nextO⟩
  intro j o' hj
  obtain ⟨o1, a1, a2⟩ := h2.objs hj
  obtain ⟨o2, b1, b2⟩ := h1.objs a1
  exact ⟨o2, b1, by rw [a2, b2]⟩

theorem less_remove (h : Heap) (i : Nat) : Less h (h.setO i none) := by
  refine ⟨?_, id, rfl, rfl⟩
  intro j o' hj
  by_cases hji : j = i
  · subst hji
    have := (upd_same _ _ _).symm.trans hj
    cases this
  · exact ⟨o', (upd_ne _ _ hji).symm.trans hj, rfl⟩

/-- Result of freeing. -/
def FreeOk (ext : Nat → Nat) (h : Heap) (i : Nat) : Out Heap → Prop
  | .ok h' => (∃ kids', Inv (dec ext i) h' kids') ∧ Less h h'
  | .fault => False
  | .stop => ∃ j o, h.objs j = some o ∧ insane (o.view []) = true

theorem free_ok : ∀ (fuel : Nat) {ext : Nat → Nat} {h : Heap} {kids : Nat → List Nat} (_ : Inv ext h kids) (i : Nat),
    1 ≤ ext i → i < fuel → FreeOk ext h i (free fuel h i)
  | 0, _, _, _, _, i, _, hf => absurd hf (Nat.not_lt_zero i)
  | fuel + 1, ext, h, kids, I, i, he, hf => by
    obtain ⟨o, ho⟩ := I.ref he
    have hpos := I.pos ho
    have hcnt := I.cnt ho
    unfold free
    rw [ho]
    simp only []
    by_cases h1 : insane (o.view []) = true
    · rw [if_pos h1]; exact ⟨i, o, ho, h1⟩
    rw [if_neg h1]
    by_cases h2 : o.refcount - 1 > 0
    · rw [if_pos h2]
      refine ⟨⟨kids, I.drop ho he h2⟩, ?_, id, rfl, rfl⟩
      intro j o' hj
      by_cases hji : j = i
      · subst hji
        have := (upd_same _ _ _).symm.trans hj
        cases this
        exact ⟨o, ho, rfl⟩
      · exact ⟨o', (upd_ne _ _ hji).symm.trans hj, rfl⟩
    rw [if_neg h2]
    have he1 : ext i = 1 := by omega
    have hk : kids i = [] := List.length_eq_zero_iff.1 (by omega)
    have R := I.remove ho he1 hk _ rfl
    cases hp : o.parent with
    | none =>
      simp only []
      have hext : (fun j => if j = i then 0 else if o.parent = some j then ext j + 1 else ext j) = dec ext i := by
        funext j
        unfold dec
        rw [hp]
        by_cases hji : j = i
        · subst hji; simp [he1]
        · simp [hji]
      rw [hext] at R
      unfold release
      by_cases hr : o.readonly = true
      · rw [if_pos hr, setO_setO]
        rw [if_pos hr] at R
        exact ⟨⟨_, R⟩, less_remove h i⟩
      · rw [if_neg hr] at R ⊢
        obtain ⟨x, hx⟩ := I.blk ho
        obtain ⟨_, hxt, _⟩ := I.own ho (by simpa using hr)
        show FreeOk ext h i (match h.blks o.blk with | none => _ | some _ => _)
        rw [hx]
        show FreeOk ext h i (if h.extern o.blk then _ else _)
        rw [hxt, setO_setO]
        refine ⟨⟨_, R⟩, ?_, ?_, rfl, rfl⟩
        · exact (less_remove h i).objs
        · intro b y hb
          by_cases hbo : b = o.blk
          · rw [hbo] at hb
            have := (upd_same _ _ _).symm.trans hb
            cases this
          · exact (upd_ne _ _ hbo).symm.trans hb
    | some p =>
      obtain ⟨hlt, hr, op, hop, _⟩ := I.par ho hp
      simp only []
      rw [if_pos hr] at R
      have hpi : p ≠ i := by omega
      have ih := free_ok fuel R p (by simp [hpi, hp]) (by omega)
      rw [free_comm fuel h p i _ hlt I.older]
      have e1 : ({ h.setO i none with blks := h.blks } : Heap) = h.setO i none := rfl
      rw [e1, free_comm fuel h p i none hlt I.older] at ih
      cases hfr : free fuel h p with
      | fault => rw [hfr] at ih; exact ih.elim
      | stop =>
        rw [hfr] at ih
        obtain ⟨j, oj, a1, a2⟩ := ih
        have hji : j ≠ i := by
          rintro rfl
          have := (upd_same _ _ _).symm.trans a1
          cases this
        exact ⟨j, oj, (upd_ne _ _ hji).symm.trans a1, a2⟩
      | ok h' =>
        rw [hfr] at ih
        show FreeOk ext h i (release (h'.setO i _) i o)
        unfold release
        rw [if_pos hr, setO_setO]
        obtain ⟨⟨kids', J⟩, L⟩ := ih
        refine ⟨⟨kids', ?_⟩, (less_remove h i).trans L⟩
        have : dec (fun j => if j = i then 0 else if o.parent = some j then ext j + 1 else ext j) p = dec ext i := by
          funext j
          unfold dec
          rw [hp]
          by_cases hji : j = i
          · subst hji; simp [he1, Ne.symm hpi]
          · by_cases hjp : j = p
            · subst hjp; simp [hji]
            · simp [hji, hjp, Ne.symm hjp]
        rw [this] at J
        exact J

end Verif.SshBuf
