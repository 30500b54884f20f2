/- C04: buffers derived from other buffers. -/
import Verif.SshBuf.HeapInv
import Verif.SshBuf.Props

namespace Verif.SshBuf
open Verif Wire

/-! ### Specification -/

/-- The bytes the holder of buffer `i` sees. -/
def Heap.data (h : Heap) (i : Nat) : Option Bytes :=
  match h.objs i with
  | none => none
  | some o =>
    match h.blks o.blk with
    | none => none
    | some x => some (o.view x).contents

/-- Storage block `b` has not been released. -/
def Heap.live (h : Heap) (b : Nat) : Prop := ∃ x, h.blks b = some x

/-- States reachable from an empty heap. -/
def Reach (w : World) : Prop := ∃ es, Run {} es (.ok w)

/-! ### Proof -/

theorem view_kept {o : Obj} {x : Bytes} {b' : Buf} (k : Kept (o.view x) b') :
    (o.with b').readonly = o.readonly ∧ (o.with b').refcount = o.refcount := ⟨k.readonly, k.refcount⟩

/-- What a call on `i` leaves alone. -/
structure Others (i : Nat) (h h' : Heap) : Prop where
  objs : ∀ j, j ≠ i → h'.objs j = h.objs j
  blks : ∀ j, j ≠ i → ∀ o, h.objs j = some o → h'.blks o.blk = h.blks o.blk
  extern : h'.extern = h.extern
  nextO : h'.nextO = h.nextO

theorem writeBack_ok {ext : Nat → Nat} {h : Heap} {kids : Nat → List Nat} (I : Inv ext h kids) {i : Nat} {o : Obj}
    {x : Bytes} (ho : h.objs i = some o) (hx : h.blks o.blk = some x) (he : 1 ≤ ext i) {b' : Buf} (k : Kept (o.view x) b') :
    ∃ h', writeBack h i o x b' = .ok h' ∧ Inv ext h' kids ∧ Others i h h' ∧
      (b'.d = (o.view x).d → ∃ o', h'.objs i = some o' ∧ o' = o.with b' ∧ h'.blks = h.blks) := by
  obtain ⟨k1, k2⟩ := view_kept k
  unfold writeBack
  by_cases hr : o.readonly = true
  · rw [if_pos hr, if_pos (k.frozen (.inl hr)).1]
    refine ⟨_, rfl, I.touch ho rfl rfl k1 k2 rfl, ⟨?_, fun _ _ _ _ => rfl, rfl, rfl⟩, fun _ => ⟨_, upd_same _ _ _, rfl, rfl⟩⟩
    intro j hj
    exact upd_ne _ _ hj
  have hrf : o.readonly = false := by simpa using hr
  obtain ⟨w1, w2, w3, w4⟩ := I.own ho hrf
  rw [if_neg hr, if_neg (by rw [w2]; simp)]
  have hd : (o.view x).d = x := by simp [Obj.view, hrf]
  by_cases hl : b'.d.length = x.length
  · rw [if_pos hl]
    have I1 := (I.touch (o' := o.with b') ho rfl rfl k1 k2 rfl).bytes (b := o.blk) (x := x) hx b'.d
    refine ⟨_, rfl, I1, ⟨fun j hj => upd_ne _ _ hj, ?_, rfl, rfl⟩, ?_⟩
    · intro j hj oj hoj
      by_cases hb : oj.blk = o.blk
      · -- shared: the buffer has children, so its storage did not change
        have hk := I.shared ho hrf hoj hb hj
        have hc := I.cnt ho
        have : o.refcount > 1 := by
          have : (kids i).length ≠ 0 := fun h0 => hk (List.length_eq_zero_iff.1 h0)
          omega
        have e := (k.frozen (.inr this)).1
        show upd h.blks o.blk (some b'.d) oj.blk = _
        rw [hb, upd_same, hx, e, hd]
      · exact upd_ne _ _ hb
    · intro e
      refine ⟨_, upd_same _ _ _, rfl, ?_⟩
      funext b
      show upd h.blks o.blk (some b'.d) b = _
      by_cases hb : b = o.blk
      · rw [hb, upd_same, hx, e, hd]
      · exact upd_ne _ _ hb
  · rw [if_neg hl]
    have hk : kids i = [] := by
      apply Classical.byContradiction
      intro hk
      have hc := I.cnt ho
      have : o.refcount > 1 := by
        have : (kids i).length ≠ 0 := fun h0 => hk (List.length_eq_zero_iff.1 h0)
        omega
      have e := (k.frozen (.inr this)).1
      rw [hd] at e
      exact hl (by rw [e])
    refine ⟨_, rfl, I.move (o' := { o.with b' with blk := h.nextB }) ho hrf hk rfl rfl k1 k2 rfl b'.d,
      ⟨fun j hj => upd_ne _ _ hj, ?_, rfl, rfl⟩, ?_⟩
    · intro j hj oj hoj
      have h1 : oj.blk ≠ h.nextB := by
        intro hb
        obtain ⟨y, hy⟩ := I.blk hoj
        have := I.ltB hy
        omega
      have h2 : oj.blk ≠ o.blk := fun hb => I.shared ho hrf hoj hb hj hk
      exact (upd_ne _ _ h1).trans (upd_ne _ _ h2)
    · intro e
      rw [hd] at e
      exact absurd (by rw [e]) hl

/-- Result of a call on `i`. -/
def CallOk (ext : Nat → Nat) (kids : Nat → List Nat) (h : Heap) (i : Nat) : Out (Res α × Heap) → Prop
  | .ok (_, h') => Inv ext h' kids ∧ Others i h h'
  | .fault => False
  | .stop => True

theorem callB_ok {ext : Nat → Nat} {h : Heap} {kids : Nat → List Nat} (I : Inv ext h kids) {i : Nat} (he : 1 ≤ ext i)
    {x : SB α} (hF : F x) : CallOk ext kids h i (callB h i x) := by
  obtain ⟨o, ho⟩ := I.ref he
  obtain ⟨y, hy⟩ := I.blk ho
  unfold callB
  rw [ho]
  simp only [hy]
  have k := hF (o.view y)
  rcases hxe : x (o.view y) with ⟨r, b'⟩
  rw [hxe] at k
  obtain ⟨h', e1, e2, e3, _⟩ := writeBack_ok I ho hy he k
  cases r with
  | ok a => simp only [e1]; exact ⟨e2, e3⟩
  | err a => simp only [e1]; exact ⟨e2, e3⟩
  | abort => trivial
  | ub => trivial

theorem Others.data {i j : Nat} {h h' : Heap} (O : Others i h h') (hj : j ≠ i) : h'.data j = h.data j := by
  unfold Heap.data
  rw [O.objs j hj]
  cases ho : h.objs j with
  | none => rfl
  | some o => simp only []; rw [O.blks j hj o ho]

theorem Others.trans {i : Nat} {a b c : Heap} (h1 : Others i a b) (h2 : Others i b c) : Others i a c :=
  ⟨fun j hj => (h2.objs j hj).trans (h1.objs j hj),
   fun j hj o ho => (h2.blks j hj o ((h1.objs j hj).trans ho)).trans (h1.blks j hj o ho),
   h2.extern.trans h1.extern, h2.nextO.trans h1.nextO⟩

/-- The data of an existing object when a child of `i` is created. -/
theorem adopt_data {h : Heap} {i : Nat} {o child : Obj} (ho : h.objs i = some o) {j : Nat} (hj : j ≠ h.nextO) :
    (adopt h i o child).data j = h.data j := by
  unfold Heap.data adopt
  simp only []
  rw [upd_ne _ _ hj]
  by_cases hji : j = i
  · subst hji; rw [upd_same, ho]; rfl
  · rw [upd_ne _ _ hji]

theorem less_data {h h' : Heap} (L : Less h h') {j : Nat} {o : Obj} {x : Bytes} (ho : h'.objs j = some o)
    (hx : h'.blks o.blk = some x) : h'.data j = h.data j := by
  obtain ⟨o2, a1, a2⟩ := L.objs ho
  have hb : o.blk = o2.blk := by rw [a2]
  unfold Heap.data
  rw [ho, a1]
  simp only []
  rw [hx, ← hb, L.blks hx]
  have : (o.view x).contents = (o2.view x).contents := by rw [a2]; rfl
  simp only [this]

theorem consume_d (n : Nat) (b : Buf) : (consume n b).2.d = b.d := by
  cases hi : insane b with
  | true => simp [consume, checkSanity, hi]
  | false =>
    have hs : checkSanity b = (.ok (), b) := by simp [checkSanity, hi]
    have hl : len b = (.ok (b.size - b.off), b) := by simp [len, hs]
    simp only [consume, bind_apply, hs, hl, ite_apply', pure_apply, getB_apply, setB_apply, fail_apply]
    by_cases h0 : n = 0
    · simp [h0]
    · by_cases h1 : n > b.size - b.off
      · simp [h0, h1]
      · by_cases h2 : szAdd b.off n = b.size
        · simp [h0, h1, h2]
        · simp [h0, h1, h2]

/-- Outside references are exactly the handles. -/
def cnt (held : Nat → Bool) : Nat → Nat := fun i => if held i then 1 else 0

def WInv (w : World) : Prop := ∃ kids, Inv (cnt w.held) w.heap kids

theorem WInv.alive {w : World} (h : WInv w) {i : Nat} (hi : w.held i = true) : ∃ o x, w.heap.objs i = some o ∧ w.heap.blks o.blk = some x := by
  obtain ⟨kids, I⟩ := h
  obtain ⟨o, ho⟩ := I.ref (i := i) (by simp [cnt, hi])
  obtain ⟨x, hx⟩ := I.blk ho
  exact ⟨o, x, ho, hx⟩

theorem WInv.fresh {w : World} (h : WInv w) : cnt w.held w.heap.nextO = 0 := by
  unfold cnt
  cases hh : w.held w.heap.nextO with
  | false => rfl
  | true =>
    obtain ⟨o, x, ho, _⟩ := h.alive hh
    obtain ⟨kids, I⟩ := h
    have := I.ltO ho
    omega

theorem cnt_hold (w : World) (i : Nat) : cnt (w.hold i true) = fun j => if j = i then 1 else cnt w.held j := by
  funext j
  unfold cnt World.hold
  by_cases hj : j = i <;> simp [hj]

theorem cnt_drop (w : World) {i : Nat} (h : w.held i = true) : cnt (w.hold i false) = dec (cnt w.held) i := by
  funext j
  unfold cnt World.hold dec
  by_cases hj : j = i
  · subst hj; simp [h]
  · simp [hj]

/-- What one event guarantees. -/
def StepGood (w : World) (e : Ev) : Out World → Prop
  | .ok w' => WInv w' ∧ ∀ j, w.held j = true → e.target ≠ some j → w'.held j = true ∧ w'.heap.data j = w.heap.data j
  | .fault => False
  | .stop => True

theorem hold_keeps (w : World) {j c : Nat} (h : w.held j = true) : (w.hold c true) j = true := by
  unfold World.hold; split <;> simp [h]

theorem adopt_good {w : World} {h : Heap} {kids : Nat → List Nat} {i : Nat} {o child : Obj} {e : Ev}
    (I : Inv (cnt w.held) h kids) (O : Others i w.heap h) (hW : WInv w)
    (ho : h.objs i = some o) (hb : child.blk = o.blk) (hr : child.readonly = true)
    (hc : child.refcount = 1) (ht : e.target = some i) :
    StepGood w e (.ok { heap := adopt h i o child, held := w.hold h.nextO true }) := by
  have hf : cnt w.held h.nextO = 0 := by rw [O.nextO]; exact hW.fresh
  refine ⟨?_, ?_⟩
  · have := I.adopt hf ho hb hr hc
    rw [← cnt_hold] at this
    exact ⟨_, this⟩
  · intro j hj hne
    refine ⟨hold_keeps w hj, ?_⟩
    have hji : j ≠ i := fun he => hne (by rw [ht, he])
    have hjn : j ≠ h.nextO := by
      rintro rfl
      simp [cnt, hj] at hf
    exact (adopt_data ho hjn).trans (O.data hji)

theorem step_good {w : World} (hW : WInv w) (e : Ev) (ha : ∀ i, e.target = some i → w.held i = true) :
    StepGood w e (step w e) := by
  obtain ⟨kids, I⟩ := id hW
  have hfresh := hW.fresh
  have hother : ∀ {j : Nat} (f : Nat → Option Obj) (g : Nat → Option Bytes) (v : Option Obj) (u : Option Bytes) (ex nO nB),
      w.held j = true → ({ objs := upd w.heap.objs w.heap.nextO v, blks := upd w.heap.blks w.heap.nextB u, extern := ex, nextO := nO, nextB := nB } : Heap).data j
        = w.heap.data j := by
    intro j f g v u ex nO nB hj
    have hjn : j ≠ w.heap.nextO := by rintro rfl; simp [cnt, hj] at hfresh
    obtain ⟨o, x, ho, hx⟩ := hW.alive hj
    unfold Heap.data
    simp only []
    rw [upd_ne _ _ hjn, ho]
    simp only []
    rw [upd_ne _ _ (by have := I.ltB hx; omega)]
  cases e with
  | new =>
    refine ⟨⟨kids, ?_⟩, fun j hj _ => ⟨hold_keeps w hj, hother w.heap.objs w.heap.blks _ _ _ _ _ hj⟩⟩
    have := I.add hfresh (o := { blk := w.heap.nextB, base := 0, off := 0, size := 0, maxSize := SIZE_MAX_BUF, alloc := SIZE_INIT, readonly := false, refcount := 1, parent := none })
      rfl rfl rfl rfl (List.replicate SIZE_INIT 0)
    rw [← cnt_hold] at this
    have he : (fun b => if b = w.heap.nextB then false else w.heap.extern b) = w.heap.extern := by
      funext b
      by_cases hb : b = w.heap.nextB
      · rw [if_pos hb, hb]
        cases hx : w.heap.extern w.heap.nextB with
        | false => rfl
        | true => have := I.ltE hx; omega
      · rw [if_neg hb]
    rw [he] at this
    exact this
  | ext b =>
    simp only [step]
    by_cases hl : b.length > SIZE_MAX_BUF
    · rw [if_pos hl]; exact ⟨hW, fun j hj _ => ⟨hj, rfl⟩⟩
    · rw [if_neg hl]
      refine ⟨⟨kids, ?_⟩, fun j hj _ => ⟨hold_keeps w hj, hother w.heap.objs w.heap.blks _ _ _ _ _ hj⟩⟩
      have := I.add hfresh (o := roObj w.heap.nextB 0 b.length none) rfl rfl rfl rfl b
      rw [← cnt_hold] at this
      exact this
  | call i op mem =>
    have hi := ha i rfl
    have hc := callB_ok I (i := i) (by simp [cnt, hi]) (F_exec op mem)
    simp only [step]
    rcases hr : callB w.heap i (exec op mem) with ⟨r, h'⟩ | _ | _
    · simp only []; rw [hr] at hc
      exact ⟨⟨kids, hc.1⟩, fun j hj hne => ⟨hj, hc.2.data (fun he => hne (by rw [he]; rfl))⟩⟩
    · rw [hr] at hc; exact hc.elim
    · trivial
  | fromb i mem =>
    obtain ⟨o, x, ho, hx⟩ := hW.alive (ha i rfl)
    simp only [step, fromb, ho, hx]
    by_cases h1 : insane (o.view x) = true
    · simp [h1, StepGood]
    · simp only [h1]
      cases mem with
      | false => exact ⟨hW, fun j hj _ => ⟨hj, rfl⟩⟩
      | true => exact adopt_good I ⟨fun _ _ => rfl, fun _ _ _ _ => rfl, rfl, rfl⟩ hW ho rfl rfl rfl rfl
  | froms i mem =>
    obtain ⟨o, x, ho, hx⟩ := hW.alive (ha i rfl)
    have hi1 : 1 ≤ cnt w.held i := by simp [cnt, ha i rfl]
    have hc := callB_ok I hi1 F_peekStringDirect
    simp only [step, froms]
    rcases hr : callB w.heap i peekStringDirect with ⟨r, h1⟩ | _ | _
    · rw [hr] at hc
      have none_ok : ∀ h, Inv (cnt w.held) h kids → Others i w.heap h →
          StepGood w (.froms i mem) (.ok { w with heap := h }) := fun h J O =>
        ⟨⟨kids, J⟩, fun j hj hne => ⟨hj, O.data (fun he => hne (by rw [he]; rfl))⟩⟩
      cases r with
      | ok pn =>
        obtain ⟨p, n⟩ := pn
        simp only []
        cases mem with
        | false => exact none_ok h1 hc.1 hc.2
        | true =>
          simp only [if_true]
          have hc2 := callB_ok hc.1 hi1 (F_consume (szAdd n 4))
          -- the block does not move
          have hblk : ∀ a h2, callB h1 i (consume (szAdd n 4)) = .ok (.ok a, h2) → ∃ o1 o2, h1.objs i = some o1 ∧
              h2.objs i = some o2 ∧ o2.blk = o1.blk := by
            intro a h2 hcc
            obtain ⟨o1, ho1⟩ := hc.1.ref hi1
            obtain ⟨x1, hx1⟩ := hc.1.blk ho1
            have k := F_consume (szAdd n 4) (o1.view x1)
            unfold callB at hcc
            simp only [ho1, hx1] at hcc
            rcases hco : consume (szAdd n 4) (o1.view x1) with ⟨r2, b2⟩
            rw [hco] at hcc k
            obtain ⟨h', e1, e2, e3, e4⟩ := writeBack_ok hc.1 ho1 hx1 hi1 k
            have hd : b2.d = (o1.view x1).d := by
              have h3 := consume_d (szAdd n 4) (o1.view x1)
              rw [hco] at h3
              exact h3
            obtain ⟨o', f1, f2, f3⟩ := e4 hd
            cases r2 with
            | ok u =>
              simp only [e1] at hcc
              cases hcc
              exact ⟨o1, o', ho1, f1, by rw [f2]; rfl⟩
            | err u => simp only [e1] at hcc; cases hcc
            | abort => cases hcc
            | ub => cases hcc
          rcases hr2 : callB h1 i (consume (szAdd n 4)) with ⟨r2, h2⟩ | _ | _
          · rw [hr2] at hc2
            cases r2 with
            | ok a =>
              obtain ⟨o1, o2, ho1, ho2, hbb⟩ := hblk a h2 hr2
              simp only [ho1, ho2]
              exact adopt_good hc2.1 (hc.2.trans hc2.2) hW ho2 hbb.symm rfl rfl rfl
            | err a => exact none_ok h2 hc2.1 (hc.2.trans hc2.2)
            | abort => exact none_ok h2 hc2.1 (hc.2.trans hc2.2)
            | ub => exact none_ok h2 hc2.1 (hc.2.trans hc2.2)
          · rw [hr2] at hc2; exact hc2.elim
          · trivial
      | err a => exact none_ok h1 hc.1 hc.2
      | abort => exact none_ok h1 hc.1 hc.2
      | ub => exact none_ok h1 hc.1 hc.2
    · rw [hr] at hc; exact hc.elim
    · trivial
  | free i =>
    have hi := ha i rfl
    have hf := free_ok (i + 1) I i (by simp [cnt, hi]) (Nat.lt_succ_self i)
    simp only [step]
    rcases hr : free (i + 1) w.heap i with h' | _ | _
    · simp only []; rw [hr] at hf
      obtain ⟨⟨kids', J⟩, L⟩ := hf
      rw [← cnt_drop w hi] at J
      refine ⟨⟨kids', J⟩, fun j hj hne => ?_⟩
      have hji : j ≠ i := fun he => hne (by rw [he]; rfl)
      have hh : w.hold i false j = true := by simp [World.hold, hji, hj]
      refine ⟨hh, ?_⟩
      obtain ⟨o, ho⟩ := J.ref (i := j) (by simp [cnt, hh])
      obtain ⟨x, hx⟩ := J.blk ho
      exact less_data L ho hx
    · rw [hr] at hf; exact hf.elim
    · trivial

theorem winv_init : WInv {} := by
  refine ⟨fun _ => [], ?_⟩
  constructor <;> simp [cnt]

theorem run_good {w : World} {es : List Ev} {r : Out World} (hr : Run w es r) : WInv w →
    (∀ w', r = .ok w' → WInv w' ∧ ∀ j, w.held j = true → (∀ e ∈ es, e.target ≠ some j) →
      w'.held j = true ∧ w'.heap.data j = w.heap.data j) ∧
    r ≠ .fault := by
  induction hr with
  | nil w => exact fun hW => ⟨fun w' h => by cases h; exact ⟨hW, fun j hj _ => ⟨hj, rfl⟩⟩, by simp⟩
  | @ok w w1 e es r ha hs _ ih =>
    intro hW
    have g := step_good hW e ha
    rw [hs] at g
    obtain ⟨i1, i2⟩ := ih g.1
    refine ⟨fun w' h => ⟨(i1 w' h).1, fun j hj hne => ?_⟩, i2⟩
    obtain ⟨a1, a2⟩ := g.2 j hj (hne e (by simp))
    obtain ⟨b1, b2⟩ := (i1 w' h).2 j a1 (fun e he => hne e (by simp [he]))
    exact ⟨b1, b2.trans a2⟩
  | bad ha hs =>
    intro hW
    have g := step_good hW _ ha
    rw [hs] at g
    exact g.elim
  | stop ha hs => exact fun _ => ⟨(fun _ h => by cases h), by simp⟩

theorem reach_inv {w : World} (h : Reach w) : WInv w := by
  obtain ⟨es, hr⟩ := h
  exact ((run_good hr winv_init).1 w rfl).1

/-! ### C04 -/

/-- C04: whatever holders do with the buffers they hold, storage is never used or written after its release, never
released twice, and memory belonging to somebody else is never written. -/
theorem C04_no_fault (es : List Ev) (r : Out World) (h : Run {} es r) : r ≠ .fault :=
  (run_good h winv_init).2

/-- C04: what a holder sees in a buffer is not changed by anything done to other buffers — its parent (including
`sshbuf_free` of it), its children, or unrelated ones. -/
theorem C04_stable (w w' : World) (hw : Reach w) (es : List Ev) (h : Run w es (.ok w')) (j : Nat)
    (hj : w.held j = true) (hne : ∀ e ∈ es, e.target ≠ some j) :
    w'.heap.data j = w.heap.data j ∧ (w.heap.data j).isSome := by
  have hW := reach_inv hw
  refine ⟨(((run_good h hW).1 w' rfl).2 j hj hne).2, ?_⟩
  obtain ⟨o, x, ho, hx⟩ := hW.alive hj
  simp [Heap.data, ho, hx]

/-- An object has a held descendant on the same block. -/
theorem inv_held {held : Nat → Bool} {h : Heap} {kids : Nat → List Nat} (I : Inv (cnt held) h kids) :
    ∀ (n i : Nat) (o : Obj), h.objs i = some o → h.nextO - i ≤ n →
      ∃ j oj, held j = true ∧ h.objs j = some oj ∧ oj.blk = o.blk
  | 0, i, o, ho, hn => by have := I.ltO ho; omega
  | n + 1, i, o, ho, hn => by
    by_cases hi : held i = true
    · exact ⟨i, o, hi, ho, rfl⟩
    · have h1 := I.cnt ho
      have h2 := I.pos ho
      have h3 : cnt held i = 0 := by simp [cnt, hi]
      rcases hk : kids i with _ | ⟨c, l⟩
      · rw [hk] at h1; simp at h1; omega
      · obtain ⟨oc, a1, a2⟩ := I.kid.1 (show c ∈ kids i by rw [hk]; simp)
        obtain ⟨b1, _, op, b3, b4⟩ := I.par a1 a2
        rw [ho] at b3
        cases b3
        obtain ⟨j, oj, d1, d2, d3⟩ := inv_held I n c oc a1 (by have := I.ltO a1; omega)
        exact ⟨j, oj, d1, d2, d3.trans b4.symm⟩

/-- C04: storage allocated by the library is present exactly as long as somebody holds a buffer using it: it is
released with the last reference. -/
theorem C04_release (w : World) (hw : Reach w) (b : Nat) (hb : w.heap.extern b = false) :
    w.heap.live b ↔ ∃ j o, w.held j = true ∧ w.heap.objs j = some o ∧ o.blk = b := by
  obtain ⟨kids, I⟩ := reach_inv hw
  constructor
  · rintro ⟨x, hx⟩
    obtain ⟨i, o, a1, a2, _⟩ := I.noleak hx hb
    obtain ⟨j, oj, d1, d2, d3⟩ := inv_held I _ i o a1 (Nat.le_refl _)
    exact ⟨j, oj, d1, d2, d3.trans a2⟩
  · rintro ⟨j, o, _, a2, rfl⟩
    exact I.blk a2

/-- C04: once nobody holds a buffer, no buffer structure and no library storage is left. -/
theorem C04_no_leak (w : World) (hw : Reach w) (hn : ∀ j, w.held j = false) :
    (∀ i, w.heap.objs i = none) ∧ ∀ b, w.heap.extern b = false → ¬ w.heap.live b := by
  obtain ⟨kids, I⟩ := id (reach_inv hw)
  constructor
  · intro i
    cases ho : w.heap.objs i with
    | none => rfl
    | some o =>
      obtain ⟨j, _, d1, _⟩ := inv_held I _ i o ho (Nat.le_refl _)
      rw [hn j] at d1
      cases d1
  · intro b hb hl
    obtain ⟨j, _, d1, _⟩ := (C04_release w hw b hb).1 hl
    rw [hn j] at d1
    cases d1

/-- C04: releasing a held buffer always works, unless a buffer has reached the state in which the sanity check
aborts (see C01: too many references, or the `sshbuf_reset` defect). -/
theorem C04_free_returns (w : World) (hw : Reach w) (i : Nat) (hi : w.held i = true)
    (hs : ∀ j o, w.heap.objs j = some o → insane (o.view []) = false) : ∃ w', step w (.free i) = .ok w' := by
  obtain ⟨kids, I⟩ := reach_inv hw
  have hf := free_ok (i + 1) I i (by simp [cnt, hi]) (Nat.lt_succ_self i)
  simp only [step]
  rcases hr : free (i + 1) w.heap i with h' | _ | _
  · exact ⟨_, rfl⟩
  · rw [hr] at hf; exact hf.elim
  · rw [hr] at hf
    obtain ⟨j, o, a1, a2⟩ := hf
    rw [hs j o a1] at a2
    cases a2

/-- The contents of a read-only object over part of a block. -/
theorem ro_contents (blk base len : Nat) (p : Option Nat) (x : Bytes) :
    ((roObj blk base len p).view x).contents = (x.drop base).take len := by
  simp [roObj, Obj.view, Buf.contents, List.take_take]

/-- `contents` in terms of the block. -/
theorem view_contents {o : Obj} {x : Bytes} (h0 : o.readonly = false → o.base = 0) (hs : o.size ≤ o.alloc) :
    (o.view x).contents = (x.drop (o.base + o.off)).take (o.size - o.off) := by
  unfold Buf.contents Obj.view
  cases hr : o.readonly with
  | true =>
    simp only [if_true]
    rw [List.take_take, Nat.min_eq_left hs, List.drop_take, List.drop_drop]
  | false => simp only [h0 hr, Nat.zero_add, List.drop_take]; simp

theorem adopt_child {h : Heap} {i : Nat} {o child : Obj} {x : Bytes} (hx : h.blks child.blk = some x) :
    (adopt h i o child).data h.nextO = some (child.view x).contents := by
  unfold Heap.data adopt
  simp only [upd_same, hx]
  rfl

theorem WInv.base {w : World} (h : WInv w) {i : Nat} {o : Obj} (ho : w.heap.objs i = some o) :
    o.readonly = false → o.base = 0 := by
  obtain ⟨kids, I⟩ := h
  exact fun hr => (I.own ho hr).2.2.1

/-- C04: `sshbuf_fromb` gives its caller a buffer with the contents its parent has at that moment, and leaves the
parent's contents alone. -/
theorem C04_fromb (w w' : World) (hw : Reach w) (i : Nat) (hi : w.held i = true) (mem : Bool)
    (h : step w (.fromb i mem) = .ok w') :
    w'.heap.data i = w.heap.data i ∧
    (mem = true → ∃ c, w.held c = false ∧ w'.held c = true ∧ w'.heap.data c = w.heap.data i) := by
  have hW := reach_inv hw
  have hf := hW.fresh
  obtain ⟨o, x, ho, hx⟩ := hW.alive hi
  have hin : i ≠ w.heap.nextO := by rintro rfl; simp [cnt, hi] at hf
  simp only [step, fromb, ho, hx] at h
  by_cases h1 : insane (o.view x) = true
  · rw [if_pos h1] at h; cases h
  rw [if_neg h1] at h
  have hsz : o.size ≤ o.alloc := by
    have : insane (o.view x) = false := by simpa using h1
    simp [insane] at this
    exact this.1.2
  cases mem with
  | false => cases h; exact ⟨rfl, fun hm => by cases hm⟩
  | true =>
    simp only [if_true] at h
    cases h
    refine ⟨adopt_data ho hin, fun _ => ⟨w.heap.nextO, ?_, by simp [World.hold], ?_⟩⟩
    · unfold cnt at hf
      cases hh : w.held w.heap.nextO with
      | false => rfl
      | true => simp [hh] at hf
    · refine (adopt_child (child := roObj o.blk _ _ none) (x := x) hx).trans ?_
      rw [ro_contents]
      simp only [Heap.data, ho, hx, view_contents (hW.base ho) hsz]

theorem with_view (o : Obj) (x : Bytes) : o.with (o.view x) = o := rfl

theorem view_with {o : Obj} {x : Bytes} (b : Buf) (h1 : b.d = (o.view x).d) (h2 : b.readonly = o.readonly)
    (h3 : b.alloc = o.alloc) : (o.with b).view x = b := by
  cases b
  simp only [Obj.with, Obj.view] at *
  subst h2 h3 h1
  rfl

/-- A call that leaves the storage bytes alone. -/
theorem callB_same {ext : Nat → Nat} {h : Heap} {kids : Nat → List Nat} (I : Inv ext h kids) {i : Nat} (he : 1 ≤ ext i)
    {o : Obj} {x : Bytes} (ho : h.objs i = some o) (hx : h.blks o.blk = some x)
    {y : SB α} (hF : F y) {r : Res α} {b' : Buf} (hy : y (o.view x) = (r, b')) (hd : b'.d = (o.view x).d)
    (h1 : r ≠ .abort) (h2 : r ≠ .ub) :
    ∃ h', callB h i y = .ok (r, h') ∧ Inv ext h' kids ∧ h'.objs i = some (o.with b') ∧ h'.blks = h.blks ∧ Others i h h' := by
  have k := hF (o.view x)
  rw [hy] at k
  obtain ⟨h', e1, e2, e3, e4⟩ := writeBack_ok I ho hx he k
  obtain ⟨o', f1, f2, f3⟩ := e4 hd
  refine ⟨h', ?_, e2, by rw [f1, f2], f3, e3⟩
  unfold callB
  simp only [ho, hx, hy]
  cases r with
  | ok a => simp only [e1]
  | err a => simp only [e1]
  | abort => exact absurd rfl h1
  | ub => exact absurd rfl h2

/-- C04: `sshbuf_froms` moves the string at the front of the parent into a new buffer, or changes nothing if there
is no complete string. -/
theorem C04_froms (w w' : World) (hw : Reach w) (i : Nat) (hi : w.held i = true) {o : Obj} {x : Bytes}
    (ho : w.heap.objs i = some o) (hx : w.heap.blks o.blk = some x) (hwf : (o.view x).WF)
    (h : step w (.froms i true) = .ok w') :
    (∃ v rest c, w.heap.data i = some (str v ++ rest) ∧ w'.heap.data i = some rest ∧ w.held c = false ∧
      w'.held c = true ∧ w'.heap.data c = some v) ∨
    (∀ v rest, v.length ≤ maxString → w.heap.data i ≠ some (str v ++ rest)) ∧ w'.heap.data i = w.heap.data i ∧
      w'.held = w.held := by
  have hW := reach_inv hw
  have hf := hW.fresh
  have hin : i ≠ w.heap.nextO := by rintro rfl; simp [cnt, hi] at hf
  obtain ⟨kids, I⟩ := id hW
  have he : 1 ≤ cnt w.held i := by simp [cnt, hi]
  have hpk := peekStringDirect_eq hwf
  have hdata : w.heap.data i = some (o.view x).contents := by simp [Heap.data, ho, hx]
  have hq : (o.view x).queue.data = (o.view x).contents := rfl
  simp only [step, froms] at h
  cases hfr : (o.view x).queue.front with
  | error e =>
    rw [hfr] at hpk
    obtain ⟨h1, c1, J, c2, c3, O⟩ := callB_same I he ho hx F_peekStringDirect hpk rfl (by simp) (by simp)
    rw [c1] at h
    cases h
    refine .inr ⟨?_, ?_, rfl⟩
    · intro v rest hv hc
      rw [hdata] at hc
      injection hc with hc
      rw [(front_str hv (by rw [hq]; exact hc)).1] at hfr
      cases hfr
    · simp only [Heap.data, c2, with_view, c3, ho]
  | ok v =>
    rw [hfr] at hpk
    obtain ⟨h1, c1, J, c2, c3, O⟩ := callB_same I he ho hx F_peekStringDirect hpk rfl (by simp) (by simp)
    rw [c1] at h
    rw [with_view] at c2
    simp only [if_true] at h
    have hcan := front_canonical hfr
    rw [hq] at hcan
    have hvl : v.length ≤ maxString := (front_ok hfr).2.1
    have hle : v.length + 4 ≤ (o.view x).contents.length := by
      have := congrArg List.length hcan
      simp [str, be_length] at this
      omega
    have hsz : szAdd v.length 4 = v.length + 4 := by unfold szAdd; apply Nat.mod_eq_of_lt; omega
    have hcon := consume_eq hwf (v.length + 4)
    rw [if_pos hle] at hcon
    obtain ⟨h2, d1, J2, d2, d3, O2⟩ := callB_same J he c2 (c3 ▸ hx) (F_consume (v.length + 4)) hcon (consumed_d _ _) (by simp) (by simp)
    rw [hsz, d1] at h
    simp only [c2, d2] at h
    cases h
    have hx2 : h2.blks o.blk = some x := by rw [d3, c3]; exact hx
    have hn : h2.nextO = w.heap.nextO := O2.nextO.trans O.nextO
    have hin2 : i ≠ h2.nextO := by rw [hn]; exact hin
    refine .inl ⟨v, (o.view x).contents.drop (4 + v.length), h2.nextO, ?_, ?_, ?_, by simp [World.hold], ?_⟩
    · rw [hdata]
      exact congrArg some hcan
    · show (adopt h2 i _ _).data i = _
      rw [adopt_data d2 hin2]
      have hv : (o.with ((o.view x).consumed (v.length + 4))).view x = (o.view x).consumed (v.length + 4) := by
        refine view_with _ (consumed_d _ _) (consumed_ro _ _) ?_
        unfold Buf.consumed
        split
        · rfl
        · split <;> rfl
      have hb : (o.with ((o.view x).consumed (v.length + 4))).blk = o.blk := rfl
      simp only [Heap.data, d2, hb, hx2, hv, consumed_contents hwf hle, Nat.add_comm]
    · rw [hn]
      unfold cnt at hf
      cases hh : w.held w.heap.nextO with
      | false => rfl
      | true => simp [hh] at hf
    · refine (adopt_child (child := roObj o.blk _ _ none) (x := x) hx2).trans ?_
      rw [ro_contents]
      have hvc := view_contents (o := o) (x := x) (hW.base ho) hwf.size
      have hoff : (o.view x).off = o.off := rfl
      have hlen := contents_length hwf
      have hso : (o.view x).size = o.size := rfl
      rw [hoff] at *
      congr 1
      have h4 : v = ((o.view x).contents.drop 4).take v.length := by
        conv => rhs; rw [hcan]
        have : (str v).drop 4 = v := by simp [str, be_length]
        rw [List.drop_append_of_le_length (by simp [str, be_length]), this, List.take_left]
      conv => rhs; rw [h4, hvc]
      rw [List.drop_take, List.take_take, List.drop_drop, Nat.min_eq_left (by rw [hso] at hlen; omega)]
      congr 2

/-! ### Cases -/

/-- A buffer with a string in it, a child holding that string, a child of the child; the parent is released first. -/
def demo : List Ev :=
  [.new, .call 0 (.putString b!"abc") true, .call 0 (.putU8 9) true, .froms 0 true, .fromb 1 true,
   .call 0 (.putU8 7) true,          -- refused: the buffer has a child
   .free 0, .free 1]

/-- Events in sequence, for examples. -/
def runs : World → List Ev → Option World
  | w, [] => some w
  | w, e :: es =>
    match step w e with
    | .ok w' => runs w' es
    | _ => none

example : (runs {} (demo.take 2)).bind (·.heap.data 0) = some [0, 0, 0, 3, 97, 98, 99] := by decide +kernel
example : (runs {} (demo.take 6)).bind (·.heap.data 0) = some [9] := by decide +kernel
example : (runs {} (demo.take 6)).bind (·.heap.data 1) = some b!"abc" := by decide +kernel
-- the storage outlives the parent's handle, and the first child's
example : (runs {} demo).bind (·.heap.data 2) = some b!"abc" := by decide +kernel
example : ((runs {} demo).map fun w => (w.held 0, w.held 1, w.held 2)) = some (false, false, true) := by decide +kernel
-- and is released with the last one
example : ((runs {} (demo ++ [.free 2])).map fun w => ((List.range 3).map fun i => (w.heap.objs i).isSome, (w.heap.blks 0).isSome)) =
    some ([false, false, false], false) := by decide +kernel
-- releasing twice would be a use of freed memory
example : (match runs {} (demo ++ [.free 2]) with
    | some w => (match step w (.free 2) with | .fault => true | _ => false)
    | none => false) = true := by decide +kernel
-- a buffer over memory of the caller
example : (runs {} [.ext b!"xy", .fromb 0 true, .free 0, .free 1]).map (fun w => ((w.heap.blks 0).isSome, w.heap.extern 0)) =
    some (true, true) := by decide +kernel

end Verif.SshBuf
