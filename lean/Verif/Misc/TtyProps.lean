/-
C49: terminal modes survive the wire.
-/
import Verif.Misc.Tty

namespace Verif.Tty
open Verif Verif.Wire

/-! ## Specification -/

/-- Opcodes are distinct, and all of them are below 128 (128 and 129 are the speeds). -/
structure Sane (P : Platform) : Prop where
  distinct : (P.chars ++ P.modes.map (·.1)).Nodup
  small : ∀ op ∈ P.chars ++ P.modes.map (·.1), 0 < op ∧ op < 128

/-- Opcodes that carry an argument (RFC 4254, section 8). -/
def WithArg (op : UInt8) : Prop := 0 < op ∧ op < 160

instance (op : UInt8) : Decidable (WithArg op) := by unfold WithArg; infer_instance

/-- A list of opcodes with arguments. -/
abbrev Items := List (UInt8 × Nat)

def Valid (l : Items) : Prop := ∀ x ∈ l, WithArg x.1 ∧ x.2 < 2 ^ 32

/-- Their encoding: a byte and a big-endian 32-bit number each. -/
def wire (l : Items) : Bytes := l.flatMap fun x => x.1 :: be 4 x.2

/-- The argument that came last with an opcode. -/
def lastArg (op : UInt8) (l : Items) : Option Nat := ((l.filter fun x => x.1 = op).getLast?).map (·.2)

/-- A flag that shares no bit with another flag of its word. -/
structure Alone (P : Platform) (op : UInt8) (f : Field) (mask : UInt32) : Prop where
  mem : (op, f, mask) ∈ P.modes
  nonzero : mask ≠ 0
  disjoint : ∀ m ∈ P.modes, m.1 ≠ op → m.2.1 = f → m.2.2 &&& mask = 0

/-! ## Parsing -/

theorem takesArg_iff {P : Platform} (h : Sane P) (op : UInt8) : takesArg P op = true ↔ WithArg op := by
  unfold takesArg WithArg
  constructor
  · intro ht
    simp only [Bool.or_eq_true, Bool.and_eq_true, decide_eq_true_eq, List.any_eq_true] at ht
    have hs : ∀ {o : UInt8}, 0 < o ∧ o < 128 → 0 < o ∧ o < 160 := by
      intro o ho
      refine ⟨ho.1, ?_⟩
      have := ho.2
      rw [UInt8.lt_iff_toNat_lt] at this ⊢
      have e1 : (128 : UInt8).toNat = 128 := rfl
      have e2 : (160 : UInt8).toNat = 160 := rfl
      omega
    rcases ht with (((rfl | rfl) | hc) | ⟨m, hm, rfl⟩) | h'
    · decide
    · decide
    · exact hs (h.small op (List.mem_append_left _ hc))
    · exact hs (h.small m.1 (List.mem_append_right _ (List.mem_map_of_mem hm)))
    · exact h'
  · intro ⟨h1, h2⟩
    simp [h1, h2]

theorem withArg_ne_zero {op : UInt8} (h : WithArg op) : op ≠ 0 := by
  rintro rfl
  exact absurd h.1 (by decide)

/-- The settings after a list of items. -/
def applyAll (P : Platform) (t : Termios) (l : Items) : Termios := l.foldl (fun t x => apply P t x.1 x.2) t

theorem map_id' {α : Type} (o : Option α) : o.map (fun t => t) = o := by cases o <;> rfl

/-- Reading through a list of complete items. -/
theorem parseLoop_items {P : Platform} (h : Sane P) (l : Items) (hv : Valid l) (tail : Bytes) (fuel : Nat) (t : Option Termios)
    (hf : l.length ≤ fuel) :
    parseLoop P fuel t (wire l ++ tail) = parseLoop P (fuel - l.length) (t.map fun t => applyAll P t l) tail := by
  induction l generalizing fuel t with
  | nil => simp only [wire, List.flatMap_nil, List.nil_append, List.length_nil, Nat.sub_zero, applyAll, List.foldl_nil, map_id']
  | cons x l ih =>
    obtain ⟨op, a⟩ := x
    have hx := hv (op, a) (by simp)
    cases fuel with
    | zero => simp at hf
    | succ fuel =>
      have e : wire ((op, a) :: l) ++ tail = op :: (be 4 a ++ (wire l ++ tail)) := by
        simp [wire, List.append_assoc]
      rw [e, parseLoop]
      rw [if_neg (withArg_ne_zero hx.1), if_pos ((takesArg_iff h op).mpr hx.1), getInt_append 4 a _ hx.2]
      simp only
      rw [ih (fun y hy => hv y (List.mem_cons_of_mem _ hy)) fuel _ (by simpa using hf)]
      rw [List.length_cons, Nat.add_sub_add_right, Option.map_map]
      rfl

theorem wire_length (l : Items) : (wire l).length = 5 * l.length := by
  induction l with
  | nil => rfl
  | cons x l ih =>
    simp only [wire, List.flatMap_cons, List.length_append, List.length_cons, be_length] at ih ⊢
    omega

/-- **C49.**  Complete items followed by nothing, by the end mark or by a single undefined opcode: the terminal
gets the settings of the items, one after the other. -/
theorem C49_complete {P : Platform} (h : Sane P) (l : Items) (hv : Valid l) (tail : Bytes)
    (ht : tail = [] ∨ ∃ e, tail = [e] ∧ ¬ WithArg e) (hne : wire l ++ tail ≠ []) (t : Termios) :
    parseModes P (some t) (wire l ++ tail) = .set (applyAll P t l) := by
  have hlen := wire_length l
  unfold parseModes
  rw [if_neg (fun e => hne (List.length_eq_zero_iff.mp e)), parseLoop_items h l hv _ _ _ (by rw [List.length_append]; omega)]
  generalize hg : (wire l ++ tail).length - l.length = g
  rcases ht with rfl | ⟨e, rfl, he⟩
  · cases g with
    | zero => rfl
    | succ g => rfl
  · cases g with
    | zero => rw [List.length_append, hlen, List.length_singleton] at hg; omega
    | succ g =>
      rw [parseLoop]
      have : ¬ (takesArg P e = true) := fun h' => he ((takesArg_iff h e).mp h')
      rw [if_neg this]
      split <;> rfl

/-- **C49.**  Anything behind the end mark or behind an undefined opcode, and the terminal is left alone. -/
theorem C49_trailing {P : Platform} (h : Sane P) (l : Items) (hv : Valid l) (e : UInt8) (he : ¬ WithArg e) (more : Bytes)
    (hm : more ≠ []) (t : Option Termios) :
    parseModes P t (wire l ++ e :: more) = .ignored := by
  have hlen := wire_length l
  unfold parseModes
  rw [if_neg (by simp), parseLoop_items h l hv _ _ _ (by rw [List.length_append]; omega)]
  generalize hg : (wire l ++ e :: more).length - l.length = g
  cases g with
  | zero => rw [List.length_append, hlen, List.length_cons] at hg; omega
  | succ g =>
    rw [parseLoop]
    have : ¬ (takesArg P e = true) := fun h' => he ((takesArg_iff h e).mp h')
    rw [if_neg this]
    have hf : ∀ o, finish more o = .ignored := by
      intro o
      unfold finish
      rw [if_pos (List.length_pos_iff.mpr hm)]
    rw [hf]
    split <;> rfl

/-- **C49.**  An opcode whose argument is cut short ends the connection. -/
theorem C49_short {P : Platform} (h : Sane P) (l : Items) (hv : Valid l) (op : UInt8) (ho : WithArg op) (more : Bytes)
    (hm : more.length < 4) (t : Option Termios) :
    parseModes P t (wire l ++ op :: more) = .fatal := by
  have hlen := wire_length l
  unfold parseModes
  rw [if_neg (by simp), parseLoop_items h l hv _ _ _ (by rw [List.length_append]; omega)]
  generalize hg : (wire l ++ op :: more).length - l.length = g
  cases g with
  | zero => rw [List.length_append, hlen, List.length_cons] at hg; omega
  | succ g =>
    rw [parseLoop]
    rw [if_neg (withArg_ne_zero ho), if_pos ((takesArg_iff h op).mpr ho)]
    have : getInt 4 more = none := by
      unfold getInt
      rw [if_pos (by omega)]
    rw [this]

/-- **C49.**  Every string falls in one of the three cases, so the three theorems say all there is. -/
theorem C49_cases (b : Bytes) :
    ∃ l tail, Valid l ∧ b = wire l ++ tail ∧
      ((tail = [] ∨ ∃ e, tail = [e] ∧ ¬ WithArg e) ∨ (∃ e more, tail = e :: more ∧ ¬ WithArg e ∧ more ≠ []) ∨
        ∃ op more, tail = op :: more ∧ WithArg op ∧ more.length < 4) := by
  generalize hn : b.length = n
  induction n using Nat.strongRecOn generalizing b with
  | _ n ih =>
    cases b with
    | nil => exact ⟨[], [], by intro x hx; simp at hx, rfl, Or.inl (Or.inl rfl)⟩
    | cons op b =>
      by_cases ho : WithArg op
      · by_cases h4 : b.length < 4
        · exact ⟨[], op :: b, by intro x hx; simp at hx, rfl, Or.inr (Or.inr ⟨op, b, rfl, ho, h4⟩)⟩
        · have h4' : (b.take 4).length = 4 := by rw [List.length_take]; omega
          obtain ⟨l, tail, hv, e, hc⟩ := ih (b.drop 4).length (by rw [List.length_drop]; simp at hn; omega) (b.drop 4) rfl
          refine ⟨(op, ofBE (b.take 4)) :: l, tail, ?_, ?_, hc⟩
          · intro x hx
            rcases List.mem_cons.mp hx with rfl | hx
            · refine ⟨ho, ?_⟩
              have := ofBE_lt (b.take 4)
              rw [h4'] at this
              exact this
            · exact hv x hx
          · have e4 := be_ofBE (b.take 4)
            rw [h4'] at e4
            have ew : wire ((op, ofBE (b.take 4)) :: l) ++ tail = op :: (be 4 (ofBE (b.take 4)) ++ (wire l ++ tail)) := by
              simp [wire, List.append_assoc]
            rw [ew, e4, ← e, List.take_append_drop]
      · cases b with
        | nil => exact ⟨[], [op], by intro x hx; simp at hx, rfl, Or.inl (Or.inr ⟨op, rfl, ho⟩)⟩
        | cons c b =>
          exact ⟨[], op :: c :: b, by intro x hx; simp at hx, rfl, Or.inr (Or.inl ⟨op, c :: b, rfl, ho, by simp⟩)⟩

/-! ## Effects -/

theorem lastArg_snoc (op : UInt8) (l : Items) (o : UInt8) (a : Nat) :
    lastArg op (l ++ [(o, a)]) = if o = op then some a else lastArg op l := by
  unfold lastArg
  rw [List.filter_append]
  by_cases h : o = op
  · simp [h]
  · simp [h]

theorem applyAll_snoc (P : Platform) (t : Termios) (l : Items) (o : UInt8) (a : Nat) :
    applyAll P t (l ++ [(o, a)]) = apply P (applyAll P t l) o a := by
  simp [applyAll]

theorem snoc_ind {α : Type} {C : List α → Prop} (h0 : C []) (h1 : ∀ l x, C l → C (l ++ [x])) (l : List α) : C l := by
  rw [← List.reverse_reverse l]
  induction l.reverse with
  | nil => exact h0
  | cons x r ih => rw [List.reverse_cons]; exact h1 _ _ ih

theorem char_not_speed {P : Platform} (h : Sane P) {op : UInt8} (hc : op ∈ P.chars ++ P.modes.map (·.1)) :
    op ≠ 128 ∧ op ≠ 129 := by
  have := (h.small op hc).2
  constructor <;> (rintro rfl; exact absurd this (by decide))

/-- **C49.**  A control character ends up as its last argument says (255 means "disabled"), or stays. -/
theorem C49_char {P : Platform} (h : Sane P) (t : Termios) (l : Items) (op : UInt8) :
    (applyAll P t l).cc op =
      if op ∈ P.chars then (lastArg op l).elim (t.cc op) (fun a => if a = 255 then P.vdisable else UInt8.ofNat a)
      else t.cc op := by
  induction l using snoc_ind with
  | h0 => simp [applyAll, lastArg]
  | h1 l x ih =>
    obtain ⟨o, a⟩ := x
    rw [applyAll_snoc, lastArg_snoc]
    unfold apply
    by_cases h1 : o = 128
    · subst h1
      rw [if_pos rfl]
      show (applyAll P t l).cc op = _
      rw [ih]
      split
      · rename_i hc
        rw [if_neg (fun e => (char_not_speed h (List.mem_append_left _ hc)).1 e.symm)]
      · rfl
    · rw [if_neg h1]
      by_cases h2 : o = 129
      · subst h2
        rw [if_pos rfl]
        show (applyAll P t l).cc op = _
        rw [ih]
        split
        · rename_i hc
          rw [if_neg (fun e => (char_not_speed h (List.mem_append_left _ hc)).2 e.symm)]
        · rfl
      · rw [if_neg h2]
        by_cases h3 : o ∈ P.chars
        · rw [if_pos h3]
          show (if op = o then decodeChar P a else (applyAll P t l).cc op) = _
          by_cases h4 : o = op
          · subst h4
            rw [if_pos rfl, if_pos h3, if_pos rfl]
            rfl
          · rw [if_neg (fun e => h4 e.symm), ih, if_neg h4]
        · rw [if_neg h3]
          have hcc : ∀ r, (applyMode (applyAll P t l) a r).cc op = (applyAll P t l).cc op := by
            intro r
            cases r <;> rfl
          refine (hcc _).trans ?_
          rw [ih]
          by_cases hc : op ∈ P.chars
          · rw [if_pos hc, if_pos hc, if_neg (fun e : o = op => h3 (e ▸ hc))]
          · rw [if_neg hc, if_neg hc]

/-- **C49.**  The speeds likewise; a rate without a name becomes 9600. -/
theorem C49_speed {P : Platform} (h : Sane P) (t : Termios) (l : Items) :
    (applyAll P t l).ispeed = (lastArg 128 l).elim t.ispeed (baudToSpeed P) ∧
    (applyAll P t l).ospeed = (lastArg 129 l).elim t.ospeed (baudToSpeed P) := by
  induction l using snoc_ind with
  | h0 => simp [applyAll, lastArg]
  | h1 l x ih =>
    obtain ⟨o, a⟩ := x
    rw [applyAll_snoc, lastArg_snoc, lastArg_snoc]
    unfold apply
    by_cases h1 : o = 128
    · subst h1
      rw [if_pos rfl, if_pos rfl, if_neg (by decide)]
      exact ⟨rfl, ih.2⟩
    · rw [if_neg h1, if_neg h1]
      by_cases h2 : o = 129
      · subst h2
        rw [if_pos rfl, if_pos rfl]
        exact ⟨ih.1, rfl⟩
      · rw [if_neg h2, if_neg h2]
        split
        · exact ih
        · have : ∀ r, (applyMode (applyAll P t l) a r).ispeed = (applyAll P t l).ispeed ∧
              (applyMode (applyAll P t l) a r).ospeed = (applyAll P t l).ospeed := by
            intro r
            cases r <;> exact ⟨rfl, rfl⟩
          rw [(this _).1, (this _).2]
          exact ih

theorem find_mode {P : Platform} (h : Sane P) {m : UInt8 × Field × UInt32} (hm : m ∈ P.modes) :
    P.modes.find? (fun x => x.1 = m.1) = some m := by
  have hn : (P.modes.map (·.1)).Nodup := (List.nodup_append.mp h.distinct).2.1
  clear h
  generalize P.modes = ms at *
  induction ms with
  | nil => simp at hm
  | cons x r ih =>
    rw [List.map_cons, List.nodup_cons] at hn
    rcases List.mem_cons.mp hm with rfl | hm
    · simp
    · have : x.1 ≠ m.1 := fun e => hn.1 (e ▸ List.mem_map_of_mem hm)
      rw [List.find?_cons_of_neg (by simpa using this)]
      exact ih hm hn.2

theorem and_not_self (a m : UInt32) : (a &&& ~~~m) &&& m = 0 := by
  rw [UInt32.and_assoc, UInt32.not_and_self, UInt32.and_zero]

theorem and_not_disjoint {a m n : UInt32} (h : m &&& n = 0) : (a &&& ~~~m) &&& n = a &&& n := by
  apply UInt32.toBitVec_inj.mp
  apply BitVec.eq_of_getElem_eq
  intro i hi
  have hb := congrArg (fun b : UInt32 => b.toBitVec[i]) h
  simp only [UInt32.toBitVec_and, UInt32.toBitVec_not, BitVec.getElem_and, BitVec.getElem_not] at hb ⊢
  have h0 : (0 : UInt32).toBitVec[i] = false := by simp
  rw [h0] at hb
  cases h1 : a.toBitVec[i] <;> cases h2 : m.toBitVec[i] <;> cases h3 : n.toBitVec[i] <;> simp_all

theorem or_disjoint {a m n : UInt32} (h : m &&& n = 0) : (a ||| m) &&& n = a &&& n := by
  apply UInt32.toBitVec_inj.mp
  apply BitVec.eq_of_getElem_eq
  intro i hi
  have hb := congrArg (fun b : UInt32 => b.toBitVec[i]) h
  simp only [UInt32.toBitVec_and, UInt32.toBitVec_or, BitVec.getElem_and, BitVec.getElem_or] at hb ⊢
  have h0 : (0 : UInt32).toBitVec[i] = false := by simp
  rw [h0] at hb
  cases h1 : a.toBitVec[i] <;> cases h2 : m.toBitVec[i] <;> cases h3 : n.toBitVec[i] <;> simp_all

theorem or_self_ne {a m : UInt32} (h : m ≠ 0) : (a ||| m) &&& m ≠ 0 := by
  intro e
  apply h
  apply UInt32.toBitVec_inj.mp
  apply BitVec.eq_of_getElem_eq
  intro i hi
  have hb := congrArg (fun b : UInt32 => b.toBitVec[i]) e
  simp only [UInt32.toBitVec_and, UInt32.toBitVec_or, BitVec.getElem_and, BitVec.getElem_or] at hb
  have h0 : (0 : UInt32).toBitVec[i] = false := by simp
  rw [h0] at hb ⊢
  cases h1 : a.toBitVec[i] <;> cases h2 : m.toBitVec[i] <;> simp_all

/-- **C49.**  A flag that shares no bits with others is on or off as its last argument says, or stays; a bit outside all
flags of its word stays. -/
theorem C49_flag {P : Platform} (h : Sane P) (t : Termios) (l : Items) {op : UInt8} {f : Field} {mask : UInt32}
    (ha : Alone P op f mask) :
    ((applyAll P t l).flags f &&& mask ≠ 0) ↔
      (lastArg op l).elim (t.flags f &&& mask ≠ 0) (fun a => a ≠ 0) := by
  have hmem : op ∈ P.modes.map (·.1) := List.mem_map_of_mem (f := (·.1)) ha.mem
  have hop := char_not_speed h (List.mem_append_right P.chars hmem)
  have hnc : op ∉ P.chars := fun hc => (List.nodup_append.mp h.distinct).2.2 op hc op hmem rfl
  induction l using snoc_ind with
  | h0 => simp [applyAll, lastArg]
  | h1 l x ih =>
    obtain ⟨o, a⟩ := x
    rw [applyAll_snoc, lastArg_snoc]
    unfold apply
    by_cases h1 : o = 128
    · subst h1
      rw [if_pos rfl, if_neg (Ne.symm hop.1)]
      exact ih
    · rw [if_neg h1]
      by_cases h2 : o = 129
      · subst h2
        rw [if_pos rfl, if_neg (Ne.symm hop.2)]
        exact ih
      · rw [if_neg h2]
        by_cases h3 : o ∈ P.chars
        · rw [if_pos h3, if_neg (fun e : o = op => hnc (e ▸ h3))]
          exact ih
        · rw [if_neg h3]
          by_cases h4 : o = op
          · subst h4
            rw [find_mode h ha.mem, if_pos rfl]
            show (if f = f then (if a ≠ 0 then (applyAll P t l).flags f ||| mask else (applyAll P t l).flags f &&& ~~~mask) else
              (applyAll P t l).flags f) &&& mask ≠ 0 ↔ a ≠ 0
            rw [if_pos rfl]
            by_cases h5 : a = 0
            · rw [if_neg (by simpa using h5), and_not_self]
              simp [h5]
            · rw [if_pos h5]
              exact ⟨fun _ => h5, fun _ => or_self_ne ha.nonzero⟩
          · rw [if_neg h4]
            cases hfind : P.modes.find? (fun m => m.1 = o) with
            | none => exact ih
            | some m =>
              have hm := List.mem_of_find?_eq_some hfind
              have hmo : m.1 = o := by simpa using List.find?_some hfind
              show (if f = m.2.1 then (if a ≠ 0 then (applyAll P t l).flags m.2.1 ||| m.2.2 else
                (applyAll P t l).flags m.2.1 &&& ~~~m.2.2) else (applyAll P t l).flags f) &&& mask ≠ 0 ↔ _
              by_cases hf : f = m.2.1
              · have hd := ha.disjoint m hm (by rw [hmo]; exact h4) hf.symm
                rw [if_pos hf, ← hf]
                split
                · rw [or_disjoint hd]; exact ih
                · rw [and_not_disjoint hd]; exact ih
              · rw [if_neg hf]; exact ih

/-! ## There and back -/

/-- The items a terminal is encoded as. -/
def itemsOf (P : Platform) (bug : Bool) (t : Termios) : Items :=
  [(129, speedToBaud P t.ospeed), (128, speedToBaud P t.ispeed)] ++
  P.chars.map (fun op => (op, encodeChar P (t.cc op))) ++
  (P.modes.filter (fun m => !(m.1 = 42 && bug))).map (fun m => (m.1, if t.flags m.2.1 &&& m.2.2 ≠ 0 then 1 else 0))

theorem makeModes_wire (P : Platform) (bug : Bool) (t : Termios) :
    makeModes P bug (some t) = wire (itemsOf P bug t) ++ [0] := by
  have hm : ∀ ms : List (UInt8 × Field × UInt32), ms.flatMap (modeItem bug t) =
      wire ((ms.filter (fun m => !(m.1 = 42 && bug))).map (fun m => (m.1, if t.flags m.2.1 &&& m.2.2 ≠ 0 then 1 else 0))) := by
    intro ms
    induction ms with
    | nil => rfl
    | cons m ms ih =>
      rw [List.flatMap_cons, ih, modeItem]
      by_cases hc : (m.1 = 42 && bug) = true
      · rw [if_pos hc, List.filter_cons_of_neg (by rw [hc]; decide)]
        rfl
      · rw [if_neg hc, List.filter_cons_of_pos (by rw [(Bool.not_eq_true _).mp hc]; rfl)]
        simp [wire, item]
  have hc : ∀ cs : List UInt8, cs.flatMap (fun op => item op (encodeChar P (t.cc op))) =
      wire (cs.map (fun op => (op, encodeChar P (t.cc op)))) := by
    intro cs
    induction cs with
    | nil => rfl
    | cons c cs ih => rw [List.flatMap_cons, ih]; simp [wire, item]
  have hw : ∀ a b : Items, wire (a ++ b) = wire a ++ wire b := by
    intro a b; simp [wire]
  unfold makeModes itemsOf
  simp only [hm, hc, hw]
  simp [wire, item]

theorem lastArg_of_nodup {l : Items} (hn : (l.map (·.1)).Nodup) {op : UInt8} {a : Nat} (hm : (op, a) ∈ l) :
    lastArg op l = some a := by
  unfold lastArg
  induction l with
  | nil => simp at hm
  | cons x r ih =>
    rw [List.map_cons, List.nodup_cons] at hn
    rcases List.mem_cons.mp hm with rfl | hm
    · have : r.filter (fun y => y.1 = op) = [] := by
        rw [List.filter_eq_nil_iff]
        intro y hy hyo
        exact hn.1 (by rw [show (op, a).1 = y.1 by simpa using (of_decide_eq_true hyo).symm]; exact List.mem_map_of_mem hy)
      rw [List.filter_cons_of_pos (by simp), this]
      rfl
    · have : x.1 ≠ op := fun e => hn.1 (e ▸ List.mem_map_of_mem (f := (·.1)) hm)
      rw [List.filter_cons_of_neg (by simpa using this)]
      exact ih hn.2 hm

theorem lastArg_none {l : Items} {op : UInt8} (h : op ∉ l.map (·.1)) : lastArg op l = none := by
  unfold lastArg
  have : l.filter (fun y => y.1 = op) = [] := by
    rw [List.filter_eq_nil_iff]
    intro y hy hyo
    exact h (by rw [← of_decide_eq_true hyo]; exact List.mem_map_of_mem hy)
  rw [this]
  rfl

/-- The opcodes sent. -/
def sent (P : Platform) (bug : Bool) : List UInt8 :=
  [129, 128] ++ P.chars ++ (P.modes.filter (fun m => !(m.1 = 42 && bug))).map (·.1)

theorem items_keys (P : Platform) (bug : Bool) (t : Termios) : (itemsOf P bug t).map (·.1) = sent P bug := by
  simp [itemsOf, sent, Function.comp_def]

theorem sent_sub {P : Platform} {bug : Bool} {op : UInt8} (h : op ∈ sent P bug) :
    op = 129 ∨ op = 128 ∨ op ∈ P.chars ++ P.modes.map (·.1) := by
  unfold sent at h
  simp only [List.cons_append, List.nil_append, List.mem_cons, List.mem_append] at h
  rcases h with h | h | h | h
  · exact Or.inl h
  · exact Or.inr (Or.inl h)
  · exact Or.inr (Or.inr (List.mem_append_left _ h))
  · refine Or.inr (Or.inr (List.mem_append_right _ ?_))
    obtain ⟨m, hm, e⟩ := List.mem_map.mp h
    exact e ▸ List.mem_map_of_mem (List.mem_filter.mp hm).1

theorem sent_nodup {P : Platform} (h : Sane P) (bug : Bool) : (sent P bug).Nodup := by
  obtain ⟨h1, h2, h3⟩ := List.nodup_append.mp h.distinct
  have hf : ((P.modes.filter (fun m => !(m.1 = 42 && bug))).map (·.1)).Nodup :=
    List.Sublist.nodup (List.Sublist.map _ List.filter_sublist) h2
  have hsub : ∀ x ∈ (P.modes.filter (fun m => !(m.1 = 42 && bug))).map (·.1), x ∈ P.modes.map (·.1) := by
    intro x hx
    obtain ⟨m, hm, e⟩ := List.mem_map.mp hx
    exact e ▸ List.mem_map_of_mem (List.mem_filter.mp hm).1
  unfold sent
  rw [List.append_assoc, List.nodup_append]
  refine ⟨by decide, List.nodup_append.mpr ⟨h1, hf, fun a ha b hb => h3 a ha b (hsub b hb)⟩, ?_⟩
  intro a ha b hb e
  subst e
  have hb' : a ∈ P.chars ++ P.modes.map (·.1) := by
    rcases List.mem_append.mp hb with hb | hb
    · exact List.mem_append_left _ hb
    · exact List.mem_append_right _ (hsub a hb)
  have := char_not_speed h hb'
  simp only [List.mem_cons, List.not_mem_nil, or_false] at ha
  rcases ha with ha | ha
  · exact this.2 ha
  · exact this.1 ha

theorem items_valid {P : Platform} (h : Sane P) (hs : ∀ x ∈ P.speeds, x.2 < 2 ^ 32) (bug : Bool) (t : Termios) :
    Valid (itemsOf P bug t) := by
  have hbaud : ∀ s, speedToBaud P s < 2 ^ 32 := by
    intro s
    unfold speedToBaud
    cases hf : P.speeds.find? (fun x => x.1 = s) with
    | none => decide
    | some x => exact hs x (List.mem_of_find?_eq_some hf)
  have hsmall : ∀ o : UInt8, o < 128 → o < 160 := by
    intro o ho
    rw [UInt8.lt_iff_toNat_lt] at ho ⊢
    have e1 : (128 : UInt8).toNat = 128 := rfl
    have e2 : (160 : UInt8).toNat = 160 := rfl
    omega
  intro x hx
  constructor
  · have hk : x.1 ∈ sent P bug := by rw [← items_keys P bug t]; exact List.mem_map_of_mem hx
    rcases sent_sub hk with e | e | e
    · rw [e]; decide
    · rw [e]; decide
    · have := h.small _ e
      exact ⟨this.1, hsmall _ this.2⟩
  · unfold itemsOf at hx
    simp only [List.cons_append, List.nil_append, List.mem_cons, List.mem_append, List.mem_map] at hx
    rcases hx with rfl | rfl | ⟨o, _, rfl⟩ | ⟨m, _, rfl⟩
    · exact hbaud _
    · exact hbaud _
    · unfold encodeChar
      have := (t.cc o).toNat_lt
      show (if _ then _ else _) < _
      split <;> omega
    · show (if _ then _ else _) < _
      split <;> decide

/-- **C49.**  The modes of a terminal on one platform, received on another (or the same): every control character both
know arrives, "disabled" as "disabled"; every flag both know arrives (provided that on the receiving side it shares no
bits with another one); the speeds arrive as baud rates; and everything the sender does not name keeps its value.
The full claim, that every control character and every flag arrives unchanged, is false: a control character 255 arrives
as "disabled" (`C49_char_lost`), and flags that share bits spoil each other (`C49_cs7_lost`). -/
theorem C49_roundtrip_partial {P Q : Platform} (hP : Sane P) (hQ : Sane Q) (hs : ∀ x ∈ P.speeds, x.2 < 2 ^ 32) (bug : Bool)
    (t t0 : Termios) :
    ∃ t', parseModes Q (some t0) (makeModes P bug (some t)) = .set t' ∧
      (∀ op ∈ P.chars, op ∈ Q.chars →
        t'.cc op = if t.cc op = P.vdisable ∨ t.cc op = 255 then Q.vdisable else t.cc op) ∧
      (∀ op, op ∉ sent P bug → t'.cc op = t0.cc op) ∧
      (∀ op f mask f' mask', (op, f, mask) ∈ P.modes → ¬ (op = 42 ∧ bug = true) → Alone Q op f' mask' →
        (t'.flags f' &&& mask' ≠ 0 ↔ t.flags f &&& mask ≠ 0)) ∧
      (∀ op f' mask', op ∉ sent P bug → Alone Q op f' mask' → (t'.flags f' &&& mask' ≠ 0 ↔ t0.flags f' &&& mask' ≠ 0)) ∧
      t'.ispeed = baudToSpeed Q (speedToBaud P t.ispeed) ∧ t'.ospeed = baudToSpeed Q (speedToBaud P t.ospeed) := by
  have hnd : ((itemsOf P bug t).map (·.1)).Nodup := by rw [items_keys]; exact sent_nodup hP bug
  have hin : ∀ {op a}, (op, a) ∈ itemsOf P bug t → lastArg op (itemsOf P bug t) = some a := fun h => lastArg_of_nodup hnd h
  have hout : ∀ {op}, op ∉ sent P bug → lastArg op (itemsOf P bug t) = none := by
    intro op h
    exact lastArg_none (by rw [items_keys]; exact h)
  refine ⟨applyAll Q t0 (itemsOf P bug t), ?_, ?_, ?_, ?_, ?_, ?_, ?_⟩
  · rw [makeModes_wire]
    exact C49_complete hQ _ (items_valid hP hs bug t) _ (Or.inr ⟨0, rfl, by decide⟩) (by simp) t0
  · intro op h1 h2
    have hm : (op, encodeChar P (t.cc op)) ∈ itemsOf P bug t := by
      unfold itemsOf
      exact List.mem_append_left _ (List.mem_append_right _ (List.mem_map_of_mem (f := fun op => (op, encodeChar P (t.cc op))) h1))
    rw [C49_char hQ, if_pos h2, hin hm]
    show (if encodeChar P (t.cc op) = 255 then Q.vdisable else UInt8.ofNat (encodeChar P (t.cc op))) = _
    unfold encodeChar
    by_cases hv : t.cc op = P.vdisable
    · rw [if_pos hv, if_pos rfl, if_pos (Or.inl hv)]
    · rw [if_neg hv]
      by_cases h255 : t.cc op = 255
      · rw [if_pos (Or.inr h255), h255]; rfl
      · rw [if_neg (fun e : (t.cc op).toNat = 255 => h255 (UInt8.toNat_inj.mp e)), if_neg (by simp [hv, h255]), UInt8.ofNat_toNat]
  · intro op h1
    rw [C49_char hQ, hout h1]
    split <;> rfl
  · intro op f mask f' mask' h1 h2 h3
    have hm : (op, if t.flags f &&& mask ≠ 0 then 1 else 0) ∈ itemsOf P bug t := by
      unfold itemsOf
      refine List.mem_append_right _ ?_
      refine List.mem_map.mpr ⟨(op, f, mask), List.mem_filter.mpr ⟨h1, ?_⟩, rfl⟩
      simp only [Bool.not_eq_true', Bool.and_eq_false_iff, decide_eq_false_iff_not]
      by_cases e : op = 42
      · exact Or.inr (by simpa [e] using h2)
      · exact Or.inl e
    rw [C49_flag hQ _ _ h3, hin hm]
    show (if t.flags f &&& mask ≠ 0 then 1 else 0) ≠ 0 ↔ _
    split <;> simp_all
  · intro op f' mask' h1 h2
    rw [C49_flag hQ _ _ h2, hout h1]
    rfl
  · rw [(C49_speed hQ _ _).1, hin (a := speedToBaud P t.ispeed) (by simp [itemsOf])]
    rfl
  · rw [(C49_speed hQ _ _).2, hin (a := speedToBaud P t.ospeed) (by simp [itemsOf])]
    rfl

/-- **C49.**  A speed with a name arrives unchanged on the same platform. -/
theorem C49_speed_same {P : Platform} {s b : Nat} (h : (s, b) ∈ P.speeds) (h1 : (P.speeds.map (·.1)).Nodup)
    (h2 : (P.speeds.map (·.2)).Nodup) : baudToSpeed P (speedToBaud P s) = s := by
  have f1 : P.speeds.find? (fun x => x.1 = s) = some (s, b) := by
    clear h2
    generalize P.speeds = l at *
    induction l with
    | nil => simp at h
    | cons x r ih =>
      rw [List.map_cons, List.nodup_cons] at h1
      rcases List.mem_cons.mp h with rfl | h
      · simp
      · rw [List.find?_cons_of_neg (by simp; exact fun e => h1.1 (e ▸ List.mem_map_of_mem (f := (·.1)) h))]
        exact ih h h1.2
  have f2 : P.speeds.find? (fun x => x.2 = b) = some (s, b) := by
    clear h1 f1
    generalize P.speeds = l at *
    induction l with
    | nil => simp at h
    | cons x r ih =>
      rw [List.map_cons, List.nodup_cons] at h2
      rcases List.mem_cons.mp h with rfl | h
      · simp
      · rw [List.find?_cons_of_neg (by simp; exact fun e => h2.1 (e ▸ List.mem_map_of_mem (f := (·.2)) h))]
        exact ih h h2.2
  unfold speedToBaud baudToSpeed
  rw [f1]
  show ((P.speeds.find? fun x => x.2 = b).map (·.1)).getD _ = s
  rw [f2]
  rfl

/-- Linux meets the hypotheses. -/
theorem linux_sane : Sane linux := ⟨by decide, by decide⟩
example : (linux.speeds.map (·.1)).Nodup ∧ (linux.speeds.map (·.2)).Nodup ∧ ∀ x ∈ linux.speeds, x.2 < 2 ^ 32 := by decide
example : Alone linux 53 .lflag 0x8 := ⟨by decide, by decide, by decide⟩
/-- `cs8 parenb icanon echo`, interrupt on control-C, no quit character. -/
def sample : Termios where
  cc := fun op => if op = 1 then 3 else 0
  flags := fun f => match f with | .cflag => 0x130 | .lflag => 0xa | _ => 0
  ispeed := 13
  ospeed := 0x1002

/-- **C49 is false for a control character 255** where "disabled" is another value: it arrives as "disabled". -/
theorem C49_char_lost : decodeChar linux (encodeChar linux 255) = 0 := by decide

/-- **C49 is false for the character size on Linux**: `CS7` and `CS8` share a bit there, so seven-bit characters are sent as
"CS7 and CS8" and become eight-bit ones. -/
theorem C49_cs7_lost :
    ∃ t', parseModes linux (some sample) (makeModes linux false (some { sample with flags := fun _ => 0x20 })) = .set t' ∧
      t'.flags .cflag &&& 0x30 = 0x30 := by
  have h := C49_complete linux_sane (itemsOf linux false { sample with flags := fun _ => 0x20 })
    (items_valid linux_sane (by decide) _ _) [0] (Or.inr ⟨0, rfl, by decide⟩) (by simp) sample
  rw [makeModes_wire]
  exact ⟨_, h, by decide +kernel⟩

end Verif.Tty
