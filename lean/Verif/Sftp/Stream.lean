/-
Messages in a stream: C36.
-/
import Verif.Sftp.Spec
import Verif.WireMore

namespace Verif.Sftp
open Verif Wire

/-! ### Parsers use only what they consume -/

def Good {α : Type} (p : Parser α) : Prop :=
  ∀ b a r, p b = some (a, r) → ∃ c, b = c ++ r ∧ ∀ y, p (c ++ y) = some (a, y)

theorem good_ret {α : Type} (a : α) : Good (pret a) := by
  intro b a' r h
  simp only [pret, Option.some.injEq, Prod.mk.injEq] at h
  exact ⟨[], by simp [h.2], fun y => by simp [pret, h.1]⟩

theorem good_fail {α : Type} : Good (pfail : Parser α) := by
  intro b a r h; simp [pfail] at h

theorem good_bind {α β : Type} {p : Parser α} {f : α → Parser β} (hp : Good p) (hf : ∀ a, Good (f a)) :
    Good (pbind p f) := by
  intro b x r h
  unfold pbind at h
  cases hb : p b with
  | none => rw [hb] at h; simp at h
  | some z =>
    obtain ⟨a, r1⟩ := z
    rw [hb] at h
    simp only at h
    obtain ⟨c1, rfl, h1⟩ := hp _ _ _ hb
    obtain ⟨c2, rfl, h2⟩ := hf a _ _ _ h
    refine ⟨c1 ++ c2, by simp, fun y => ?_⟩
    unfold pbind
    rw [List.append_assoc, h1]
    exact h2 y

theorem good_int (n : Nat) : Good (getInt n) := by
  intro b a r h
  obtain ⟨rfl, hv⟩ := getInt_some h
  exact ⟨_, rfl, fun y => getInt_append n a y hv⟩

theorem good_str : Good getStr := by
  intro b a r h
  obtain ⟨rfl, hv⟩ := getStr_some h
  exact ⟨_, rfl, fun y => getStr_append a y hv⟩

theorem good_cstr : Good getCstr := by
  intro b a r h
  unfold getCstr at h
  cases hb : getStr b with
  | none => rw [hb] at h; simp at h
  | some z =>
    obtain ⟨v, r1⟩ := z
    rw [hb] at h
    simp only at h
    obtain ⟨rfl, hv⟩ := getStr_some hb
    cases hc : cstr v with
    | none => rw [hc] at h; simp at h
    | some w =>
      rw [hc] at h
      simp only [Option.map_some, Option.some.injEq, Prod.mk.injEq] at h
      refine ⟨str v, by rw [h.2], fun y => ?_⟩
      unfold getCstr
      rw [getStr_append v y hv]
      simp [hc, h.1]

theorem good_ite {α : Type} {p q : Parser α} {c : Prop} [Decidable c] (hp : Good p) (hq : Good q) : Good (if c then p else q) := by
  split <;> assumption

theorem good_extAttribs (n : Nat) : Good (extAttribs n) := by
  induction n with
  | zero => exact good_ret _
  | succ n ih => exact good_bind good_cstr fun _ => good_bind good_str fun _ => ih

theorem good_attrib : Good decAttrib := by
  unfold decAttrib
  repeat' first
    | exact good_int _
    | exact good_ret _
    | exact good_fail
    | exact good_extAttribs _
    | apply good_ite
    | refine good_bind ?_ fun _ => ?_

theorem good_ids : Good pids := by
  unfold pids
  refine good_bind good_str fun b => ?_
  cases idList b.length b with
  | none => exact good_fail
  | some l => exact good_ret _

macro "good" : tactic => `(tactic| repeat' first
    | exact good_int _
    | exact good_ret _
    | exact good_str
    | exact good_cstr
    | exact good_attrib
    | exact good_ids
    | refine good_bind ?_ fun _ => ?_)

theorem good_handlers : ∀ x ∈ handlers, Good x.2.parse := by
  intro x hx
  simp only [handlers, List.mem_cons, List.not_mem_nil, or_false] at hx
  rcases hx with rfl | rfl | rfl | rfl | rfl | rfl | rfl | rfl | rfl | rfl | rfl | rfl | rfl | rfl | rfl | rfl | rfl | rfl <;>
    simp only [pname, phandle, pnames, pnameAttr] <;> good

theorem good_extHandlers : ∀ x ∈ extHandlers, Good x.2.parse := by
  intro x hx
  simp only [extHandlers, List.mem_cons, List.not_mem_nil, or_false] at hx
  rcases hx with rfl | rfl | rfl | rfl | rfl | rfl | rfl | rfl | rfl | rfl | rfl <;>
    simp only [pname, phandle, pnames, pnameAttr] <;> good

theorem lookup_mem {α β : Type} [BEq α] [LawfulBEq α] {l : List (α × β)} {a : α} {b : β} (h : l.lookup a = some b) :
    (a, b) ∈ l := by
  induction l with
  | nil => simp at h
  | cons x l ih =>
    obtain ⟨k, v⟩ := x
    rw [List.lookup_cons] at h
    split at h
    · rename_i hk
      simp only [beq_iff_eq] at hk
      simp only [Option.some.injEq] at h
      subst hk h
      simp
    · exact List.mem_cons_of_mem _ (ih h)

theorem good_withHandler (cfg : Cfg) (id : Nat) {h : Handler} (g : Good h.parse) : Good (withHandler cfg id h) := by
  unfold withHandler
  split
  · exact good_bind g fun _ => good_ret _
  · exact good_ret _

theorem good_plan (cfg : Cfg) (i : Bool) : Good (plan cfg i) := by
  unfold plan
  refine good_bind (good_int _) fun t => good_ite (good_bind (good_int _) fun _ => good_ret _) (good_ite good_fail
    (good_bind (good_int _) fun id => good_ite ?_ ?_))
  · unfold planExt
    refine good_bind good_cstr fun name => ?_
    split
    · exact good_ret _
    · rename_i h hh
      exact good_withHandler cfg id (good_extHandlers _ (lookup_mem hh))
  · unfold planType
    split
    · exact good_ret _
    · rename_i h hh
      exact good_withHandler cfg id (good_handlers _ (lookup_mem hh))

/-! ### One message in the queue -/

theorem interp_map {α β σ : Type} (sys : Call → σ → Resp × σ) (f : α → β) (p : Prog α) (w : σ) :
    interp sys (p.map f) w = (f (interp sys p w).1, (interp sys p w).2) := by
  induction p generalizing w with
  | ret a => rfl
  | call c k ih => exact ih _ _

theorem take_frame (m x : Bytes) : (frame m ++ x).take 4 = be 4 m.length := by
  unfold frame
  rw [List.append_assoc]
  exact List.take_left' (be_length _ _)

theorem drop_frame (m x : Bytes) : (frame m ++ x).drop 4 = m ++ x := by
  unfold frame
  rw [List.append_assoc]
  exact List.drop_left' (be_length _ _)

theorem frame_length (m : Bytes) : (frame m).length = m.length + 4 := by
  simp [frame]; omega

theorem process_frame (cfg : Cfg) (s : Srv) (m x : Bytes) (hm : m.length ≤ 262144) (hx : m ++ x ≠ []) :
    process cfg s (frame m ++ x) =
      match plan cfg s.initDone (m ++ x) with
      | none => .ret .exit
      | some (a, rest) => (act cfg s a).map (finish m.length (m ++ x).length rest) := by
  have hl : ofBE ((frame m ++ x).take 4) = m.length := by
    rw [take_frame]; exact ofBE_be_of_lt (by omega)
  have h0 : 0 < (m ++ x).length := List.length_pos_iff.2 hx
  have hlen : (frame m ++ x).length = (m ++ x).length + 4 := by
    simp [frame_length]; omega
  unfold process
  rw [hl, drop_frame, hlen, if_neg (by omega), if_neg (by omega), if_neg (by simp)]
  rw [show (m ++ x).length + 4 - 4 = (m ++ x).length by omega]
  rfl

/-- A message that is understood by itself. -/
theorem process_good (cfg : Cfg) (s : Srv) (m x : Bytes) (hm : m.length ≤ 262144) {a : Act} {r : Bytes}
    (h : plan cfg s.initDone m = some (a, r)) :
    process cfg s (frame m ++ x) = (act cfg s a).map fun p => .done p.1 x (sendAll p.1 p.2) := by
  obtain ⟨c, rfl, hc⟩ := good_plan _ _ _ _ _ h
  have hne : (c ++ r) ++ x ≠ [] := by
    intro e
    simp only [List.append_eq_nil_iff] at e
    obtain ⟨⟨rfl, rfl⟩, rfl⟩ := e
    simp [plan, pbind, getInt] at h
  rw [process_frame cfg s _ x hm hne, List.append_assoc, hc]
  simp only
  congr 1
  funext p
  unfold finish
  rw [if_neg (by simp)]
  congr 1
  rw [show (c ++ r).length - ((c ++ (r ++ x)).length - (r ++ x).length) = r.length by simp, List.drop_left]

/-- One that is not. -/
theorem process_bad {σ : Type} (cfg : Cfg) (sys : Call → σ → Resp × σ) (w : σ) (s : Srv) (m x : Bytes) (hm : m.length ≤ 262144)
    (hx : m ++ x ≠ []) (h : plan cfg s.initDone m = none) : (interp sys (process cfg s (frame m ++ x)) w).1 = .exit := by
  rw [process_frame cfg s m x hm hx]
  cases hp : plan cfg s.initDone (m ++ x) with
  | none => rfl
  | some z =>
    obtain ⟨a, r⟩ := z
    simp only
    rw [interp_map]
    simp only
    unfold finish
    rw [if_pos]
    obtain ⟨c, hc, h2⟩ := good_plan _ _ _ _ _ hp
    rcases Nat.lt_or_ge m.length c.length with hlt | hge
    · have := congrArg List.length hc
      simp only [List.length_append] at this ⊢
      omega
    · exfalso
      have : c <+: m := List.prefix_of_prefix_length_le (l₃ := m ++ x) ⟨r, hc.symm⟩ (List.prefix_append _ _) hge
      obtain ⟨t, rfl⟩ := this
      rw [h2 t] at h
      cases h

/-- The queue begins with a whole message. -/
theorem ready_split {iq : Bytes} (h : Ready iq) (hl : ofBE (iq.take 4) ≤ 262144) :
    ∃ m x, iq = frame m ++ x ∧ m.length ≤ 262144 ∧ m ++ x ≠ [] := by
  obtain ⟨h5, h | h⟩ := h
  · omega
  · have e1 : ((iq.drop 4).take (ofBE (iq.take 4))).length = ofBE (iq.take 4) := by simp; omega
    refine ⟨(iq.drop 4).take (ofBE (iq.take 4)), (iq.drop 4).drop (ofBE (iq.take 4)), ?_, by omega, ?_⟩
    · unfold frame
      rw [e1]
      have := be_ofBE (iq.take 4)
      rw [show (iq.take 4).length = 4 by simp; omega] at this
      rw [this, List.append_assoc, List.take_append_drop, List.take_append_drop]
    · rw [List.take_append_drop]
      intro e
      have := congrArg List.length e
      simp at this
      omega

theorem process_wait (cfg : Cfg) (s : Srv) (iq : Bytes) (h : ¬ Ready iq) : process cfg s iq = .ret .wait := by
  unfold Ready at h
  unfold process
  split
  · rfl
  · split
    · omega
    · rw [if_pos (by omega)]

theorem process_long (cfg : Cfg) (s : Srv) (iq : Bytes) (h : Ready iq) (hl : ofBE (iq.take 4) > 262144) :
    process cfg s iq = .ret .exit := by
  unfold process
  rw [if_neg (by have := h.1; omega), if_pos hl]

theorem ready_frame (m x : Bytes) (hm : m.length ≤ 262144) (hx : m ++ x ≠ []) : Ready (frame m ++ x) := by
  have hl : ofBE ((frame m ++ x).take 4) = m.length := by
    rw [take_frame]; exact ofBE_be_of_lt (by omega)
  have h0 : 0 < (m ++ x).length := List.length_pos_iff.2 hx
  rw [List.length_append] at h0
  constructor
  · rw [List.length_append, frame_length]; omega
  · right; rw [hl, List.length_append, frame_length]; omega

/-! ### Schedules -/

variable {σ : Type}

/-- How an input is dealt with: messages that are understood, then what is left or the end of the server. -/
structure Done (cfg : Cfg) (sys : Call → σ → Resp × σ) (input : Bytes) (x : Srv × σ) (ms : List Bytes) (rest : Bytes)
    (y : Srv × σ) (out : Bytes) : Prop where
  input : input = (ms.map frame).flatten ++ rest
  short : ∀ m ∈ ms, m.length ≤ 262144
  serve : serve cfg sys ms x = some (y, out)

theorem serve_snoc (cfg : Cfg) (sys : Call → σ → Resp × σ) (ms : List Bytes) (m : Bytes) (x y : Srv × σ) (out : Bytes)
    (h : serve cfg sys ms x = some (y, out)) :
    serve cfg sys (ms ++ [m]) x = (alone cfg sys m y).map fun z => (z.1, out ++ z.2) := by
  induction ms generalizing x out with
  | nil =>
    simp only [serve, Option.some.injEq, Prod.mk.injEq] at h
    obtain ⟨rfl, rfl⟩ := h
    simp only [List.nil_append, serve, Option.map_some, List.append_nil]
    cases alone cfg sys m x <;> rfl
  | cons a ms ih =>
    simp only [serve, List.cons_append] at h ⊢
    cases ha : alone cfg sys a x with
    | none => simp [ha] at h
    | some z =>
      simp only [ha, Option.bind_some] at h ⊢
      cases hs : serve cfg sys ms z.1 with
      | none => simp [hs] at h
      | some q =>
        simp only [hs, Option.map_some, Option.some.injEq, Prod.mk.injEq] at h
        obtain ⟨h1, h2⟩ := h
        rw [ih z.1 q.2 (by rw [hs, ← h1])]
        cases alone cfg sys m y with
        | none => rfl
        | some v => simp [← h2]

/-- The next message cannot be understood. -/
def Stuck (cfg : Cfg) (s : Srv) (iq : Bytes) : Prop :=
  Ready iq ∧ (ofBE (iq.take 4) > 262144 ∨ ∀ m x, m.length ≤ 262144 → iq = frame m ++ x → plan cfg s.initDone m = none)

theorem frame_inj {m m' x x' : Bytes} (hm : m.length ≤ 262144) (hm' : m'.length ≤ 262144) (h : frame m ++ x = frame m' ++ x') :
    m = m' ∧ x = x' := by
  have h1 := congrArg (List.take 4) h
  rw [take_frame, take_frame] at h1
  have h2 := be_inj (n := 4) (by omega) (by omega) h1
  have h3 := congrArg (List.drop 4) h
  rw [drop_frame, drop_frame] at h3
  exact List.append_inj h3 h2

/-- One use of `process`. -/
theorem process_step (cfg : Cfg) (sys : Call → σ → Resp × σ) (s : Srv) (w : σ) (iq : Bytes) :
    (¬ Ready iq ∧ interp sys (process cfg s iq) w = (.wait, w)) ∨
    (Stuck cfg s iq ∧ (interp sys (process cfg s iq) w).1 = .exit) ∨
    ∃ m x z, iq = frame m ++ x ∧ m.length ≤ 262144 ∧ m ++ x ≠ [] ∧ alone cfg sys m (s, w) = some z ∧
      interp sys (process cfg s iq) w = (.done z.1.1 x z.2, z.1.2) := by
  by_cases hr : Ready iq
  · by_cases hl : ofBE (iq.take 4) ≤ 262144
    · obtain ⟨m, x, rfl, hm, hx⟩ := ready_split hr hl
      cases hp : plan cfg s.initDone m with
      | none =>
        refine .inr (.inl ⟨⟨hr, .inr fun m' x' hm' e => ?_⟩, process_bad cfg sys w s m x hm hx hp⟩)
        rw [← (frame_inj hm hm' e).1]; exact hp
      | some q =>
        obtain ⟨a, r⟩ := q
        refine .inr (.inr ⟨m, x, _, rfl, hm, hx, by simp only [alone, hp, Option.map_some]; rfl, ?_⟩)
        rw [process_good cfg s m x hm hp, interp_map]
    · refine .inr (.inl ⟨⟨hr, .inl (by omega)⟩, ?_⟩)
      rw [process_long cfg s iq hr (by omega)]; rfl
  · refine .inl ⟨hr, ?_⟩
    rw [process_wait cfg s iq hr]; rfl

theorem ready_append {iq : Bytes} (z : Bytes) (h : Ready iq) : Ready (iq ++ z) := by
  obtain ⟨h5, h⟩ := h
  unfold Ready
  rw [List.take_append_of_le_length (by omega), List.length_append]
  omega

theorem stuck_append {cfg : Cfg} {s : Srv} {iq : Bytes} (z : Bytes) (h : Stuck cfg s iq) : Stuck cfg s (iq ++ z) := by
  obtain ⟨hr, h⟩ := h
  refine ⟨ready_append z hr, ?_⟩
  by_cases hl : ofBE (iq.take 4) ≤ 262144
  · right
    rcases h with h | h
    · omega
    · intro m x hm e
      obtain ⟨m0, x0, rfl, hm0, -⟩ := ready_split hr hl
      rw [List.append_assoc] at e
      rw [← (frame_inj hm0 hm e).1]
      exact h m0 x0 hm0 rfl
  · left
    rw [List.take_append_of_le_length (by have := hr.1; omega)]
    omega

theorem alone_ne_nil {cfg : Cfg} {sys : Call → σ → Resp × σ} {m : Bytes} {x : Srv × σ} {z : (Srv × σ) × Bytes}
    (h : alone cfg sys m x = some z) : m ≠ [] := by
  rintro rfl
  simp [alone, plan, pbind, getInt] at h

/-- All the bytes that arrive. -/
def arrivals (evs : List Event) : Bytes := (evs.map Event.arrived).flatten

theorem done_arrive {cfg : Cfg} {sys : Call → σ → Resp × σ} {input rest out : Bytes} {x y : Srv × σ} {ms : List Bytes} (z : Bytes)
    (h : Done cfg sys input x ms rest y out) : Done cfg sys (input ++ z) x ms (rest ++ z) y out :=
  ⟨by rw [h.input, List.append_assoc], h.short, h.serve⟩

/-- One round. -/
theorem round_step {cfg : Cfg} {sys : Call → σ → Resp × σ} {e : Event} {c : Conn σ} {input out : Bytes} {x : Srv × σ}
    {ms : List Bytes} (h : Done cfg sys input x ms c.iq (c.srv, c.world) out) :
    (∀ c', round cfg sys e c = some c' → ∃ ms' o, Done cfg sys (input ++ e.arrived) x ms' c'.iq (c'.srv, c'.world) (out ++ o) ∧
      c'.wire ++ c'.oq = c.wire ++ c.oq ++ o) ∧
    (round cfg sys e c = none → Stuck cfg c.srv (c.iq ++ e.arrived)) := by
  have hd := done_arrive e.arrived h
  have hw : ∀ o : Bytes, (c.wire ++ c.oq.take e.written) ++ (c.oq.drop e.written ++ o) = c.wire ++ c.oq ++ o := by
    intro o
    rw [List.append_assoc, ← List.append_assoc (c.oq.take _), List.take_append_drop, ← List.append_assoc]
  unfold round
  by_cases hroom : e.room = true
  · rw [if_pos hroom]
    rcases process_step cfg sys c.srv c.world (c.iq ++ e.arrived) with ⟨_, hp⟩ | ⟨hs, hp⟩ | ⟨m, r, z, hi, hm, hne, ha, hp⟩
    · rw [hp]
      refine ⟨fun c' hc => ?_, fun hc => by simp [afterProcess] at hc⟩
      simp only [afterProcess, transfer, Option.some.injEq] at hc
      subst hc
      exact ⟨ms, [], by simpa using hd, by simpa using hw []⟩
    · refine ⟨fun c' hc => ?_, fun _ => hs⟩
      rw [show interp sys (process cfg c.srv (c.iq ++ e.arrived)) c.world =
        (.exit, (interp sys (process cfg c.srv (c.iq ++ e.arrived)) c.world).2) by rw [← hp]] at hc
      simp [afterProcess] at hc
    · rw [hp]
      refine ⟨fun c' hc => ?_, fun hc => by simp [afterProcess] at hc⟩
      simp only [afterProcess, transfer, Option.some.injEq] at hc
      subst hc
      refine ⟨ms ++ [m], z.2, ⟨?_, ?_, ?_⟩, hw _⟩
      · rw [hd.input, hi]; simp
      · intro m' hm'
        rcases List.mem_append.1 hm' with h1 | h1
        · exact h.short _ h1
        · rw [List.mem_singleton.1 h1]; exact hm
      · rw [serve_snoc cfg sys ms m x _ out h.serve, ha]
        rfl
  · rw [if_neg hroom]
    refine ⟨fun c' hc => ?_, fun hc => by simp at hc⟩
    simp only [transfer, Option.some.injEq] at hc
    subst hc
    exact ⟨ms, [], by simpa using hd, by simpa using hw []⟩

theorem rounds_steps {cfg : Cfg} {sys : Call → σ → Resp × σ} (evs : List Event) {c : Conn σ} {input out : Bytes} {x : Srv × σ}
    {ms : List Bytes} (h : Done cfg sys input x ms c.iq (c.srv, c.world) out) :
    (∀ c', rounds cfg sys evs c = some c' → ∃ ms' o, Done cfg sys (input ++ arrivals evs) x ms' c'.iq (c'.srv, c'.world) (out ++ o) ∧
      c'.wire ++ c'.oq = c.wire ++ c.oq ++ o) ∧
    (rounds cfg sys evs c = none → ∃ ms' rest y o, Done cfg sys (input ++ arrivals evs) x ms' rest y o ∧ Stuck cfg y.1 rest) := by
  induction evs generalizing c input out ms with
  | nil =>
    refine ⟨fun c' hc => ?_, fun hc => by simp [rounds] at hc⟩
    simp only [rounds, Option.some.injEq] at hc
    subst hc
    exact ⟨ms, [], by simpa [arrivals] using h, by simp⟩
  | cons e l ih =>
    have hs := round_step (e := e) h
    have ha : arrivals (e :: l) = e.arrived ++ arrivals l := rfl
    cases hr : round cfg sys e c with
    | none =>
      refine ⟨fun c' hc => by simp [rounds, hr] at hc, fun _ => ?_⟩
      refine ⟨ms, _, _, _, done_arrive (arrivals (e :: l)) h, ?_⟩
      rw [ha, ← List.append_assoc]
      exact stuck_append _ (hs.2 hr)
    | some c1 =>
      obtain ⟨ms1, o1, hd1, hw1⟩ := hs.1 c1 hr
      obtain ⟨i1, i2⟩ := ih hd1
      simp only [rounds, hr, Option.bind_some]
      rw [ha, ← List.append_assoc]
      refine ⟨fun c' hc => ?_, i2⟩
      obtain ⟨ms', o, hd, hw⟩ := i1 c' hc
      exact ⟨ms', o1 ++ o, by rw [← List.append_assoc]; exact hd, by rw [hw, hw1]; simp⟩

theorem done_unique {cfg : Cfg} {sys : Call → σ → Resp × σ} {input r r' o o' : Bytes} {x y y' : Srv × σ} {ms ms' : List Bytes}
    (h : Done cfg sys input x ms r y o) (h' : Done cfg sys input x ms' r' y' o') (hr : ¬ Ready r ∨ Stuck cfg y.1 r)
    (hr' : ¬ Ready r' ∨ Stuck cfg y'.1 r') : ms = ms' ∧ r = r' ∧ y = y' ∧ o = o' := by
  have key : ∀ {rest m : Bytes} {l : List Bytes} {q : Srv × σ} {z}, (¬ Ready rest ∨ Stuck cfg q.1 rest) →
      rest = ((m :: l).map frame).flatten ++ r' ∨ rest = ((m :: l).map frame).flatten ++ r → m.length ≤ 262144 →
      alone cfg sys m q = some z → False := by
    intro rest m l q z hq he hm ha
    have hne := alone_ne_nil ha
    obtain ⟨t, ht⟩ : ∃ t, rest = frame m ++ t := by
      rcases he with he | he <;> exact ⟨_, by rw [he]; simp; rfl⟩
    rcases hq with hq | ⟨-, hq | hq⟩
    · exact hq (ht ▸ ready_frame m t hm (by simp [hne]))
    · rw [ht, take_frame, ofBE_be_of_lt (by omega)] at hq; omega
    · have := hq m t hm ht
      simp [alone, this] at ha
  induction ms generalizing input x ms' o o' with
  | nil =>
    have h1 := h.serve
    simp only [serve, Option.some.injEq, Prod.mk.injEq] at h1
    obtain ⟨rfl, rfl⟩ := h1
    cases ms' with
    | nil =>
      have h2 := h'.serve
      simp only [serve, Option.some.injEq, Prod.mk.injEq] at h2
      refine ⟨rfl, ?_, h2.1, h2.2⟩
      have := h.input.symm.trans h'.input
      simpa using this
    | cons m l =>
      exfalso
      have h2 := h'.serve
      simp only [serve] at h2
      cases ha : alone cfg sys m x with
      | none => simp [ha] at h2
      | some z =>
        refine key hr (m := m) (l := l) (.inl ?_) (h'.short m (by simp)) ha
        have := h.input.symm.trans h'.input
        simpa using this
  | cons m l ih =>
    have h1 := h.serve
    simp only [serve] at h1
    cases ha : alone cfg sys m x with
    | none => simp [ha] at h1
    | some z =>
      rw [ha] at h1
      simp only [Option.bind_some] at h1
      cases ms' with
      | nil =>
        exfalso
        have h2 := h'.serve
        simp only [serve, Option.some.injEq, Prod.mk.injEq] at h2
        obtain ⟨rfl, rfl⟩ := h2
        refine key hr' (m := m) (l := l) (.inr ?_) (h.short m (by simp)) ha
        have := h'.input.symm.trans h.input
        simpa using this
      | cons m' l' =>
        have hi := h.input.symm.trans h'.input
        simp only [List.map_cons, List.flatten_cons, List.append_assoc] at hi
        obtain ⟨rfl, hi2⟩ := frame_inj (h.short m (by simp)) (h'.short m' (by simp)) hi
        have h2 := h'.serve
        simp only [serve, ha, Option.bind_some] at h2
        cases hs : serve cfg sys l z.1 with
        | none => simp [hs] at h1
        | some u =>
          cases hs' : serve cfg sys l' z.1 with
          | none => simp [hs'] at h2
          | some u' =>
            simp only [hs, Option.map_some, Option.some.injEq, Prod.mk.injEq] at h1
            simp only [hs', Option.map_some, Option.some.injEq, Prod.mk.injEq] at h2
            obtain ⟨a1, a2⟩ := h1
            obtain ⟨b1, b2⟩ := h2
            obtain ⟨e1, e2, e3, e4⟩ := ih (input := (l.map frame).flatten ++ r) (x := z.1) (ms' := l') (o := u.2) (o' := u'.2)
              ⟨rfl, fun m' hm' => h.short m' (List.mem_cons_of_mem _ hm'), by rw [hs, ← a1]⟩
              ⟨hi2, fun m' hm' => h'.short m' (List.mem_cons_of_mem _ hm'), by rw [hs', ← b1]⟩
            exact ⟨by rw [e1], e2, e3, by rw [← a2, ← b2, e4]⟩

/-! ### C36 -/

/-- C36: however the bytes arrive, however the answers are taken away and whatever room there is: what was handled is
the messages of the input, each as if by itself, one after another; what is left of the input is what waits. -/
theorem C36_in_order (cfg : Cfg) (sys : Call → σ → Resp × σ) (evs : List Event) (c c' : Conn σ) (h : rounds cfg sys evs c = some c') :
    ∃ ms out, c.iq ++ arrivals evs = (ms.map frame).flatten ++ c'.iq ∧
      serve cfg sys ms (c.srv, c.world) = some ((c'.srv, c'.world), out) ∧ c'.wire ++ c'.oq = c.wire ++ c.oq ++ out := by
  obtain ⟨ms, o, hd, hw⟩ := (rounds_steps evs (c := c) (input := c.iq) (out := []) (x := (c.srv, c.world)) (ms := [])
    ⟨by simp, by simp, rfl⟩).1 c' h
  exact ⟨ms, o, hd.input, by simpa using hd.serve, hw⟩

/-- C36: the server ends only if, after messages that it handled, there is a length over the limit or a message that
cannot be understood by itself. -/
theorem C36_end (cfg : Cfg) (sys : Call → σ → Resp × σ) (evs : List Event) (c : Conn σ) (h : rounds cfg sys evs c = none) :
    ∃ ms rest y out, c.iq ++ arrivals evs = (ms.map frame).flatten ++ rest ∧ serve cfg sys ms (c.srv, c.world) = some (y, out) ∧
      Ready rest ∧ (ofBE (rest.take 4) > 262144 ∨
        ∀ m x, m.length ≤ 262144 → rest = frame m ++ x → alone cfg sys m y = none) := by
  obtain ⟨ms, rest, y, o, hd, hs⟩ := (rounds_steps evs (c := c) (input := c.iq) (out := []) (x := (c.srv, c.world)) (ms := [])
    ⟨by simp, by simp, rfl⟩).2 h
  refine ⟨ms, rest, y, o, hd.input, hd.serve, hs.1, hs.2.imp id fun h m x hm e => ?_⟩
  simp [alone, h m x hm e]

/-- A round in which nothing arrives and nothing is taken away. -/
def idle : Event := {}

theorem round_idle_shorter {cfg : Cfg} {sys : Call → σ → Resp × σ} {c c' : Conn σ} (h : round cfg sys idle c = some c') :
    (¬ Ready c.iq ∧ c'.iq = c.iq) ∨ c'.iq.length < c.iq.length := by
  unfold round at h
  simp only [idle, if_true, List.append_nil] at h
  rcases process_step cfg sys c.srv c.world c.iq with ⟨hr, hp⟩ | ⟨_, hp⟩ | ⟨m, r, z, hi, hm, hne, ha, hp⟩
  · rw [hp] at h
    simp only [afterProcess, transfer, Option.some.injEq] at h
    subst h
    exact .inl ⟨hr, by simp⟩
  · rw [show interp sys (process cfg c.srv c.iq) c.world = (.exit, (interp sys (process cfg c.srv c.iq) c.world).2) by rw [← hp]] at h
    simp [afterProcess] at h
  · rw [hp] at h
    simp only [afterProcess, transfer, Option.some.injEq] at h
    subst h
    right
    simp only
    rw [hi, List.length_append, frame_length]
    omega

/-- C36: rounds without new input handle everything that is complete. -/
theorem C36_drained (cfg : Cfg) (sys : Call → σ → Resp × σ) (n : Nat) (c c' : Conn σ) (hn : c.iq.length ≤ n)
    (h : rounds cfg sys (List.replicate n idle) c = some c') : ¬ Ready c'.iq := by
  have still : ∀ (n : Nat) (c : Conn σ), ¬ Ready c.iq → rounds cfg sys (List.replicate n idle) c = some c' → ¬ Ready c'.iq := by
    intro n
    induction n with
    | zero => intro c hc h; simp only [List.replicate_zero, rounds, Option.some.injEq] at h; rw [← h]; exact hc
    | succ n ih =>
      intro c hc h
      simp only [List.replicate_succ, rounds] at h
      cases hr : round cfg sys idle c with
      | none => simp [hr] at h
      | some c1 =>
        rw [hr] at h
        refine ih c1 ?_ h
        rcases round_idle_shorter hr with ⟨-, e⟩ | e
        · rw [e]; exact hc
        · unfold Ready at hc ⊢
          intro hx
          unfold round at hr
          simp only [idle, if_true, List.append_nil] at hr
          rw [process_wait cfg c.srv c.iq hc] at hr
          simp only [interp, afterProcess, transfer, Option.some.injEq] at hr
          subst hr
          simp at e
  induction n generalizing c with
  | zero =>
    simp only [List.replicate_zero, rounds, Option.some.injEq] at h
    subst h
    intro hr
    have := hr.1
    omega
  | succ n ih =>
    simp only [List.replicate_succ, rounds] at h
    cases hr : round cfg sys idle c with
    | none => simp [hr] at h
    | some c1 =>
      rw [hr] at h
      rcases round_idle_shorter hr with ⟨hc, e⟩ | e
      · exact still n c1 (by rw [e]; exact hc) h
      · exact ih c1 (by omega) h

theorem rounds_append (cfg : Cfg) (sys : Call → σ → Resp × σ) (a b : List Event) (c : Conn σ) :
    rounds cfg sys (a ++ b) c = (rounds cfg sys a c).bind (rounds cfg sys b) := by
  induction a generalizing c with
  | nil => rfl
  | cons e a ih =>
    simp only [List.cons_append, rounds]
    cases round cfg sys e c with
    | none => rfl
    | some c1 => exact ih c1

/-- Everything about a connection that does not depend on when answers are taken away. -/
def result (c : Conn σ) : Srv × σ × Bytes × Bytes := (c.srv, c.world, c.iq, c.wire ++ c.oq)

theorem iq_length_le {cfg : Cfg} {sys : Call → σ → Resp × σ} {evs : List Event} {c c' : Conn σ} (h : rounds cfg sys evs c = some c') :
    c'.iq.length ≤ (c.iq ++ arrivals evs).length := by
  obtain ⟨ms, o, h1, -⟩ := C36_in_order cfg sys evs c c' h
  rw [h1, List.length_append]; omega

/-- C36: two ways for the same bytes to arrive, with rounds enough after them, end the server both, or leave it in the
same state, having asked the same of the system and given the same answers. -/
theorem C36_same (cfg : Cfg) (sys : Call → σ → Resp × σ) (e1 e2 : List Event) (n1 n2 : Nat) (c : Conn σ)
    (he : arrivals e1 = arrivals e2) (h1 : (c.iq ++ arrivals e1).length ≤ n1) (h2 : (c.iq ++ arrivals e2).length ≤ n2) :
    (rounds cfg sys (e1 ++ List.replicate n1 idle) c).map result = (rounds cfg sys (e2 ++ List.replicate n2 idle) c).map result := by
  have start : Done cfg sys c.iq (c.srv, c.world) [] c.iq (c.srv, c.world) [] := ⟨by simp, by simp, rfl⟩
  have hidle : ∀ n, arrivals (List.replicate n idle) = [] := by
    intro n
    induction n with
    | zero => rfl
    | succ n ih => simpa [arrivals, List.replicate_succ, idle] using ih
  have harr : ∀ (e : List Event) n, arrivals (e ++ List.replicate n idle) = arrivals e := by
    intro e n
    have := hidle n
    simp only [arrivals, List.map_append, List.flatten_append] at this ⊢
    rw [this, List.append_nil]
  have fin : ∀ (e : List Event) n, (c.iq ++ arrivals e).length ≤ n → ∃ ms r y o, Done cfg sys (c.iq ++ arrivals e) (c.srv, c.world) ms r y o ∧
      ((¬ Ready r ∧ (rounds cfg sys (e ++ List.replicate n idle) c).map result = some (y.1, y.2, r, c.wire ++ c.oq ++ o)) ∨
        (Stuck cfg y.1 r ∧ (rounds cfg sys (e ++ List.replicate n idle) c).map result = none)) := by
    intro e n hn
    have hst := rounds_steps (e ++ List.replicate n idle) start
    rw [harr] at hst
    cases hr : rounds cfg sys (e ++ List.replicate n idle) c with
    | none =>
      obtain ⟨ms, r, y, o, hd, hs⟩ := hst.2 hr
      exact ⟨ms, r, y, o, hd, .inr ⟨hs, rfl⟩⟩
    | some c' =>
      obtain ⟨ms, o, hd, hw⟩ := hst.1 c' hr
      refine ⟨ms, _, _, _, hd, .inl ⟨?_, ?_⟩⟩
      · rw [rounds_append] at hr
        cases hm : rounds cfg sys e c with
        | none => simp [hm] at hr
        | some c1 =>
          rw [hm] at hr
          exact C36_drained cfg sys n c1 c' (Nat.le_trans (iq_length_le hm) hn) hr
      · simp [result, hw]
  obtain ⟨ms, r, y, o, hd, hf⟩ := fin e1 n1 h1
  obtain ⟨ms', r', y', o', hd', hf'⟩ := fin e2 n2 h2
  rw [← he] at hd'
  obtain ⟨rfl, rfl, rfl, rfl⟩ := done_unique hd hd' (hf.imp And.left And.left) (hf'.imp And.left And.left)
  rcases hf with ⟨a, b⟩ | ⟨a, b⟩ <;> rcases hf' with ⟨a', b'⟩ | ⟨a', b'⟩
  · rw [b, b']
  · exact absurd a'.1 a
  · exact absurd a.1 a'
  · rw [b, b']

end Verif.Sftp
