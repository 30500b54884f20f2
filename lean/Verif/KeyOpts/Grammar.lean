/-
C59: what the options text in front of a key means.  First the grammar and the meaning of each option,
as sshd(8) gives them; then that the parser accepts exactly these texts with exactly this meaning.
-/
import Verif.KeyOpts.Props

namespace Verif.KeyOpts

open Match (toLower)

namespace Spec

/-- One option: a flag with its value, or a clause with its (unquoted) text. -/
inductive Item where
  | flag (name : Bytes) (v : Bool)
  | clause (name v : Bytes)
  deriving DecidableEq, Repr

def flagNames : List Bytes :=
  [b!"restrict", b!"cert-authority", b!"port-forwarding", b!"agent-forwarding", b!"x11-forwarding",
   b!"touch-required", b!"verify-required", b!"pty", b!"user-rc"]

def clauseNames : List Bytes :=
  [b!"command", b!"principals", b!"from", b!"expiry-time", b!"environment", b!"permitopen", b!"permitlisten", b!"tunnel"]

/-- Inside quotes a backslash before a quote stands for the quote; everything else for itself. -/
inductive Quoted : Bytes → Bytes → Prop where
  | nil : Quoted [] []
  | esc {q v} : Quoted q v → Quoted (92 :: 34 :: q) (34 :: v)
  | plain {c q v} : c ≠ 34 → (c = 92 → (q ++ [34]).head? ≠ some 34) → Quoted q v → Quoted (c :: q) (c :: v)

/-- Option `i` written as `t`, in any mix of upper and lower case. -/
inductive Written : Item → Bytes → Prop where
  | flag {n t} : n ∈ flagNames → t.map toLower = n → Written (.flag n true) t
  | noFlag {n t} : n ∈ flagNames → n ≠ b!"restrict" → n ≠ b!"cert-authority" → t.map toLower = b!"no-" ++ n →
      Written (.flag n false) t
  | clause {n t q v} : n ∈ clauseNames → t.map toLower = n → Quoted q v →
      Written (.clause n v) (t ++ 61 :: 34 :: (q ++ [34]))

/-- The text ends, or goes on after a blank. -/
def Ends (rest : Bytes) : Prop := rest = [] ∨ ∃ c r, rest = c :: r ∧ (c = 32 ∨ c = 9)

/-- The options `is` are written at the start of `s`, up to `rest`.  Options are separated by commas;
nothing between two commas is allowed, a comma at the very end is not. -/
inductive Line : List Item → Bytes → Bytes → Prop where
  | done {rest} : Ends rest → Line [] rest rest
  | last {i t rest} : Written i t → Ends rest → Line [i] (t ++ rest) rest
  | empty {is r rest} : r ≠ [] → Line is r rest → Line is (44 :: r) rest
  | more {i is t r rest} : Written i t → r ≠ [] → Line is r rest → Line (i :: is) (t ++ 44 :: r) rest

/-- Set a clause that may be given once only. -/
def setOnce (old : Option Bytes) (f : Opts) : Option Opts := if old = none then some f else none

/-- The meaning of one option. -/
def meaning (w : World) : Item → Opts → Option Opts
  | .flag n v, o =>
    if n = b!"restrict" then some { o with
      restricted := true, portFwd := false, agentFwd := false, x11 := false, pty := false, userRc := false }
    else if n = b!"cert-authority" then some { o with certAuthority := v }
    else if n = b!"port-forwarding" then some { o with portFwd := v }
    else if n = b!"agent-forwarding" then some { o with agentFwd := v }
    else if n = b!"x11-forwarding" then some { o with x11 := v }
    else if n = b!"touch-required" then some { o with noPresence := !v }
    else if n = b!"verify-required" then some { o with verify := v }
    else if n = b!"pty" then some { o with pty := v }
    else if n = b!"user-rc" then some { o with userRc := v }
    else none
  | .clause n v, o =>
    if n = b!"command" then setOnce o.command { o with command := some v }
    else if n = b!"principals" then setOnce o.principals { o with principals := some v }
    else if n = b!"from" then setOnce o.fromKeys { o with fromKeys := some v }
    else if n = b!"expiry-time" then setExpiry w v o
    else if n = b!"environment" then setEnv v o
    else if n = b!"permitopen" then
      (handlePermit w false o.permitopen.length v).map fun e => { o with permitopen := o.permitopen ++ [e] }
    else if n = b!"permitlisten" then
      (handlePermit w true o.permitlisten.length v).map fun e => { o with permitlisten := o.permitlisten ++ [e] }
    else if n = b!"tunnel" then (a2tun v).map fun t => { o with tun := t }
    else none

/-- The meaning of a sequence of options. -/
def meanings (w : World) : List Item → Opts → Option Opts
  | [], o => some o
  | i :: is, o => (meaning w i o).bind (meanings w is)

/-- The last option that says something about a permission decides; "restrict" takes it away. -/
def decides (name : Bytes) (is : List Item) : Bool :=
  match is.reverse.find? (fun i => i == .flag name true || i == .flag name false || i == .flag b!"restrict" true) with
  | some i => i == .flag name true
  | none => true

end Spec

open Spec

/-! ### Names in the text -/

theorem take_map_toLower (n : Nat) (s : Bytes) : (s.take n).map toLower = (s.map toLower).take n := List.map_take ..

/-- Only one of two names, neither of which begins with the other, can be at the start of a text. -/
theorem startsCase_incomp {a k t r : Bytes} (h : startsCase a (t ++ r) = true) (ht : t.map toLower = k) :
    a.map toLower <+: k ∨ k <+: a.map toLower := by
  have h1 : a.map toLower <+: (t ++ r).map toLower := by
    simp only [startsCase, decide_eq_true_eq, take_map_toLower] at h
    rw [← h]; exact List.take_prefix _ _
  have h2 : k <+: (t ++ r).map toLower := by rw [List.map_append, ht]; exact List.prefix_append _ _
  exact List.prefix_or_prefix_of_prefix h1 h2

theorem startsCase_self {n t r : Bytes} (hn : n.map toLower = n) (ht : t.map toLower = n) :
    startsCase n (t ++ r) = true := by
  have hl : t.length = n.length := by rw [← ht]; simp
  simp [startsCase, ← hl, ht, hn]

theorem startsCase_split {n s : Bytes} (hn : n.map toLower = n) (h : startsCase n s = true) :
    ∃ t, t.map toLower = n ∧ s = t ++ s.drop n.length := by
  simp only [startsCase, decide_eq_true_eq, hn] at h
  exact ⟨s.take n.length, h, (List.take_append_drop _ _).symm⟩

/-- every flag's name and its negation, and every clause's name with the equals sign -/
def Apart (a k : Bytes) : Prop := ¬ (a.map toLower <+: k ∨ k <+: a.map toLower)

instance (a k : Bytes) : Decidable (Apart a k) := by unfold Apart; infer_instance

theorem Apart.not_starts {a k t r : Bytes} (h : Apart a k) (ht : t.map toLower = k) : startsCase a (t ++ r) = false := by
  cases hs : startsCase a (t ++ r) with
  | false => rfl
  | true => exact absurd (startsCase_incomp hs ht) h

/-- no flag of the list is at the start of a text starting with `k` -/
def FlagsApart (fs : List (Bytes × Bool)) (k : Bytes) : Prop :=
  ∀ e ∈ fs, Apart e.1 k ∧ (e.2 = true → Apart (b!"no-" ++ e.1) k)

theorem drop_drop_cons {t r : Bytes} {n : Nat} (h : t.length = n) : (t ++ r).drop n = r := by
  subst h; simp

theorem startsCase_no {n s : Bytes} (h1 : startsCase b!"no-" s = true) (h2 : startsCase n (s.drop 3) = true) :
    startsCase (b!"no-" ++ n) s = true := by
  simp only [startsCase, decide_eq_true_eq] at h1 h2 ⊢
  have : (b!"no-" ++ n).length = 3 + n.length := by simp; omega
  rw [this, List.take_add, List.map_append, List.map_append, h2]
  have h3 : (b!"no-" : Bytes).length = 3 := rfl
  rw [h3] at h1
  rw [h1]

theorem optFlag_none {n : Bytes} {neg : Bool} {k t r : Bytes} (h1 : Apart n k) (h2 : neg = true → Apart (b!"no-" ++ n) k)
    (ht : t.map toLower = k) : optFlag n neg (t ++ r) = none := by
  unfold optFlag
  split
  · rename_i h
    simp only [Bool.and_eq_true] at h
    split
    · rename_i h'
      have := (h2 h.1).not_starts (r := r) ht
      rw [startsCase_no h.2 h'] at this
      simp at this
    · rfl
  · rw [if_neg]
    rw [h1.not_starts ht]; simp

/-! ### Flags -/

/-- the texts by which a flag is given -/
def flagKey (n : Bytes) (v : Bool) : Bytes := if v then n else b!"no-" ++ n

theorem optFlag_some {n : Bytes} {neg v : Bool} {s r : Bytes} (hn : n.map toLower = n) (h : optFlag n neg s = some (v, r)) :
    ∃ t, t.map toLower = flagKey n v ∧ s = t ++ r ∧ (v = false → neg = true) := by
  unfold optFlag at h
  split at h
  · rename_i hc
    simp only [Bool.and_eq_true] at hc
    split at h
    · rename_i hs
      simp only [Option.some.injEq, Prod.mk.injEq] at h
      obtain ⟨rfl, rfl⟩ := h
      have hno := startsCase_no hc.2 hs
      obtain ⟨t, h1, h2⟩ := startsCase_split (n := b!"no-" ++ n) (by rw [List.map_append, hn]; rfl) hno
      refine ⟨t, h1, ?_, fun _ => hc.1⟩
      rw [List.drop_drop]
      conv => lhs; rw [h2]
      have e : (b!"no-" ++ n).length = 3 + n.length := by simp; omega
      rw [e]
    · simp at h
  · split at h
    · rename_i hs
      simp only [Option.some.injEq, Prod.mk.injEq] at h
      obtain ⟨rfl, rfl⟩ := h
      obtain ⟨t, h1, h2⟩ := startsCase_split hn hs
      exact ⟨t, h1, h2, by simp⟩
    · simp at h

theorem optFlag_of {n : Bytes} {neg v : Bool} {t r : Bytes} (hn : n.map toLower = n) (ht : t.map toLower = flagKey n v)
    (hv : v = false → neg = true) (ha : Apart b!"no-" n) : optFlag n neg (t ++ r) = some (v, r) := by
  unfold optFlag
  cases v with
  | false =>
    simp only [flagKey, Bool.false_eq_true, if_false] at ht
    have hl : t.length = 3 + n.length := by
      have := congrArg List.length ht
      simp at this; omega
    have hs : startsCase b!"no-" (t ++ r) = true := by
      simp only [startsCase, decide_eq_true_eq]
      have e : (b!"no-" : Bytes).length = 3 := rfl
      rw [e, List.take_append_of_le_length (by omega), take_map_toLower, ht]
      simp only [List.map_cons, List.map_nil]; rfl
    have hs2 : startsCase n ((t ++ r).drop 3) = true := by
      rw [List.drop_append_of_le_length (by omega)]
      refine startsCase_self hn ?_
      rw [List.map_drop, ht]; rfl
    rw [if_pos (by rw [hv rfl, hs]; rfl), if_pos hs2, List.drop_drop]
    congr 2
    exact drop_drop_cons (by omega)
  | true =>
    simp only [flagKey, if_true] at ht
    rw [if_neg, if_pos (startsCase_self hn ht)]
    · congr 2
      exact drop_drop_cons (by rw [← ht]; simp)
    · rw [ha.not_starts ht]; simp

theorem tryFlags_some {s r : Bytes} {o o' : Opts} :
    ∀ (fs : List (Bytes × Bool × (Bool → Opts → Opts))), (∀ e ∈ fs, e.1.map toLower = e.1) →
      tryFlags s o fs = some (o', r) →
      ∃ e ∈ fs, ∃ v t, t.map toLower = flagKey e.1 v ∧ s = t ++ r ∧ (v = false → e.2.1 = true) ∧ o' = e.2.2 v o := by
  intro fs
  induction fs with
  | nil => intro _ h; simp [tryFlags] at h
  | cons e fs ih =>
    obtain ⟨n, neg, f⟩ := e
    intro hn h
    simp only [tryFlags] at h
    split at h
    · rename_i v r' hf
      simp only [Option.some.injEq, Prod.mk.injEq] at h
      obtain ⟨rfl, rfl⟩ := h
      obtain ⟨t, h1, h2, h3⟩ := optFlag_some (hn _ List.mem_cons_self) hf
      exact ⟨_, List.mem_cons_self, v, t, h1, h2, h3, rfl⟩
    · obtain ⟨e, he, h⟩ := ih (fun e he => hn e (List.mem_cons_of_mem _ he)) h
      exact ⟨e, List.mem_cons_of_mem _ he, h⟩

theorem tryFlags_none {t r k : Bytes} {o : Opts} (ht : t.map toLower = k) :
    ∀ (fs : List (Bytes × Bool × (Bool → Opts → Opts))), FlagsApart (fs.map fun e => (e.1, e.2.1)) k →
      tryFlags (t ++ r) o fs = none := by
  intro fs
  induction fs with
  | nil => intro _; rfl
  | cons e fs ih =>
    obtain ⟨n, neg, f⟩ := e
    intro h
    simp only [tryFlags]
    have h1 := h (n, neg) (by simp)
    rw [optFlag_none h1.1 h1.2 ht]
    exact ih fun e he => h e (List.mem_cons_of_mem _ he)

theorem tryFlags_of {t r : Bytes} {o : Opts} {n : Bytes} {neg v : Bool} {f : Bool → Opts → Opts}
    (hn : n.map toLower = n) (ht : t.map toLower = flagKey n v) (hv : v = false → neg = true) (ha : Apart b!"no-" n)
    (u w : List (Bytes × Bool × (Bool → Opts → Opts))) (hu : FlagsApart (u.map fun e => (e.1, e.2.1)) (flagKey n v)) :
    tryFlags (t ++ r) o (u ++ (n, neg, f) :: w) = some (f v o, r) := by
  induction u with
  | nil => simp [tryFlags, optFlag_of hn ht hv ha]
  | cons e u ih =>
    obtain ⟨m, neg', g⟩ := e
    simp only [List.cons_append, tryFlags]
    have h1 := hu (m, neg') (by simp)
    rw [optFlag_none h1.1 h1.2 ht]
    exact ih fun e he => hu e (List.mem_cons_of_mem _ he)

/-! ### Quotes -/

theorem dequoteGo_quoted {q v r : Bytes} (h : Quoted q v) : dequoteGo (q ++ 34 :: r) = (v, 34 :: r) := by
  induction h with
  | nil => rfl
  | esc _ ih => simp [dequoteGo, ih]
  | @plain c q v h1 h2 _ ih =>
    have : dequoteGo (c :: (q ++ 34 :: r)) = (c :: (dequoteGo (q ++ 34 :: r)).1, (dequoteGo (q ++ 34 :: r)).2) := by
      rw [dequoteGo]
      · intro h; exact h1 h
      · intro r' hc hr
        have := h2 hc
        cases q with
        | nil => simp at this
        | cons x q =>
          simp at this hr
          exact this hr.1
    rw [List.cons_append, this, ih]

theorem dequoteGo_split (s : Bytes) : ∀ r, (dequoteGo s).2 = r → r ≠ [] →
    ∃ q r', Quoted q (dequoteGo s).1 ∧ s = q ++ r ∧ r = 34 :: r' := by
  induction s using dequoteGo.induct with
  | case1 => intro r h hr; simp only [dequoteGo] at h; exact absurd h.symm hr
  | case2 r0 => intro r h _; simp only [dequoteGo] at h ⊢; exact ⟨[], r0, .nil, by simp [← h], h.symm⟩
  | case3 s ih =>
    intro r h hr
    simp only [dequoteGo] at h ⊢
    obtain ⟨q, r', h1, h2, h3⟩ := ih r h hr
    exact ⟨92 :: 34 :: q, r', .esc h1, by simp [← h2], h3⟩
  | case4 c s h1 h2 ih =>
    intro r h hr
    have e : dequoteGo (c :: s) = (c :: (dequoteGo s).1, (dequoteGo s).2) := by
      rw [dequoteGo]
      · exact h1
      · exact h2
    rw [e] at h ⊢
    obtain ⟨q, r', i1, i2, i3⟩ := ih r h hr
    refine ⟨c :: q, r', .plain h1 ?_ i1, by simp [← i2], i3⟩
    intro hc hq
    subst i2 i3
    cases q with
    | nil => exact h2 r' hc rfl
    | cons x q => simp at hq; subst hq; exact h2 _ hc rfl

theorem dequote_of {q v r : Bytes} (h : Quoted q v) : dequote (34 :: (q ++ 34 :: r)) = some (v, r) := by
  simp [dequote, dequoteGo_quoted h]

theorem dequote_some {s v r : Bytes} (h : dequote s = some (v, r)) : ∃ q, Quoted q v ∧ s = 34 :: (q ++ 34 :: r) := by
  unfold dequote at h
  split at h
  · rename_i s'
    split at h
    · simp at h
    · rename_i x r' hx
      simp only [Option.some.injEq, Prod.mk.injEq] at h
      obtain ⟨rfl, rfl⟩ := h
      obtain ⟨q, r2, h1, h2, h3⟩ := dequoteGo_split s' _ hx (by simp)
      simp only [List.cons.injEq] at h3
      obtain ⟨rfl, rfl⟩ := h3
      exact ⟨q, h1, by rw [← h2]⟩
  · simp at h

/-! ### Clauses -/

theorem optMatch_some {n s r : Bytes} (hn : n.map toLower = n) (h : optMatch n s = some r) :
    ∃ t, t.map toLower = n ∧ s = t ++ 61 :: r := by
  unfold optMatch at h
  split at h
  · rename_i hc
    obtain ⟨t, h1, h2⟩ := startsCase_split hn hc.1
    simp only [Option.some.injEq] at h
    refine ⟨t, h1, ?_⟩
    conv => lhs; rw [h2]
    congr 1
    rw [List.head?_eq_some_iff] at hc
    obtain ⟨y, hy⟩ := hc.2
    rw [hy, ← h, ← List.drop_drop, hy]
    rfl
  · simp at h

theorem optMatch_of {n t r : Bytes} (hn : n.map toLower = n) (ht : t.map toLower = n) : optMatch n (t ++ 61 :: r) = some r := by
  have hl : t.length = n.length := by rw [← ht]; simp
  unfold optMatch
  rw [if_pos ⟨startsCase_self hn ht, by rw [drop_drop_cons hl]; rfl⟩, ← List.drop_drop, drop_drop_cons hl]
  rfl

theorem optMatch_none {n k t r : Bytes} (h : Apart n k) (ht : t.map toLower = k) : optMatch n (t ++ r) = none := by
  unfold optMatch
  rw [if_neg]
  rw [h.not_starts ht]; simp

theorem tryClauses_some {s : Bytes} {o : Opts} {x : Option (Opts × Bytes)} :
    ∀ (cs : List (Bytes × (Bytes → Opts → Option Opts))), (∀ e ∈ cs, e.1.map toLower = e.1) →
      tryClauses s o cs = some x →
      ∃ e ∈ cs, ∃ t r, t.map toLower = e.1 ∧ s = t ++ 61 :: r ∧
        x = (dequote r).bind fun p => (e.2 p.1 o).map fun o' => (o', p.2) := by
  intro cs
  induction cs with
  | nil => intro _ h; simp [tryClauses] at h
  | cons e cs ih =>
    obtain ⟨n, f⟩ := e
    intro hn h
    simp only [tryClauses] at h
    split at h
    · rename_i r hr
      obtain ⟨t, h1, h2⟩ := optMatch_some (hn _ List.mem_cons_self) hr
      refine ⟨_, List.mem_cons_self, t, r, h1, h2, ?_⟩
      split at h
      · rename_i hd
        simp only [Option.some.injEq] at h
        simp [hd, ← h]
      · rename_i v r' hd
        simp only [Option.some.injEq] at h
        simp [hd, ← h]
    · obtain ⟨e, he, h⟩ := ih (fun e he => hn e (List.mem_cons_of_mem _ he)) h
      exact ⟨e, List.mem_cons_of_mem _ he, h⟩

theorem tryClauses_of {t q v r : Bytes} {o : Opts} {n : Bytes} {f : Bytes → Opts → Option Opts}
    (hn : n.map toLower = n) (ht : t.map toLower = n) (hq : Quoted q v)
    (u w : List (Bytes × (Bytes → Opts → Option Opts))) (hu : ∀ m ∈ u.map (·.1), Apart m (n ++ [61])) :
    tryClauses (t ++ 61 :: 34 :: (q ++ 34 :: r)) o (u ++ (n, f) :: w) = some ((f v o).map fun o' => (o', r)) := by
  induction u with
  | nil => simp [tryClauses, optMatch_of hn ht, dequote_of hq]
  | cons e u ih =>
    obtain ⟨m, g⟩ := e
    simp only [List.cons_append, tryClauses]
    have e : t ++ 61 :: 34 :: (q ++ 34 :: r) = (t ++ [61]) ++ 34 :: (q ++ 34 :: r) := by simp
    have h0 : optMatch m (t ++ 61 :: 34 :: (q ++ 34 :: r)) = none := by
      rw [e]
      exact optMatch_none (hu m (by simp)) (by rw [List.map_append, ht]; rfl)
    rw [h0]
    exact ih fun m hm => hu m (List.mem_cons_of_mem _ hm)

/-! ### One option -/

theorem once_eq (old : Option Bytes) (v : Bytes) (set : Option Bytes → Opts) : once old v set = setOnce old (set (some v)) := by
  unfold once setOnce
  cases old <;> simp

theorem flags_lower : ∀ e ∈ flags, e.1.map toLower = e.1 := by
  intro e he
  simp only [flags, List.mem_cons, List.not_mem_nil, or_false] at he
  rcases he with rfl | rfl | rfl | rfl | rfl | rfl | rfl | rfl | rfl <;> decide

theorem clauses_lower (w : World) : ∀ e ∈ clauses w, e.1.map toLower = e.1 := by
  intro e he
  simp only [clauses, List.mem_cons, List.not_mem_nil, or_false] at he
  rcases he with rfl | rfl | rfl | rfl | rfl | rfl | rfl | rfl <;> rfl

/-- the names of the flags and whether they may be negated -/
def flagTable : List (Bytes × Bool) :=
  [(b!"restrict", false), (b!"cert-authority", false), (b!"port-forwarding", true), (b!"agent-forwarding", true),
   (b!"x11-forwarding", true), (b!"touch-required", true), (b!"verify-required", true), (b!"pty", true), (b!"user-rc", true)]

theorem flagTable_eq : (flags.map fun e => (e.1, e.2.1)) = flagTable := rfl

theorem clauseNames_eq (w : World) : (clauses w).map (·.1) = clauseNames := rfl

theorem tryFlags_split {t r : Bytes} {o : Opts} {v : Bool} {e : Bytes × Bool × (Bool → Opts → Opts)} (k : Nat)
    (hs : flags.drop k = e :: flags.drop (k + 1)) (ht : t.map toLower = flagKey e.1 v) (hv : v = false → e.2.1 = true)
    (ha : Apart b!"no-" e.1) (hu : FlagsApart (flagTable.take k) (flagKey e.1 v)) :
    tryFlags (t ++ r) o flags = some (e.2.2 v o, r) := by
  have hs' : flags = flags.take k ++ e :: flags.drop (k + 1) := by rw [← hs, List.take_append_drop]
  have he : e ∈ flags := by rw [hs']; simp
  conv => lhs; rw [hs']
  refine tryFlags_of (flags_lower _ he) ht hv ha _ _ ?_
  rw [List.map_take, flagTable_eq]; exact hu

theorem parseOne_clause {w : World} {t q v r : Bytes} {o : Opts} {e : Bytes × (Bytes → Opts → Option Opts)} (k : Nat)
    (hs : (clauses w).drop k = e :: (clauses w).drop (k + 1)) (ht : t.map toLower = e.1) (hq : Quoted q v)
    (hl : e.1.map toLower = e.1) (hf : FlagsApart flagTable (e.1 ++ [61]))
    (hc : ∀ m ∈ ((clauses w).take k).map (·.1), Apart m (e.1 ++ [61])) :
    parseOne w ((t ++ 61 :: 34 :: (q ++ [34])) ++ r) o = (e.2 v o).map fun o' => (o', r) := by
  have hs' : clauses w = (clauses w).take k ++ e :: (clauses w).drop (k + 1) := by rw [← hs, List.take_append_drop]
  have ht' : (t ++ [61]).map toLower = e.1 ++ [61] := by rw [List.map_append, ht]; rfl
  have e2 : (t ++ 61 :: 34 :: (q ++ [34])) ++ r = (t ++ [61]) ++ 34 :: (q ++ 34 :: r) := by simp
  have e3 : (t ++ 61 :: 34 :: (q ++ [34])) ++ r = t ++ 61 :: 34 :: (q ++ 34 :: r) := by simp
  have h1 : tryFlags ((t ++ 61 :: 34 :: (q ++ [34])) ++ r) o flags = none := by
    rw [e2]; exact tryFlags_none ht' _ (by rw [flagTable_eq]; exact hf)
  have h2 : tryClauses ((t ++ 61 :: 34 :: (q ++ [34])) ++ r) o (clauses w) = some ((e.2 v o).map fun o' => (o', r)) := by
    rw [e3]
    conv => lhs; rw [hs']
    exact tryClauses_of hl ht hq _ _ hc
  rw [parseOne, h1, h2]

theorem parseOne_written {w : World} {i : Item} {t r : Bytes} {o : Opts} (h : Written i t) :
    parseOne w (t ++ r) o = (meaning w i o).map fun o' => (o', r) := by
  cases h with
  | @flag n t hn ht =>
    simp only [flagNames, List.mem_cons, List.not_mem_nil, or_false] at hn
    rcases hn with rfl | rfl | rfl | rfl | rfl | rfl | rfl | rfl | rfl
    · rw [parseOne, tryFlags_split (v := true) 0 rfl ht (by simp) (by decide +kernel) (by unfold FlagsApart; decide +kernel)]; rfl
    · rw [parseOne, tryFlags_split (v := true) 1 rfl ht (by simp) (by decide +kernel) (by unfold FlagsApart; decide +kernel)]; rfl
    · rw [parseOne, tryFlags_split (v := true) 2 rfl ht (by simp) (by decide +kernel) (by unfold FlagsApart; decide +kernel)]; rfl
    · rw [parseOne, tryFlags_split (v := true) 3 rfl ht (by simp) (by decide +kernel) (by unfold FlagsApart; decide +kernel)]; rfl
    · rw [parseOne, tryFlags_split (v := true) 4 rfl ht (by simp) (by decide +kernel) (by unfold FlagsApart; decide +kernel)]; rfl
    · rw [parseOne, tryFlags_split (v := true) 5 rfl ht (by simp) (by decide +kernel) (by unfold FlagsApart; decide +kernel)]; rfl
    · rw [parseOne, tryFlags_split (v := true) 6 rfl ht (by simp) (by decide +kernel) (by unfold FlagsApart; decide +kernel)]; rfl
    · rw [parseOne, tryFlags_split (v := true) 7 rfl ht (by simp) (by decide +kernel) (by unfold FlagsApart; decide +kernel)]; rfl
    · rw [parseOne, tryFlags_split (v := true) 8 rfl ht (by simp) (by decide +kernel) (by unfold FlagsApart; decide +kernel)]; rfl
  | @noFlag n t hn h1 h2 ht =>
    simp only [flagNames, List.mem_cons, List.not_mem_nil, or_false] at hn
    rcases hn with rfl | rfl | rfl | rfl | rfl | rfl | rfl | rfl | rfl
    · exact absurd rfl h1
    · exact absurd rfl h2
    · rw [parseOne, tryFlags_split (v := false) 2 rfl ht (fun _ => rfl) (by decide +kernel) (by unfold FlagsApart; decide +kernel)]; rfl
    · rw [parseOne, tryFlags_split (v := false) 3 rfl ht (fun _ => rfl) (by decide +kernel) (by unfold FlagsApart; decide +kernel)]; rfl
    · rw [parseOne, tryFlags_split (v := false) 4 rfl ht (fun _ => rfl) (by decide +kernel) (by unfold FlagsApart; decide +kernel)]; rfl
    · rw [parseOne, tryFlags_split (v := false) 5 rfl ht (fun _ => rfl) (by decide +kernel) (by unfold FlagsApart; decide +kernel)]; rfl
    · rw [parseOne, tryFlags_split (v := false) 6 rfl ht (fun _ => rfl) (by decide +kernel) (by unfold FlagsApart; decide +kernel)]; rfl
    · rw [parseOne, tryFlags_split (v := false) 7 rfl ht (fun _ => rfl) (by decide +kernel) (by unfold FlagsApart; decide +kernel)]; rfl
    · rw [parseOne, tryFlags_split (v := false) 8 rfl ht (fun _ => rfl) (by decide +kernel) (by unfold FlagsApart; decide +kernel)]; rfl
  | @clause n t q v hn ht hq =>
    simp only [clauseNames, List.mem_cons, List.not_mem_nil, or_false] at hn
    rcases hn with rfl | rfl | rfl | rfl | rfl | rfl | rfl | rfl
    · rw [parseOne_clause 0 rfl ht hq rfl (by unfold FlagsApart; dsimp only; decide +kernel) (by rw [List.map_take, clauseNames_eq]; dsimp only; decide +kernel)]; simp only [once_eq]; rfl
    · rw [parseOne_clause 1 rfl ht hq rfl (by unfold FlagsApart; dsimp only; decide +kernel) (by rw [List.map_take, clauseNames_eq]; dsimp only; decide +kernel)]; simp only [once_eq]; rfl
    · rw [parseOne_clause 2 rfl ht hq rfl (by unfold FlagsApart; dsimp only; decide +kernel) (by rw [List.map_take, clauseNames_eq]; dsimp only; decide +kernel)]; simp only [once_eq]; rfl
    · rw [parseOne_clause 3 rfl ht hq rfl (by unfold FlagsApart; dsimp only; decide +kernel) (by rw [List.map_take, clauseNames_eq]; dsimp only; decide +kernel)]; rfl
    · rw [parseOne_clause 4 rfl ht hq rfl (by unfold FlagsApart; dsimp only; decide +kernel) (by rw [List.map_take, clauseNames_eq]; dsimp only; decide +kernel)]; rfl
    · rw [parseOne_clause 5 rfl ht hq rfl (by unfold FlagsApart; dsimp only; decide +kernel) (by rw [List.map_take, clauseNames_eq]; dsimp only; decide +kernel)]; rfl
    · rw [parseOne_clause 6 rfl ht hq rfl (by unfold FlagsApart; dsimp only; decide +kernel) (by rw [List.map_take, clauseNames_eq]; dsimp only; decide +kernel)]; rfl
    · rw [parseOne_clause 7 rfl ht hq rfl (by unfold FlagsApart; dsimp only; decide +kernel) (by rw [List.map_take, clauseNames_eq]; dsimp only; decide +kernel)]; rfl

/-- What the parser takes off the text is an option, or nothing. -/
theorem parseOne_some {w : World} {s r : Bytes} {o o' : Opts} (h : parseOne w s o = some (o', r)) :
    (∃ i t, Written i t ∧ s = t ++ r ∧ meaning w i o = some o') ∨ (s = r ∧ o' = o) := by
  have h0 := h
  unfold parseOne at h
  split at h
  · rename_i x hx
    simp only [Option.some.injEq] at h
    subst h
    obtain ⟨e, he, v, t, h1, h2, h3, h4⟩ := tryFlags_some _ flags_lower hx
    have hw : Written (.flag e.1 v) t := by
      have hm : e.1 ∈ flagNames := by
        simp only [flags, List.mem_cons, List.not_mem_nil, or_false] at he
        rcases he with rfl | rfl | rfl | rfl | rfl | rfl | rfl | rfl | rfl <;> decide
      cases v with
      | true => exact .flag hm h1
      | false =>
        refine .noFlag hm ?_ ?_ h1
        · intro hr
          simp only [flags, List.mem_cons, List.not_mem_nil, or_false] at he
          rcases he with rfl | rfl | rfl | rfl | rfl | rfl | rfl | rfl | rfl <;> simp at h3 hr
        · intro hr
          simp only [flags, List.mem_cons, List.not_mem_nil, or_false] at he
          rcases he with rfl | rfl | rfl | rfl | rfl | rfl | rfl | rfl | rfl <;> simp at h3 hr
    have hp := parseOne_written (w := w) (r := r) (o := o) hw
    rw [← h2, h0] at hp
    cases hm : meaning w (.flag e.1 v) o with
    | none => rw [hm] at hp; simp at hp
    | some o2 =>
      rw [hm] at hp
      simp only [Option.map_some, Option.some.injEq, Prod.mk.injEq, and_true] at hp
      exact .inl ⟨_, t, hw, h2, by rw [hm, hp]⟩
  · split at h
    · rename_i x hx
      subst h
      obtain ⟨e, he, t, r', h1, h2, h3⟩ := tryClauses_some _ (clauses_lower w) hx
      cases hd : dequote r' with
      | none => rw [hd] at h3; simp at h3
      | some p =>
        obtain ⟨v, r2⟩ := p
        rw [hd] at h3
        simp only [Option.bind_some] at h3
        obtain ⟨q, hq, hs⟩ := dequote_some hd
        have hm : e.1 ∈ clauseNames := by rw [← clauseNames_eq w]; exact List.mem_map_of_mem he
        have hw : Written (.clause e.1 v) (t ++ 61 :: 34 :: (q ++ [34])) := .clause hm h1 hq
        have hr : r = r2 := by
          have := h3.symm
          simp only [Option.map_eq_some_iff, Prod.mk.injEq] at this
          obtain ⟨_, _, _, h⟩ := this
          exact h.symm
        subst hr
        have e2 : s = (t ++ 61 :: 34 :: (q ++ [34])) ++ r := by rw [h2, hs]; simp
        have hp := parseOne_written (w := w) (r := r) (o := o) hw
        rw [← e2, h0] at hp
        cases hm : meaning w (.clause e.1 v) o with
        | none => rw [hm] at hp; simp at hp
        | some o2 =>
          rw [hm] at hp
          simp only [Option.map_some, Option.some.injEq, Prod.mk.injEq, and_true] at hp
          exact .inl ⟨_, _, hw, e2, by rw [hm, hp]⟩
    · simp only [Option.some.injEq, Prod.mk.injEq] at h
      exact .inr ⟨h.2, h.1.symm⟩

/-! ### Whole lines -/

theorem isBlank_iff {c : UInt8} : isBlank c = true ↔ c = 32 ∨ c = 9 := by
  simp [isBlank]

/-- the bytes a name is made of -/
def nameByte (c : UInt8) : Bool := c != 32 && c != 9 && c != 34 && c != 92 && c != 44

theorem toLower_name {t k : Bytes} (ht : t.map toLower = k) (hk : k.all nameByte = true) : t.all nameByte = true := by
  rw [List.all_eq_true] at hk ⊢
  intro c hc
  have h := hk (toLower c) (by rw [← ht]; exact List.mem_map_of_mem hc)
  simp only [nameByte, Bool.and_eq_true, bne_iff_ne, ne_eq] at h ⊢
  refine ⟨⟨⟨⟨?_, ?_⟩, ?_⟩, ?_⟩, ?_⟩ <;> intro h' <;> subst h' <;> revert h <;> decide

theorem flag_bytes : ∀ n ∈ flagNames, n.all nameByte = true ∧ (b!"no-" ++ n).all nameByte = true ∧ n ≠ [] := by decide

theorem clause_bytes : ∀ n ∈ clauseNames, n.all nameByte = true ∧ n ≠ [] := by decide

/-- An option starts with a byte of a name. -/
theorem written_head {i : Item} {t : Bytes} (h : Written i t) : ∃ c r, t = c :: r ∧ nameByte c = true := by
  have aux : ∀ {t k : Bytes}, t.map toLower = k → k.all nameByte = true → k ≠ [] → ∃ c r, t = c :: r ∧ nameByte c = true := by
    intro t k ht hk hne
    cases t with
    | nil => exact absurd ht.symm hne
    | cons c r =>
      have := toLower_name ht hk
      rw [List.all_cons, Bool.and_eq_true] at this
      exact ⟨c, r, rfl, this.1⟩
  cases h with
  | flag hn ht => exact aux ht (flag_bytes _ hn).1 (flag_bytes _ hn).2.2
  | noFlag hn _ _ ht => exact aux ht (flag_bytes _ hn).2.1 (by simp)
  | clause hn ht _ =>
    obtain ⟨c, r, rfl, h⟩ := aux ht (clause_bytes _ hn).1 (clause_bytes _ hn).2
    exact ⟨c, _, rfl, h⟩

theorem nameByte_blank {c : UInt8} (h : nameByte c = true) : isBlank c = false := by
  simp only [nameByte, Bool.and_eq_true, bne_iff_ne, ne_eq] at h
  simp [isBlank, h]

theorem loop_line {w : World} {is : List Item} {s rest : Bytes} (h : Line is s rest) :
    ∀ (fuel : Nat) (o : Opts), s.length < fuel → parseLoop w fuel s o = (meanings w is o).map fun o' => (o', rest) := by
  induction h with
  | @done rest he =>
    intro fuel o hf
    cases fuel with
    | zero => omega
    | succ k =>
      rcases he with rfl | ⟨c, r, rfl, hc⟩
      · simp [parseLoop, meanings]
      · simp [parseLoop, meanings, isBlank_iff.2 hc]
  | @last i t rest hw he =>
    intro fuel o hf
    cases fuel with
    | zero => omega
    | succ k =>
      obtain ⟨c, t', rfl, hc⟩ := written_head hw
      have hp := parseOne_written (w := w) (r := rest) (o := o) hw
      rw [List.cons_append] at hp ⊢
      simp only [parseLoop, nameByte_blank hc, Bool.false_eq_true, if_false, hp, meanings]
      cases hm : meaning w i o with
      | none => simp
      | some o' =>
        rcases he with rfl | ⟨d, r, rfl, hd⟩
        · simp [meanings]
        · simp [meanings, isBlank_iff.2 hd]
  | @empty is r rest hr _ ih =>
    intro fuel o hf
    cases fuel with
    | zero => omega
    | succ k =>
      have hp : parseOne w (44 :: r) o = some (o, 44 :: r) := by
        cases h : parseOne w (44 :: r) o with
        | none =>
          exfalso
          unfold parseOne at h
          split at h
          · simp at h
          · split at h
            · rename_i x hx
              obtain ⟨e, he, t, r', h1, h2, -⟩ := tryClauses_some _ (clauses_lower w) hx
              have hm : e.1 ∈ clauseNames := by rw [← clauseNames_eq w]; exact List.mem_map_of_mem he
              have hb := toLower_name h1 (clause_bytes _ hm).1
              cases t with
              | nil => exact (clause_bytes _ hm).2 h1.symm
              | cons c t =>
                simp only [List.cons_append, List.cons.injEq] at h2
                rw [List.all_cons, ← h2.1] at hb
                simp [nameByte] at hb
            · simp at h
        | some x =>
          obtain ⟨o', r'⟩ := x
          rcases parseOne_some h with ⟨i, t, hw, h2, -⟩ | ⟨h1, h2⟩
          · obtain ⟨c, t', rfl, hc⟩ := written_head hw
            simp only [List.cons_append, List.cons.injEq] at h2
            rw [← h2.1] at hc
            simp [nameByte] at hc
          · rw [← h1, h2]
      have hb : isBlank 44 = false := rfl
      simp only [parseLoop, hb, Bool.false_eq_true, if_false, hp, ne_eq, not_true_eq_false, hr]
      exact ih k o (by simp at hf; omega)
  | @more i is t r rest hw hr _ ih =>
    intro fuel o hf
    cases fuel with
    | zero => omega
    | succ k =>
      obtain ⟨c, t', rfl, hc⟩ := written_head hw
      have hp := parseOne_written (w := w) (r := 44 :: r) (o := o) hw
      rw [List.cons_append] at hp ⊢
      simp only [parseLoop, nameByte_blank hc, Bool.false_eq_true, if_false, hp, meanings]
      cases hm : meaning w i o with
      | none => simp
      | some o' =>
        have hb : isBlank 44 = false := rfl
        simp only [Option.map_some, hb, Bool.false_eq_true, if_false, ne_eq, not_true_eq_false, hr, Option.bind_some]
        exact ih k o' (by simp at hf; omega)

theorem line_loop {w : World} : ∀ (fuel : Nat) (s : Bytes) (o o' : Opts) (rest : Bytes),
    parseLoop w fuel s o = some (o', rest) → ∃ is, Line is s rest := by
  intro fuel
  induction fuel with
  | zero => intro s o o' rest h; simp [parseLoop] at h
  | succ k ih =>
    intro s o o' rest h
    cases s with
    | nil =>
      simp only [parseLoop, Option.some.injEq, Prod.mk.injEq] at h
      rw [← h.2]; exact ⟨[], .done (.inl rfl)⟩
    | cons c t =>
      simp only [parseLoop] at h
      split at h
      · rename_i hb
        simp only [Option.some.injEq, Prod.mk.injEq] at h
        rw [← h.2]; exact ⟨[], .done (.inr ⟨c, t, rfl, isBlank_iff.1 hb⟩)⟩
      · rename_i hb
        split at h
        · simp at h
        · rename_i o1 h1
          simp only [Option.some.injEq, Prod.mk.injEq] at h
          rcases parseOne_some h1 with ⟨i, u, hw, hs, -⟩ | ⟨hs, -⟩
          · rw [hs, ← h.2]; exact ⟨[i], .last hw (.inl rfl)⟩
          · simp at hs
        · rename_i o1 d r h1
          split at h
          · rename_i hd
            simp only [Option.some.injEq, Prod.mk.injEq] at h
            rcases parseOne_some h1 with ⟨i, u, hw, hs, -⟩ | ⟨hs, -⟩
            · rw [hs, ← h.2]; exact ⟨[i], .last hw (.inr ⟨d, r, rfl, isBlank_iff.1 hd⟩)⟩
            · simp only [List.cons.injEq] at hs
              rw [hs.1] at hb; exact absurd hd hb
          · split at h
            · simp at h
            · rename_i hd
              simp only [ne_eq, Decidable.not_not] at hd
              subst hd
              split at h
              · simp at h
              · rename_i hr
                obtain ⟨is, hl⟩ := ih _ _ _ _ h
                rcases parseOne_some h1 with ⟨i, u, hw, hs, -⟩ | ⟨hs, -⟩
                · rw [hs]; exact ⟨i :: is, .more hw hr hl⟩
                · simp only [List.cons.injEq] at hs
                  rw [hs.1, hs.2]; exact ⟨is, .empty hr hl⟩

/-- **C59: the options in front of a key are read as documented.**  A text is accepted exactly when it is
a list of known options, each acceptable after those before it, and then it means exactly these options
in this order.  In particular a line with an option the server does not know is never used. -/
theorem C59_parse {w : World} {s : Bytes} {o : Opts} :
    parse w (some s) = some o ↔ ∃ is rest, Line is s rest ∧ meanings w is keysDefaults = some o := by
  simp only [parse, Option.map_eq_some_iff]
  constructor
  · rintro ⟨⟨o', rest⟩, h, rfl⟩
    obtain ⟨is, hl⟩ := line_loop _ _ _ _ _ h
    rw [loop_line hl _ _ (by omega)] at h
    simp only [Option.map_eq_some_iff, Prod.mk.injEq] at h
    obtain ⟨o2, h1, rfl, -⟩ := h
    exact ⟨is, rest, hl, h1⟩
  · rintro ⟨is, rest, hl, hm⟩
    exact ⟨(o, rest), by rw [loop_line hl _ _ (by omega), hm]; rfl, rfl⟩

theorem advance_name (t r : Bytes) (q : Bool) (h : t.all nameByte = true) : advance q (t ++ r) = advance q r := by
  induction t with
  | nil => rfl
  | cons c t ih =>
    rw [List.all_cons, Bool.and_eq_true] at h
    have hb := nameByte_blank h.1
    have hc := h.1
    simp only [nameByte, Bool.and_eq_true, bne_iff_ne, ne_eq] at hc
    rw [List.cons_append, advance]
    · simp only [hb, Bool.and_false, Bool.false_eq_true, if_false, hc.1.1.2]
      exact ih h.2
    · intro _ h' _
      exact hc.1.2 h'

theorem advance_quoted {q v : Bytes} (r : Bytes) (h : Quoted q v) : advance true (q ++ 34 :: r) = advance false r := by
  induction h with
  | nil => simp [advance]
  | esc _ ih => simp [advance, ih]
  | @plain c q v h1 h2 _ ih =>
    rw [List.cons_append, advance]
    · simp only [Bool.not_true, Bool.false_and, Bool.false_eq_true, if_false, h1]
      exact ih
    · intro r' hc hr
      have := h2 hc
      cases q with
      | nil => simp at this
      | cons x q => simp at this hr; exact this hr.1

theorem advance_written {i : Item} {t : Bytes} (r : Bytes) (h : Written i t) : advance false (t ++ r) = advance false r := by
  cases h with
  | flag hn ht => exact advance_name _ _ _ (toLower_name ht (flag_bytes _ hn).1)
  | noFlag hn _ _ ht => exact advance_name _ _ _ (toLower_name ht (flag_bytes _ hn).2.1)
  | @clause n t q v hn ht hq =>
    have e : t ++ 61 :: 34 :: (q ++ [34]) ++ r = (t ++ [61]) ++ 34 :: (q ++ 34 :: r) := by simp
    rw [e, advance_name]
    · have : advance false (34 :: (q ++ 34 :: r)) = advance true (q ++ 34 :: r) := by
        rw [advance]
        · simp [isBlank]
        · intro _ h _; simp at h
      rw [this, advance_quoted _ hq]
    · rw [List.all_append, toLower_name ht (clause_bytes _ hn).1]; rfl

/-- **C59: the options are all the text in front of the key.**  The place where reading the options ends is
the place from which the key is read, so no text between the two is skipped. -/
theorem C59_same_end {is : List Item} {s rest : Bytes} (h : Line is s rest) : advance false s = some rest := by
  have hend : ∀ rest, Ends rest → advance false rest = some rest := by
    rintro rest (rfl | ⟨c, r, rfl, hc⟩)
    · rfl
    · rw [advance]
      · simp [isBlank_iff.2 hc]
      · intro _ h _
        rcases hc with rfl | rfl <;> simp at h
  have hcomma : ∀ r, advance false (44 :: r) = advance false r := by
    intro r
    rw [advance]
    · simp [isBlank]
    · intro _ h _; simp at h
  induction h with
  | done he => exact hend _ he
  | last hw he => rw [advance_written _ hw]; exact hend _ he
  | empty _ _ ih => rw [hcomma]; exact ih
  | more hw _ _ ih => rw [advance_written _ hw, hcomma]; exact ih

/-! ### Permissions -/

/-- the effect of one option on one permission -/
theorem meaning_perm {w : World} {i : Item} {o o' : Opts} (h : meaning w i o = some o') (hi : ∃ t, Written i t) :
    o'.portFwd = (if i = .flag b!"port-forwarding" true then true
      else if i = .flag b!"port-forwarding" false ∨ i = .flag b!"restrict" true then false else o.portFwd) ∧
    o'.agentFwd = (if i = .flag b!"agent-forwarding" true then true
      else if i = .flag b!"agent-forwarding" false ∨ i = .flag b!"restrict" true then false else o.agentFwd) ∧
    o'.x11 = (if i = .flag b!"x11-forwarding" true then true
      else if i = .flag b!"x11-forwarding" false ∨ i = .flag b!"restrict" true then false else o.x11) ∧
    o'.pty = (if i = .flag b!"pty" true then true
      else if i = .flag b!"pty" false ∨ i = .flag b!"restrict" true then false else o.pty) ∧
    o'.userRc = (if i = .flag b!"user-rc" true then true
      else if i = .flag b!"user-rc" false ∨ i = .flag b!"restrict" true then false else o.userRc) := by
  obtain ⟨t, hw⟩ := hi
  cases hw with
  | flag hn ht =>
    simp only [flagNames, List.mem_cons, List.not_mem_nil, or_false] at hn
    rcases hn with h' | h' | h' | h' | h' | h' | h' | h' | h' <;> subst h' <;>
      (simp [meaning] at h; subst h; simp)
  | noFlag hn h1 h2 ht =>
    simp only [flagNames, List.mem_cons, List.not_mem_nil, or_false] at hn
    rcases hn with h' | h' | h' | h' | h' | h' | h' | h' | h' <;> subst h' <;>
      first
        | exact absurd rfl h1
        | exact absurd rfl h2
        | (simp [meaning] at h; subst h; simp)
  | @clause n t q v hn ht hq =>
    have key : o'.portFwd = o.portFwd ∧ o'.agentFwd = o.agentFwd ∧ o'.x11 = o.x11 ∧ o'.pty = o.pty ∧ o'.userRc = o.userRc := by
      simp only [clauseNames, List.mem_cons, List.not_mem_nil, or_false] at hn
      rcases hn with h' | h' | h' | h' | h' | h' | h' | h' <;> subst h' <;> simp [meaning] at h
      · simp only [setOnce] at h; split at h <;> simp at h; subst h; simp
      · simp only [setOnce] at h; split at h <;> simp at h; subst h; simp
      · simp only [setOnce] at h; split at h <;> simp at h; subst h; simp
      · simp only [setExpiry] at h
        split at h
        · simp at h
        · split at h
          · simp at h
          · split at h <;> simp only [Option.some.injEq] at h <;> subst h <;> simp
      · simp only [setEnv] at h
        split at h
        · simp at h
        · split at h
          · simp at h
          · split at h
            · simp at h
            · split at h <;> simp only [Option.some.injEq] at h <;> subst h <;> simp
      · obtain ⟨e, -, rfl⟩ := h; simp
      · obtain ⟨e, -, rfl⟩ := h; simp
      · obtain ⟨e, -, rfl⟩ := h; simp
    simpa using key

theorem decides_concat (name : Bytes) (is : List Item) (i : Item) :
    decides name (is ++ [i]) = if i = .flag name true then true
      else if i = .flag name false ∨ i = .flag b!"restrict" true then false else decides name is := by
  unfold decides
  rw [List.reverse_append]
  simp only [List.reverse_cons, List.reverse_nil, List.nil_append, List.singleton_append, List.find?_cons]
  by_cases h1 : i = .flag name true
  · simp [h1]
  by_cases h2 : i = .flag name false
  · simp [h2]
  by_cases h3 : i = .flag b!"restrict" true
  · subst h3; simp [h1]
  · have e1 : (i == .flag name true) = false := by simpa using h1
    have e2 : (i == .flag name false) = false := by simpa using h2
    have e3 : (i == .flag b!"restrict" true) = false := by simpa using h3
    simp only [e1, e2, e3, h1, h2, h3, Bool.or_false, or_self, if_false]

theorem meanings_concat {w : World} {is : List Item} {i : Item} {o : Opts} :
    meanings w (is ++ [i]) o = (meanings w is o).bind (meaning w i) := by
  induction is generalizing o with
  | nil => simp [meanings]
  | cons j is ih =>
    simp only [List.cons_append, meanings]
    cases meaning w j o with
    | none => rfl
    | some o' => simp [ih]

theorem line_written {is : List Item} {s rest : Bytes} (h : Line is s rest) : ∀ i ∈ is, ∃ t, Written i t := by
  induction h with
  | done _ => simp
  | last hw _ => intro i hi; simp at hi; subst hi; exact ⟨_, hw⟩
  | empty _ _ ih => exact ih
  | more hw _ _ ih =>
    intro i hi
    rcases List.mem_cons.1 hi with rfl | hi
    · exact ⟨_, hw⟩
    · exact ih i hi

/-- **C59: the last word decides.**  Whether a key line permits port forwarding, agent forwarding, X11
forwarding, a terminal or the user's rc file is decided by the last option that speaks of it, where
"restrict" speaks against all of them; with none, it is permitted. -/
theorem C59_permissions {w : World} {is : List Item} {s rest : Bytes} {o : Opts} (hl : Line is s rest)
    (hm : meanings w is keysDefaults = some o) :
    o.portFwd = decides b!"port-forwarding" is ∧ o.agentFwd = decides b!"agent-forwarding" is ∧
    o.x11 = decides b!"x11-forwarding" is ∧ o.pty = decides b!"pty" is ∧ o.userRc = decides b!"user-rc" is := by
  have hw := line_written hl
  clear hl
  suffices H : ∀ (js : List Item), (∀ i ∈ js.reverse, ∃ t, Written i t) → ∀ o, meanings w js.reverse keysDefaults = some o →
      o.portFwd = decides b!"port-forwarding" js.reverse ∧ o.agentFwd = decides b!"agent-forwarding" js.reverse ∧
      o.x11 = decides b!"x11-forwarding" js.reverse ∧ o.pty = decides b!"pty" js.reverse ∧
      o.userRc = decides b!"user-rc" js.reverse by
    have := H is.reverse (by simpa using hw) o (by simpa using hm)
    simpa using this
  intro js
  induction js with
  | nil =>
    intro _ o h
    simp only [List.reverse_nil, meanings, Option.some.injEq] at h
    subst h
    exact ⟨rfl, rfl, rfl, rfl, rfl⟩
  | cons i js ih =>
    intro hw o h
    rw [List.reverse_cons] at h hw ⊢
    rw [meanings_concat] at h
    cases h1 : meanings w js.reverse keysDefaults with
    | none => rw [h1] at h; simp at h
    | some o1 =>
      rw [h1] at h
      simp only [Option.bind_some] at h
      have := ih (fun j hj => hw j (List.mem_append_left _ hj)) o1 h1
      obtain ⟨a1, a2, a3, a4, a5⟩ := meaning_perm h (hw i (by simp))
      simp only [decides_concat]
      refine ⟨?_, ?_, ?_, ?_, ?_⟩
      · rw [a1, this.1]
      · rw [a2, this.2.1]
      · rw [a3, this.2.2.1]
      · rw [a4, this.2.2.2.1]
      · rw [a5, this.2.2.2.2]

/-- Non-vacuity: a line with flags, a quoted command and an empty option. -/
example : ∃ is, Line is b!"Restrict,,command=\"a \\\"b\\\"\",PTY key" b!" key" ∧
    is = [.flag b!"restrict" true, .clause b!"command" b!"a \"b\"", .flag b!"pty" true] := by
  have h : parseLoop exWorld 60 b!"Restrict,,command=\"a \\\"b\\\"\",PTY key" keysDefaults =
      some ({ restricted := true, pty := true, command := some b!"a \"b\"" }, b!" key") := by decide +kernel
  refine ⟨_, ?_, rfl⟩
  refine .more (t := b!"Restrict") (.flag (by decide) (by decide)) (by decide) ?_
  refine .empty (by decide) ?_
  refine .more (t := b!"command" ++ 61 :: 34 :: (b!"a \\\"b\\\"" ++ [34])) (.clause (by decide) (by decide) ?_) (by decide) ?_
  · exact .plain (by decide) (by decide) (.plain (by decide) (by decide) (.esc (.plain (by decide) (by decide) (.esc .nil))))
  · exact .last (t := b!"PTY") (.flag (by decide) (by decide)) (.inr ⟨32, b!"key", rfl, .inl rfl⟩)

/-- an unknown option refuses the line -/
example : parse exWorld (some b!"pty,no-such-option") = none ∧ parse exWorld (some b!"ptyx") = none ∧
    parse exWorld (some b!"pty,") = none := by decide +kernel

end Verif.KeyOpts
