/-
The contents of a KRL, the effect of calls on them, and checking keys.
-/
import Verif.Krl.Serial

namespace Verif.Krl
open Verif Wire RB

variable {K : Type} [DecidableEq K]

/-- Elementary facts recorded in a KRL. -/
inductive Atom (K : Type)
  | serial (ca : Option K) (n : Nat) | id (ca : Option K) (i : Bytes) | key (b : Bytes) | sha1 (h : Bytes) | sha256 (h : Bytes)

def Holds (k : Krl K) : Atom K → Prop
  | .serial ca n => ∃ rc ∈ k.certs, rc.ca = ca ∧ Cov rc.serials n
  | .id ca i => ∃ rc ∈ k.certs, rc.ca = ca ∧ i ∈ rc.ids
  | .key b => b ∈ k.keys
  | .sha1 h => h ∈ k.sha1s
  | .sha256 h => h ∈ k.sha256s

def Adds : Cmd K → Atom K → Prop
  | .range ca lo hi, .serial ca' n => ca' = ca ∧ 0 < lo ∧ lo ≤ n ∧ n ≤ hi
  | .id ca i, .id ca' i' => ca' = ca ∧ i' = i
  | .key b, .key b' => b' = b
  | .sha1 h, .sha1 h' => h' = h ∧ h.length = 20
  | .sha256 h, .sha256 h' => h' = h ∧ h.length = 32
  | _, _ => False

structure WFC (rc : Certs K) : Prop where
  serials : WFS rc.serials
  ids : Sorted rc.ids
  nul : ∀ i ∈ rc.ids, 0 ∉ i

structure WF (k : Krl K) : Prop where
  keys : Sorted k.keys
  sha1s : Sorted k.sha1s
  sha256s : Sorted k.sha256s
  len1 : ∀ h ∈ k.sha1s, h.length = 20
  len2 : ∀ h ∈ k.sha256s, h.length = 32
  distinct : k.certs.Pairwise (fun a b => a.ca ≠ b.ca)
  each : ∀ rc ∈ k.certs, WFC rc

/-- The entry for a CA, empty if there is none. -/
def entry (ca : Option K) (l : List (Certs K)) : Certs K := (l.find? (fun rc => rc.ca = ca)).getD ⟨ca, [], []⟩

theorem updateCerts_mem (ca : Option K) (f : Certs K → Certs K) (l : List (Certs K))
    (hd : l.Pairwise (fun a b => a.ca ≠ b.ca)) (rc : Certs K) :
    rc ∈ updateCerts ca f l ↔ (rc ∈ l ∧ rc.ca ≠ ca) ∨ rc = f (entry ca l) := by
  induction l with
  | nil => simp [updateCerts, entry]
  | cons x l ih =>
    rw [List.pairwise_cons] at hd
    unfold updateCerts
    by_cases h : x.ca = ca
    · rw [if_pos h]
      have he : entry ca (x :: l) = x := by simp [entry, h]
      rw [he]
      simp only [List.mem_cons]
      constructor
      · rintro (h1 | h1)
        · exact .inr h1
        · exact .inl ⟨.inr h1, fun hc => hd.1 rc h1 (by rw [h, hc])⟩
      · rintro (⟨h1 | h1, h2⟩ | h1)
        · rw [h1] at h2; exact absurd h h2
        · exact .inr h1
        · exact .inl h1
    · rw [if_neg h]
      have he : entry ca (x :: l) = entry ca l := by simp [entry, h]
      rw [he, List.mem_cons, ih hd.2]
      constructor
      · rintro (rfl | h1 | h1)
        · exact .inl ⟨by simp, h⟩
        · exact .inl ⟨by simp [h1.1], h1.2⟩
        · exact .inr h1
      · rintro (⟨h1, h2⟩ | h1)
        · rcases List.mem_cons.1 h1 with rfl | h1
          · exact .inl rfl
          · exact .inr (.inl ⟨h1, h2⟩)
        · exact .inr (.inr h1)

theorem entry_ca (ca : Option K) (l : List (Certs K)) : (entry ca l).ca = ca := by
  unfold entry
  cases h : l.find? (fun rc => decide (rc.ca = ca)) with
  | none => rfl
  | some rc => simpa using List.find?_some h

theorem entry_mem (ca : Option K) (l : List (Certs K)) : entry ca l ∈ l ∨ entry ca l = ⟨ca, [], []⟩ := by
  unfold entry
  cases h : l.find? (fun rc => decide (rc.ca = ca)) with
  | none => exact .inr rfl
  | some rc => exact .inl (List.mem_of_find?_eq_some h)

theorem entry_unique {ca : Option K} {l : List (Certs K)} (hd : l.Pairwise (fun a b => a.ca ≠ b.ca)) {rc : Certs K}
    (h : rc ∈ l) (hc : rc.ca = ca) : entry ca l = rc := by
  induction l with
  | nil => simp at h
  | cons x l ih =>
    rw [List.pairwise_cons] at hd
    by_cases hx : x.ca = ca
    · have he : entry ca (x :: l) = x := by simp [entry, hx]
      rw [he]
      rcases List.mem_cons.1 h with rfl | h
      · rfl
      · exact absurd (by rw [hx, hc]) (hd.1 rc h)
    · have he : entry ca (x :: l) = entry ca l := by simp [entry, hx]
      rw [he]
      rcases List.mem_cons.1 h with rfl | h
      · exact absurd hc hx
      · exact ih hd.2 h

theorem entry_wf {ca : Option K} {l : List (Certs K)} (he : ∀ rc ∈ l, WFC rc) : WFC (entry ca l) := by
  rcases entry_mem ca l with h | h
  · exact he _ h
  · rw [h]
    exact ⟨⟨by simp, by simp⟩, by simp [Sorted], by simp⟩

theorem updateCerts_distinct (ca : Option K) (f : Certs K → Certs K) (hf : ∀ rc, (f rc).ca = rc.ca) (l : List (Certs K))
    (hd : l.Pairwise (fun a b => a.ca ≠ b.ca)) : (updateCerts ca f l).Pairwise (fun a b => a.ca ≠ b.ca) := by
  induction l with
  | nil => simp [updateCerts]
  | cons x l ih =>
    have hd' := hd
    rw [List.pairwise_cons] at hd
    unfold updateCerts
    split
    · rename_i h
      rw [List.pairwise_cons]
      exact ⟨fun b hb => by rw [hf]; exact hd.1 b hb, hd.2⟩
    · rename_i h
      rw [List.pairwise_cons]
      refine ⟨fun b hb => ?_, ih hd.2⟩
      rcases (updateCerts_mem ca f l hd.2 b).1 hb with h1 | h1
      · exact hd.1 b h1.1
      · rw [h1, hf, entry_ca]; exact h

/-- Updating one CA's entry, seen from any per-entry fact. -/
theorem updateCerts_holds (ca : Option K) (f : Certs K → Certs K) (hf : ∀ rc, (f rc).ca = rc.ca) (l : List (Certs K))
    (hd : l.Pairwise (fun a b => a.ca ≠ b.ca)) (P : Certs K → Prop) (hP : ¬ P ⟨ca, [], []⟩) (ca' : Option K) :
    (∃ rc ∈ updateCerts ca f l, rc.ca = ca' ∧ P rc) ↔
      (ca' ≠ ca ∧ ∃ rc ∈ l, rc.ca = ca' ∧ P rc) ∨ (ca' = ca ∧ P (f (entry ca l))) := by
  constructor
  · rintro ⟨rc, h, rfl, hp⟩
    rcases (updateCerts_mem ca f l hd rc).1 h with h1 | h1
    · exact .inl ⟨h1.2, rc, h1.1, rfl, hp⟩
    · subst h1
      exact .inr ⟨by rw [hf, entry_ca], hp⟩
  · rintro (⟨h1, rc, h2, h3, h4⟩ | ⟨rfl, h2⟩)
    · exact ⟨rc, (updateCerts_mem ca f l hd rc).2 (.inl ⟨h2, by rw [h3]; exact h1⟩), h3, h4⟩
    · exact ⟨_, (updateCerts_mem ca' f l hd _).2 (.inr rfl), by rw [hf, entry_ca], h2⟩

theorem holds_entry {l : List (Certs K)} (hd : l.Pairwise (fun a b => a.ca ≠ b.ca)) (ca : Option K) (P : Certs K → Prop)
    (hP : ¬ P ⟨ca, [], []⟩) : (∃ rc ∈ l, rc.ca = ca ∧ P rc) ↔ P (entry ca l) := by
  constructor
  · rintro ⟨rc, h1, h2, h3⟩
    rwa [entry_unique hd h1 h2]
  · intro h
    rcases entry_mem ca l with h1 | h1
    · exact ⟨_, h1, entry_ca ca l, h⟩
    · rw [h1] at h; exact absurd h hP

theorem init_wf : WF (init : Krl K) := by
  constructor <;> simp [init, Sorted]

theorem init_holds (a : Atom K) : ¬ Holds (init : Krl K) a := by
  cases a <;> simp [Holds, init]

/-- One call: the KRL stays well formed and exactly the facts of the call are added. -/
theorem apply1_some (E : Env K) {k k' : Krl K} {c : Cmd K} (hk : WF k) (hv : c.valid) (h : apply1 E k c = some k') :
    WF k' ∧ ∀ a, Holds k' a ↔ Holds k a ∨ Adds c a := by
  cases c with
  | range ca lo hi =>
    simp only [apply1] at h
    split at h
    · simp at h
    · rename_i hlo
      simp only [Option.some.injEq] at h
      subst h
      simp only [Cmd.valid] at hv
      have hw := entry_wf (ca := ca) hk.each
      obtain ⟨i1, i2⟩ := insertRange_spec E.ranges hw.serials lo hi (by omega) (by omega) hv.2
      refine ⟨⟨hk.keys, hk.sha1s, hk.sha256s, hk.len1, hk.len2, by apply updateCerts_distinct ca _ _ _ hk.distinct; intro rc; rfl, ?_⟩, ?_⟩
      · intro rc hrc
        rcases (updateCerts_mem ca _ _ hk.distinct rc).1 hrc with h1 | h1
        · exact hk.each rc h1.1
        · subst h1
          exact ⟨i1, hw.ids, hw.nul⟩
      · intro a
        cases a with
        | serial ca' n =>
          simp only [Holds, Adds]
          rw [updateCerts_holds ca _ (by intro rc; rfl) _ hk.distinct (fun rc => Cov rc.serials n) (Cov_nil n)]
          by_cases hc : ca' = ca
          · subst hc
            rw [holds_entry hk.distinct ca' (fun rc => Cov rc.serials n) (Cov_nil n)]
            simp only [ne_eq, not_true_eq_false, false_and, true_and, false_or]
            rw [i2]
            constructor
            · rintro (h | h)
              · exact .inl h
              · exact .inr ⟨by omega, h⟩
            · rintro (h | h)
              · exact .inl h
              · exact .inr h.2
          · simp [hc]
        | id ca' i =>
          simp only [Holds, Adds]
          rw [updateCerts_holds ca _ (by intro rc; rfl) _ hk.distinct (fun rc => i ∈ rc.ids) (by simp)]
          by_cases hc : ca' = ca
          · subst hc
            rw [holds_entry hk.distinct ca' (fun rc => i ∈ rc.ids) (by simp)]
            simp
          · simp [hc]
        | key b => simp [Holds, Adds]
        | sha1 b => simp [Holds, Adds]
        | sha256 b => simp [Holds, Adds]
  | id ca i =>
    simp only [apply1, Option.some.injEq] at h
    subst h
    simp only [Cmd.valid] at hv
    have hw := entry_wf (ca := ca) hk.each
    obtain ⟨i1, i2⟩ := insert_sorted E.strings hw.ids i
    refine ⟨⟨hk.keys, hk.sha1s, hk.sha256s, hk.len1, hk.len2, by apply updateCerts_distinct ca _ _ _ hk.distinct; intro rc; rfl, ?_⟩, ?_⟩
    · intro rc hrc
      rcases (updateCerts_mem ca _ _ hk.distinct rc).1 hrc with h1 | h1
      · exact hk.each rc h1.1
      · subst h1
        refine ⟨hw.serials, i1, fun j hj => ?_⟩
        rcases (i2 j).1 hj with rfl | hj
        · exact hv
        · exact hw.nul j hj
    · intro a
      cases a with
      | serial ca' n =>
        simp only [Holds, Adds]
        rw [updateCerts_holds ca _ (by intro rc; rfl) _ hk.distinct (fun rc => Cov rc.serials n) (Cov_nil n)]
        by_cases hc : ca' = ca
        · subst hc
          rw [holds_entry hk.distinct ca' (fun rc => Cov rc.serials n) (Cov_nil n)]
          simp
        · simp [hc]
      | id ca' j =>
        simp only [Holds, Adds]
        rw [updateCerts_holds ca _ (by intro rc; rfl) _ hk.distinct (fun rc => j ∈ rc.ids) (by simp)]
        by_cases hc : ca' = ca
        · subst hc
          rw [holds_entry hk.distinct ca' (fun rc => j ∈ rc.ids) (by simp)]
          simp only [ne_eq, not_true_eq_false, false_and, true_and, false_or]
          rw [i2, or_comm]
        · simp [hc]
      | key b => simp [Holds, Adds]
      | sha1 b => simp [Holds, Adds]
      | sha256 b => simp [Holds, Adds]
  | key b =>
    simp only [apply1, Option.some.injEq] at h
    subst h
    obtain ⟨i1, i2⟩ := insert_sorted E.strings hk.keys b
    refine ⟨⟨i1, hk.sha1s, hk.sha256s, hk.len1, hk.len2, hk.distinct, hk.each⟩, fun a => ?_⟩
    cases a <;> simp [Holds, Adds, i2, or_comm]
  | sha1 b =>
    simp only [apply1] at h
    split at h
    · simp at h
    · rename_i hl
      simp only [Option.some.injEq] at h
      subst h
      obtain ⟨i1, i2⟩ := insert_sorted E.strings hk.sha1s b
      refine ⟨⟨hk.keys, i1, hk.sha256s, ?_, hk.len2, hk.distinct, hk.each⟩, fun a => ?_⟩
      · intro x hx
        rcases (i2 x).1 hx with rfl | hx
        · omega
        · exact hk.len1 x hx
      · have hl' : b.length = 20 := by omega
        cases a <;> simp [Holds, Adds, i2, or_comm, hl']
  | sha256 b =>
    simp only [apply1] at h
    split at h
    · simp at h
    · rename_i hl
      simp only [Option.some.injEq] at h
      subst h
      obtain ⟨i1, i2⟩ := insert_sorted E.strings hk.sha256s b
      refine ⟨⟨hk.keys, hk.sha1s, i1, hk.len1, ?_, hk.distinct, hk.each⟩, fun a => ?_⟩
      · intro x hx
        rcases (i2 x).1 hx with rfl | hx
        · omega
        · exact hk.len2 x hx
      · have hl' : b.length = 32 := by omega
        cases a <;> simp [Holds, Adds, i2, or_comm, hl']

theorem apply1_none (E : Env K) {k : Krl K} {c : Cmd K} (h : apply1 E k c = none) (a : Atom K) : ¬ Adds c a := by
  cases c with
  | range ca lo hi =>
    simp only [apply1] at h
    split at h
    · cases a <;> simp [Adds]; omega
    · simp at h
  | id ca i => simp [apply1] at h
  | key b => simp [apply1] at h
  | sha1 b =>
    simp only [apply1] at h
    split at h
    · rename_i hl; cases a <;> simp [Adds, hl]
    · simp at h
  | sha256 b =>
    simp only [apply1] at h
    split at h
    · rename_i hl; cases a <;> simp [Adds, hl]
    · simp at h

theorem runCalls_spec (E : Env K) (cs : List (Cmd K)) : ∀ (k : Krl K), WF k → (∀ c ∈ cs, c.valid) →
    WF (runCalls E k cs) ∧ ∀ a, Holds (runCalls E k cs) a ↔ Holds k a ∨ ∃ c ∈ cs, Adds c a := by
  induction cs with
  | nil => intro k hk _; simp [runCalls, hk]
  | cons c cs ih =>
    intro k hk hv
    unfold runCalls
    cases h : apply1 E k c with
    | none =>
      obtain ⟨i1, i2⟩ := ih k hk (fun c hc => hv c (by simp [hc]))
      refine ⟨i1, fun a => ?_⟩
      simp only [Option.getD_none]
      rw [i2]
      simp [apply1_none E h a]
    | some k' =>
      obtain ⟨a1, a2⟩ := apply1_some E hk (hv c (by simp)) h
      obtain ⟨i1, i2⟩ := ih k' a1 (fun c hc => hv c (by simp [hc]))
      refine ⟨i1, fun a => ?_⟩
      simp only [Option.getD_some]
      rw [i2, a2]
      simp [or_assoc]

theorem applyAll_some (E : Env K) (cs : List (Cmd K)) : ∀ (k k' : Krl K), WF k → (∀ c ∈ cs, c.valid) →
    applyAll E k cs = some k' → WF k' ∧ ∀ a, Holds k' a ↔ Holds k a ∨ ∃ c ∈ cs, Adds c a := by
  induction cs with
  | nil => intro k k' hk _ h; simp [applyAll] at h; subst h; simp [hk]
  | cons c cs ih =>
    intro k k' hk hv h
    unfold applyAll at h
    cases hc : apply1 E k c with
    | none => simp [hc] at h
    | some k1 =>
      obtain ⟨a1, a2⟩ := apply1_some E hk (hv c (by simp)) hc
      rw [hc] at h
      obtain ⟨i1, i2⟩ := ih k1 k' a1 (fun c hc => hv c (by simp [hc])) h
      refine ⟨i1, fun a => ?_⟩
      rw [i2, a2]
      simp [or_assoc]

/-- Calls that cannot fail. -/
def Cmd.good : Cmd K → Prop
  | .range _ lo hi => 1 ≤ lo ∧ lo ≤ hi
  | .sha1 h => h.length = 20
  | .sha256 h => h.length = 32
  | _ => True

theorem applyAll_isSome (E : Env K) (cs : List (Cmd K)) : ∀ (k : Krl K), (∀ c ∈ cs, c.good) →
    (applyAll E k cs).isSome := by
  induction cs with
  | nil => intro k _; rfl
  | cons c cs ih =>
    intro k hg
    have h1 := hg c (by simp)
    have h2 : ∃ k1, apply1 E k c = some k1 := by
      cases c with
      | range ca lo hi =>
        simp only [Cmd.good] at h1
        simp only [apply1]; rw [if_neg (by omega)]; exact ⟨_, rfl⟩
      | sha1 h => simp only [Cmd.good] at h1; simp [apply1, h1]
      | sha256 h => simp only [Cmd.good] at h1; simp [apply1, h1]
      | id ca i => exact ⟨_, rfl⟩
      | key b => exact ⟨_, rfl⟩
    obtain ⟨k1, h2⟩ := h2
    unfold applyAll
    rw [h2]
    exact ih k1 (fun c hc => hg c (by simp [hc]))

/-- Which keys a fact concerns. -/
def AtomHits (E : Env K) (key : Key K) : Atom K → Prop
  | .serial ca n => ∃ c, key.cert = some c ∧ (ca = none ∨ ca = some c.ca) ∧ 0 < c.serial ∧ c.serial = n
  | .id ca i => ∃ c, key.cert = some c ∧ (ca = none ∨ ca = some c.ca) ∧ c.keyId = i
  | .key b => b = E.ser key.pub ∨ ∃ c, key.cert = some c ∧ b = E.ser c.ca
  | .sha1 h => h = E.sha1 (E.ser key.pub) ∨ ∃ c, key.cert = some c ∧ h = E.sha1 (E.ser c.ca)
  | .sha256 h => h = E.sha256 (E.ser key.pub) ∨ ∃ c, key.cert = some c ∧ h = E.sha256 (E.ser c.ca)

theorem hits_iff (E : Env K) (key : Key K) (c : Cmd K) : Hits E key c ↔ ∃ a, Adds c a ∧ AtomHits E key a := by
  cases c with
  | range ca lo hi =>
    constructor
    · rintro ⟨c, h1, h2, h3, h4, h5, h6⟩
      exact ⟨.serial ca c.serial, ⟨rfl, h3, h5, h6⟩, c, h1, h2, h4, rfl⟩
    · rintro ⟨a, h1, h2⟩
      cases a with
      | serial ca' n =>
        obtain ⟨rfl, h3, h4, h5⟩ := h1
        obtain ⟨c, h6, h7, h8, rfl⟩ := h2
        exact ⟨c, h6, h7, h3, h8, h4, h5⟩
      | _ => exact h1.elim
  | id ca i =>
    constructor
    · rintro ⟨c, h1, h2, h3⟩
      exact ⟨.id ca i, ⟨rfl, rfl⟩, c, h1, h2, h3⟩
    · rintro ⟨a, h1, h2⟩
      cases a with
      | id ca' j =>
        obtain ⟨rfl, rfl⟩ := h1
        exact h2
      | _ => exact h1.elim
  | key b =>
    constructor
    · intro h; exact ⟨.key b, rfl, h⟩
    · rintro ⟨a, h1, h2⟩
      cases a with
      | key b' => cases h1; exact h2
      | _ => exact h1.elim
  | sha1 b =>
    constructor
    · rintro ⟨h1, h2⟩; exact ⟨.sha1 b, ⟨rfl, h1⟩, h2⟩
    · rintro ⟨a, h1, h2⟩
      cases a with
      | sha1 b' => obtain ⟨rfl, h3⟩ := h1; exact ⟨h3, h2⟩
      | _ => exact h1.elim
  | sha256 b =>
    constructor
    · rintro ⟨h1, h2⟩; exact ⟨.sha256 b, ⟨rfl, h1⟩, h2⟩
    · rintro ⟨a, h1, h2⟩
      cases a with
      | sha256 b' => obtain ⟨rfl, h3⟩ := h1; exact ⟨h3, h2⟩
      | _ => exact h1.elim

theorem caRevokes_iff (E : Env K) {k : Krl K} (hk : WF k) (c : Cert K) (ca : Option K) :
    caRevokes E c ca k.certs = true ↔
      Holds k (.id ca c.keyId) ∨ (0 < c.serial ∧ Holds k (.serial ca c.serial)) := by
  have key : ∀ rc, WFC rc → (isCertRevoked E c rc = true ↔ c.keyId ∈ rc.ids ∨ (0 < c.serial ∧ Cov rc.serials c.serial)) := by
    intro rc hrc
    unfold isCertRevoked
    by_cases h1 : c.keyId ∈ rc.ids
    · rw [if_pos ((mem_sorted E.strings hrc.ids _).2 h1)]; simp [h1]
    · rw [if_neg (fun h => h1 ((mem_sorted E.strings hrc.ids _).1 h))]
      split
      · rename_i h2; simp [h1, h2]
      · rename_i h2
        rw [serial_mem E.ranges hrc.serials]
        have : 0 < c.serial := by omega
        simp [h1, this]
  simp only [Holds]
  rw [holds_entry hk.distinct ca (fun rc => c.keyId ∈ rc.ids) (by simp),
    holds_entry hk.distinct ca (fun rc => Cov rc.serials c.serial) (Cov_nil _), ← key _ (entry_wf hk.each)]
  unfold caRevokes entry
  cases h : k.certs.find? (fun rc => decide (rc.ca = ca)) with
  | none =>
    simp only [Option.getD_none, Bool.false_eq_true, false_iff]
    rw [key _ ⟨⟨by simp, by simp⟩, by simp [Sorted], by simp⟩]
    simp [Cov_nil]
  | some rc => rfl

theorem isKeyRevoked_iff (E : Env K) {k : Krl K} (hk : WF k) (key : Key K) :
    isKeyRevoked E k key = true ↔
      Holds k (.sha1 (E.sha1 (E.ser key.pub))) ∨ Holds k (.sha256 (E.sha256 (E.ser key.pub))) ∨
      Holds k (.key (E.ser key.pub)) ∨
      ∃ c, key.cert = some c ∧ ∃ ca, (ca = none ∨ ca = some c.ca) ∧
        (Holds k (.id ca c.keyId) ∨ (0 < c.serial ∧ Holds k (.serial ca c.serial))) := by
  unfold isKeyRevoked
  by_cases h1 : E.sha1 (E.ser key.pub) ∈ k.sha1s
  · rw [if_pos ((mem_sorted E.strings hk.sha1s _).2 h1)]; simp [Holds, h1]
  rw [if_neg (fun h => h1 ((mem_sorted E.strings hk.sha1s _).1 h))]
  by_cases h2 : E.sha256 (E.ser key.pub) ∈ k.sha256s
  · rw [if_pos ((mem_sorted E.strings hk.sha256s _).2 h2)]; simp [Holds, h2]
  rw [if_neg (fun h => h2 ((mem_sorted E.strings hk.sha256s _).1 h))]
  by_cases h3 : E.ser key.pub ∈ k.keys
  · rw [if_pos ((mem_sorted E.strings hk.keys _).2 h3)]; simp [Holds, h3]
  rw [if_neg (fun h => h3 ((mem_sorted E.strings hk.keys _).1 h))]
  have e1 : ¬ Holds k (.sha1 (E.sha1 (E.ser key.pub))) := h1
  have e2 : ¬ Holds k (.sha256 (E.sha256 (E.ser key.pub))) := h2
  have e3 : ¬ Holds k (.key (E.ser key.pub)) := h3
  simp only [e1, e2, e3, false_or]
  cases hc : key.cert with
  | none => simp
  | some c =>
    simp only [Option.some.injEq, exists_eq_left']
    by_cases h4 : caRevokes E c (some c.ca) k.certs = true
    · rw [if_pos h4]
      simp only [true_iff]
      exact ⟨_, .inr rfl, (caRevokes_iff E hk c _).1 h4⟩
    · rw [if_neg h4, caRevokes_iff E hk c]
      rw [caRevokes_iff E hk c] at h4
      constructor
      · intro h; exact ⟨none, .inl rfl, h⟩
      · rintro ⟨ca, rfl | rfl, h⟩
        · exact h
        · exact absurd h h4

/-- Checking a key answers whether some recorded fact concerns it. -/
theorem checkKey_iff (E : Env K) {k : Krl K} (hk : WF k) (key : Key K) :
    checkKey E k key = true ↔ ∃ a, Holds k a ∧ AtomHits E key a := by
  unfold checkKey
  constructor
  · intro h
    split at h
    · rename_i h1
      rcases (isKeyRevoked_iff E hk key).1 h1 with h2 | h2 | h2 | ⟨c, hc, ca, hca, h2 | h2⟩
      · exact ⟨_, h2, .inl rfl⟩
      · exact ⟨_, h2, .inl rfl⟩
      · exact ⟨_, h2, .inl rfl⟩
      · exact ⟨_, h2, c, hc, hca, rfl⟩
      · exact ⟨_, h2.2, c, hc, hca, h2.1, rfl⟩
    · split at h
      · simp at h
      · rename_i c hc
        rcases (isKeyRevoked_iff E hk _).1 h with h2 | h2 | h2 | ⟨c', hc', _⟩
        · exact ⟨_, h2, .inr ⟨c, hc, rfl⟩⟩
        · exact ⟨_, h2, .inr ⟨c, hc, rfl⟩⟩
        · exact ⟨_, h2, .inr ⟨c, hc, rfl⟩⟩
        · simp at hc'
  · rintro ⟨a, ha, hit⟩
    split
    · rfl
    · rename_i h1
      rw [isKeyRevoked_iff E hk key] at h1
      cases a with
      | serial ca n =>
        obtain ⟨c, hc, hca, hpos, rfl⟩ := hit
        exact absurd (.inr (.inr (.inr ⟨c, hc, ca, hca, .inr ⟨hpos, ha⟩⟩))) h1
      | id ca i =>
        obtain ⟨c, hc, hca, rfl⟩ := hit
        exact absurd (.inr (.inr (.inr ⟨c, hc, ca, hca, .inl ha⟩))) h1
      | key b =>
        rcases hit with rfl | ⟨c, hc, rfl⟩
        · exact absurd (.inr (.inr (.inl ha))) h1
        · rw [hc]; exact (isKeyRevoked_iff E hk _).2 (.inr (.inr (.inl ha)))
      | sha1 b =>
        rcases hit with rfl | ⟨c, hc, rfl⟩
        · exact absurd (.inl ha) h1
        · rw [hc]; exact (isKeyRevoked_iff E hk _).2 (.inl ha)
      | sha256 b =>
        rcases hit with rfl | ⟨c, hc, rfl⟩
        · exact absurd (.inr (.inl ha)) h1
        · rw [hc]; exact (isKeyRevoked_iff E hk _).2 (.inr (.inl ha))

end Verif.Krl
