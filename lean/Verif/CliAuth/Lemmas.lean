/-
What the parts of the client do to its state.
-/
import Verif.CliAuth.Spec
import Verif.Match.Props

namespace Verif.CliAuth
open Verif Wire Text
open _root_.Verif.PubKey (Key Kind Curve Pub typeFromName sigalgByName toBlob sshName)
open _root_.Verif.Match (names matchPatternList matchList)
open scoped _root_.Verif.Match

/-- Only answers are used up and acts with the property are added. -/
def Quiet (P : Act → Prop) (s t : St) : Prop :=
  ∃ a l, t = { s with answers := a, out := s.out ++ l } ∧ ∀ x ∈ l, P x

theorem Quiet.refl (P : Act → Prop) (s : St) : Quiet P s s := ⟨s.answers, [], by simp, by simp⟩

theorem Quiet.act {P : Act → Prop} (s : St) {a : Act} (h : P a) : Quiet P s (s.act a) :=
  ⟨s.answers, [a], rfl, by simpa using h⟩

theorem Quiet.trans {P : Act → Prop} {s t u : St} (h : Quiet P s t) (k : Quiet P t u) : Quiet P s u := by
  obtain ⟨a, l, rfl, hl⟩ := h
  obtain ⟨b, m, rfl, hm⟩ := k
  refine ⟨b, l ++ m, by simp, fun x hx => ?_⟩
  rcases List.mem_append.1 hx with hx | hx
  · exact hl x hx
  · exact hm x hx

theorem Quiet.mono {P Q : Act → Prop} {s t : St} (h : Quiet P s t) (k : ∀ a, P a → Q a) : Quiet Q s t := by
  obtain ⟨a, l, rfl, hl⟩ := h
  exact ⟨a, l, rfl, fun x hx => k x (hl x hx)⟩

theorem Quiet.and {P Q : Act → Prop} {s t : St} (h : Quiet P s t) (k : Quiet Q s t) : Quiet (fun a => P a ∧ Q a) s t := by
  obtain ⟨a, l, rfl, hl⟩ := h
  obtain ⟨b, m, e, hm⟩ := k
  have e2 : l = m := by
    have := congrArg St.out e
    simpa using this
  subst e2
  exact ⟨a, l, rfl, fun x hx => ⟨hl x hx, hm x hx⟩⟩

theorem ask_quiet {P : Act → Prop} (s : St) {t : Bytes} {e : Bool} (h : P (.prompt t e)) : Quiet P s (ask s t e).2 := by
  unfold ask
  split
  · exact Quiet.act s h
  · exact ⟨_, [_], rfl, by simpa using h⟩

theorem read_quiet {P : Act → Prop} (s : St) {t : Bytes} {e : Bool} (h : P (.prompt t e)) : Quiet P s (read s t e).2 :=
  ask_quiet s h

theorem rsaLengthOk_iff (C : Conf) (k : Key) : rsaLengthOk C k = true ↔ LongEnough C k := by
  unfold rsaLengthOk LongEnough
  cases k with
  | mk pub cert =>
    cases pub <;> simp
    omega

/-- What loading a file does: prompts for the passphrase, none in batch mode. -/
def LoadAct (C : Conf) (file : Bytes) (a : Act) : Prop :=
  (∃ t, a = .prompt (b!"Enter passphrase for key '" ++ t) false ∧ C.batch = false) ∨ ∃ p, a = .load file p

theorem loadGo_quiet (C : Conf) (W : World) (file : Bytes) : ∀ (n : Nat) (first : Bool) (s : St),
    (first = false → C.batch = false) → Quiet (LoadAct C file) s (loadGo C W file n first s).2 := by
  intro n
  induction n with
  | zero => intro first s _; exact Quiet.refl _ _
  | succ n ih =>
    intro first s hb
    have hstep : Quiet (LoadAct C file) s
        (if first then (([] : Bytes), s) else read s (b!"Enter passphrase for key '" ++ file.take 100 ++ b!"': ") false).2 := by
      cases first with
      | true => exact Quiet.refl _ _
      | false =>
        refine read_quiet s (.inl ⟨file.take 100 ++ b!"': ", ?_, hb rfl⟩)
        simp [List.append_assoc]
    rw [loadGo]
    generalize (if first then (([] : Bytes), s) else read s (b!"Enter passphrase for key '" ++ file.take 100 ++ b!"': ") false)
      = q at hstep ⊢
    obtain ⟨pass, s1⟩ := q
    show Quiet _ s (if first = false ∧ pass = [] then _ else _ : Option Key × St).2
    have hl : ∀ p, Quiet (LoadAct C file) s (s1.act (.load file p)) := fun p => hstep.trans (Quiet.act _ (.inr ⟨p, rfl⟩))
    split
    · exact hstep
    · split
      · exact hl _
      · split
        · exact hl _
        · rename_i hbb
          exact (hl _).trans (ih false _ (fun _ => by simpa using hbb))
      · split
        · exact hl _
        · split
          · exact hl _
          · exact hl _

theorem loadFile_quiet (C : Conf) (W : World) (file : Bytes) (s : St) : Quiet (LoadAct C file) s (loadFile C W file s).2 := by
  unfold loadFile
  split
  · exact Quiet.refl _ _
  · exact loadGo_quiet C W file _ true s (by simp)

theorem loadGo_key (C : Conf) (W : World) (file : Bytes) : ∀ (n : Nat) (first : Bool) (s : St) {k : Key},
    (loadGo C W file n first s).1 = some k → LongEnough C k ∧ usableSk C k := by
  intro n
  induction n with
  | zero => intro first s k h; simp [loadGo] at h
  | succ n ih =>
    intro first s k h
    rw [loadGo] at h
    generalize (if first then (([] : Bytes), s) else read s (b!"Enter passphrase for key '" ++ file.take 100 ++ b!"': ") false)
      = q at h
    obtain ⟨pass, s1⟩ := q
    change (if first = false ∧ pass = [] then _ else _ : Option Key × St).1 = some k at h
    split at h
    · simp at h
    · split at h
      · simp at h
      · split at h
        · simp at h
        · exact ih _ _ h
      · split at h
        · simp at h
        · rename_i h1
          split at h
          · simp at h
          · rename_i h2
            simp only [Option.some.injEq] at h
            subst h
            refine ⟨(rsaLengthOk_iff C _).1 (by simpa using h2), fun hs => ?_⟩
            simpa [hs] using h1

theorem loadFile_key {C : Conf} {W : World} {file : Bytes} {s : St} {k : Key} (h : (loadFile C W file s).1 = some k) :
    LongEnough C k ∧ usableSk C k := by
  unfold loadFile at h
  split at h
  · simp at h
  · exact loadGo_key C W file _ _ _ h

/-! ### Signing -/

/-- What signing does: the key file may be read, a PIN asked for, and signatures made. -/
def SignAct (C : Conf) (file : Bytes) (may : Prop) (ok : Signer → Prop) (data alg : Bytes) (a : Act) : Prop :=
  (LoadAct C file a ∧ may) ∨ (∃ q, a = .prompt (b!"Enter PIN for " ++ sshKeyName q ++ b!" key " ++ file ++ b!": ") false ∧
    isSk q = true ∧ ok (.file file q)) ∨ ∃ who, a = .sign who data alg ∧ ok who

theorem signKey_quiet (C : Conf) (W : World) (file : Bytes) (who : Signer) (k : Key) (data alg : Bytes) (m : Bool) (s : St)
    {may : Prop} {ok : Signer → Prop} (h : ok who) (hw : m = true → who = .file file k) : Quiet (SignAct C file may ok data alg) s (signKey W file who k data alg m s).2 := by
  have ha : ∀ t : St, Quiet (SignAct C file may ok data alg) t (t.act (.sign who data alg)) :=
    fun t => Quiet.act t (.inr (.inr ⟨who, rfl, h⟩))
  unfold signKey
  split
  · split
    · rename_i hm
      refine ((ha s).trans ?_).trans (ha _)
      exact read_quiet _ (.inr (.inl ⟨k, rfl, hm.2, hw hm.1 ▸ h⟩))
    · exact ha s
  · exact ha s

/-- Who signs for an entry: the key it has, or one read from its file. -/
def SignsFor (C : Conf) (id : Ident) : Signer → Prop
  | .agent q => id.agent = true ∧ id.key = some q
  | .held q => id.key = some q
  | .file g q => g = id.file ∧ LongEnough C q ∧ usableSk C q ∧ (∀ k, id.key = some k → q.pub = k.pub)

theorem identitySign_quiet (C : Conf) (W : World) (id : Ident) (data alg : Bytes) (s : St) :
    Quiet (SignAct C id.file (id.agent = false ∨ id.key = none) (SignsFor C id) data alg) s (identitySign C W id data alg s).2 := by
  have hload0 : (id.agent = false ∨ id.key = none) → Quiet (SignAct C id.file (id.agent = false ∨ id.key = none)
      (SignsFor C id) data alg) s (loadFile C W id.file s).2 :=
    fun hm => (loadFile_quiet C W id.file s).mono (fun a h => .inl ⟨h, hm⟩)
  unfold identitySign
  split
  · rename_i k hk
    split
    · rename_i ha
      exact Quiet.act s (.inr (.inr ⟨_, rfl, ha, hk⟩))
    · rename_i ha
      have hload := hload0 (.inl (by simpa using ha))
      split
      · exact signKey_quiet C W _ _ _ _ _ _ _ hk (fun h => (by cases h))
      · cases hl : loadFile C W id.file s with
        | mk o t =>
          rw [hl] at hload
          cases o with
          | none => exact hload
          | some prv =>
            show Quiet _ s (if equalPublic prv k = false then (Sign.notFound, t) else _).2
            split
            · exact hload
            · rename_i he
              have hp := loadFile_key (C := C) (W := W) (file := id.file) (s := s) (k := prv) (by rw [hl])
              refine hload.trans (signKey_quiet C W _ _ _ _ _ _ _ ⟨rfl, hp.1, hp.2, fun k' hk' => ?_⟩ (fun _ => rfl))
              rw [hk] at hk'
              cases hk'
              simpa [equalPublic] using he
  · rename_i hk
    have hload := hload0 (.inr hk)
    cases hl : loadFile C W id.file s with
    | mk o t =>
      rw [hl] at hload
      cases o with
      | none => exact hload
      | some prv =>
        have hp := loadFile_key (C := C) (W := W) (file := id.file) (s := s) (k := prv) (by rw [hl])
        refine hload.trans (signKey_quiet C W _ _ _ _ _ _ _ ⟨rfl, hp.1, hp.2, fun k' hk' => ?_⟩ (fun _ => rfl))
        rw [hk] at hk'; cases hk'

/-- A signature that is used is of the algorithm asked for. -/
theorem checked_ok {alg sig x : Bytes} (h : checked alg sig = .ok x) :
    x = sig ∧ ∃ e rest, sigalgByName alg = some e ∧ getCstr sig = some (e, rest) := by
  unfold checked at h
  split at h
  · simp at h
  · rename_i e he
    split at h
    · simp at h
    · rename_i t r hr
      split at h
      · rename_i ht
        subst ht
        simp only [Sign.ok.injEq] at h
        exact ⟨h.symm, t, r, he, hr⟩
      · simp at h

theorem checkSign_ok {alg x : Bytes} {r : Sign} (h : checkSign alg r = .ok x) :
    ∃ e rest, sigalgByName alg = some e ∧ getCstr x = some (e, rest) := by
  cases r <;> simp only [checkSign] at h
  · obtain ⟨rfl, h⟩ := checked_ok h
    exact h
  all_goals simp at h

theorem signKey_ok {W : World} {file : Bytes} {who : Signer} {k : Key} {data alg : Bytes} {m : Bool} {s t : St} {x : Bytes}
    (h : signKey W file who k data alg m s = (.ok x, t)) : ∃ e rest, sigalgByName alg = some e ∧ getCstr x = some (e, rest) := by
  unfold signKey at h
  split at h
  · split at h
    · simp only [Prod.mk.injEq] at h
      exact checkSign_ok h.1
    · simp at h
  · simp only [Prod.mk.injEq] at h
    exact checkSign_ok h.1

theorem identitySign_ok {C : Conf} {W : World} {id : Ident} {data alg : Bytes} {s t : St} {x : Bytes}
    (h : identitySign C W id data alg s = (.ok x, t)) : ∃ e rest, sigalgByName alg = some e ∧ getCstr x = some (e, rest) := by
  unfold identitySign at h
  split at h
  · split at h
    · simp only [Prod.mk.injEq] at h
      exact checkSign_ok h.1
    · split at h
      · exact signKey_ok h
      · split at h
        · simp at h
        · split at h
          · simp at h
          · exact signKey_ok h
  · split at h
    · simp at h
    · exact signKey_ok h

theorem Quiet.same {P : Act → Prop} {s t : St} (h : Quiet P s t) :
    ∃ a l, t = { s with answers := a, out := s.out ++ l } ∧ ∀ x ∈ l, P x := h

/-! ### Algorithms -/

theorem names_split {n l : Bytes} (h : n ∈ names l) : n ∈ split COMMA l := by
  unfold names at h
  exact (List.takeWhile_sublist _).subset h

theorem names_single {n : Bytes} (h : COMMA ∉ n) : names n = if n = [] then [] else [n] := by
  unfold names
  rw [split_no_sep h]
  simp [List.takeWhile]
  split <;> simp_all

theorem implNames_plain : ∀ i ∈ PubKey.keyimpls, COMMA ∉ i.name ∧ i.name ≠ [] ∧
    (∀ a, i.sigalg = some a → COMMA ∉ a ∧ a ≠ []) := by decide +kernel

theorem sshName_impl {k : Kind} {c : Bool} {nid : Option Curve} {n : Bytes} (h : sshName k c nid = some n) :
    ∃ i ∈ PubKey.keyimpls, i.name = n ∧ i.kind = k ∧ i.cert = c := by
  unfold sshName at h
  simp only [Option.map_eq_some_iff] at h
  obtain ⟨i, hi, rfl⟩ := h
  have h2 := List.find?_some hi
  simp only [decide_eq_true_eq] at h2
  exact ⟨i, List.mem_of_find?_eq_some hi, rfl, h2.1, h2.2.1⟩

theorem sshKeyName_plain (k : Key) : COMMA ∉ sshKeyName k ∧ sshKeyName k ≠ [] := by
  unfold sshKeyName
  cases h : sshName k.pub.kind k.cert.isSome k.pub.nid with
  | none => decide
  | some n =>
    obtain ⟨i, hi, rfl, -⟩ := sshName_impl h
    exact ⟨(implNames_plain i hi).1, (implNames_plain i hi).2.1⟩

theorem sigalg_plain {n a : Bytes} (h : sigalgByName n = some a) : COMMA ∉ a ∧ a ≠ [] := by
  unfold sigalgByName at h
  split at h
  · simp at h
  · rename_i i hi
    have hm := implNames_plain i (List.mem_of_find?_eq_some hi)
    split at h
    · rename_i b hb
      simp only [Option.some.injEq] at h; subst h
      exact hm.2.2 b hb
    · split at h
      · simp only [Option.some.injEq] at h; subst h
        exact ⟨hm.1, hm.2.1⟩
      · obtain ⟨j, hj, rfl, -⟩ := sshName_impl h
        exact ⟨(implNames_plain j hj).1, (implNames_plain j hj).2.1⟩

theorem matchList_single {n l m : Bytes} (hc : COMMA ∉ n) (h : (matchList n l).1 = some m) : m = n ∧ n ∈ (names l).take 40 := by
  obtain ⟨h1, b, a, h2, -⟩ := (Match.C07_selected_iff _ _ _).1 h
  rw [names_single hc] at h2
  split at h2
  · simp at h2
  · have : m ∈ [n] := by rw [h2]; simp
    simp only [List.mem_singleton] at this
    subst this
    exact ⟨rfl, h1⟩

theorem baseAlg_some {C : Conf} {k : Key} {alg : Bytes} (h : baseAlg C k = some alg) :
    alg = sshKeyName k ∧ alg ∈ split COMMA C.accepted := by
  obtain ⟨h1, h2⟩ := matchList_single (sshKeyName_plain k).1 h
  exact ⟨h1, h1 ▸ names_split (List.mem_of_mem_take h2)⟩

theorem sigAlgGo_some {t : Kind × Bool} {server : Bytes} {l : List Bytes} {alg : Bytes} (h : sigAlgGo t server l = some alg) :
    alg ∈ l ∧ typeFromName alg = some t ∧ ∃ a, sigalgByName alg = some a ∧ a ∈ names server := by
  induction l with
  | nil => simp [sigAlgGo] at h
  | cons cp l ih =>
    rw [sigAlgGo] at h
    have ih' : sigAlgGo t server l = some alg →
        alg ∈ cp :: l ∧ typeFromName alg = some t ∧ ∃ a, sigalgByName alg = some a ∧ a ∈ names server := by
      intro h
      obtain ⟨h1, h2⟩ := ih h
      exact ⟨List.mem_cons_of_mem _ h1, h2⟩
    split at h
    · exact ih' h
    · rename_i ht
      split at h
      · exact ih' h
      · rename_i a ha
        split at h
        · rename_i hm
          simp only [Option.some.injEq] at h; subst h
          refine ⟨List.mem_cons_self, by simpa using ht, a, ha, ?_⟩
          cases hx : (matchList a server).1 with
          | none => exact absurd hx hm
          | some m => exact List.mem_of_mem_take (matchList_single (sigalg_plain ha).1 hx).2
        · exact ih' h

theorem names_74 : names b!"rsa-sha2-256,rsa-sha2-512" = [b!"rsa-sha2-256", b!"rsa-sha2-512"] := by decide

theorem sigAlgorithm_ok {C : Conf} {s : St} {w : Bool} {k : Key} {alg : Bytes} (h : sigAlgorithm C s w k = some alg) :
    AlgOk C s.sigAlgs k alg := by
  unfold sigAlgorithm at h
  cases w with
  | false =>
    obtain ⟨h1, h2⟩ := baseAlg_some (by simpa using h)
    exact ⟨h2, .inl h1⟩
  | true =>
    simp only [if_true] at h
    cases hs : s.sigAlgs with
    | none =>
      rw [hs] at h
      obtain ⟨h1, h2⟩ := baseAlg_some h
      exact ⟨h2, .inl h1⟩
    | some server =>
      rw [hs] at h
      simp only at h
      split at h
      · obtain ⟨h1, h2⟩ := baseAlg_some h
        exact ⟨h2, .inl h1⟩
      · rename_i hr
        obtain ⟨h1, h2, a, h3, h4⟩ := sigAlgGo_some h
        refine ⟨h1, .inr ⟨?_, h2, server, a, rfl, h3, ?_⟩⟩
        · simp only [not_or, Decidable.not_not] at hr; exact hr.1
        · split at h4
          · rename_i hb
            rw [names_74] at h4
            exact .inr ⟨hb.2, by simpa using h4⟩
          · exact .inl h4

end Verif.CliAuth
