/-
C142: what a certificate is issued with is what the server grants.
-/
import Verif.Issue.Model

namespace Verif.Issue
open Verif
open _root_.Verif.Wire
open _root_.Verif.Match (toLower)
open _root_.Verif.KeyOpts (World Opts Entry setEntry setExtension setCritical afterEntry certOptionList CertType Cert fromCert startsCase)

/-! ### What is meant -/

/-- The option that sets a flag -/
def yes : Flag → Bytes
  | .x11 => b!"permit-x11-forwarding"
  | .agent => b!"permit-agent-forwarding"
  | .port => b!"permit-port-forwarding"
  | .pty => b!"permit-pty"
  | .userRc => b!"permit-user-rc"
  | .noPresence => b!"no-touch-required"
  | .verify => b!"verify-required"

/-- The option that clears it -/
def no : Flag → Bytes
  | .x11 => b!"no-x11-forwarding"
  | .agent => b!"no-agent-forwarding"
  | .port => b!"no-port-forwarding"
  | .pty => b!"no-pty"
  | .userRc => b!"no-user-rc"
  | .noPresence => b!"touch-required"
  | .verify => b!"no-verify-required"

/-- What one option says on a flag, if anything -/
def said (f : Flag) (opt : Bytes) : Option Bool :=
  if caseEq opt b!"clear" then some false else if caseEq opt (yes f) then some true else if caseEq opt (no f) then some false else none

/-- The last word on a flag -/
def lastSaid (f : Flag) (opts : List Bytes) (before : Bool) : Bool := (opts.reverse.findSome? (said f)).getD before

/-- Names that the server knows -/
def knownExtensions : List Bytes :=
  [b!"no-touch-required", b!"permit-X11-forwarding", b!"permit-agent-forwarding", b!"permit-port-forwarding", b!"permit-pty", b!"permit-user-rc"]
def knownCritical : List Bytes := [b!"verify-required", b!"force-command", b!"source-address"]

/-! ### The command line -/

/-- said, of text in lower case -/
def saidLow (f : Flag) (t : Bytes) : Option Bool :=
  if t = (b!"clear").map toLower then some false else if t = (yes f).map toLower then some true else if t = (no f).map toLower then some false else none

theorem said_low (f : Flag) (opt : Bytes) : said f opt = saidLow f (opt.map toLower) := by
  simp only [said, saidLow, caseEq, decide_eq_true_eq]

def flags : List Flag := [.x11, .agent, .port, .pty, .userRc, .noPresence, .verify]

theorem mem_flags (f : Flag) : f ∈ flags := by cases f <;> decide

theorem table_said : ∀ e ∈ table, ∀ f ∈ flags, saidLow f (e.1.map toLower) = if f = e.2.1 then some e.2.2 else none := by decide +kernel

theorem yes_mem (f : Flag) : (yes f, f, true) ∈ table := by cases f <;> decide
theorem no_mem (f : Flag) : (no f, f, false) ∈ table := by cases f <;> decide

/-- What holds of what is asked for -/
structure Inv (w : World) (a : Ask) : Prop where
  command : ∀ c, a.command = some c → (0 : UInt8) ∉ c ∧ c.length + 4 ≤ maxString
  source : ∀ c, a.source = some c → (0 : UInt8) ∉ c ∧ c.length + 4 ≤ maxString ∧ Addr.matchCidrList w.pton none c = 0
  exts : ∀ e ∈ a.exts, (0 : UInt8) ∉ e.key ∧ e.key.length ≤ maxString ∧ (data e.val).length ≤ maxString

theorem own_inv {opt : Bytes} (h0 : (0 : UInt8) ∉ opt) (hl : opt.length + 4 ≤ maxString) (crit : Bool) :
    (0 : UInt8) ∉ (own crit opt).key ∧ (own crit opt).key.length ≤ maxString ∧ (data (own crit opt).val).length ≤ maxString := by
  have hs : ∀ x ∈ (opt.dropWhile (· ≠ 58)).drop 1, x ∈ opt := fun x hx => (List.dropWhile_sublist _).subset ((List.drop_sublist _ _).subset hx)
  have hl1 : ((opt.dropWhile (· ≠ 58)).drop 1).length ≤ opt.length := by
    have h1 := (List.dropWhile_sublist (l := opt) (· ≠ 58)).length_le
    have h2 := (List.drop_sublist 1 (opt.dropWhile (· ≠ 58))).length_le
    omega
  generalize hr : (opt.dropWhile (· ≠ 58)).drop 1 = r at *
  refine ⟨?_, ?_, ?_⟩
  · intro h
    simp only [own, hr] at h
    exact h0 (hs _ ((List.takeWhile_sublist _).subset h))
  · simp only [own, hr]
    have := (List.takeWhile_sublist (l := r) (· ≠ 61)).length_le
    omega
  · simp only [own, hr]
    split
    · simp only [data, str, List.length_append, be_length]
      have h1 := (List.dropWhile_sublist (l := r) (· ≠ 61)).length_le
      have h2 := (List.drop_sublist 1 (r.dropWhile (· ≠ 61))).length_le
      omega
    · simp [data]

theorem addOption_inv {w : World} {a a' : Ask} {opt : Bytes} (h0 : (0 : UInt8) ∉ opt) (hl : opt.length + 4 ≤ maxString) (hi : Inv w a)
    (h : addOption w a opt = some a') : Inv w a' := by
  have hd : ∀ n, (0 : UInt8) ∉ opt.drop n ∧ (opt.drop n).length + 4 ≤ maxString :=
    fun n => ⟨fun hm => h0 ((List.drop_sublist _ _).subset hm), by have := (List.drop_sublist n opt).length_le; omega⟩
  unfold addOption at h
  split at h
  · cases h
    exact ⟨hi.command, hi.source, hi.exts⟩
  · split at h
    · cases h
      exact ⟨hi.command, hi.source, hi.exts⟩
    · split at h
      · split at h
        · cases h
        · cases h
          refine ⟨fun c hc => ?_, hi.source, hi.exts⟩
          injection hc with hc
          subst hc
          exact hd 14
      · split at h
        · split at h
          · cases h
          · rename_i hn
            cases h
            refine ⟨hi.command, fun c hc => ?_, hi.exts⟩
            injection hc with hc
            subst hc
            simp only [not_or, Decidable.not_not] at hn
            exact ⟨(hd 15).1, (hd 15).2, hn.2.2⟩
        · split at h
          · cases h
            refine ⟨hi.command, hi.source, fun e he => ?_⟩
            rcases List.mem_append.1 he with he | he
            · exact hi.exts e he
            · rw [List.mem_singleton.1 he]
              exact own_inv h0 hl false
          · split at h
            · cases h
              refine ⟨hi.command, hi.source, fun e he => ?_⟩
              rcases List.mem_append.1 he with he | he
              · exact hi.exts e he
              · rw [List.mem_singleton.1 he]
                exact own_inv h0 hl true
            · cases h

theorem addAll_inv {w : World} : ∀ {opts : List Bytes} {a a' : Ask}, (∀ o ∈ opts, (0 : UInt8) ∉ o ∧ o.length + 4 ≤ maxString) → Inv w a →
    addAll w opts a = some a' → Inv w a' := by
  intro opts
  induction opts with
  | nil => intro a a' _ hi h; cases h; exact hi
  | cons o l ih =>
    intro a a' ho hi h
    obtain ⟨b, h1, h2⟩ := Option.bind_eq_some_iff.1 h
    exact ih (fun x hx => ho x (by simp [hx])) (addOption_inv (ho o (by simp)).1 (ho o (by simp)).2 hi h1) h2

theorem addOption_flags {w : World} {a a' : Ask} {opt : Bytes} (h : addOption w a opt = some a') (f : Flag) :
    a'.flags f = (said f opt).getD (a.flags f) := by
  unfold addOption at h
  split at h
  · rename_i hc
    cases h
    simp only [said, if_pos hc]
    rfl
  · rename_i hc
    split at h
    · rename_i e f' b hf
      cases h
      have hm := List.mem_of_find?_eq_some hf
      have he := List.find?_some hf
      simp only [caseEq, decide_eq_true_eq] at he
      have := table_said _ hm f (mem_flags f)
      rw [said_low, he, this]
      simp only [put]
      split <;> rfl
    · rename_i hf
      have hn : said f opt = none := by
        rw [List.find?_eq_none] at hf
        have h1 := hf _ (yes_mem f)
        have h2 := hf _ (no_mem f)
        simp only [said, if_neg hc, if_neg h1, if_neg h2]
      rw [hn]
      have : a'.flags = a.flags := by
        split at h
        · split at h
          · cases h
          · cases h; rfl
        · split at h
          · split at h
            · cases h
            · cases h; rfl
          · split at h
            · cases h; rfl
            · split at h
              · cases h; rfl
              · cases h
      rw [this]
      rfl

/-- C142: for each permission the last option that says anything on it decides; if there is none, it stays as before. -/
theorem C142_last {w : World} : ∀ {opts : List Bytes} {a a' : Ask}, addAll w opts a = some a' → ∀ f, a'.flags f = lastSaid f opts (a.flags f) := by
  intro opts
  induction opts with
  | nil => intro a a' h f; cases h; rfl
  | cons o l ih =>
    intro a a' h f
    obtain ⟨b, h1, h2⟩ := Option.bind_eq_some_iff.1 h
    rw [ih h2 f, addOption_flags h1 f]
    simp only [lastSaid, List.reverse_cons, List.findSome?_append]
    cases List.findSome? (said f) l.reverse with
    | some v => rfl
    | none =>
      simp only [Option.none_or, List.findSome?_cons, List.findSome?_nil, Option.getD_none]
      cases said f o <;> rfl

/-! ### Sorting -/

theorem insert_perm (e : Ext) (l : List Ext) : (insert e l).Perm (e :: l) := by
  induction l with
  | nil => exact .refl _
  | cons x l ih =>
    rw [insert]
    split
    · exact .refl _
    · exact (List.Perm.cons x ih).trans (.swap _ _ _)

theorem sort_perm (l : List Ext) : (sort l).Perm l := by
  induction l with
  | nil => exact .refl _
  | cons e l ih => exact (insert_perm e _).trans (List.Perm.cons e ih)

theorem strcmp_refl (a : Bytes) : strcmp a a = .eq := by
  induction a with
  | nil => rfl
  | cons x a ih => simp [strcmp, ih]

theorem strcmp_eq {a b : Bytes} (h : strcmp a b = .eq) : a = b := by
  induction a generalizing b with
  | nil => cases b <;> simp [strcmp] at h ⊢
  | cons x a ih =>
    cases b with
    | nil => simp [strcmp] at h
    | cons y b =>
      rw [strcmp] at h
      by_cases h1 : x.toNat < y.toNat
      · simp [h1] at h
      · by_cases h2 : y.toNat < x.toNat
        · simp [h1, h2] at h
        · simp only [h1, h2, if_false] at h
          rw [ih h, UInt8.toNat_inj.1 (show x.toNat = y.toNat by omega)]

theorem strcmp_gt {a b : Bytes} (h : strcmp a b = .gt) : strcmp b a ≠ .gt := by
  induction a generalizing b with
  | nil => cases b <;> simp [strcmp] at h
  | cons x a ih =>
    cases b with
    | nil => simp [strcmp]
    | cons y b =>
      rw [strcmp] at h ⊢
      by_cases h1 : x.toNat < y.toNat
      · simp [h1] at h
      · by_cases h2 : y.toNat < x.toNat
        · simp [h2]
        · simp only [h1, h2, if_false] at h ⊢
          exact ih h

theorem strcmp_trans {a b c : Bytes} (h : strcmp a b ≠ .gt) (h' : strcmp b c ≠ .gt) : strcmp a c ≠ .gt := by
  induction a generalizing b c with
  | nil => cases c <;> simp [strcmp]
  | cons x a ih =>
    cases b with
    | nil => simp [strcmp] at h
    | cons y b =>
      cases c with
      | nil => simp [strcmp] at h'
      | cons z c =>
        rw [strcmp] at h h' ⊢
        by_cases h1 : x.toNat < y.toNat
        · by_cases h2 : y.toNat < z.toNat
          · rw [if_pos (by omega)]; simp
          · by_cases h3 : z.toNat < y.toNat
            · simp [h2, h3] at h'
            · rw [if_pos (by omega)]; simp
        · by_cases h1' : y.toNat < x.toNat
          · simp [h1, h1'] at h
          · simp only [h1, h1', if_false] at h
            by_cases h2 : y.toNat < z.toNat
            · rw [if_pos (by omega)]; simp
            · by_cases h3 : z.toNat < y.toNat
              · simp [h2, h3] at h'
              · simp only [h2, h3, if_false] at h'
                rw [if_neg (by omega), if_neg (by omega)]
                exact ih h h'

/-- Not after: extensions before critical ones, and each by their names -/
def Before (a b : Ext) : Prop := (a.crit = false ∧ b.crit = true) ∨ (a.crit = b.crit ∧ strcmp a.key b.key ≠ .gt)

theorem before_trans {a b c : Ext} (h : Before a b) (h' : Before b c) : Before a c := by
  rcases h with ⟨h1, h2⟩ | ⟨h1, h2⟩ <;> rcases h' with ⟨h3, h4⟩ | ⟨h3, h4⟩
  · exact .inl ⟨h1, h4⟩
  · exact .inl ⟨h1, h3 ▸ h2⟩
  · exact .inl ⟨h1 ▸ h3, h4⟩
  · exact .inr ⟨h1.trans h3, strcmp_trans h2 h4⟩

theorem le_before {a b : Ext} (h : le a b = true) : Before a b := by
  unfold le at h
  by_cases hc : a.crit = b.crit
  · rw [if_neg (by simpa using hc)] at h
    refine .inr ⟨hc, fun hg => ?_⟩
    rw [hg] at h
    cases h
  · rw [if_pos hc] at h
    refine .inl ⟨?_, h⟩
    cases ha : a.crit with
    | false => rfl
    | true => exact absurd (ha.trans h.symm) hc

theorem not_le_before {a b : Ext} (h : ¬le a b = true) : Before b a := by
  unfold le at h
  by_cases hc : a.crit = b.crit
  · rw [if_neg (by simpa using hc)] at h
    refine .inr ⟨hc.symm, ?_⟩
    cases hs : strcmp a.key b.key with
    | lt => simp [hs] at h
    | eq =>
      rw [strcmp_eq hs, strcmp_refl]
      simp
    | gt => exact strcmp_gt hs
  · rw [if_pos hc] at h
    refine .inl ⟨by simpa using h, ?_⟩
    cases ha : a.crit with
    | true => rfl
    | false =>
      have : b.crit = false := by simpa using h
      exact absurd (ha.trans this.symm) hc

end Verif.Issue
