/-
C122: names inside of commands.
-/
import Verif.Target.Dest
import Verif.Target.Spec

namespace Verif.Target
open Verif
open _root_.Verif.Match (toLower)

private theorem bytes {P : UInt8 → Prop} (h : ∀ n : Fin 256, P (UInt8.ofNat n.1)) (c : UInt8) : P c := by
  have := h ⟨c.toNat, c.toNat_lt⟩
  simpa using this

theorem reads_append (q : Quote) (a b : Bytes) :
    reads q (a ++ b) = ((reads (reads q a).1 b).1, (reads q a).2 ++ (reads (reads q a).1 b).2) := by
  induction a generalizing q with
  | nil => rfl
  | cons c a ih => simp only [List.cons_append, reads, ih, List.append_assoc]

/-- Characters that stand for themselves -/
def Harmless (c : UInt8) : Prop := c ≠ 39 ∧ c ≠ 34 ∧ c ≠ 92 ∧ c ∉ metas

theorem harmless_next {c : UInt8} (h : Harmless c) (q : Quote) : next q c = (unescaped q, [.lit c]) := by
  obtain ⟨h1, h2, h3, h4⟩ := h
  have h5 : ¬ (c = 36 ∨ c = 96) := by
    rintro (rfl | rfl) <;> exact h4 (by decide)
  cases q <;> simp [next, unescaped, h1, h2, h3, h4, h5]

theorem inert_of_harmless {h : Bytes} (hh : ∀ c ∈ h, Harmless c) : Inert h := by
  have main : ∀ (h : Bytes), (∀ c ∈ h, Harmless c) → ∀ q, unescaped q = q → reads q h = (q, h.map .lit) := by
    intro h
    induction h with
    | nil => intro _ q _; rfl
    | cons c h ih =>
      intro hh q hq
      rw [reads, harmless_next (hh c (by simp))]
      simp only [hq]
      rw [ih (fun x hx => hh x (by simp [hx])) q hq]
      rfl
  intro q hne
  cases h with
  | nil => exact absurd rfl hne
  | cons c h =>
    rw [reads, harmless_next (hh c (by simp))]
    simp only
    rw [main h (fun x hx => hh x (by simp [hx])) (unescaped q) (by cases q <;> rfl)]
    rfl

theorem harmless_iff : ∀ c : UInt8, (hostBad.contains c || isSpace c || isCntrl c) = false → Harmless c := by
  apply bytes
  unfold Harmless
  decide +kernel

theorem harmless_name : ∀ c : UInt8, (isAlpha c || isDigit c || c = 95 || c = 45 || c = 46) = true → Harmless c := by
  apply bytes
  unfold Harmless
  decide +kernel

theorem validHostname_chars {h : Bytes} (hv : validHostname h = true) : ∀ c ∈ h, Harmless c := by
  intro c hc
  unfold validHostname at hv
  rw [Bool.and_eq_true, List.all_eq_true] at hv
  have := hv.2 c hc
  exact harmless_iff c (by simpa using this)

/-- C122: a host name from the command line stands for itself wherever it is put into a command, and is not an option. -/
theorem C122_host {h : Bytes} (hv : validHostname h = true) : Inert h ∧ h.head? ≠ some 45 := by
  refine ⟨inert_of_harmless (validHostname_chars hv), ?_⟩
  unfold validHostname at hv
  rw [Bool.and_eq_true] at hv
  simpa using hv.1

/-- C122: so does a name that the DNS gives as the canonical one. -/
theorem C122_alias {d : Bytes} (hd : Domain d) : Inert d ∧ d.head? ≠ some 45 := by
  refine ⟨inert_of_harmless fun c hc => harmless_name c ?_, ?_⟩
  · have := hd.2.1 c hc
    rw [NameChar, ← letter_iff, ← digit_iff] at this
    simpa [or_assoc] using this
  · obtain ⟨⟨c, l, rfl, h⟩, _⟩ := hd
    intro e
    simp at e
    subst e
    revert h
    simp [Letter, Digit]

theorem lower_harmless : ∀ c : UInt8, Harmless c → Harmless (toLower c) := by
  apply bytes
  unfold Harmless
  decide +kernel

/-- The names a client with an accepted argument can end up with, without `Hostname`: all stand for themselves, as long as the
configured domains and the addresses of the resolver do. -/
theorem C122_target {C : Cfg} {R : Resolver} {host g : Bytes} {r : Bool} (hv : validHostname host = true)
    (hd : ∀ d ∈ C.domains, Domain d) (ha : ∀ n a, R.numeric n = some a → Inert a) (h : target C R host = .host g r) : Inert g := by
  have hname : ∀ {d : Bytes}, Domain d → ∀ c ∈ d, Harmless c := by
    intro d hd c hc
    have := hd.2.1 c hc
    rw [NameChar, ← letter_iff, ← digit_iff] at this
    exact harmless_name c (by simpa [or_assoc] using this)
  obtain ⟨b, hb, hg⟩ := C120_possible h
  have hB : ∀ c ∈ b, Harmless c := by
    rcases hb with ⟨_, rfl⟩ | ⟨_, _, rfl⟩
    · exact validHostname_chars hv
    · intro c hc
      obtain ⟨x, hx, rfl⟩ := List.mem_map.1 hc
      exact lower_harmless x (validHostname_chars hv x hx)
  rcases hg with rfl | hg | ⟨n, hn, hg⟩
  · exact inert_of_harmless hB
  · exact ha _ _ hg
  · rcases hg with rfl | ⟨_, hg⟩
    · refine inert_of_harmless ?_
      rcases hn with rfl | rfl | ⟨d, h1, rfl⟩
      · exact hB
      · exact fun c hc => hB c (by simp [hc])
      · intro c hc
        simp only [List.mem_append, List.mem_singleton] at hc
        rcases hc with (hc | rfl) | hc
        · exact hB c hc
        · exact harmless_name 46 (by decide)
        · exact hname (hd d h1) c hc
    · exact (C122_alias hg).1

/-- C122, where it is put into a command: what is before and after it is read as it would be without it. -/
theorem C122_template {h : Bytes} (hi : Inert h) (hne : h ≠ []) (a b : Bytes) :
    (reads .plain (a ++ h ++ b)).2 =
      (reads .plain a).2 ++ h.map .lit ++ (reads (unescaped (reads .plain a).1) b).2 := by
  rw [reads_append, reads_append]
  simp only [hi _ hne, List.append_assoc]

/-! ### Users -/

/-- Characters with which a new command can be started or substituted without a new line -/
def commandChars : Bytes := b!"'`\";&<>|(){}"

theorem ruserGo_iff (s : Bytes) : ruserGo s = true ↔ (∀ c ∈ s, c ∉ commandChars) ∧
    (¬ ∃ a x b, s = a ++ x :: 45 :: b ∧ isSpace x = true) ∧ ¬ ∃ a, s = a ++ [92] := by
  induction s with
  | nil => simp [ruserGo]
  | cons c l ih =>
    rw [ruserGo]
    have hA : (∃ a x b, c :: l = a ++ x :: 45 :: b ∧ isSpace x = true) ↔
        (isSpace c = true ∧ l.head? = some 45) ∨ ∃ a x b, l = a ++ x :: 45 :: b ∧ isSpace x = true := by
      constructor
      · rintro ⟨a, x, b, h, hx⟩
        cases a with
        | nil => simp at h; exact .inl ⟨h.1 ▸ hx, by rw [h.2]; rfl⟩
        | cons y a => simp at h; exact .inr ⟨a, x, b, h.2, hx⟩
      · rintro (⟨hx, h⟩ | ⟨a, x, b, h, hx⟩)
        · cases l with
          | nil => cases h
          | cons y l => simp at h; subst h; exact ⟨[], c, l, rfl, hx⟩
        · exact ⟨c :: a, x, b, by rw [h]; rfl, hx⟩
    have hB : (∃ a, c :: l = a ++ [92]) ↔ (c = 92 ∧ l = []) ∨ ∃ a, l = a ++ [92] := by
      constructor
      · rintro ⟨a, h⟩
        cases a with
        | nil => simp at h; exact .inl h
        | cons y a => simp at h; exact .inr ⟨a, h.2⟩
      · rintro (⟨rfl, rfl⟩ | ⟨a, h⟩)
        · exact ⟨[], rfl⟩
        · exact ⟨c :: a, by rw [h]; rfl⟩
    rw [hA, hB]
    have hc : userBad.contains c = true ↔ c ∈ commandChars := List.contains_iff_mem
    by_cases h1 : c ∈ commandChars
    · rw [if_pos (hc.2 h1)]
      exact ⟨fun h => (by cases h), fun h => absurd h1 (h.1 c (by simp))⟩
    rw [if_neg (fun h => h1 (hc.1 h))]
    by_cases h2 : isSpace c = true ∧ l.head? = some 45
    · rw [if_pos (by simp [h2.1, h2.2])]
      exact ⟨fun h => (by cases h), fun h => absurd (.inl h2) h.2.1⟩
    rw [if_neg (by simpa using h2)]
    by_cases h3 : c = 92 ∧ l = []
    · rw [if_pos (by simp [h3.1, h3.2])]
      exact ⟨fun h => (by cases h), fun h => absurd (.inl h3) h.2.2⟩
    rw [if_neg (by simpa using h3), ih]
    simp only [List.forall_mem_cons, h1, not_false_eq_true, true_and, h2, false_or, h3]

/-- C122: what is excluded for users: quotes, and the characters that start, join, redirect or group commands; an option, also
after a blank; a backslash at the end. New lines and `$` are not, see below. -/
theorem C122_user_partial (u : Bytes) : validRuser u = true ↔ u.head? ≠ some 45 ∧ (∀ c ∈ u, c ∉ commandChars) ∧
    (¬ ∃ a x b, u = a ++ x :: 45 :: b ∧ isSpace x = true) ∧ ¬ ∃ a, u = a ++ [92] := by
  unfold validRuser
  rw [Bool.and_eq_true, ruserGo_iff]
  simp

/-- A user name with a new line -/
def lineUser : Bytes := b!"a\nreboot"

/-- C122 is false for users: a new line is accepted, and ends the command. -/
theorem C122_user_false : validRuser lineUser = true ∧ ¬ Inert lineUser := by
  refine ⟨by decide, fun h => ?_⟩
  have := h .plain (by decide)
  revert this
  decide

/-- A jump host with a command in it -/
def badHop : Bytes := b!"a;reboot"

/-- C122 is false for `ProxyJump`: the hop is accepted, its host is not checked, and the command for it has a second one in it. -/
theorem C122_jump_false (serv : Bytes → Option Nat) : ∃ D, hop serv badHop = some D ∧ validHostname D.host = false ∧
    Tok.op 59 ∈ (reads .plain (jumpCommand b!"ssh" D none none 0)).2 :=
  ⟨⟨none, badHop, none⟩, rfl, by decide, by decide⟩

/-- C122: the host of a hop that is given as a URI is checked. -/
theorem C122_jump_partial {serv : Bytes → Option Nat} {s : Bytes} {D : Dest} (hu : IsUri s) (h : hop serv s = some D) :
    Inert D.host ∧ D.host.head? ≠ some 45 := by
  rcases (C121_hop serv s D).1 h with h | ⟨h, _⟩
  · obtain ⟨t, r, f, x, rest, _, _, _, _, _, hd, hun, _⟩ := h
    have hd' : ∀ c ∈ D.host, Harmless c := by
      intro c hc
      have hcx : c ∈ x := by
        rcases hun with e | ⟨e, _⟩ <;> rw [e] <;> simp [hc]
      have := hd.2.1 c hcx
      rw [NameChar, ← letter_iff, ← digit_iff] at this
      exact harmless_name c (by simpa [or_assoc] using this)
    refine ⟨inert_of_harmless hd', fun e => ?_⟩
    have he : x.head? = some 45 := by
      rcases hun with e1 | ⟨e1, _⟩
      · rw [e1]
        cases hD : D.host with
        | nil => rw [hD] at e; cases e
        | cons y l => rw [hD] at e; exact e
      · rw [e1]; exact e
    obtain ⟨c, l, rfl, h⟩ := hd.1
    simp at he
    subst he
    revert h
    simp [Letter, Digit]
  · exact absurd hu h

end Verif.Target
