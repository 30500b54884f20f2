/-
C106 and C109, details: which methods are preferred, and the answers to questions.
-/
import Verif.CliAuth.Props

namespace Verif.CliAuth
open Verif Wire Text
open _root_.Verif.Match (names)
open scoped _root_.Verif.Match

/-- C106: the preferred methods are those of `PreferredAuthentications`, or else those that are configured, in a fixed order. -/
theorem C106_preferences (C : Conf) :
    (∀ p, C.preferred = some p → names (preferredList C) = names p) ∧
    (C.preferred = none → names (preferredList C) =
      (if C.hostbased = true then [b!"hostbased"] else []) ++ (if C.pubkey ≠ 0 then [b!"publickey"] else []) ++
      (if C.kbdint = true ∧ C.batch = false then [b!"keyboard-interactive"] else []) ++
      (if C.password = true ∧ C.batch = false then [b!"password"] else [])) := by
  refine ⟨fun p hp => by rw [preferredList, hp]; rfl, fun hn => ?_⟩
  rw [preferredList, hn]
  simp only [Option.getD_none, methodsGet]
  have e1 : isEnabled C [] .hostbased = C.hostbased := rfl
  have e2 : isEnabled C [] .publickey = decide (C.pubkey ≠ 0) := rfl
  have e3 : isEnabled C [] .kbdint = decide (C.kbdint = true ∧ C.batch = false) := rfl
  have e4 : isEnabled C [] .password = decide (C.password = true ∧ C.batch = false) := rfl
  have e5 : isEnabled C [] .nothing = false := rfl
  have key : ∀ a b c d : Bool, names (join COMMA ((methods.filter fun m => match m with
      | .hostbased => a | .publickey => b | .kbdint => c | .password => d | .nothing => false).map Meth.name)) =
      (if a = true then [b!"hostbased"] else []) ++ (if b = true then [b!"publickey"] else []) ++
      (if c = true then [b!"keyboard-interactive"] else []) ++ (if d = true then [b!"password"] else []) := by
    decide +kernel
  have hf : methods.filter (isEnabled C []) = methods.filter fun m => match m with
      | .hostbased => C.hostbased | .publickey => decide (C.pubkey ≠ 0)
      | .kbdint => decide (C.kbdint = true ∧ C.batch = false) | .password => decide (C.password = true ∧ C.batch = false)
      | .nothing => false := by
    apply List.filter_congr
    intro m _
    cases m <;> rfl
  rw [hf, key]
  simp only [decide_eq_true_eq]

/-- A question: the text as it is sent, the text, and whether the answer is shown -/
structure Question where
  sent : Bytes
  text : Bytes
  echo : UInt8

/-- What the user answers: one after the other, nothing after an end of file -/
def replies : Nat → List (Option Bytes) → List Bytes
  | 0, _ => []
  | n + 1, [] => [] :: replies n []
  | n + 1, a :: l => a.getD [] :: replies n l

/-- How the questions appear in the message, RFC 4256 section 3.2 -/
def wire (qs : List Question) : Bytes := (qs.map fun q => str q.sent ++ [q.echo]).flatten

/-- How they appear to the user -/
def asked (C : Conf) (qs : List Question) : List Act :=
  qs.map fun q => .prompt (b!"(" ++ C.user ++ b!"@" ++ hostName C ++ b!") " ++ q.text) (decide (q.echo ≠ 0))

theorem infoPrompts_exact (C : Conf) : ∀ (n : Nat) (b acc rest r : Bytes) (s t : St),
    infoPrompts C n b acc s = (some (rest, r), t) → ∃ qs : List Question, qs.length = n ∧ (∀ q ∈ qs, Named q.sent q.text) ∧
      b = wire qs ++ rest ∧ r = acc ++ ((replies n s.answers).map str).flatten ∧ t.out = s.out ++ asked C qs := by
  intro n
  induction n with
  | zero =>
    intro b acc rest r s t h
    simp only [infoPrompts, Prod.mk.injEq, Option.some.injEq] at h
    obtain ⟨⟨rfl, rfl⟩, rfl⟩ := h
    exact ⟨[], rfl, by simp, rfl, by simp [replies], by simp [asked]⟩
  | succ n ih =>
    intro b acc rest r s t h
    rw [infoPrompts] at h
    split at h
    · simp at h
    · rename_i p b1 h1
      split at h
      · simp at h
      · rename_i e b2 h2
        obtain ⟨v, hv, rfl, _⟩ := getCstr_named h1
        obtain ⟨x, rfl, rfl⟩ := getInt_one h2
        obtain ⟨qs, i1, i2, i3, i4, i5⟩ := ih _ _ _ _ _ _ h
        refine ⟨⟨v, p, x⟩ :: qs, by simp [i1], by simpa using ⟨hv, i2⟩, by rw [i3]; simp [wire], ?_, ?_⟩
        · rw [i4]
          cases ha : s.answers with
          | nil => simp [read, ask, ha, replies, St.act]
          | cons a l => simp [read, ask, ha, replies]
        · rw [i5]
          have hx : (decide (x.toNat ≠ 0)) = decide (x ≠ 0) := by
            congr 1
            rw [ne_eq, ne_eq, ← UInt8.toNat_inj]
            rfl
          cases ha : s.answers with
          | nil => simp only [read, ask, ha, St.act, asked, List.map_cons, hx]; simp
          | cons a l => simp only [read, ask, ha, St.act, asked, List.map_cons, hx]; simp

theorem show_answers (s : St) (t : Bytes) : (show? s t).answers = s.answers := by
  unfold show?; split <;> rfl

/-- C109: questions are answered if there are as many as the message says and nothing after them; then they are asked in their
order, and each is given the answer the user gave to it. -/
theorem C109_questions {C : Conf} {s : St} (hs : s.slot = .infoReq) (hr : s.status = .running) (W : World) (seq : Nat) (p : Bytes)
    (h : (step C W s ⟨60, seq, p⟩).status = .running) :
    ∃ v1 v2 v3 name inst lang qs, Named v1 name ∧ Named v2 inst ∧ Named v3 lang ∧ (∀ q ∈ qs, Named q.sent q.text) ∧
      qs.length < 2 ^ 32 ∧ p = str v1 ++ str v2 ++ str v3 ++ be 4 qs.length ++ wire qs ∧
      (step C W s ⟨60, seq, p⟩).out = s.out ++ (if name = [] then [] else [.shown name]) ++ (if inst = [] then [] else [.shown inst]) ++
        asked C qs ++ [.packet 61 (be 4 qs.length ++ ((replies qs.length s.answers).map str).flatten)] := by
  have hstep : step C W s ⟨60, seq, p⟩ = infoReq C s p := by
    unfold step
    rw [if_neg (by rw [hr]; simp), if_neg (by simp), if_neg (by simp), if_neg (by simp), if_neg (by simp), if_neg (by simp),
      if_pos rfl, hs]
  rw [hstep] at h ⊢
  unfold infoReq at h ⊢
  cases h1 : getCstr p with
  | none => simp [h1] at h
  | some x1 =>
    obtain ⟨name, b1⟩ := x1
    simp only [h1] at h ⊢
    cases h2 : getCstr b1 with
    | none => simp [h2] at h
    | some x2 =>
      obtain ⟨inst, b2⟩ := x2
      simp only [h2] at h ⊢
      cases h3 : getCstr b2 with
      | none => simp [h3] at h
      | some x3 =>
        obtain ⟨lang, b3⟩ := x3
        simp only [h3] at h ⊢
        cases h4 : getInt 4 b3 with
        | none => simp [h4] at h
        | some x4 =>
          obtain ⟨n, b4⟩ := x4
          simp only [h4] at h ⊢
          cases hx : infoPrompts C n b4 (be 4 n) (show? (show? { s with infoReqSeen := true } name) inst) with
          | mk o t =>
            cases o with
            | none => simp [hx] at h
            | some ra =>
              obtain ⟨rest, acc⟩ := ra
              simp only [hx] at h ⊢
              by_cases hre : rest ≠ []
              · rw [if_pos hre] at h; simp at h
              · rw [if_neg hre]
                obtain ⟨v1, n1, rfl, _⟩ := getCstr_named h1
                obtain ⟨v2, n2, rfl, _⟩ := getCstr_named h2
                obtain ⟨v3, n3, rfl, _⟩ := getCstr_named h3
                obtain ⟨h5, h6⟩ := getInt_some h4
                obtain ⟨qs, rfl, i2, i3, i4, i5⟩ := infoPrompts_exact C _ _ _ _ _ _ _ hx
                have hre : rest = [] := by simpa using hre
                refine ⟨v1, v2, v3, name, inst, lang, qs, n1, n2, n3, i2, ?_, ?_, ?_⟩
                · omega
                · simp only [hre, List.append_nil] at i3
                  simp [h5, i3, List.append_assoc]
                · rw [show_answers, show_answers] at i4
                  show t.out ++ [_] = _
                  rw [i5, i4]
                  congr 2
                  unfold show?
                  split <;> split <;> simp [St.act]

end Verif.CliAuth
