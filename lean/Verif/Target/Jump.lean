/-
C122: the command for a jump host, as a shell reads it.
-/
import Verif.Target.Safe
import Verif.Scp.Trip

namespace Verif.Target
open Verif
open _root_.Verif.Scp (dec)

/-- Words, as a shell reads them, with blanks in between -/
def spaced : List Bytes → List Tok
  | [] => []
  | [w] => w.map .lit
  | w :: l => w.map .lit ++ .op 32 :: spaced l

/-- What the words for a jump host are: the program, the user, the port, more jump hosts, the configuration, how much to tell; then where to
go on to from there, with `%h` and `%p` for the host and the port; and the jump host -/
def jumpWords (sshbin : Bytes) (d : Dest) (extra config : Option Bytes) (v : Nat) : List Bytes :=
  [sshbin] ++ (d.user.elim [] fun u => [b!"-l", u]) ++ (d.port.elim [] fun p => [b!"-p", dec p.toNat]) ++
    (extra.elim [] fun e => [b!"-J", e]) ++ (config.elim [] fun c => [b!"-F", c]) ++
    (if v = 0 then [] else [45 :: List.replicate (min v 3) 118]) ++ [b!"-W", b!"[%h]:%p", d.host]

private theorem plain_of {w : Bytes} (h : ∀ c ∈ w, Harmless c) : reads .plain w = (.plain, w.map .lit) := by
  cases w with
  | nil => rfl
  | cons c l => exact inert_of_harmless h .plain (by simp)

private theorem plain_append {a b : Bytes} {s t : List Tok} (h1 : reads .plain a = (.plain, s)) (h2 : reads .plain b = (.plain, t)) :
    reads .plain (a ++ b) = (.plain, s ++ t) := by
  rw [reads_append, h1]
  simp only [h2]

private theorem option_of {β : Type} (o : Option β) (f : β → Bytes) (sw : Bytes) (g : Bytes) (hg : reads .plain g = (.plain, .op 32 :: sw.map .lit ++ [.op 32]))
    (h : ∀ x, o = some x → ∀ c ∈ f x, Harmless c) : reads .plain (o.elim [] fun x => g ++ f x) =
      (.plain, (o.elim [] fun x => [sw, f x]).flatMap fun w => .op 32 :: w.map .lit) := by
  cases o with
  | none => rfl
  | some x =>
    have := plain_append hg (plain_of (h x rfl))
    simpa using this

theorem spaced_cons (w : Bytes) (l : List Bytes) : spaced (w :: l) = w.map .lit ++ l.flatMap fun x => .op 32 :: x.map .lit := by
  induction l generalizing w with
  | nil => simp [spaced]
  | cons x l ih => rw [spaced, ih] <;> simp

theorem dec_harmless (n : Nat) : ∀ c ∈ dec n, Harmless c := by
  intro c hc
  by_cases h : isDigit c = true
  · exact harmless_name c (by simp [h])
  · exact absurd hc (_root_.Verif.Scp.dec_plain n c (by simpa [isDigit, Num.isDigit] using h))

/-- C122: where program, user, host, configuration and further jump hosts are made of characters that stand for themselves, a shell reads the
command for a jump host as exactly the words it is meant to be; where to go on to from there is one word, before anything is put in for
`%h` and `%p`. -/
theorem C122_jump_words {sshbin : Bytes} {d : Dest} {extra config : Option Bytes} (v : Nat) (hb : ∀ c ∈ sshbin, Harmless c)
    (hu : ∀ u, d.user = some u → ∀ c ∈ u, Harmless c) (he : ∀ e, extra = some e → ∀ c ∈ e, Harmless c)
    (hc : ∀ f, config = some f → ∀ c ∈ f, Harmless c) (hh : ∀ c ∈ d.host, Harmless c) :
    reads .plain (jumpCommand sshbin d extra config v) = (.plain, spaced (jumpWords sshbin d extra config v)) := by
  have a1 := option_of d.user id b!"-l" b!" -l " (by decide) hu
  have a2 := option_of d.port (fun p => dec p.toNat) b!"-p" b!" -p " (by decide) (fun x _ => dec_harmless _)
  have a3 := option_of extra id b!"-J" b!" -J " (by decide) he
  have a4 := option_of config id b!"-F" b!" -F " (by decide) hc
  have a5 : reads .plain (if v = 0 then [] else b!" -" ++ List.replicate (min v 3) 118) =
      (.plain, (if v = 0 then [] else [45 :: List.replicate (min v 3) 118]).flatMap fun w => .op 32 :: w.map .lit) := by
    by_cases hv : v = 0
    · rw [if_pos hv, if_pos hv]; rfl
    · rw [if_neg hv, if_neg hv]
      have h118 : ∀ c ∈ List.replicate (min v 3) (118 : UInt8), Harmless c := by
        intro c hc
        rw [List.eq_of_mem_replicate hc]
        exact harmless_name 118 (by decide)
      have := plain_append (a := b!" -") (s := [.op 32, .lit 45]) (by decide) (plain_of h118)
      simpa using this
  have a6 : reads .plain b!" -W '[%h]:%p' " = (.plain, .op 32 :: (b!"-W").map .lit ++ .op 32 :: (b!"[%h]:%p").map .lit ++ [.op 32]) := by decide
  have all := plain_append (plain_append (plain_append (plain_append (plain_append (plain_append (plain_append (plain_of hb) a1) a2) a3) a4) a5) a6)
    (plain_of hh)
  refine .trans (congrArg (reads .plain) ?_) (all.trans ?_)
  · obtain ⟨_ | _, _, _ | _⟩ := d <;> cases extra <;> cases config <;> rfl
  rw [jumpWords]
  simp only [List.singleton_append, List.cons_append, List.nil_append, spaced_cons, List.flatMap_append, List.append_assoc, id]
  simp

end Verif.Target
