/-
Recursive downloads.
-/
import Verif.Sftp.Upload

namespace Verif.Sftp.Client
open Verif Wire Sftp

theorem stepsFrom_slash (cur a b : Bytes) : stepsFrom cur (a ++ 47 :: b) = stepsFrom cur a ++ steps b := by
  induction a generalizing cur with
  | nil => simp [stepsFrom, steps]
  | cons c a ih =>
    simp only [List.cons_append, stepsFrom]
    split
    · rw [ih, List.append_assoc]
    · exact ih _

theorem stepsFrom_name (cur b : Bytes) (h : (47 : UInt8) ∉ b) : stepsFrom cur b = component (cur ++ b) := by
  induction b generalizing cur with
  | nil => simp [stepsFrom]
  | cons c b ih =>
    simp only [List.mem_cons, not_or] at h
    simp only [stepsFrom]
    rw [if_neg (fun hc => h.1 hc.symm), ih _ h.2, List.append_assoc]
    rfl

theorem steps_append (a b : Bytes) (h : (47 : UInt8) ∉ b) : steps (pathAppend a b) = steps a ++ component b := by
  unfold pathAppend
  have hb : steps b = component b := stepsFrom_name [] b h
  split
  · rw [List.append_assoc]
    show stepsFrom [] (a ++ 47 :: b) = _
    rw [stepsFrom_slash, hb]; rfl
  · rename_i hc
    by_cases ha : a = []
    · rw [ha, List.nil_append, hb]; rfl
    · have hl : a.getLast? = some 47 := Decidable.byContradiction fun hn => hc ⟨ha, hn⟩
      obtain ⟨a', rfl⟩ := List.getLast?_eq_some_iff.mp hl
      rw [List.append_assoc]
      show stepsFrom [] (a' ++ 47 :: b) = stepsFrom [] (a' ++ 47 :: []) ++ _
      rw [stepsFrom_slash, stepsFrom_slash, hb]
      simp [steps, stepsFrom, component]

theorem pathAppend_prefix (a b : Bytes) : a <+: pathAppend a b := by
  unfold pathAppend
  split
  · rw [List.append_assoc]; exact List.prefix_append _ _
  · exact List.prefix_append _ _

theorem below_refl (d : Bytes) : Below d d := ⟨List.prefix_refl _, [], by simp, by simp⟩

theorem below_append {d p c : Bytes} (h : Below d p) (h1 : (47 : UInt8) ∉ c) (h2 : c ≠ b!"..") : Below d (pathAppend p c) := by
  obtain ⟨g1, l, g2, g3⟩ := h
  refine ⟨g1.trans (pathAppend_prefix p c), l ++ component c, ?_, ?_⟩
  · rw [steps_append _ _ h1, g2, List.append_assoc]
  · simp only [List.mem_append, not_or]
    refine ⟨g3, ?_⟩
    unfold component
    split
    · simp
    · simp only [List.mem_singleton]; exact fun hc => h2 hc.symm

/-- Whatever names and types a server gives, a recursive download makes directories only below the destination, and opens
files only in such directories, under a name without a slash. -/
theorem C73_confined (rem : Remote) (mk : Bytes → Bool) (follow : Bool) (n : Nat) (src dst : Bytes) (perm : Nat) :
    ∀ o ∈ downloadDir rem mk follow n src dst perm,
      match o with
      | .mkdir p => Below dst p
      | .file p => ∃ d name, Below dst d ∧ (47 : UInt8) ∉ name ∧ p = pathAppend d name := by
  suffices H : ∀ (n : Nat) (src d : Bytes) (perm : Nat), Below dst d → ∀ o ∈ downloadDir rem mk follow n src d perm,
      match o with
      | .mkdir p => Below dst p
      | .file p => ∃ d name, Below dst d ∧ (47 : UInt8) ∉ name ∧ p = pathAppend d name from H n src dst perm (below_refl dst)
  intro n
  induction n with
  | zero => intro src d perm _ o ho; cases ho
  | succ n ih =>
    intro src d perm hd o ho
    rw [downloadDir] at ho
    split at ho
    · cases ho
    · simp only [List.mem_cons] at ho
      rcases ho with rfl | ho
      · exact hd
      · split at ho
        · split at ho
          · cases ho
          · simp only [List.mem_flatten, List.mem_map] at ho
            obtain ⟨ops, ⟨x, hx, rfl⟩, ho⟩ := ho
            have hx47 : (47 : UInt8) ∉ x.1 := by
              have := (List.mem_filter.mp hx).2
              simpa using this
            split at ho
            · cases ho
            · split at ho
              · split at ho
                · cases ho
                · rename_i hdots
                  exact ih _ _ _ (below_append hd hx47 fun hc => hdots (Or.inr hc)) o ho
              · split at ho
                · simp only [List.mem_singleton] at ho
                  subst ho
                  exact ⟨d, x.1, hd, hx47, rfl⟩
                · cases ho
        · cases ho

/-- So the file opened is a step below a directory below the destination, unless its name is `..`, `.` or empty, and what
is opened is a directory. -/
theorem C73_file (dst d name : Bytes) (h : Below dst d) (h1 : (47 : UInt8) ∉ name) (h2 : name ≠ b!"..") :
    Below dst (pathAppend d name) := below_append h h1 h2

/-! ### Cases -/

/-- A server that names its entries `../x`, `..`, `a` (a directory) and, in that, `f` and `..` (a file). -/
def badRemote : Remote where
  readdir p := if p = b!"r" then some [(b!"../x", 0o100644), (b!"..", 0o40755), (b!"a", 0o40755)]
    else if p = b!"r/a" then some [(b!"f", 0o100644), (b!"..", 0o100644)] else none
  stat _ := none

example : downloadDir badRemote (fun _ => true) false 3 b!"r" b!"l" 0o40755 =
    [.mkdir b!"l", .mkdir b!"l/a", .file b!"l/a/f", .file b!"l/a/.."] := by decide +kernel

example : Below b!"l" b!"l/a" := ⟨⟨b!"/a", rfl⟩, [b!"a"], by decide, by decide⟩

example : ¬ Below b!"l" b!"l/a/.." := by
  rintro ⟨-, down, h1, h2⟩
  have : down = [b!"a", b!".."] := by
    have h : steps b!"l/a/.." = [b!"l"] ++ [b!"a", b!".."] := by decide
    have h' : steps b!"l" = [b!"l"] := by decide
    rw [h, h'] at h1
    exact (List.append_cancel_left h1).symm
  rw [this] at h2
  simp at h2

/-- Without following links, what a recursive download does is the same as if there were no links: they are not looked at,
and it does not matter where they lead. -/
theorem C73_links (rem rem' : Remote) (mk : Bytes → Bool) (n : Nat) (src dst : Bytes) (perm : Nat)
    (h : ∀ d, rem'.readdir d = (rem.readdir d).map fun l => l.filter fun x => decide (kindOf x.2 ≠ .link)) :
    downloadDir rem mk false n src dst perm = downloadDir rem' mk false n src dst perm := by
  induction n generalizing src dst perm with
  | zero => rfl
  | succ n ih =>
    simp only [downloadDir]
    split
    · rfl
    · congr 1
      split
      · rw [h src]
        cases rem.readdir src with
        | none => rfl
        | some l =>
          simp only [Option.map_some, entries, List.filter_filter]
          induction l with
          | nil => rfl
          | cons x l ihl =>
            by_cases hs : x.1.contains 47 = true
            · rw [List.filter_cons_of_neg (by rw [hs]; decide), List.filter_cons_of_neg (by rw [hs]; simp)]
              exact ihl
            · by_cases hk : kindOf x.2 = .link
              · rw [List.filter_cons_of_pos (by simpa using hs), List.filter_cons_of_neg (by simp [hk]), List.map_cons,
                  List.flatten_cons, ihl]
                have : resolve rem false (pathAppend src x.1) x.2 = none := by simp [resolve, hk]
                rw [this]; rfl
              · rw [List.filter_cons_of_pos (by simpa using hs), List.filter_cons_of_pos (by simpa [hk] using hs), List.map_cons,
                  List.flatten_cons, List.map_cons, List.flatten_cons, ihl]
                have h1 : resolve rem false (pathAppend src x.1) x.2 = some x.2 := by simp [resolve, hk]
                have h2 : resolve rem' false (pathAppend src x.1) x.2 = some x.2 := by simp [resolve, hk]
                rw [h1, h2]
                dsimp only
                rw [ih]
      · rfl

end Verif.Sftp.Client
