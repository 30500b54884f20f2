/-
C34, C35 and C68: handles, permission and answers of the SFTP server.
-/
import Verif.Sftp.Handles
import Verif.Sftp.Stream
import Verif.Match.Props

namespace Verif.Sftp
open Verif Wire

/-! ### Programs -/

def Prog.All {α : Type} (P : Call → Prop) (Q : α → Prop) : Prog α → Prop
  | .ret a => Q a
  | .call c k => P c ∧ ∀ r, (k r).All P Q

theorem all_runs {α : Type} {P : Call → Prop} {Q : α → Prop} {p : Prog α} {tr : List (Call × Resp)} {a : α} (h : Runs p tr a)
    (hp : p.All P Q) : (∀ x ∈ tr, P x.1) ∧ Q a := by
  induction h with
  | ret a => exact ⟨by simp, hp⟩
  | call h ih =>
    obtain ⟨h1, h2⟩ := ih (hp.2 _)
    refine ⟨fun x hx => ?_, h2⟩
    rcases List.mem_cons.1 hx with rfl | hx
    · exact hp.1
    · exact h1 x hx

@[simp] theorem runs_ret {α : Type} (a b : α) (tr : List (Call × Resp)) : Runs (.ret a) tr b ↔ tr = [] ∧ b = a := by
  constructor
  · intro h; cases h; exact ⟨rfl, rfl⟩
  · rintro ⟨rfl, rfl⟩; exact .ret _

@[simp] theorem runs_call {α : Type} (c : Call) (k : Resp → Prog α) (tr : List (Call × Resp)) (a : α) :
    Runs (.call c k) tr a ↔ ∃ r tr', tr = (c, r) :: tr' ∧ Runs (k r) tr' a := by
  constructor
  · intro h; cases h with | call h => exact ⟨_, _, rfl, h⟩
  · rintro ⟨r, tr', rfl, h⟩; exact .call h

theorem runs_map {α β : Type} {f : α → β} {p : Prog α} {tr : List (Call × Resp)} {b : β} (h : Runs (p.map f) tr b) :
    ∃ a, Runs p tr a ∧ b = f a := by
  induction p generalizing tr with
  | ret a => simp only [Prog.map, runs_ret] at h; exact ⟨a, by simp [h.1], h.2⟩
  | call c k ih =>
    simp only [Prog.map, runs_call] at h
    obtain ⟨r, tr', rfl, h⟩ := h
    obtain ⟨a, h1, h2⟩ := ih r h
    exact ⟨a, .call h1, h2⟩

/-! ### What requests ask for -/

/-- The calls a request may make: about open files only those of its handles, and changes only if its name is that of
a request that writes. -/
def Fits (t : Table) (r : Req) (c : Call) : Prop :=
  (∀ k, touches c = some k → ∃ h ∈ handlesOf r, (named t h).map Obj.key = some k) ∧
    (modifies c = true → r.name ∈ writeNames)

/-- The answer to a request. -/
def Answers (s : Srv) (id : Nat) (r : Req) (x : Srv × List Reply) : Prop :=
  x.1 = s ∧ ∃ rep, x.2 = [rep] ∧ rep.id = some id ∧ kindOk r rep

/-- Requests other than those that open and close. -/
def plain : Req → Bool
  | .open_ .. | .opendir .. | .close .. => false
  | _ => true

theorem answers_status {s : Srv} {id : Nat} {r : Req} {code : Nat} : Answers s id r (status s id code) :=
  ⟨rfl, _, rfl, rfl, by cases r <;> trivial⟩

theorem fits_plain {t : Table} {r : Req} {c : Call} (h1 : touches c = none) (h2 : modifies c = true → r.name ∈ writeNames) :
    Fits t r c := ⟨fun k hk => (by rw [h1] at hk; cases hk), h2⟩

theorem fits_fd {t : Table} {r : Req} {c : Call} {h : Bytes} {fd : Nat} (hfd : toFd t (getHandle t h) = some fd)
    (h1 : touches c = some (.fd fd)) (h2 : h ∈ handlesOf r) (h3 : modifies c = true → r.name ∈ writeNames) : Fits t r c := by
  refine ⟨fun k hk => ?_, h3⟩
  rw [h1] at hk
  simp only [Option.some.injEq] at hk
  subst hk
  obtain ⟨ap, nm, e⟩ := toFd_some hfd
  exact ⟨h, h2, by rw [e]; rfl⟩

theorem all_call {α : Type} {P : Call → Prop} {Q : α → Prop} {c : Call} {k : Resp → Prog α} (hc : P c) (hk : ∀ r, (k r).All P Q) :
    (Prog.call c k).All P Q := ⟨hc, hk⟩

theorem all_optCall {P : Call → Prop} {Q : Srv × List Reply → Prop} {b : Bool} {c : Call} {st : Nat} {k : Nat → Run} (hc : P c)
    (hk : ∀ st, (k st).All P Q) : (optCall b c st k).All P Q := by
  unfold optCall
  split
  · exact ⟨hc, fun r => hk _⟩
  · exact hk _

theorem all_lookup {P : Call → Prop} {Q : Srv × List Reply → Prop} {c : Nat → Call} {k : Bytes → Run} (hc : ∀ n, P (c n))
    (hk : ∀ b, (k b).All P Q) (l : List Nat) (acc : Bytes) : (lookupAll c k l acc).All P Q := by
  induction l generalizing acc with
  | nil => exact hk _
  | cons n l ih => exact ⟨hc n, fun r => ih _⟩

theorem all_copyLoop {P : Call → Prop} {Q : Srv × List Reply → Prop} {rfd wfd : Nat} {eof : Bool} {k : CopyEnd → Run}
    (h1 : ∀ n, P (.readAll rfd n)) (h2 : ∀ d, P (.writeAll wfd d)) (hk : ∀ e, (k e).All P Q) (fuel n : Nat) :
    (copyLoop rfd wfd eof k fuel n).All P Q := by
  induction fuel generalizing n with
  | zero => exact hk _
  | succ fuel ih =>
    unfold copyLoop
    split
    · exact hk _
    · split
      · exact hk _
      · refine all_call (h1 _) fun r => ?_
        split
        · exact hk _
        · refine all_call (h2 _) fun r' => ?_
          split
          · exact hk _
          · exact ih _

theorem all_readdir {t : Table} {r : Req} {cfg : Cfg} {s : Srv} {id d : Nat} {path : Bytes} (hd : Fits t r (.readdir d))
    (hr : r = .readdir (handlesOf r).head!) (fuel : Nat) (l : List (Bytes × Bytes × Attrib)) :
    (readdirLoop cfg s id d path fuel l).All (Fits t r) (Answers s id r) := by
  have hs : ∀ l, (sendNames s id l).All (Fits t r) (Answers s id r) := by
    intro l
    unfold sendNames
    split
    · refine ⟨rfl, _, rfl, rfl, ?_⟩
      rw [hr]; trivial
    · exact answers_status
  induction fuel generalizing l with
  | zero => exact hs l
  | succ fuel ih =>
    unfold readdirLoop
    refine all_call (hd) fun a => ?_
    split
    · exact hs l
    · refine all_call (fits_plain rfl (by simp [modifies])) fun b => ?_
      split
      · exact ih l
      · split
        · exact hs _
        · exact ih _

theorem all_realpath {t : Table} {r : Req} {s : Srv} {id : Nat} {path : Bytes} (hk : ∀ l, kindOk r (.names id l)) :
    (doRealpath s id path).All (Fits t r) (Answers s id r) := by
  unfold doRealpath oneName
  refine all_call (fits_plain rfl (by simp [modifies])) fun a => ?_
  split
  · exact answers_status
  · exact ⟨rfl, _, rfl, rfl, hk _⟩

theorem all_simple {t : Table} {r : Req} {s : Srv} {id : Nat} {c : Call} (h : Fits t r c) :
    (simple s id c).All (Fits t r) (Answers s id r) := ⟨h, fun _ => answers_status⟩

theorem wr {n : Bytes} (h : writeNames.contains n = true) : n ∈ writeNames := by simpa using h

theorem exec_plain (cfg : Cfg) (s : Srv) (id : Nat) (r : Req) (hp : plain r = true) :
    (exec cfg s id r).All (Fits s.tab r) (Answers s id r) := by
  cases r with
  | open_ | opendir | close => cases hp
  | read h off len =>
    simp only [exec, doRead]
    split
    · exact answers_status
    · rename_i fd hfd
      refine all_call (fits_fd hfd rfl (by simp [handlesOf]) (by simp [modifies])) fun a => ?_
      split
      · exact answers_status
      · split
        · exact ⟨rfl, _, rfl, rfl, trivial⟩
        · refine all_call (fits_fd hfd rfl (by simp [handlesOf]) (by simp [modifies])) fun b => ?_
          split
          · exact answers_status
          · split
            · exact answers_status
            · exact ⟨rfl, _, rfl, rfl, trivial⟩
  | write h off data =>
    simp only [exec, doWrite]
    split
    · exact answers_status
    · rename_i fd hfd
      have hw : (writeOut s id fd data).All (Fits s.tab (.write h off data)) (Answers s id (.write h off data)) := by
        refine all_call (fits_fd hfd rfl (by simp [handlesOf]) (fun _ => wr rfl)) fun a => ?_
        split <;> exact answers_status
      split
      · exact hw
      · refine all_call (fits_fd hfd rfl (by simp [handlesOf]) (by simp [modifies])) fun a => ?_
        split
        · exact answers_status
        · exact hw
  | stat name =>
    refine all_call (fits_plain rfl (by simp [modifies])) fun a => ?_
    split
    · exact answers_status
    · exact ⟨rfl, _, rfl, rfl, trivial⟩
  | lstat name =>
    refine all_call (fits_plain rfl (by simp [modifies])) fun a => ?_
    split
    · exact answers_status
    · exact ⟨rfl, _, rfl, rfl, trivial⟩
  | fstat h =>
    simp only [exec]
    split
    · exact answers_status
    · rename_i fd hfd
      refine all_call (fits_fd hfd rfl (by simp [handlesOf]) (by simp [modifies])) fun a => ?_
      split
      · exact answers_status
      · exact ⟨rfl, _, rfl, rfl, trivial⟩
  | setstat name a =>
    simp only [exec, doSetstat]
    exact all_optCall (fits_plain rfl fun _ => wr rfl) fun _ => all_optCall (fits_plain rfl fun _ => wr rfl) fun _ =>
      all_optCall (fits_plain rfl fun _ => wr rfl) fun _ => all_optCall (fits_plain rfl fun _ => wr rfl) fun _ => answers_status
  | fsetstat h a =>
    simp only [exec, doFsetstat]
    split
    · exact answers_status
    · rename_i fd hfd
      exact all_optCall (fits_fd hfd rfl (by simp [handlesOf]) fun _ => wr rfl) fun _ =>
        all_optCall (fits_fd hfd rfl (by simp [handlesOf]) fun _ => wr rfl) fun _ =>
        all_optCall (fits_fd hfd rfl (by simp [handlesOf]) fun _ => wr rfl) fun _ =>
        all_optCall (fits_fd hfd rfl (by simp [handlesOf]) fun _ => wr rfl) fun _ => answers_status
  | lsetstat name a =>
    simp only [exec, doLsetstat]
    split
    · exact answers_status
    · exact all_optCall (fits_plain rfl fun _ => wr rfl) fun _ => all_optCall (fits_plain rfl fun _ => wr rfl) fun _ =>
        all_optCall (fits_plain rfl fun _ => wr rfl) fun _ => answers_status
  | readdir h =>
    simp only [exec, doReaddir]
    split
    · exact answers_status
    · rename_i d hd
      refine all_readdir ?_ rfl _ _
      obtain ⟨nm, e⟩ := toDir_some hd
      refine ⟨fun k hk => ⟨h, by simp [handlesOf], ?_⟩, by simp [modifies]⟩
      simp only [touches, Option.some.injEq] at hk
      rw [e, ← hk]; rfl
  | remove name => exact all_simple (fits_plain rfl fun _ => wr rfl)
  | mkdir name a => exact all_simple (fits_plain rfl fun _ => wr rfl)
  | rmdir name => exact all_simple (fits_plain rfl fun _ => wr rfl)
  | realpath path => exact all_realpath fun _ => trivial
  | rename old new =>
    have h1 : ∀ c, touches c = none → Fits s.tab (.rename old new) c := fun c hc => fits_plain hc fun _ => wr rfl
    have hn : (renameNew s id old new).All (Fits s.tab (.rename old new)) (Answers s id (.rename old new)) := by
      refine all_call (h1 _ rfl) fun a => ?_
      split
      · exact answers_status
      · exact all_simple (h1 _ rfl)
    refine all_call (h1 _ rfl) fun a => ?_
    split
    · exact answers_status
    · split
      · refine all_call (h1 _ rfl) fun b => ?_
        split
        · split
          · exact hn
          · exact answers_status
        · refine all_call (h1 _ rfl) fun c => ?_
          split
          · exact all_call (h1 _ rfl) fun _ => answers_status
          · exact answers_status
      · exact hn
  | readlink path =>
    refine all_call (fits_plain rfl (by simp [modifies])) fun a => ?_
    split
    · exact answers_status
    · exact ⟨rfl, _, rfl, rfl, trivial⟩
  | symlink old new => exact all_simple (fits_plain rfl fun _ => wr rfl)
  | posixRename old new => exact all_simple (fits_plain rfl fun _ => wr rfl)
  | statvfs path =>
    refine all_call (fits_plain rfl (by simp [modifies])) fun a => ?_
    split
    · exact answers_status
    · exact ⟨rfl, _, rfl, rfl, trivial⟩
  | fstatvfs h =>
    simp only [exec]
    split
    · exact answers_status
    · rename_i fd hfd
      refine all_call (fits_fd hfd rfl (by simp [handlesOf]) (by simp [modifies])) fun a => ?_
      split
      · exact answers_status
      · exact ⟨rfl, _, rfl, rfl, trivial⟩
  | hardlink old new => exact all_simple (fits_plain rfl fun _ => wr rfl)
  | fsync h =>
    simp only [exec, doFsync]
    split
    · exact answers_status
    · rename_i fd hfd
      exact all_simple (fits_fd hfd rfl (by simp [handlesOf]) (by simp [modifies]))
  | limits => exact ⟨fits_plain rfl (by simp [modifies]), fun _ => ⟨rfl, _, rfl, rfl, trivial⟩⟩
  | expand path =>
    refine all_call (fits_plain rfl (by simp [modifies])) fun a => ?_
    have hp : ∀ p, (doRealpath s id p).All (Fits s.tab (.expand path)) (Answers s id (.expand path)) := fun p => all_realpath fun _ => trivial
    split
    · exact answers_status
    · repeat' split
      all_goals first
        | exact hp _
        | skip
      refine all_call (fits_plain rfl (by simp [modifies])) fun b => ?_
      split
      · exact hp _
      · exact ⟨rfl, _, rfl, rfl, trivial⟩
  | copyData rh roff rlen wh woff =>
    simp only [exec, doCopy]
    split
    · rename_i rfd wfd hr hw
      have fr : ∀ c, touches c = some (.fd rfd) → Fits s.tab (.copyData rh roff rlen wh woff) c :=
        fun c hc => fits_fd hr hc (by simp [handlesOf]) fun _ => wr rfl
      have fw : ∀ c, touches c = some (.fd wfd) → Fits s.tab (.copyData rh roff rlen wh woff) c :=
        fun c hc => fits_fd hw hc (by simp [handlesOf]) fun _ => wr rfl
      split
      · exact answers_status
      · refine all_call (fr _ rfl) fun a => ?_
        split
        · exact answers_status
        · unfold copySeek
          split
          · refine all_copyLoop (fun _ => fr _ rfl) (fun _ => fw _ rfl) (fun _ => ?_) _ _; exact answers_status
          · refine all_call (fw _ rfl) fun b => ?_
            split
            · exact answers_status
            · refine all_copyLoop (fun _ => fr _ rfl) (fun _ => fw _ rfl) (fun _ => ?_) _ _; exact answers_status
    · exact answers_status
  | homeDir user =>
    simp only [exec, doHome, oneName]
    split
    · exact ⟨rfl, _, rfl, rfl, trivial⟩
    · refine all_call (fits_plain rfl (by simp [modifies])) fun a => ?_
      split
      · exact ⟨rfl, _, rfl, rfl, trivial⟩
      · exact answers_status
  | usersGroups u g =>
    refine all_lookup (fun _ => fits_plain rfl (by simp [modifies])) (fun _ => ?_) _ _
    refine all_lookup (fun _ => fits_plain rfl (by simp [modifies])) (fun _ => ?_) _ _
    exact ⟨rfl, _, rfl, rfl, trivial⟩

/-! ### Opening and closing -/

theorem runs_issue {s s' : Srv} {id : Nat} {use : Use} {name : Bytes} {obj : Nat} {flags : OFlags} {undo : Call}
    {tr : List (Call × Resp)} {rs : List Reply} (hi : Inv s.tab) (hu : use ≠ .unused)
    (h : Runs (issue s id use name obj flags undo) tr (s', rs)) :
    Inv s'.tab ∧ ((∃ r, tr = [(undo, r)] ∧ rs = [.status id FX_FAILURE none] ∧ ∀ x, named s'.tab x = named s.tab x) ∨
      ∃ i, tr = [] ∧ rs = [.handle id (toStr i)] ∧ named s.tab (toStr i) = none ∧
        ∀ x, named s'.tab x = if x = toStr i then objOf ⟨use, obj, flags, name, none⟩ else named s.tab x) := by
  unfold issue at h
  cases hn : handleNew s.tab use name obj flags with
  | none =>
    rw [hn] at h
    simp only [runs_call, runs_ret, status, Prod.mk.injEq] at h
    obtain ⟨r, tr', rfl, rfl, rfl, rfl⟩ := h
    exact ⟨hi, .inl ⟨r, rfl, rfl, fun _ => rfl⟩⟩
  | some z =>
    obtain ⟨i, t⟩ := z
    rw [hn] at h
    simp only at h
    obtain ⟨hinv, -⟩ := handleNew_some hi hu hn
    split at h
    · rename_i hb
      simp only [runs_call, runs_ret, status, Prod.mk.injEq] at h
      obtain ⟨r, tr', rfl, rfl, rfl, rfl⟩ := h
      exact ⟨hinv, .inl ⟨r, rfl, rfl, fun x => named_new_neg hi hu (by omega) hn x⟩⟩
    · rename_i hb
      simp only [runs_ret, Prod.mk.injEq] at h
      obtain ⟨rfl, rfl, rfl⟩ := h
      obtain ⟨h1, h2⟩ := named_new hi hu (by omega) hn
      exact ⟨hinv, .inr ⟨i, rfl, rfl, h1, h2⟩⟩

theorem runs_open {cfg : Cfg} {s s' : Srv} {id : Nat} {name : Bytes} {p : Nat} {a : Attrib} {tr : List (Call × Resp)} {rs : List Reply}
    (hi : Inv s.tab) (h : Runs (doOpen cfg s id name p a) tr (s', rs)) :
    Inv s'.tab ∧ ((∃ code, rs = [.status id code none] ∧ ∀ x, named s'.tab x = named s.tab x) ∨
      ∃ i m r, tr = [(.open_ name (oflags p) m, r)] ∧ rs = [.handle id (toStr i)] ∧ named s.tab (toStr i) = none ∧
        ∀ x, named s'.tab x = if x = toStr i then some (.file r.num (oflags p).append name) else named s.tab x) := by
  unfold doOpen at h
  split at h
  · simp only [runs_ret, status, Prod.mk.injEq] at h
    obtain ⟨rfl, rfl, rfl⟩ := h
    exact ⟨hi, .inl ⟨_, rfl, fun _ => rfl⟩⟩
  · simp only [runs_call] at h
    obtain ⟨r, tr', rfl, h⟩ := h
    split at h
    · simp only [runs_ret, status, Prod.mk.injEq] at h
      obtain ⟨rfl, rfl, rfl⟩ := h
      exact ⟨hi, .inl ⟨_, rfl, fun _ => rfl⟩⟩
    · obtain ⟨h1, ⟨_, _, h2, h3⟩ | ⟨i, rfl, h2, h3⟩⟩ := runs_issue hi (by simp) h
      · exact ⟨h1, .inl ⟨_, h2, h3⟩⟩
      · exact ⟨h1, .inr ⟨i, _, r, rfl, h2, h3⟩⟩

theorem runs_opendir {s s' : Srv} {id : Nat} {path : Bytes} {tr : List (Call × Resp)} {rs : List Reply}
    (hi : Inv s.tab) (h : Runs (doOpendir s id path) tr (s', rs)) :
    Inv s'.tab ∧ ((∃ code, rs = [.status id code none] ∧ ∀ x, named s'.tab x = named s.tab x) ∨
      ∃ i r, tr = [(.opendir path, r)] ∧ rs = [.handle id (toStr i)] ∧ named s.tab (toStr i) = none ∧
        ∀ x, named s'.tab x = if x = toStr i then some (.dir r.num path) else named s.tab x) := by
  unfold doOpendir at h
  simp only [runs_call] at h
  obtain ⟨r, tr', rfl, h⟩ := h
  split at h
  · simp only [runs_ret, status, Prod.mk.injEq] at h
    obtain ⟨rfl, rfl, rfl⟩ := h
    exact ⟨hi, .inl ⟨_, rfl, fun _ => rfl⟩⟩
  · obtain ⟨h1, ⟨_, _, h2, h3⟩ | ⟨i, rfl, h2, h3⟩⟩ := runs_issue hi (by simp) h
    · exact ⟨h1, .inl ⟨_, h2, h3⟩⟩
    · exact ⟨h1, .inr ⟨i, r, rfl, h2, h3⟩⟩

theorem runs_close {s s' : Srv} {id : Nat} {h : Bytes} {tr : List (Call × Resp)} {rs : List Reply} (hi : Inv s.tab)
    (hr : Runs (doClose s id (getHandle s.tab h)) tr (s', rs)) :
    Inv s'.tab ∧ (∀ x, named s'.tab x = if x = h then none else named s.tab x) ∧
      ((named s.tab h = none ∧ tr = [] ∧ rs = [.status id FX_NO_SUCH_FILE none] ∧ s' = s) ∨
        ∃ r, ((∃ fd ap nm, named s.tab h = some (.file fd ap nm) ∧ tr = [(.close fd, r)]) ∨
          (∃ d nm, named s.tab h = some (.dir d nm) ∧ tr = [(.closedir d, r)])) ∧ rs = [.status id (stOf r) none]) := by
  cases hg : getHandle s.tab h with
  | none =>
    rw [hg] at hr
    simp only [doClose, runs_ret, status, Prod.mk.injEq] at hr
    obtain ⟨rfl, rfl, rfl⟩ := hr
    have hn := named_of_getHandle_none hg
    refine ⟨hi, fun x => ?_, .inl ⟨hn, rfl, rfl, rfl⟩⟩
    split
    · rename_i e; rw [e, hn]
    · rfl
  | some i =>
    rw [hg] at hr
    obtain ⟨hs, hn, ho⟩ := getHandle_some hg
    have hlen : i < s.tab.handles.length := by
      rcases Nat.lt_or_ge i s.tab.handles.length with h | h
      · exact h
      · rw [objAt, getD_beyond (by omega)] at ho
        simp [objOf, noHandle] at ho
    have hun : (s.tab.handles.getD i noHandle).use ≠ .unused := by
      intro e
      rw [objAt, objOf, e] at ho
      simp at ho
    have hnew := named_unused (t := s.tab) hlen hi.size
    rw [← hs] at hnew
    unfold doClose at hr
    simp only at hr
    split at hr
    · rename_i hk
      simp only [runs_call, runs_ret, status, Prod.mk.injEq] at hr
      obtain ⟨r, tr', rfl, rfl, rfl, rfl⟩ := hr
      obtain ⟨hb, hu⟩ := (isOk_iff _ i .file (by simp)).1 hk
      refine ⟨inv_unused hi hlen hun, hnew, .inr ⟨r, .inl ⟨_, (s.tab.handles.getD i noHandle).flags.append,
        (s.tab.handles.getD i noHandle).name, ?_, rfl⟩, rfl⟩⟩
      rw [hn, objAt, if_pos hb, objOf, hu]
    · split at hr
      · rename_i hk
        simp only [runs_call, runs_ret, status, Prod.mk.injEq] at hr
        obtain ⟨r, tr', rfl, rfl, rfl, rfl⟩ := hr
        obtain ⟨hb, hu⟩ := (isOk_iff _ i .dir (by simp)).1 hk
        refine ⟨inv_unused hi hlen hun, hnew, .inr ⟨r, .inr ⟨_, (s.tab.handles.getD i noHandle).name, ?_, rfl⟩, rfl⟩⟩
        rw [hn, objAt, if_pos hb, objOf, hu]
      · exfalso
        rename_i h1 h2
        cases hu : objAt s.tab i with
        | none => rw [hu] at ho; cases ho
        | some o =>
          cases o with
          | file fd ap nm => exact h1 ((isOk_file _ _).2 ⟨_, _, _, hu⟩)
          | dir d nm => exact h2 ((isOk_dir _ _).2 ⟨_, _, hu⟩)

/-! ### C34 -/

theorem current_snoc (l : List HEv) (e : HEv) : current (l ++ [e]) = change (current l) e := by
  simp [current, List.foldl_append]

theorem seen_plain {id : Nat} {r : Req} (h : plain r = true) (tr : List (Call × Resp)) (rs : List Reply) : seen (.req id r) tr rs = [] := by
  cases r <;> first | rfl | cases h

theorem seen_status {id id' : Nat} {name : Bytes} {p : Nat} {a : Attrib} {code : Nat} {m : Option Bytes} (tr : List (Call × Resp)) :
    seen (.req id (.open_ name p a)) tr [.status id' code m] = [] ∧ seen (.req id (.opendir name)) tr [.status id' code m] = [] := by
  constructor <;> unfold seen <;> split <;> simp_all

theorem hist_named {cfg : Cfg} {l : List HEv} {s : Srv} (h : Hist cfg l s) : Inv s.tab ∧ ∀ x, named s.tab x = current l x := by
  induction h with
  | start =>
    refine ⟨inv_start, fun x => ?_⟩
    simp [named, objAt, objOf, current, noHandle]
  | @step l s s' a tr rs h r ih =>
    obtain ⟨hi, ih⟩ := ih
    cases a with
    | init v =>
      simp only [act, runs_ret, Prod.mk.injEq] at r
      obtain ⟨rfl, rfl, rfl⟩ := r
      exact ⟨hi, by simpa [seen] using ih⟩
    | unknown =>
      simp only [act, runs_ret, Prod.mk.injEq] at r
      obtain ⟨rfl, rfl, rfl⟩ := r
      exact ⟨hi, by simpa [seen] using ih⟩
    | denied id =>
      simp only [act, runs_ret, status, Prod.mk.injEq] at r
      obtain ⟨rfl, rfl, rfl⟩ := r
      exact ⟨hi, by simpa [seen] using ih⟩
    | unsupported id =>
      simp only [act, runs_ret, status, Prod.mk.injEq] at r
      obtain ⟨rfl, rfl, rfl⟩ := r
      exact ⟨hi, by simpa [seen] using ih⟩
    | req id q =>
      simp only [act] at r
      cases hp : plain q with
      | true =>
        obtain ⟨-, hq, -⟩ := all_runs r (exec_plain cfg s id q hp)
        simp only at hq
        subst hq
        rw [seen_plain hp, List.append_nil]
        exact ⟨hi, ih⟩
      | false =>
        cases q with
        | open_ name p a =>
          obtain ⟨h1, ⟨code, rfl, h2⟩ | ⟨i, m, r, rfl, rfl, h2, h3⟩⟩ := runs_open hi r
          · rw [(seen_status tr).1, List.append_nil]
            exact ⟨h1, fun x => by rw [h2, ih]⟩
          · refine ⟨h1, fun x => ?_⟩
            rw [h3]
            simp only [seen]
            rw [current_snoc]
            simp only [change]
            rw [ih]
        | opendir path =>
          obtain ⟨h1, ⟨code, rfl, h2⟩ | ⟨i, r, rfl, rfl, h2, h3⟩⟩ := runs_opendir hi r
          · rw [(seen_status (p := 0) (a := {}) tr).2, List.append_nil]
            exact ⟨h1, fun x => by rw [h2, ih]⟩
          · refine ⟨h1, fun x => ?_⟩
            rw [h3]
            simp only [seen]
            rw [current_snoc]
            simp only [change]
            rw [ih]
        | close hd =>
          obtain ⟨h1, h2, -⟩ := runs_close hi r
          refine ⟨h1, fun x => ?_⟩
          rw [h2]
          simp only [seen]
          rw [current_snoc]
          simp only [change]
          rw [ih]
        | _ => cases hp

/-- C34: a new handle is a string that stands for nothing else at the time. -/
theorem C34_fresh (cfg : Cfg) (l : List HEv) (s s' : Srv) (a : Act) (tr : List (Call × Resp)) (rs : List Reply) (h : Hist cfg l s)
    (r : Runs (act cfg s a) tr (s', rs)) (id : Nat) (x : Bytes) (hx : Reply.handle id x ∈ rs) :
    current l x = none ∧ (current (l ++ seen a tr rs) x).isSome := by
  obtain ⟨hi, hn⟩ := hist_named h
  obtain ⟨-, hn'⟩ := hist_named (.step h r)
  rw [← hn, ← hn']
  cases a with
  | init v => simp only [act, runs_ret, Prod.mk.injEq] at r; simp [r.2.2] at hx
  | unknown => simp only [act, runs_ret, Prod.mk.injEq] at r; simp [r.2.2] at hx
  | denied id => simp only [act, runs_ret, status, Prod.mk.injEq] at r; simp [r.2.2] at hx
  | unsupported id => simp only [act, runs_ret, status, Prod.mk.injEq] at r; simp [r.2.2] at hx
  | req id q =>
    simp only [act] at r
    cases hp : plain q with
    | true =>
      obtain ⟨-, hq, rep, h1, h2, h3⟩ := all_runs r (exec_plain cfg s id q hp)
      simp only at h1
      rw [h1, List.mem_singleton] at hx
      subst hx
      cases q <;> first | exact h3.elim | (exfalso; simp [plain] at hp)
    | false =>
      cases q with
      | open_ name p a =>
        obtain ⟨h1, ⟨code, rfl, h2⟩ | ⟨i, m, r, rfl, rfl, h2, h3⟩⟩ := runs_open hi r
        · simp at hx
        · simp only [List.mem_singleton, Reply.handle.injEq] at hx
          rw [hx.2, h3, if_pos rfl]
          exact ⟨h2, rfl⟩
      | opendir path =>
        obtain ⟨h1, ⟨code, rfl, h2⟩ | ⟨i, r, rfl, rfl, h2, h3⟩⟩ := runs_opendir hi r
        · simp at hx
        · simp only [List.mem_singleton, Reply.handle.injEq] at hx
          rw [hx.2, h3, if_pos rfl]
          exact ⟨h2, rfl⟩
      | close hd =>
        obtain ⟨h1, h2, ⟨-, -, rfl, -⟩ | ⟨r, -, rfl⟩⟩ := runs_close hi r <;> simp at hx
      | _ => cases hp

/-- C34: a request is carried out on what its handles stand for: every call about an open file or directory is about
one that a handle in the request stands for. -/
theorem C34_object (cfg : Cfg) (l : List HEv) (s s' : Srv) (id : Nat) (q : Req) (tr : List (Call × Resp)) (rs : List Reply)
    (h : Hist cfg l s) (ho : opens q = false) (r : Runs (act cfg s (.req id q)) tr (s', rs)) (c : Call) (a : Resp)
    (hc : (c, a) ∈ tr) (k : Key) (hk : touches c = some k) : ∃ x ∈ handlesOf q, (current l x).map Obj.key = some k := by
  obtain ⟨hi, hn⟩ := hist_named h
  simp only [act] at r
  cases hp : plain q with
  | true =>
    obtain ⟨x, hx, e⟩ := ((all_runs r (exec_plain cfg s id q hp)).1 _ hc).1 k hk
    exact ⟨x, hx, by rw [← hn, e]⟩
  | false =>
    cases q with
    | open_ | opendir => cases ho
    | close hd =>
      refine ⟨hd, by simp [handlesOf], ?_⟩
      rw [← hn]
      obtain ⟨-, -, ⟨-, rfl, -⟩ | ⟨r, ⟨fd, ap, nm, e, rfl⟩ | ⟨d, nm, e, rfl⟩, -⟩⟩ := runs_close hi r
      · simp at hc
      · simp only [List.mem_singleton, Prod.mk.injEq] at hc
        rw [hc.1] at hk
        rw [e, ← hk]; rfl
      · simp only [List.mem_singleton, Prod.mk.injEq] at hc
        rw [hc.1] at hk
        rw [e, ← hk]; rfl
    | _ => cases hp

/-- C34: a request with a handle that stands for nothing, because it was never given out or is closed, asks nothing of
the system, changes nothing and is answered with an error. -/
theorem C34_dead (cfg : Cfg) (l : List HEv) (s s' : Srv) (id : Nat) (q : Req) (tr : List (Call × Resp)) (rs : List Reply)
    (h : Hist cfg l s) (x : Bytes) (hx : x ∈ handlesOf q) (hd : current l x = none) (r : Runs (act cfg s (.req id q)) tr (s', rs)) :
    tr = [] ∧ s' = s ∧ ∃ code, code ≠ FX_OK ∧ rs = [.status id code none] := by
  obtain ⟨hi, hn⟩ := hist_named h
  have hg : getHandle s.tab x = none := getHandle_none (by rw [hn, hd])
  simp only [act] at r
  have fin : ∀ {code}, code ≠ FX_OK → Runs (.ret (status s id code)) tr (s', rs) →
      tr = [] ∧ s' = s ∧ ∃ code, code ≠ FX_OK ∧ rs = [.status id code none] := by
    intro code hc r
    simp only [runs_ret, status, Prod.mk.injEq] at r
    exact ⟨r.1, r.2.1, _, hc, r.2.2⟩
  cases q with
  | close | read | write | fstat | fsetstat | readdir | fstatvfs | fsync =>
    simp only [handlesOf, List.mem_singleton] at hx
    subst hx
    simp only [exec, hg, doClose, doRead, doWrite, doFsetstat, doReaddir, doFsync, toFd, toDir] at r
    exact fin (by decide) r
  | copyData rh roff rlen wh woff =>
    simp only [exec, doCopy] at r
    simp only [handlesOf, List.mem_cons, List.not_mem_nil, or_false] at hx
    rcases hx with rfl | rfl
    · rw [hg] at r
      exact fin (by decide) r
    · rw [hg] at r
      simp only [toFd] at r
      split at r
      · rename_i h1 h2; cases h2
      · exact fin (by decide) r
  | _ => simp [handlesOf] at hx

/-- C34: closing gives back exactly what the handle stood for, and the handle stands for nothing after it. -/
theorem C34_close (cfg : Cfg) (l : List HEv) (s s' : Srv) (id : Nat) (x : Bytes) (o : Obj) (tr : List (Call × Resp)) (rs : List Reply)
    (h : Hist cfg l s) (ho : current l x = some o) (r : Runs (act cfg s (.req id (.close x))) tr (s', rs)) :
    (∃ c a, tr = [(c, a)] ∧ touches c = some o.key ∧ (rs = [.status id FX_OK none] ∨ a.err ≠ none)) ∧
      current (l ++ seen (.req id (.close x)) tr rs) x = none ∧
      ∀ y, y ≠ x → current (l ++ seen (.req id (.close x)) tr rs) y = current l y := by
  obtain ⟨hi, hn⟩ := hist_named h
  refine ⟨?_, ?_, ?_⟩
  · obtain ⟨-, -, ⟨e, -⟩ | ⟨a, hh, e⟩⟩ := runs_close hi r
    · rw [hn, ho] at e; cases e
    · have fin : rs = [.status id FX_OK none] ∨ a.err ≠ none := by
        cases he : a.err with
        | none => left; rw [e]; simp [stOf, he]
        | some n => right; simp
      rcases hh with ⟨fd, ap, nm, e1, rfl⟩ | ⟨d, nm, e1, rfl⟩
      · rw [hn, ho] at e1
        simp only [Option.some.injEq] at e1
        subst e1
        exact ⟨_, a, rfl, rfl, fin⟩
      · rw [hn, ho] at e1
        simp only [Option.some.injEq] at e1
        subst e1
        exact ⟨_, a, rfl, rfl, fin⟩
  · simp only [seen]; rw [current_snoc]; simp [change]
  · intro y hy
    simp only [seen]; rw [current_snoc]; simp [change, hy]

/-- Requests that always do something with the open file, or directory, they name. -/
def usesFile : Req → Bool
  | .read .. | .write .. | .fstat .. | .fstatvfs .. | .fsync .. => true
  | _ => false

def usesDir : Req → Bool
  | .readdir .. => true
  | _ => false

/-- C34: a handle that stands for a file or a directory is accepted: the request begins with a call about it. -/
theorem C34_accepted (cfg : Cfg) (l : List HEv) (s s' : Srv) (id : Nat) (q : Req) (x : Bytes) (o : Obj) (tr : List (Call × Resp))
    (rs : List Reply) (h : Hist cfg l s) (hx : x ∈ handlesOf q) (ho : current l x = some o) (hdir : 0 < cfg.dirMax)
    (hk : (usesFile q = true ∧ ∃ fd ap nm, o = .file fd ap nm) ∨ (usesDir q = true ∧ ∃ d nm, o = .dir d nm))
    (r : Runs (act cfg s (.req id q)) tr (s', rs)) : ∃ c a tr', tr = (c, a) :: tr' ∧ touches c = some o.key := by
  obtain ⟨hi, hn⟩ := hist_named h
  rw [← hn] at ho
  simp only [act] at r
  rcases hk with ⟨hu, fd, ap, nm, rfl⟩ | ⟨hu, d, nm, rfl⟩
  · obtain ⟨h1, h2, h3⟩ := toFd_of ho
    cases q with
    | read | fstat | fstatvfs | fsync =>
      simp only [handlesOf, List.mem_singleton] at hx
      subst hx
      simp only [exec, doRead, doStat, doStatvfs, doFsync, simple, h1, runs_call] at r
      obtain ⟨a, tr', e, -⟩ := r
      exact ⟨_, a, tr', e, rfl⟩
    | write hh off data =>
      simp only [handlesOf, List.mem_singleton] at hx
      subst hx
      simp only [exec, doWrite, h1] at r
      split at r
      · simp only [writeOut, runs_call] at r
        obtain ⟨a, tr', e, -⟩ := r
        exact ⟨_, a, tr', e, rfl⟩
      · simp only [runs_call] at r
        obtain ⟨a, tr', e, -⟩ := r
        exact ⟨_, a, tr', e, rfl⟩
    | _ => cases hu
  · cases q with
    | readdir hh =>
      simp only [handlesOf, List.mem_singleton] at hx
      subst hx
      have hd : toDir s.tab (getHandle s.tab x) = some d := by
        cases hg : getHandle s.tab x with
        | none => rw [named_of_getHandle_none hg] at ho; cases ho
        | some i =>
          obtain ⟨-, h2, -⟩ := getHandle_some hg
          rw [ho] at h2
          have hk := (isOk_dir s.tab i).2 ⟨d, nm, h2.symm⟩
          obtain ⟨hb, hu⟩ := (isOk_iff _ i .dir (by simp)).1 hk
          rw [objAt, if_pos hb, objOf, hu] at h2
          simp only [Option.some.injEq, Obj.dir.injEq] at h2
          simp only [toDir]
          rw [if_pos hk, h2.1]
      simp only [exec, doReaddir, hd] at r
      obtain ⟨n, hn⟩ : ∃ n, cfg.dirMax = n + 1 := ⟨cfg.dirMax - 1, by omega⟩
      rw [hn] at r
      simp only [readdirLoop, runs_call] at r
      obtain ⟨a, tr', e, -⟩ := r
      exact ⟨_, a, tr', e, rfl⟩
    | _ => cases hu

/-! ### C35 -/

theorem listed_iff (name : Bytes) (o : Option Bytes) (h : Match.names name = [name]) :
    listed name o = true ↔ ∃ l, o = some l ∧ name ∈ inList l := by
  cases o with
  | none => simp [listed]
  | some l =>
    simp only [listed, inList, Option.some.injEq, exists_eq_left']
    rw [Match.C07_match_list name l, h]
    simp only [List.find?_cons, List.find?_nil]
    split
    · rename_i e; simpa using e
    · rename_i e; simpa using e

/-- The names of requests and whether they write, beside the table in the code. -/
theorem handlers_names : ∀ x ∈ handlers, Match.names x.2.name = [x.2.name] ∧ (x.2.writes = true ↔ x.2.name ∈ writeNames) := by
  intro x hx
  simp only [handlers, List.mem_cons, List.not_mem_nil, or_false] at hx
  rcases hx with rfl | rfl | rfl | rfl | rfl | rfl | rfl | rfl | rfl | rfl | rfl | rfl | rfl | rfl | rfl | rfl | rfl | rfl <;> decide

theorem extHandlers_names : ∀ x ∈ extHandlers, Match.names x.2.name = [x.2.name] ∧ (x.2.writes = true ↔ x.2.name ∈ writeNames) := by
  intro x hx
  simp only [extHandlers, List.mem_cons, List.not_mem_nil, or_false] at hx
  rcases hx with rfl | rfl | rfl | rfl | rfl | rfl | rfl | rfl | rfl | rfl | rfl <;> decide

theorem permitted_iff (cfg : Cfg) (h : Handler) (h1 : Match.names h.name = [h.name]) (h2 : h.writes = true ↔ h.name ∈ writeNames) :
    permitted cfg h = true ↔ Permitted cfg h.name := by
  unfold permitted Permitted
  rw [← h2]
  by_cases hw : cfg.readonly = true ∧ h.writes = true
  · rw [if_pos (by simp [hw])]
    simp only [Bool.false_eq_true, false_iff]
    intro hp
    exact hp.1 hw.1 hw.2
  · rw [if_neg (by simpa using hw)]
    by_cases hd : listed h.name cfg.deny = true
    · rw [if_pos hd]
      obtain ⟨l, e, hm⟩ := (listed_iff _ _ h1).1 hd
      simp only [Bool.false_eq_true, false_iff]
      intro hp
      exact hp.2.1 l e hm
    · rw [if_neg hd]
      have a1 : cfg.readonly = true → ¬ h.writes = true := fun e hm => hw ⟨e, hm⟩
      have a2 : ∀ l, cfg.deny = some l → h.name ∉ inList l := fun l e hm => hd ((listed_iff _ _ h1).2 ⟨l, e, hm⟩)
      by_cases ha : listed h.name cfg.allow = true
      · rw [if_pos ha]
        obtain ⟨l, e, hm⟩ := (listed_iff _ _ h1).1 ha
        simp only [true_iff]
        refine ⟨a1, a2, fun l' e' => ?_⟩
        rw [e] at e'
        simp only [Option.some.injEq] at e'
        rw [← e']; exact hm
      · rw [if_neg ha]
        cases e : cfg.allow with
        | none => exact ⟨fun _ => ⟨a1, a2, fun l e => by cases e⟩, fun _ => by simp⟩
        | some l =>
          rw [if_pos (by simp)]
          simp only [Bool.false_eq_true, false_iff]
          intro hp
          exact ha ((listed_iff _ _ h1).2 ⟨l, e, hp.2.2 l rfl⟩)

/-- The requests that a handler reads have its name. -/
def Reads (h : Handler) : Prop := ∀ b r rest, h.parse b = some (r, rest) → r.name = h.name

theorem pbind_some {α β : Type} {p : Parser α} {f : α → Parser β} {b : Bytes} {x : β × Bytes} (h : pbind p f b = some x) :
    ∃ a r, p b = some (a, r) ∧ f a r = some x := by
  unfold pbind at h
  cases hp : p b with
  | none => rw [hp] at h; cases h
  | some z => rw [hp] at h; exact ⟨z.1, z.2, rfl, h⟩

theorem pret_some {α : Type} {a : α} {b : Bytes} {x : α × Bytes} (h : pret a b = some x) : x = (a, b) := by
  simp only [pret, Option.some.injEq] at h; exact h.symm

macro "reads" : tactic => `(tactic| (
  intro b r rest h
  simp only [pname, phandle, pnames, pnameAttr] at h
  repeat (
    obtain ⟨_, _, _, h'⟩ := pbind_some h
    clear h
    rename _ => h)
  have := pret_some h
  simp only [Prod.mk.injEq] at this
  rw [this.1]
  rfl))

theorem handlers_read : ∀ x ∈ handlers, Reads x.2 := by
  intro x hx
  simp only [handlers, List.mem_cons, List.not_mem_nil, or_false] at hx
  rcases hx with rfl | rfl | rfl | rfl | rfl | rfl | rfl | rfl | rfl | rfl | rfl | rfl | rfl | rfl | rfl | rfl | rfl | rfl <;> reads

theorem extHandlers_read : ∀ x ∈ extHandlers, Reads x.2 := by
  intro x hx
  simp only [extHandlers, List.mem_cons, List.not_mem_nil, or_false] at hx
  rcases hx with rfl | rfl | rfl | rfl | rfl | rfl | rfl | rfl | rfl | rfl | rfl <;> reads

/-- The same server without restrictions. -/
def free (cfg : Cfg) : Cfg := { cfg with readonly := false, allow := none, deny := none }

theorem permitted_free (cfg : Cfg) (h : Handler) : permitted (free cfg) h = true := by
  simp [permitted, free, listed]

theorem withHandler_lists (cfg : Cfg) (id : Nat) (h : Handler) (h1 : Match.names h.name = [h.name])
    (h2 : h.writes = true ↔ h.name ∈ writeNames) (h3 : Reads h) (b : Bytes) :
    (∀ id' r rest, withHandler (free cfg) id h b = some (.req id' r, rest) →
      (Permitted cfg r.name → withHandler cfg id h b = some (.req id' r, rest)) ∧
      (¬ Permitted cfg r.name → withHandler cfg id h b = some (.denied id', b))) ∧
    (∀ id' r rest, withHandler cfg id h b = some (.req id' r, rest) →
      Permitted cfg r.name ∧ withHandler (free cfg) id h b = some (.req id' r, rest)) := by
  have hf : withHandler (free cfg) id h = pbind h.parse fun r => pret (.req id r) := by
    unfold withHandler; rw [if_pos (permitted_free cfg h)]
  have hn : ∀ {id' : Nat} {r : Req} {rest : Bytes}, pbind h.parse (fun r => pret (Act.req id r)) b = some (.req id' r, rest) → r.name = h.name ∧ id' = id := by
    intro id' r rest hx
    obtain ⟨a, r', e1, e2⟩ := pbind_some hx
    have := pret_some e2
    simp only [Prod.mk.injEq, Act.req.injEq] at this
    rw [this.1.2]
    exact ⟨h3 _ _ _ e1, this.1.1⟩
  rw [hf]
  refine ⟨fun id' r rest hx => ?_, fun id' r rest hx => ?_⟩
  · obtain ⟨e1, e2⟩ := hn hx
    rw [e1, ← permitted_iff cfg h h1 h2]
    unfold withHandler
    refine ⟨fun hp => by rw [if_pos hp]; exact hx, fun hp => ?_⟩
    rw [if_neg hp, e2]; rfl
  · unfold withHandler at hx
    split at hx
    · rename_i hp
      refine ⟨?_, hx⟩
      rw [(hn hx).1, ← permitted_iff cfg h h1 h2]
      exact hp
    · simp [pret] at hx

theorem plan_unfold {cfg : Cfg} {i : Bool} {b : Bytes} {x : Act × Bytes} (h : plan cfg i b = some x) :
    ∃ t r, getInt 1 b = some (t, r) ∧ ((t = 1 ∧ ∃ v r', getInt 4 r = some (v, r') ∧ x = (.init v, r')) ∨
      (t ≠ 1 ∧ i = true ∧ ∃ id r', getInt 4 r = some (id, r') ∧
        ((t = 200 ∧ planExt cfg id r' = some x) ∨ (t ≠ 200 ∧ planType cfg id t r' = some x)))) := by
  unfold plan at h
  obtain ⟨t, r, h1, h2⟩ := pbind_some h
  refine ⟨t, r, h1, ?_⟩
  split at h2
  · rename_i ht
    obtain ⟨v, r', h3, h4⟩ := pbind_some h2
    exact .inl ⟨ht, v, r', h3, pret_some h4⟩
  · rename_i ht
    split at h2
    · simp [pfail] at h2
    · rename_i hi
      obtain ⟨id, r', h3, h4⟩ := pbind_some h2
      refine .inr ⟨ht, by simpa using hi, id, r', h3, ?_⟩
      split at h4
      · rename_i h5; exact .inl ⟨h5, h4⟩
      · rename_i h5; exact .inr ⟨h5, h4⟩

theorem plan_fold {cfg : Cfg} {b : Bytes} {t id : Nat} {r r' : Bytes} (h1 : getInt 1 b = some (t, r)) (ht : t ≠ 1)
    (h2 : getInt 4 r = some (id, r')) : plan cfg true b = if t = 200 then planExt cfg id r' else planType cfg id t r' := by
  unfold plan pbind
  rw [h1]
  simp only
  rw [if_neg ht, if_neg (by simp)]
  rw [h2]
  simp only
  split <;> rfl

theorem planExt_lists (cfg : Cfg) (id : Nat) (b : Bytes) :
    (∀ id' r rest, planExt (free cfg) id b = some (.req id' r, rest) →
      (Permitted cfg r.name → planExt cfg id b = some (.req id' r, rest)) ∧
      (¬ Permitted cfg r.name → ∃ b', planExt cfg id b = some (.denied id', b'))) ∧
    (∀ id' r rest, planExt cfg id b = some (.req id' r, rest) →
      Permitted cfg r.name ∧ planExt (free cfg) id b = some (.req id' r, rest)) := by
  unfold planExt pbind
  cases hb : getCstr b with
  | none => simp
  | some z =>
    obtain ⟨name, r1⟩ := z
    simp only
    cases hl : extHandlers.lookup name with
    | none => simp [pret]
    | some h =>
      simp only
      have hm := lookup_mem hl
      obtain ⟨a1, a2⟩ := extHandlers_names _ hm
      obtain ⟨h1, h2⟩ := withHandler_lists cfg id h a1 a2 (extHandlers_read _ hm) r1
      exact ⟨fun id' r rest hx => ⟨(h1 id' r rest hx).1, fun hp => ⟨_, (h1 id' r rest hx).2 hp⟩⟩, h2⟩

theorem planType_lists (cfg : Cfg) (id t : Nat) (b : Bytes) :
    (∀ id' r rest, planType (free cfg) id t b = some (.req id' r, rest) →
      (Permitted cfg r.name → planType cfg id t b = some (.req id' r, rest)) ∧
      (¬ Permitted cfg r.name → ∃ b', planType cfg id t b = some (.denied id', b'))) ∧
    (∀ id' r rest, planType cfg id t b = some (.req id' r, rest) →
      Permitted cfg r.name ∧ planType (free cfg) id t b = some (.req id' r, rest)) := by
  unfold planType
  cases hl : handlers.lookup t with
  | none => simp [pret]
  | some h =>
    simp only
    have hm := lookup_mem hl
    obtain ⟨a1, a2⟩ := handlers_names _ hm
    obtain ⟨h1, h2⟩ := withHandler_lists cfg id h a1 a2 (handlers_read _ hm) b
    exact ⟨fun id' r rest hx => ⟨(h1 id' r rest hx).1, fun hp => ⟨_, (h1 id' r rest hx).2 hp⟩⟩, h2⟩

/-- C35: a request that would be carried out without restrictions is carried out if its name is permitted: not a
writing one for a read-only server, not on the list of denied ones, and on the list of allowed ones if there is one.
Otherwise all that happens is that it is answered with its number and "permission denied". -/
theorem C35_lists (cfg : Cfg) (m : Bytes) (id : Nat) (r : Req) (rest : Bytes) (h : plan (free cfg) true m = some (.req id r, rest)) :
    (Permitted cfg r.name → plan cfg true m = some (.req id r, rest)) ∧
    (¬ Permitted cfg r.name → ∀ (s : Srv) (x : Bytes), s.initDone = true → m.length ≤ 262144 →
      process cfg s (frame m ++ x) = .ret (.done s x (sendAll s [.status id FX_DENIED none]))) := by
  obtain ⟨t, r1, h1, ⟨-, v, r2, -, e⟩ | ⟨ht, -, id', r2, h2, h3⟩⟩ := plan_unfold h
  · cases e
  · have key : (Permitted cfg r.name → plan cfg true m = some (.req id r, rest)) ∧
        (¬ Permitted cfg r.name → ∃ b', plan cfg true m = some (.denied id, b')) := by
      rw [plan_fold h1 ht h2]
      rcases h3 with ⟨h3, h4⟩ | ⟨h3, h4⟩
      · rw [if_pos h3]; exact (planExt_lists cfg id' r2).1 id r rest h4
      · rw [if_neg h3]; exact (planType_lists cfg id' t r2).1 id r rest h4
    refine ⟨key.1, fun hp s x hs hm => ?_⟩
    obtain ⟨b', hb⟩ := key.2 hp
    rw [process_good cfg s m x hm (by rw [hs]; exact hb)]
    rfl

/-- C35: and nothing else is ever carried out. -/
theorem C35_only (cfg : Cfg) (i : Bool) (m : Bytes) (id : Nat) (r : Req) (rest : Bytes) (h : plan cfg i m = some (.req id r, rest)) :
    Permitted cfg r.name ∧ plan (free cfg) i m = some (.req id r, rest) := by
  obtain ⟨t, r1, h1, ⟨-, v, r2, -, e⟩ | ⟨ht, rfl, id', r2, h2, h3⟩⟩ := plan_unfold h
  · cases e
  · rw [plan_fold h1 ht h2]
    rcases h3 with ⟨h3, h4⟩ | ⟨h3, h4⟩
    · rw [if_pos h3]; exact (planExt_lists cfg id' r2).2 id r rest h4
    · rw [if_neg h3]; exact (planType_lists cfg id' t r2).2 id r rest h4

theorem act_readonly {cfg : Cfg} {s : Srv} {a : Act} (hr : cfg.readonly = true)
    (ha : ∀ id r, a = .req id r → Permitted cfg r.name) : (act cfg s a).All (fun c => modifies c = false) (fun _ => True) := by
  cases a with
  | init | unknown | denied | unsupported => trivial
  | req id q =>
    simp only [act]
    cases hp : plain q with
    | true =>
      have h1 := exec_plain cfg s id q hp
      have h2 := (ha id q rfl).1 hr
      have mono : ∀ p : Run, p.All (Fits s.tab q) (Answers s id q) → p.All (fun c => modifies c = false) (fun _ => True) := by
        intro p
        induction p with
        | ret a => intro _; trivial
        | call c k ih =>
          intro h
          refine ⟨?_, fun r => ih r (h.2 r)⟩
          cases hm : modifies c with
          | false => exact hm
          | true => exact absurd (h.1.2 hm) h2
      exact mono _ h1
    | false =>
      have hiss : ∀ use name obj flags undo, modifies undo = false →
          (issue s id use name obj flags undo).All (fun c => modifies c = false) (fun _ => True) := by
        intro use name obj flags undo hu
        unfold issue
        split
        · exact ⟨hu, fun _ => trivial⟩
        · split
          · exact ⟨hu, fun _ => trivial⟩
          · trivial
      cases q with
      | open_ name p a =>
        simp only [exec, doOpen]
        split
        · trivial
        · rename_i hc
          refine all_call ?_ fun r => ?_
          · simp only [hr, Bool.true_and, Bool.not_eq_true] at hc
            exact hc
          · split
            · trivial
            · exact hiss _ _ _ _ _ rfl
      | opendir path =>
        refine all_call rfl fun r => ?_
        split
        · trivial
        · exact hiss _ _ _ _ _ rfl
      | close h =>
        simp only [exec, doClose]
        split
        · trivial
        · split
          · exact all_call rfl fun _ => trivial
          · split
            · exact all_call rfl fun _ => trivial
            · trivial
      | _ => cases hp

/-- C35: a read-only server never asks for a change, whatever it is sent: not even while dealing with a message that
makes it end. -/
theorem C35_readonly (cfg : Cfg) (s : Srv) (iq : Bytes) (tr : List (Call × Resp)) (o : Step) (hr : cfg.readonly = true)
    (h : Runs (process cfg s iq) tr o) (c : Call) (a : Resp) (hc : (c, a) ∈ tr) : modifies c = false := by
  unfold process at h
  split at h
  · simp only [runs_ret] at h; simp [h.1] at hc
  · split at h
    · simp only [runs_ret] at h; simp [h.1] at hc
    · split at h
      · simp only [runs_ret] at h; simp [h.1] at hc
      · split at h
        · simp only [runs_ret] at h; simp [h.1] at hc
        · rename_i x rest hp
          obtain ⟨y, hy, -⟩ := runs_map h
          refine (all_runs hy (act_readonly hr fun id r e => ?_)).1 _ hc
          subst e
          exact (C35_only cfg _ _ id r rest hp).1

/-- The name of the request behind an extension: what is before the '@'. -/
def extRequest (x : Bytes) : Bytes := x.takeWhile (· ≠ 64)

/-- C35: the extensions that a server announces are those whose request is permitted. -/
theorem C35_announced (cfg : Cfg) (s s' : Srv) (v : Nat) (tr : List (Call × Resp)) (rs : List Reply)
    (h : Runs (act cfg s (.init v)) tr (s', rs)) :
    tr = [] ∧ ∃ l, rs = [.version l] ∧ ∀ x, x ∈ l ↔ x ∈ announced ∧ Permitted cfg (extRequest x.1) := by
  simp only [act, runs_ret, Prod.mk.injEq] at h
  refine ⟨h.1, _, h.2.2, fun x => ?_⟩
  rw [List.mem_filter]
  refine and_congr_right fun hx => ?_
  have : ∃ hd, extHandlers.lookup x.1 = some hd ∧ hd.name = extRequest x.1 := by
    revert x
    simp only [announced, List.mem_cons, List.not_mem_nil, or_false]
    rintro x (rfl | rfl | rfl | rfl | rfl | rfl | rfl | rfl | rfl | rfl | rfl) <;> exact ⟨_, rfl, by decide⟩
  obtain ⟨hd, h1, h2⟩ := this
  simp only [announces, h1]
  obtain ⟨a1, a2⟩ := extHandlers_names _ (lookup_mem h1)
  rw [permitted_iff cfg hd a1 a2, h2]

/-! ### C68 -/

/-- C68: a request is answered once, with its number, by an error or an answer of the right kind. -/
theorem C68_one_answer (cfg : Cfg) (l : List HEv) (s s' : Srv) (id : Nat) (q : Req) (tr : List (Call × Resp)) (rs : List Reply)
    (h : Hist cfg l s) (r : Runs (act cfg s (.req id q)) tr (s', rs)) :
    ∃ rep, rs = [rep] ∧ rep.id = some id ∧ kindOk q rep := by
  obtain ⟨hi, -⟩ := hist_named h
  simp only [act] at r
  cases hp : plain q with
  | true => exact (all_runs r (exec_plain cfg s id q hp)).2.2
  | false =>
    cases q with
    | open_ name p a =>
      obtain ⟨-, ⟨code, rfl, -⟩ | ⟨i, m, r, -, rfl, -⟩⟩ := runs_open hi r
      · exact ⟨_, rfl, rfl, trivial⟩
      · exact ⟨_, rfl, rfl, trivial⟩
    | opendir path =>
      obtain ⟨-, ⟨code, rfl, -⟩ | ⟨i, r, -, rfl, -⟩⟩ := runs_opendir hi r
      · exact ⟨_, rfl, rfl, trivial⟩
      · exact ⟨_, rfl, rfl, trivial⟩
    | close hd =>
      obtain ⟨-, -, ⟨-, -, rfl, -⟩ | ⟨r, -, rfl⟩⟩ := runs_close hi r <;> exact ⟨_, rfl, rfl, trivial⟩
    | _ => cases hp

/-- C68: on the wire every answer is its type, then the number of its request. -/
theorem C68_wire (v id : Nat) (rep : Reply) (h : rep.id = some id) :
    ∃ body : Bytes, encReply v rep = rep.type :: be 4 id ++ body := by
  cases rep with
  | version l => cases h
  | status i code m | handle i s | data i b | names i l | attrs i a | ext i b =>
    simp only [Reply.id, Option.some.injEq] at h
    subst h
    exact ⟨_, by simp only [encReply, Reply.type, List.singleton_append, List.cons_append, List.append_assoc]; rfl⟩

/-- C68: what is asked for by number is that number: of a message, and of the request in it. -/
theorem C68_id (cfg : Cfg) (t : UInt8) (id : Nat) (hid : id < 2 ^ 32) (body : Bytes) (a : Act) (rest : Bytes) (ht : t ≠ 1)
    (h : plan cfg true (t :: be 4 id ++ body) = some (a, rest)) :
    a = .unknown ∨ a = .denied id ∨ a = .unsupported id ∨ ∃ q, a = .req id q := by
  have hw : ∀ {hd b x}, withHandler cfg id hd b = some x → x.1 = .denied id ∨ ∃ q, x.1 = .req id q := by
    intro hd b x hx
    unfold withHandler at hx
    split at hx
    · obtain ⟨q, r', -, h2⟩ := pbind_some hx
      rw [pret_some h2]; exact .inr ⟨q, rfl⟩
    · rw [pret_some hx]; exact .inl rfl
  have h1 : getInt 1 (t :: be 4 id ++ body) = some (t.toNat, be 4 id ++ body) := by
    simp [getInt, ofBE]
  have h2 := getInt_append 4 id body (by omega)
  have ht' : t.toNat ≠ 1 := fun e => ht (UInt8.toNat_inj.1 e)
  rw [plan_fold h1 ht' h2] at h
  split at h
  · unfold planExt at h
    obtain ⟨name, r', -, h4⟩ := pbind_some h
    cases hl : extHandlers.lookup name <;> rw [hl] at h4 <;> simp only at h4
    · have := pret_some h4
      simp only [Prod.mk.injEq] at this
      exact .inr (.inr (.inl this.1))
    · rcases hw h4 with e | e
      · exact .inr (.inl e)
      · exact .inr (.inr (.inr e))
  · unfold planType at h
    cases hl : handlers.lookup t.toNat <;> rw [hl] at h <;> simp only at h
    · have := pret_some h
      simp only [Prod.mk.injEq] at this
      exact .inl this.1
    · rcases hw h with e | e
      · exact .inr (.inl e)
      · exact .inr (.inr (.inr e))

/-! ### Where C36 does not hold -/

/-- A message that is shorter than its contents ends the server.  But if what follows has arrived, the request is
carried out first: what is asked of the system depends on how the stream was split. -/
theorem C36_overrun_false : ∃ (s : Srv) (m x : Bytes),
    Runs (process {} s (frame m)) [] .exit ∧ (∀ tr o, Runs (process {} s (frame m)) tr o → tr = []) ∧
    ∀ r, Runs (process {} s (frame m ++ x)) [(.unlink b!"a", r)] .exit := by
  have h1 : plan {} true [13, 0, 0, 0, 1, 0, 0, 0, 1] = none := by decide
  have h2 : plan {} true ([13, 0, 0, 0, 1, 0, 0, 0, 1] ++ b!"a") = some (.req 1 (.remove b!"a"), []) := by decide
  have e1 : process {} { initDone := true, version := 3 } (frame [13, 0, 0, 0, 1, 0, 0, 0, 1]) = .ret .exit := by
    have := process_frame {} { initDone := true, version := 3 } [13, 0, 0, 0, 1, 0, 0, 0, 1] [] (by decide) (by decide)
    rw [List.append_nil, List.append_nil, h1] at this
    exact this
  refine ⟨{ initDone := true, version := 3 }, [13, 0, 0, 0, 1, 0, 0, 0, 1], b!"a", by rw [e1]; exact .ret _, fun tr o h => ?_, fun r => ?_⟩
  · rw [e1, runs_ret] at h
    exact h.1
  · rw [process_frame {} _ [13, 0, 0, 0, 1, 0, 0, 0, 1] b!"a" (by decide) (by decide), h2]
    exact .call (.ret _)

/-- One message is handled in a round.  After one that has no answer nothing wakes the server up for the next, which
may be there already. -/
theorem C36_waiting : ∃ (c : Conn Unit) (e : Event),
    (round {} (fun _ _ => ({}, ())) e c).map (fun c => (c.iq, c.oq)) = some (frame [13, 0, 0, 0, 1, 0, 0, 0, 1, 97], []) :=
  ⟨⟨{ initDone := true, version := 3 }, (), [], [], []⟩, { arrived := frame [99, 0, 0, 0, 1] ++ frame [13, 0, 0, 0, 1, 0, 0, 0, 1, 97] }, by decide⟩

/-! ### Concrete cases -/

/-- A read-only server refuses to remove and to open for writing, and opens for reading. -/
example : plan { readonly := true } true [13, 0, 0, 0, 1, 0, 0, 0, 1, 97] = some (.denied 1, [0, 0, 0, 1, 97]) := by decide

example : Runs (act { readonly := true } {} (.req 1 (.open_ b!"a" 2 {}))) [] ({}, [.status 1 FX_DENIED none]) := .ret _

example : ∃ s', Runs (act { readonly := true } {} (.req 1 (.open_ b!"a" 1 {}))) [(.open_ b!"a" {} 0o666, { num := 3 })] (s', [.handle 1 [0, 0, 0, 0]]) :=
  ⟨{ tab := ⟨[⟨.file, 3, {}, b!"a", none⟩], none⟩ }, .call (.ret _)⟩

/-- An empty name ends a list. -/
example : inList b!"remove,,rename" = [b!"remove"] := by decide

example : ¬ Permitted { deny := some b!"remove,rename" } b!"rename" := fun h => h.2.1 _ rfl (by decide)

example : Permitted { allow := some b!"open,close,read" } b!"read" := ⟨by simp, by simp, by
  intro l h; simp only [Option.some.injEq] at h; subst h; decide⟩

/-- A handle is given out, closed, and given out again. -/
example : ∃ l s, Hist {} l s ∧ current l (toStr 0) = none ∧ s.tab = ⟨[⟨.unused, 5, {}, b!"a", none⟩], some 0⟩ := by
  have h1 := Hist.step (cfg := {}) (a := .req 1 (.open_ b!"a" 1 {})) (tr := [(.open_ b!"a" {} 0o666, { num := 5 })])
    (s' := { tab := ⟨[⟨.file, 5, {}, b!"a", none⟩], none⟩ }) (rs := [.handle 1 (toStr 0)]) .start (.call (.ret _))
  have h2 := Hist.step (a := .req 2 (.close (toStr 0))) (tr := [(.close 5, {})])
    (s' := { tab := ⟨[⟨.unused, 5, {}, b!"a", none⟩], some 0⟩ }) (rs := [.status 2 FX_OK none]) h1 (by
      simp only [act, exec, doClose]
      rw [show getHandle ⟨[⟨.file, 5, {}, b!"a", none⟩], none⟩ (toStr 0) = some 0 by decide]
      simp only
      rw [if_pos (by decide)]
      exact .call (.ret _))
  exact ⟨_, _, h2, by decide, rfl⟩

end Verif.Sftp
