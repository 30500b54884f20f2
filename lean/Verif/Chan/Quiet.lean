/- What the half-close functions leave alone. -/
import Verif.Chan.Close

namespace Verif.Chan
open Verif Wire

/-- `c'` is `c` up to the half-close state; `l`: buffered data may have been thrown away. -/
structure Frame (l : Bool) (c c' : Chan) : Prop where
  remoteWindow : c'.remoteWindow = c.remoteWindow
  remoteMax : c'.remoteMax = c.remoteMax
  localWindow : c'.localWindow = c.localWindow
  localMax : c'.localMax = c.localMax
  windowMax : c'.windowMax = c.windowMax
  consumed : c'.consumed = c.consumed
  exceeded : c'.exceeded = c.exceeded
  datagram : c'.datagram = c.datagram
  ext : c'.ext = c.ext
  extended : c'.extended = c.extended
  gIn : c'.gIn = c.gIn
  gOut : c'.gOut = c.gOut
  gAcc : c'.gAcc = c.gAcc
  istate : c.istate = .closed → c'.istate = .closed
  ostate : c.ostate ≠ .open_ → c'.ostate ≠ .open_
  ostate' : c.ostate = .closed → c'.ostate = .closed
  input : c'.input = c.input ∨ (l = true ∧ c'.input = [] ∧ c'.istate = .closed)
  output : c'.output = c.output ∨ (l = true ∧ c'.output = [] ∧ c'.ostate = .closed)
  typ : c'.typ = c.typ ∨ c'.typ = .abandoned
  local_ : c'.local_ = c.local_
  closeRcvd : c.closeRcvd = true → c'.closeRcvd = true
  eofSent : c'.eofSent = true → c.eofSent = true ∨ c'.closeRcvd = true ∨ c'.input = []
  closing : c'.ostate = .closed → c.ostate = .closed ∨ c'.output = [] ∨ c.typ = .larval

theorem Frame.refl (l : Bool) (c : Chan) : Frame l c c := by
  constructor <;> first | rfl | exact id | exact Or.inl rfl | exact Or.inl

theorem Frame.trans {l : Bool} {a b c : Chan} (h : Frame l a b) (k : Frame l b c) : Frame l a c where
  remoteWindow := k.remoteWindow.trans h.remoteWindow
  remoteMax := k.remoteMax.trans h.remoteMax
  localWindow := k.localWindow.trans h.localWindow
  localMax := k.localMax.trans h.localMax
  windowMax := k.windowMax.trans h.windowMax
  consumed := k.consumed.trans h.consumed
  exceeded := k.exceeded.trans h.exceeded
  datagram := k.datagram.trans h.datagram
  ext := k.ext.trans h.ext
  extended := k.extended.trans h.extended
  gIn := k.gIn.trans h.gIn
  gOut := k.gOut.trans h.gOut
  gAcc := k.gAcc.trans h.gAcc
  istate := fun e => k.istate (h.istate e)
  ostate := fun e => k.ostate (h.ostate e)
  ostate' := fun e => k.ostate' (h.ostate' e)
  input := by
    rcases k.input with e | e
    · rcases h.input with e' | e'
      · exact .inl (e.trans e')
      · exact .inr ⟨e'.1, e.trans e'.2.1, k.istate e'.2.2⟩
    · exact .inr e
  output := by
    rcases k.output with e | e
    · rcases h.output with e' | e'
      · exact .inl (e.trans e')
      · exact .inr ⟨e'.1, e.trans e'.2.1, k.ostate' e'.2.2⟩
    · exact .inr e
  typ := by
    rcases k.typ with e | e
    · rcases h.typ with e' | e'
      · exact .inl (e.trans e')
      · exact .inr (e.trans e')
    · exact .inr e
  local_ := k.local_.trans h.local_
  closeRcvd := fun e => k.closeRcvd (h.closeRcvd e)
  eofSent := by
    intro e
    rcases k.eofSent e with e | e | e
    · rcases h.eofSent e with e | e | e
      · exact .inl e
      · exact .inr (.inl (k.closeRcvd e))
      · rcases k.input with e' | e'
        · exact .inr (.inr (e'.trans e))
        · exact .inr (.inr e'.2.1)
    · exact .inr (.inl e)
    · exact .inr (.inr e)
  closing := by
    intro e
    rcases k.closing e with e | e | e
    · rcases h.closing e with e | e | e
      · exact .inl e
      · rcases k.output with e' | e'
        · exact .inr (.inl (e'.trans e))
        · exact .inr (.inl e'.2.1)
      · exact .inr (.inr e)
    · exact .inr (.inl e)
    · rcases h.typ with e' | e'
      · exact .inr (.inr (e' ▸ e))
      · rw [e'] at e; exact absurd e (by simp)

/-- The call changes only the half-close state and sends only EOF, CLOSE and EOW. -/
def Quiet (l : Bool) (c : Chan) : R → Prop
  | .ok c' o => Frame l c c' ∧ ∀ m ∈ o, m = .eof ∨ m = .close ∨ m = .eow
  | .freed o => ∀ m ∈ o, m = .eof ∨ m = .close ∨ m = .eow
  | .fatal => True

theorem Quiet.bind {l : Bool} {c : Chan} {r : R} {f : Chan → R} (h : Quiet l c r)
    (hf : ∀ c', Quiet l c' (f c')) : Quiet l c (r.bind f) := by
  cases r with
  | fatal => trivial
  | freed o => exact h
  | ok c1 o1 =>
    have := hf c1
    simp only [R.bind]
    cases hfc : f c1 with
    | fatal => trivial
    | freed o =>
      rw [hfc] at this
      intro m hm
      rcases List.mem_append.mp hm with hm | hm
      · exact h.2 m hm
      · exact this m hm
    | ok c2 o2 =>
      rw [hfc] at this
      refine ⟨h.1.trans this.1, ?_⟩
      intro m hm
      rcases List.mem_append.mp hm with hm | hm
      · exact h.2 m hm
      · exact this.2 m hm

theorem Quiet.of_frame {l : Bool} {c c' : Chan} {r : R} (hf : Frame l c c') (h : Quiet l c' r) : Quiet l c r := by
  cases r with
  | fatal => trivial
  | freed o => exact h
  | ok c1 o1 => exact ⟨hf.trans h.1, h.2⟩

section
variable {l : Bool} {c : Chan}

theorem quiet_self : Quiet l c (.ok c []) := ⟨Frame.refl l c, by simp⟩

theorem quiet_frame {c' : Chan} (h : Frame l c c') : Quiet l c (.ok c' []) := ⟨h, by simp⟩

macro "frame_tac" : tactic => `(tactic| (
  constructor <;> first
    | rfl
    | exact id
    | exact Or.inl rfl
    | exact Or.inl
    | (intro _; rfl)
    | (simp_all (config := { decide := true }))))

theorem readFailed_quiet : Quiet l c (readFailed c) := by
  unfold readFailed
  split
  · exact quiet_frame (by frame_tac)
  · exact quiet_self

theorem sendEof_quiet (hc : c.closeRcvd = true ∨ c.input = []) : Quiet l c (sendEof c) := by
  unfold sendEof
  split
  · split
    · trivial
    · refine ⟨?_, by simp⟩
      constructor <;> first | rfl | exact id | exact Or.inl rfl | exact Or.inl | (intro _; rfl) | (intro _; exact Or.inr hc)
  · exact quiet_self

theorem setClosedI_quiet : Quiet l c (setI .closed c) := quiet_frame (by frame_tac)

theorem ibufEmpty_quiet : Quiet l c (ibufEmpty c) := by
  unfold ibufEmpty
  split
  · exact quiet_self
  next hlen =>
  have hin : c.input = [] := List.eq_nil_of_length_eq_zero (by omega)
  split
  · refine Quiet.bind ?_ fun _ => setClosedI_quiet
    split
    · exact sendEof_quiet (.inr hin)
    · exact quiet_self
  · exact quiet_self

theorem obufEmpty_quiet : Quiet l c (obufEmpty c) := by
  unfold obufEmpty
  split
  · exact quiet_self
  next hlen =>
  have : c.output = [] := List.eq_nil_of_length_eq_zero (by omega)
  split
  · refine quiet_frame ?_
    constructor <;> first | rfl | exact id | exact Or.inl rfl | exact Or.inl | (intro _; rfl) | (intro _; exact Or.inr (Or.inl rfl)) | (intro _; simp) | (left; exact this.symm)
  · exact quiet_self

theorem rcvdEow_quiet : Quiet l c (rcvdEow c) := by
  unfold rcvdEow
  split
  · exact setClosedI_quiet
  · exact quiet_self

theorem sendClose_quiet : Quiet l c (sendClose c) := by
  unfold sendClose
  repeat' split
  all_goals first | exact quiet_self | trivial | exact ⟨by frame_tac, by simp⟩

theorem writeFailed_quiet : Quiet true c (writeFailed c) := by
  unfold writeFailed shutdownWrite sendEow setO
  cases ho : c.ostate <;> cases hs : c.session <;> cases hn : c.newOpenSSH <;> cases hr : c.haveRemote <;>
    simp (config := { decide := true }) [R.bind, R.pre, Quiet, ho, hs, hn, hr] <;>
    constructor <;> simp_all (config := { decide := true })

theorem drainOut_frame : Frame l c (drainOut c) := by
  unfold drainOut
  split
  · frame_tac
  · exact Frame.refl l c

theorem noteClose_frame : Frame l c (noteClose c) := by
  unfold noteClose
  split
  · exact Frame.refl l c
  · frame_tac

theorem shutdownExtRead_quiet : Quiet l c (shutdownExtRead c) := by
  unfold shutdownExtRead
  repeat' split
  all_goals first | exact quiet_self | exact quiet_frame (by frame_tac)

theorem closeInput_quiet (hc : c.local_ = false → c.closeRcvd = true) : Quiet l c (closeInput c) := by
  unfold closeInput
  split
  · exact Quiet.bind shutdownExtRead_quiet fun _ => setClosedI_quiet
  · refine Quiet.bind (Quiet.bind ?_ fun _ => shutdownExtRead_quiet) fun _ => setClosedI_quiet
    split
    · next hl => exact sendEof_quiet (.inl (hc (by simpa using hl)))
    · exact quiet_self
  · exact quiet_self

theorem rcvdClose_quiet : Quiet l c (rcvdClose c) := by
  unfold rcvdClose
  split
  · next ht =>
    have ht' : (noteClose c).typ = .larval := by unfold noteClose; split <;> exact ht
    refine quiet_frame (Frame.trans (b := noteClose c) noteClose_frame ?_)
    frame_tac
  · refine Quiet.of_frame (noteClose_frame.trans drainOut_frame) (closeInput_quiet ?_)
    unfold drainOut noteClose
    cases hl : c.local_ <;> simp <;> split <;> simp_all

theorem rcvdEof_quiet : Quiet l c (rcvdEof c) := by
  have h0 : Frame l c { c with eofRcvd := true } := by frame_tac
  unfold rcvdEof
  dsimp only
  split
  · exact Quiet.of_frame (h0.trans drainOut_frame) obufEmpty_quiet
  · exact quiet_frame (h0.trans drainOut_frame)

theorem forceDrainIn_quiet : Quiet l c (forceDrainIn c) := by
  unfold forceDrainIn
  split
  · next hc =>
    have h0 : Frame l c { c with istate := .drain } := by frame_tac
    split
    · exact Quiet.of_frame h0 ibufEmpty_quiet
    · exact quiet_frame h0
  · exact quiet_self

theorem isDead_quiet (d : Bool) :
    (∀ c' o, isDead c d = .no c' o → Quiet l c (.ok c' o)) ∧ (∀ c' o, isDead c d = .yes c' o → Quiet l c (.ok c' o)) := by
  have hs := sendClose_quiet (l := l) (c := c)
  have hend : ∀ (o : List Msg) (c1 : Chan), Quiet l c (.ok c1 o) →
      (∀ c' o', deadEnd c1 o = .no c' o' → Quiet l c (.ok c' o')) ∧
      (∀ c' o', deadEnd c1 o = .yes c' o' → Quiet l c (.ok c' o')) := by
    intro o c1 hj
    unfold deadEnd
    split
    · exact ⟨fun _ _ e => by simp at e, fun _ _ e => by simp at e; obtain ⟨rfl, rfl⟩ := e; exact hj⟩
    · exact ⟨fun _ _ e => by simp at e; obtain ⟨rfl, rfl⟩ := e; exact hj, fun _ _ e => by simp at e⟩
  have hy : (∀ c' o, Dead.yes c [] = .no c' o → Quiet l c (.ok c' o)) ∧
    (∀ c' o, Dead.yes c [] = .yes c' o → Quiet l c (.ok c' o)) :=
    ⟨fun _ _ e => by simp at e, fun _ _ e => by simp at e; obtain ⟨rfl, rfl⟩ := e; exact quiet_self⟩
  have hn : (∀ c' o, Dead.no c [] = .no c' o → Quiet l c (.ok c' o)) ∧
    (∀ c' o, Dead.no c [] = .yes c' o → Quiet l c (.ok c' o)) :=
    ⟨fun _ _ e => by simp at e; obtain ⟨rfl, rfl⟩ := e; exact quiet_self, fun _ _ e => by simp at e⟩
  unfold isDead
  split
  · exact hy
  split
  · exact hn
  split
  · exact hn
  split
  · exact hy
  split
  · split
    · split
      · next e => rw [e] at hs; exact hend _ _ hs
      · exact ⟨fun _ _ e => by simp at e, fun _ _ e => by simp at e⟩
      · exact ⟨fun _ _ e => by simp at e, fun _ _ e => by simp at e⟩
    · split
      · exact hy
      · exact hend _ _ quiet_self
  · exact hend _ _ quiet_self

theorem collect_quiet : Quiet l c (collect c) := by
  have := isDead_quiet (l := l) (c := c) true
  unfold collect
  cases hd : isDead c true with
  | no c' o => exact this.1 _ _ hd
  | fatal => trivial
  | yes c' o => exact (this.2 _ _ hd).2

theorem gc_quiet (k : Bool) : Quiet l c (gc c k) := by
  have := isDead_quiet (l := l) (c := c) c.detachClose
  unfold gc
  split
  · cases hd : isDead c c.detachClose with
    | no c' o => exact this.1 _ _ hd
    | fatal => trivial
    | yes c' o =>
      have hj := this.2 _ _ hd
      dsimp only
      split
      · exact hj
      · have : Quiet l c ((R.ok c' o).bind fun c => collect { c with detachUser := false }) :=
          Quiet.bind hj fun c1 => Quiet.of_frame (c' := { c1 with detachUser := false }) (by frame_tac) collect_quiet
        exact this
  · exact collect_quiet

end

theorem resetInput_quiet {c : Chan} (h : c.istate = .drain) : Quiet true c (ibufEmpty { c with input := [] }) := by
  unfold ibufEmpty sendEof setI
  cases hcs : c.closeSent <;> cases hl : c.local_ <;> cases hr : c.haveRemote <;>
    simp (config := { decide := true }) [R.bind, R.pre, Quiet, h, hcs, hl, hr] <;>
    constructor <;> simp_all (config := { decide := true })

theorem forceOut_quiet {c : Chan} : Quiet true c (forceOut c) := by
  unfold forceOut
  split
  · next h =>
    unfold writeFailed shutdownWrite sendEow setO
    cases ho : c.ostate <;> cases hs : c.session <;> cases hn : c.newOpenSSH <;> cases hr : c.haveRemote <;>
      simp (config := { decide := true }) [R.bind, R.pre, Quiet, ho, hs, hn, hr] <;>
      first
        | exact absurd ho h
        | (constructor <;> simp_all (config := { decide := true }))
  · exact quiet_self

theorem forceClose_quiet {c : Chan} (a : Bool) : Quiet true c (forceClose a c) := by
  unfold forceClose
  refine Quiet.bind (Quiet.bind (Quiet.bind ?_ ?_) fun _ => forceOut_quiet) ?_
  · split
    · exact readFailed_quiet
    · exact quiet_self
  · intro c'
    unfold forceIn
    split
    · next h => exact resetInput_quiet h
    · exact quiet_self
  · intro c'
    refine quiet_frame ?_
    cases a <;> frame_tac

/-- The events that only move the half-close state. -/
def Ev.isQuiet : Ev → Bool
  | .preOpen => true
  | .gc _ => true
  | .rcvEof => true
  | .rcvClose => true
  | .rcvEow => true
  | .forceClose _ => true
  | .readFailed => true
  | .writeFailed => true
  | _ => false

/-- The events that throw buffered data away. -/
def Ev.lossy : Ev → Bool
  | .forceClose _ => true
  | .writeFailed => true
  | .write none => true
  | _ => false

theorem step_quiet {c : Chan} (e : Ev) (h : e.isQuiet = true) : Quiet e.lossy c (step c e) := by
  have hl : ∀ (l : Bool) (f : Chan → R), Quiet l c (f c) → Quiet l c (lookup c f) := by
    intro l f hf; unfold lookup; split
    · trivial
    · exact hf
  cases e with
  | preOpen =>
    simp only [step, preOpen]
    split
    · split
      · exact obufEmpty_quiet
      · exact quiet_self
    · exact quiet_self
  | gc k => exact gc_quiet k
  | rcvEof => exact hl _ _ (Quiet.bind rcvdEof_quiet fun _ => forceDrainIn_quiet)
  | rcvClose => exact hl _ _ rcvdClose_quiet
  | rcvEow => exact hl _ _ rcvdEow_quiet
  | forceClose a => exact forceClose_quiet a
  | readFailed => exact readFailed_quiet
  | writeFailed => exact writeFailed_quiet
  | _ => simp [Ev.isQuiet] at h

end Verif.Chan
