import Verif.Scp.Trip

namespace Verif.Scp
open Verif Verif.Num

/-! ## C65: what is sent arrives -/

/-- **C65.**  A tree sent to a directory on a system where every call succeeds arrives: the receiver ends normally without
having noted an error, has consumed everything sent, and the file system is the old one with exactly the tree laid over it
(contents byte for byte, modes and times). -/
theorem C65_roundtrip (C : Conf) (E : Env) (fs : FS) (targ : Bytes) (fo : Forest) (H : Honest C E fs)
    (hd : kindOf (fs targ) = .dir) (hs : Sendable C E fo) (hfit : Fits C targ fo fs) (hr : C.recursive = true ∨ Flat fo) :
    ∃ tr, sink C E targ (send fo) = .ret ⟨[], tr, 0⟩ ∧ (replay (umaskOf C) fs tr).fs = place C targ fo fs := by
  have r0 : replay (umaskOf C) fs [.ack] = ⟨fs, none⟩ := rfl
  have h1 : E.stat [] targ = .dir := by rw [H.stat]; exact hd
  have h2 : E.stat ([] ++ [.ack]) targ = .dir := by rw [H.stat]; exact hd
  obtain ⟨fuel', tr', fd', hl, e, r⟩ := loop_forest H fo ((send fo).length + 1) ⟨targ, true, none⟩ ⟨send fo, [.ack], 0⟩ [] fs none
    rfl rfl (by simp) (by simp) r0 hd hs hfit hr
  refine ⟨tr', ?_, by rw [r]⟩
  unfold sink enter
  rw [show ({ inp := send fo } : St).tr = [] from rfl, h1, h2, if_neg (by simp)]
  refine e.trans ?_
  cases fuel' with
  | zero => simp at hl
  | succ k => rfl

/-- **C65.**  A single file sent to a name that is not a directory arrives under that name. -/
theorem C65_single (C : Conf) (E : Env) (fs : FS) (targ name content : Bytes) (mode : Nat) (t : Option (Nat × Nat))
    (H : Honest C E fs) (hw : C.wantDir = false) (hd : IsFile (fs targ)) (hs : Sendable C E (.file name mode t content .nil)) :
    ∃ tr, sink C E targ (send (.file name mode t content .nil)) = .ret ⟨[], tr, 0⟩ ∧
      (replay (umaskOf C) fs tr).fs = fs.set targ (placedFile C (fs targ) mode t content) := by
  obtain ⟨hsafe, h10, h0, hn, hask, hm, hc, ht, -⟩ := hs
  have h2 : (E.stat ([] ++ [.ack]) targ = .dir) = False := by
    rw [H.stat]
    apply eq_false
    intro h
    have h : kindOf (fs targ) = .dir := h
    revert h hd
    cases fs targ with
    | none => intro _ h; cases h
    | some nd => cases nd with
      | dir => intro h; exact h.elim
      | file => intro _ h; cases h
  have hi1 : send (.file name mode t content .nil) = timesPart t ++ (67 :: ((oct mode ++ 32 :: (dec content.length ++ 32 :: name)) ++
      10 :: (content ++ 0 :: []))) := by simp [send, fileLine]
  obtain ⟨fuel1, tr1, hl1, e1, r1⟩ := loop_timesPart (E := E) (C := C) (fs0 := fs) (f := ⟨targ, false, none⟩)
    (s := ⟨send (.file name mode t content .nil), [.ack], 0⟩)
    (fuel := (send (.file name mode t content .nil)).length + 1) ht hi1 rfl (by simp) (x := ⟨fs, none⟩) rfl
  cases fuel1 with
  | zero => omega
  | succ fuel1 =>
    obtain ⟨b10, b0, bl⟩ := entry_body (mode := mode) h10 h0 hn hc
    obtain ⟨tr2, hfile, r2⟩ := file_honest H (np := targ) (mode := mode) (t := t)
      (s := ⟨content ++ 0 :: [], tr1, 0⟩) (content := content) rfl r1 hd
    have e2 := loop_file (C := C) (E := E) (fuel := fuel1) (f := ⟨targ, false, sentTimes t⟩) (s := ⟨_, tr1, 0⟩)
      (c := 67) (by decide) b10 b0 bl rfl
      (show parseRec (67 :: _) = _ by rw [parseRec, if_neg (by decide), if_pos rfl]; exact parse_entry hm hc hsafe)
      (asked_wanted hask) hfile
    refine ⟨tr2, ?_, by rw [r2]⟩
    unfold sink enter
    rw [hw, show ({ inp := send (.file name mode t content .nil) } : St).tr = [] from rfl, if_neg (by simp)]
    simp only [h2]
    refine e1.trans (e2.trans ?_)
    cases fuel1 <;> rfl

/-- The bytes the events write. -/
def written : List Event → Bytes
  | [] => []
  | .write d :: r => d ++ written r
  | _ :: r => written r

theorem written_append (a b : List Event) : written (a ++ b) = written a ++ written b := by
  induction a with
  | nil => rfl
  | cons e a ih => cases e <;> simp [written, ih]

theorem put_cases (E : Env) (d : Bytes) (s : St) (w : Bool) :
    ∃ evs, (put E d s w).1.tr = s.tr ++ evs ∧ (put E d s w).1.inp = s.inp ∧
      (w = true → evs = [] ∧ (put E d s w).2 = true) ∧ (w = false → evs = [.write d]) := by
  unfold put
  cases w with
  | true => exact ⟨[], by simp, rfl, fun _ => ⟨rfl, rfl⟩, nofun⟩
  | false =>
    rw [if_neg (by simp)]
    split <;> exact ⟨[.write d], rfl, rfl, nofun, fun _ => rfl⟩

theorem copy_general (E : Env) (cnt : Nat) (hcnt : 0 < cnt) : ∀ (fuel rem : Nat) (s : St) (w : Bool), rem ≤ fuel →
    match copy E cnt fuel rem s w with
    | .lost _ => s.inp.length < rem
    | .done s' w' => rem ≤ s.inp.length ∧ s'.inp = s.inp.drop rem ∧
        ∃ evs k, s'.tr = s.tr ++ evs ∧ k ≤ rem ∧ written evs = (s.inp.take k) ∧ (w = true → k = 0 ∧ w' = true) ∧ (w' = false → k = rem) := by
  intro fuel
  induction fuel with
  | zero =>
    intro rem s w h
    have : rem = 0 := by omega
    subst this
    rw [copy]
    exact ⟨by omega, rfl, [], 0, by simp, by omega, rfl, fun h => ⟨rfl, h⟩, fun _ => rfl⟩
  | succ fuel ih =>
    intro rem s w h
    rw [copy]
    by_cases hz : rem = 0
    · rw [if_pos hz]
      subst hz
      exact ⟨by omega, rfl, [], 0, by simp, by omega, rfl, fun h => ⟨rfl, h⟩, fun _ => rfl⟩
    · rw [if_neg hz]
      have hk : min cnt rem ≤ rem := by omega
      have hk0 : 0 < min cnt rem := by omega
      generalize min cnt rem = k at hk hk0 ⊢
      by_cases hl : s.inp.length < k
      · rw [if_pos hl]; show s.inp.length < rem; omega
      · rw [if_neg hl]
        obtain ⟨evs, h1, h2, h3, h4⟩ := put_cases E (s.inp.take k) s w
        have ih := ih (rem - k) { (put E (s.inp.take k) s w).1 with inp := s.inp.drop k } (put E (s.inp.take k) s w).2 (by omega)
        generalize copy E cnt fuel (rem - k) { (put E (s.inp.take k) s w).1 with inp := s.inp.drop k } (put E (s.inp.take k) s w).2 = res at ih ⊢
        cases res with
        | lost s' => simp only [List.length_drop] at ih; show s.inp.length < rem; omega
        | done s' w' =>
          obtain ⟨i1, i2, evs', k', i3, i4, i5, i6, i7⟩ := ih
          simp only [List.length_drop] at i1
          refine ⟨by omega, ?_, ?_⟩
          · rw [i2]; simp only [List.drop_drop]; congr 1; omega
          · have i3 : s'.tr = (put E (s.inp.take k) s w).1.tr ++ evs' := i3
            cases w with
            | true =>
              obtain ⟨rfl, hp⟩ := h3 rfl
              obtain ⟨rfl, hw'⟩ := i6 hp
              refine ⟨evs', 0, by rw [i3, h1]; simp, by omega, by simpa using i5, fun _ => ⟨rfl, hw'⟩, fun h => ?_⟩
              rw [hw'] at h; cases h
            | false =>
              have he := h4 rfl
              subst he
              refine ⟨[.write (s.inp.take k)] ++ evs', k + k', by rw [i3, h1]; simp, by omega, ?_, nofun, fun h => ?_⟩
              · simp only [List.singleton_append, written, i5]
                exact (List.take_add).symm
              · have := i7 h; omega

/-- **C65.**  On any system (calls may fail at any time), the contents received for a file of `size` announced bytes are the
next `size` bytes sent: they are all consumed, neither more nor less, whatever happens to the writes; what is written is
a prefix of them; and if no write failed, all of them.  If fewer come, the receiver stops. -/
theorem C65_content (E : Env) (cnt size : Nat) (hcnt : 0 < cnt) (s : St) :
    match copy E cnt size size s false with
    | .lost _ => s.inp.length < size
    | .done s' w => ∃ content, s.inp = content ++ s'.inp ∧ content.length = size ∧
        ∃ evs, s'.tr = s.tr ++ evs ∧ written evs <+: content ∧ (w = false → written evs = content) := by
  have h := copy_general E cnt hcnt size size s false (Nat.le_refl _)
  generalize copy E cnt size size s false = res at h ⊢
  cases res with
  | lost s' => exact h
  | done s' w =>
    obtain ⟨h1, h2, evs, k, h3, h4, h5, -, h7⟩ := h
    refine ⟨s.inp.take size, by rw [h2, List.take_append_drop], by simp; omega, evs, h3, ?_, fun hw => ?_⟩
    · rw [h5]
      exact List.take_prefix_take_left h4
    · rw [h5, h7 hw]

/-! ### Cases -/

/-- A system on which all goes well. -/
def honestEnv (C : Conf) (fs : FS) : Env where
  stat tr p := kindOf ((replay (umaskOf C) fs tr).fs p)
  ok _ := true
  alloc _ := some 4
  fnmatch _ _ := false

theorem honestEnv_honest (C : Conf) (fs : FS) : Honest C (honestEnv C fs) fs :=
  ⟨fun _ _ => rfl, fun _ => rfl, fun _ => ⟨4, by decide, rfl⟩⟩

def exFs : FS := fun p => if p = b!"t" then some (.dir 0o755 none) else none
def exForest : Forest := .dir b!"d" 0o555 (some (5, 6)) (.file b!"f" 0o444 none b!"hello" .nil) (.file b!"g" 0o4755 none [] .nil)

/-- The hypotheses of `C65_roundtrip` hold of it, and the outcome is as expected. -/
example : ∃ tr, sink { recursive := true } (honestEnv { recursive := true } exFs) b!"t" (send exForest) = .ret ⟨[], tr, 0⟩ ∧
    (replay 0o022 exFs tr).fs = place { recursive := true } b!"t" exForest exFs :=
  C65_roundtrip _ _ _ _ _ (honestEnv_honest _ _) rfl
    ⟨⟨by decide, by decide, by decide, by decide⟩, by decide, by decide, by decide, Or.inl rfl, by decide,
      (fun x hx => by cases hx; decide),
      ⟨⟨by decide, by decide, by decide, by decide⟩, by decide, by decide, by decide, Or.inl rfl, by decide, by decide,
        nofun, trivial⟩,
      ⟨by decide, by decide, by decide, by decide⟩, by decide, by decide, by decide, Or.inl rfl, by decide, by decide,
        nofun, trivial⟩
    ⟨trivial, ⟨trivial, trivial⟩, trivial, trivial⟩ (Or.inl rfl)

example : place { recursive := true } b!"t" exForest exFs b!"t/d/f" = some (.file 0o444 none b!"hello") := by decide
example : place { recursive := true } b!"t" exForest exFs b!"t/d" = some (.dir 0o555 (some ⟨(5, 0), (6, 0)⟩)) := by decide

/-- A file of the peer's making keeps its set-user-id bit, with or without `-p`. -/
theorem C65_setuid : place { recursive := true } b!"t" exForest exFs b!"t/g" = some (.file 0o4755 none []) := by decide

/-- `C65_single`'s case: a file sent to a new name, from a file with another name. -/
example : ∃ tr, sink {} (honestEnv {} exFs) b!"new" (send (.file b!"f" 0o666 none b!"hello" .nil)) = .ret ⟨[], tr, 0⟩ ∧
    (replay 0o022 exFs tr).fs = exFs.set b!"new" (.file 0o644 none b!"hello") :=
  C65_single _ _ _ _ _ _ _ _ (honestEnv_honest _ _) rfl trivial
    ⟨⟨by decide, by decide, by decide, by decide⟩, by decide, by decide, by decide, Or.inl rfl, by decide, by decide,
      nofun, trivial⟩

/-- `C65_content`'s cases: all written; a failing write with everything consumed. -/
example : copy (honestEnv {} exFs) 4 5 5 ⟨b!"helloX", [], 0⟩ false = .done ⟨b!"X", [.write b!"hell", .write b!"o"], 0⟩ false := rfl
example : copy { honestEnv {} exFs with ok := fun _ => false } 4 5 5 ⟨b!"helloX", [], 0⟩ false = .done ⟨b!"X", [.write b!"hell"], 1⟩ true := rfl

/-! ## C50: cases -/

/-- A peer that tries to leave the directory is stopped, and one that sends a name asked for is served. -/
example : sink {} (honestEnv {} exFs) b!"t" (b!"C0644 1 ../x" ++ [10] ++ b!"a" ++ [0]) = .exit ⟨b!"a" ++ [0], [.ack, .complain], 1⟩ := by
  decide
example : sink { patterns := [b!"f"] } (honestEnv {} exFs) b!"t" (b!"C0644 1 g" ++ [10] ++ b!"a" ++ [0]) =
    .exit ⟨b!"a" ++ [0], [.ack, .complain], 1⟩ := by decide
example : Event.open_ b!"t/f" 0o644 ∈ (sink { patterns := [b!"f"] } (honestEnv {} exFs) b!"t" (b!"C0644 1 f" ++ [10] ++ b!"a" ++ [0])).st.tr := by
  decide

end Verif.Scp
