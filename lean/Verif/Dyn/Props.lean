/-
Properties C93 (dynamic forwarding) and C94 (X11 forwarding).
-/
import Verif.Dyn.Lemmas

namespace Verif.Dyn
open Verif Wire

/-! ### C93: which bytes ask for what -/

theorem ofBE_two (a b : UInt8) : ofBE [a, b] = 256 * a.toNat + b.toNat := by
  simp [ofBE]; omega

theorem eight {b : Bytes} (h : ¬ b.length < 8) :
    ∃ x0 x1 x2 x3 x4 x5 x6 x7 l, b = [x0, x1, x2, x3, x4, x5, x6, x7] ++ l := by
  match b, h with
  | x0 :: x1 :: x2 :: x3 :: x4 :: x5 :: x6 :: x7 :: l, _ => exact ⟨x0, x1, x2, x3, x4, x5, x6, x7, l, rfl⟩
  | [], h => simp at h
  | [_], h => simp at h
  | [_, _], h => simp at h
  | [_, _, _], h => simp at h
  | [_, _, _, _], h => simp at h
  | [_, _, _, _, _], h => simp at h
  | [_, _, _, _, _, _], h => simp at h
  | [_, _, _, _, _, _, _], h => simp at h

theorem dec4_ok (W : World) (b : Bytes) (h0 : b.getD 0 0 = 4) {h : Bytes} {p : Nat} {o r : Bytes}
    (hd : dec4 W b = .ok h p o r) : o = [0, 90, 0, 0, 0, 0, 0, 0] ∧ ∃ q, Req4 W q h p ∧ b = q ++ r := by
  unfold dec4 at hd
  by_cases h8 : b.length < 8
  · rw [if_pos h8] at hd; cases hd
  rw [if_neg h8] at hd
  obtain ⟨x0, x1, x2, x3, x4, x5, x6, x7, l, rfl⟩ := eight h8
  have hx0 : x0 = 4 := by simpa using h0
  subst hx0
  have hdrop : ([4, x1, x2, x3, x4, x5, x6, x7] ++ l : Bytes).drop 8 = l := rfl
  rw [hdrop] at hd
  generalize hs : scan (if isA ([4, x1, x2, x3, x4, x5, x6, x7] ++ l) then 2 else 1) 8 0 l = res at hd
  match res with
  | none => cases hd
  | some false => cases hd
  | some true =>
    dsimp only at hd
    by_cases h1 : ([4, x1, x2, x3, x4, x5, x6, x7] ++ l : Bytes).getD 1 0 ≠ 1
    · rw [if_pos h1] at hd; cases hd
    rw [if_neg h1] at hd
    have hx1 : x1 = 1 := by simpa using h1
    subst hx1
    by_cases ha : isA ([4, 1, x2, x3, x4, x5, x6, x7] ++ l) = false
    · rw [if_pos ha] at hd
      rw [ha] at hs
      obtain ⟨u, t, rfl, hu, hl⟩ := (scan_last (by rfl) _).1 hs
      rw [drop_plus, hdrop, drop_first rfl hu] at hd
      injection hd with e1 e2 e3 e4
      subst e1 e2 e3 e4
      refine ⟨rfl, ?_, ?_, ?_⟩
      rotate_left
      · have := Req4.ip (W := W) (p1 := x2) (p2 := x3) (a := x4) (b := x5) (c := x6) (d := x7) (user := u)
          (by rintro ⟨a, b, c, d⟩; subst a b c; simp [isA] at ha; exact d ha) hu
          (by rcases hl with hl | hl
              · subst hl; simp
              · omega)
        rw [← ofBE_two] at this
        exact this
      · simp
    · rw [if_neg ha] at hd
      have hA : isA ([4, 1, x2, x3, x4, x5, x6, x7] ++ l) = true := by simpa using ha
      rw [hA] at hs
      obtain ⟨u, v, t, rfl, hu, hv, hl⟩ := two_strings hs
      rw [drop_plus, hdrop, drop_first rfl hu, upTo_eq v t hv] at hd
      have d : (v ++ 0 :: t).drop (v.length + 1) = t := by
        have := drop_str [] v t 0 0 rfl
        simpa using this
      rw [d] at hd
      injection hd with e1 e2 e3 e4
      subst e1 e2 e3 e4
      simp [isA] at hA
      obtain ⟨rfl, rfl, rfl, h7⟩ := hA
      refine ⟨rfl, ?_, ?_, ?_⟩
      rotate_left
      · have := Req4.name (W := W) (p1 := x2) (p2 := x3) (d := x7) (user := u) (host := v) h7 hu hv hl
        rw [← ofBE_two] at this
        exact this
      · simp

theorem dec4_of (W : World) {q h : Bytes} {p : Nat} (hq : Req4 W q h p) (r : Bytes) :
    (q ++ r).getD 0 0 = 4 ∧ ¬ (q ++ r).length < 3 ∧ dec4 W (q ++ r) = .ok h p [0, 90, 0, 0, 0, 0, 0, 0] r := by
  cases hq with
  | @ip p1 p2 a b c d user hn hu hl =>
    have e : [4, 1, p1, p2, a, b, c, d] ++ user ++ [0] ++ r = [4, 1, p1, p2, a, b, c, d] ++ (user ++ 0 :: r) := by simp
    rw [e]
    have hd : ([4, 1, p1, p2, a, b, c, d] ++ (user ++ 0 :: r) : Bytes).drop 8 = user ++ 0 :: r := rfl
    refine ⟨rfl, by simp, ?_⟩
    unfold dec4
    rw [if_neg (by simp), hd]
    have ha : isA ([4, 1, p1, p2, a, b, c, d] ++ (user ++ 0 :: r)) = false := by
      simp [isA]
      intro h1 h2 h3
      exact Classical.byContradiction fun h4 => hn ⟨h1, h2, h3, h4⟩
    rw [ha]
    have hs : scan 1 8 0 (user ++ 0 :: r) = some true := (scan_last (by rfl) _).2 ⟨user, r, rfl, hu, .inr (by omega)⟩
    simp only [Bool.false_eq_true, if_false, hs]
    rw [if_neg (by simp), if_pos trivial, drop_plus, hd, drop_first rfl hu, ← ofBE_two]
    rfl
  | @name p1 p2 d user host hn hu hh hl =>
    have e : [4, 1, p1, p2, 0, 0, 0, d] ++ user ++ [0] ++ h ++ [0] ++ r =
      [4, 1, p1, p2, 0, 0, 0, d] ++ (user ++ 0 :: (h ++ 0 :: r)) := by simp
    rw [e]
    have hd : ([4, 1, p1, p2, 0, 0, 0, d] ++ (user ++ 0 :: (h ++ 0 :: r)) : Bytes).drop 8 = user ++ 0 :: (h ++ 0 :: r) := rfl
    refine ⟨rfl, by simp, ?_⟩
    unfold dec4
    rw [if_neg (by simp), hd]
    have ha : isA ([4, 1, p1, p2, 0, 0, 0, d] ++ (user ++ 0 :: (h ++ 0 :: r))) = true := by simp [isA, hn]
    rw [ha]
    have hs := two_strings' (t := r) hu hh hl
    simp only [if_true, hs]
    rw [if_neg (by simp), if_neg (by simp), drop_plus, hd, drop_first rfl hu, upTo_eq h r hh, ← ofBE_two]
    have dd : (h ++ 0 :: r).drop (h.length + 1) = r := by
      have := drop_str [] h r 0 0 rfl
      simpa using this
    rw [dd]
    rfl

theorem dec4_notauthed (W : World) (b r : Bytes) : dec4 W b ≠ .authed r := by
  unfold dec4
  repeat' split
  all_goals nofun

theorem dec5_notauthed (W : World) (b r : Bytes) : dec5 W b ≠ .authed r := by
  unfold dec5
  repeat' split
  all_goals nofun

theorem decG_notok (b : Bytes) (h : Bytes) (p : Nat) (o r : Bytes) : decG b ≠ .ok h p o r := by
  unfold decG
  repeat' split
  all_goals nofun

theorem step_notauthed (W : World) (b r : Bytes) : step W true b ≠ .authed r := by
  unfold step
  rw [if_pos rfl]
  repeat' split
  · nofun
  · exact dec4_notauthed W b r
  · exact dec5_notauthed W b r
  · nofun

theorem decG_ok (b : Bytes) (h0 : b.getD 0 0 = 5) (h3 : ¬ b.length < 3) {r : Bytes} (hd : decG b = .authed r) :
    ∃ g, Greeting g ∧ b = g ++ r := by
  unfold decG at hd
  match b, h3 with
  | x0 :: x1 :: l, _ =>
    have hx0 : x0 = 5 := by simpa using h0
    subst hx0
    have e1 : (5 :: x1 :: l : Bytes).getD 1 0 = x1 := rfl
    rw [e1] at hd
    by_cases h1 : (5 :: x1 :: l : Bytes).length < x1.toNat + 2
    · rw [if_pos h1] at hd; cases hd
    rw [if_neg h1] at hd
    have e2 : (5 :: x1 :: l : Bytes).drop 2 = l := rfl
    rw [e2] at hd
    by_cases h2 : 0 ∉ l.take x1.toNat
    · rw [if_pos h2] at hd; cases hd
    rw [if_neg h2] at hd
    injection hd with e
    have e3 : (5 :: x1 :: l : Bytes).drop (x1.toNat + 2) = l.drop x1.toNat := rfl
    rw [e3] at e
    refine ⟨5 :: x1 :: l.take x1.toNat, ⟨x1, _, rfl, by simp at h1 ⊢; omega, ?_⟩, ?_⟩
    · exact Classical.byContradiction h2
    · rw [← e]; simp
  | [], h => simp at h
  | [_], h => simp at h

theorem decG_of {g : Bytes} (hg : Greeting g) (r : Bytes) :
    (g ++ r).getD 0 0 = 5 ∧ ¬ (g ++ r).length < 3 ∧ decG (g ++ r) = .authed r := by
  obtain ⟨n, m, rfl, hl, h0⟩ := hg
  have hm : 0 < m.length := List.length_pos_of_mem h0
  refine ⟨rfl, by simp; omega, ?_⟩
  unfold decG
  have e1 : (5 :: n :: m ++ r : Bytes).getD 1 0 = n := rfl
  have e2 : (5 :: n :: m ++ r : Bytes).drop 2 = m ++ r := rfl
  rw [e1, if_neg (by simp; omega), e2, List.take_left' hl, if_neg (by simpa using h0)]
  have e3 : (5 :: n :: m ++ r : Bytes).drop (n.toNat + 2) = (m ++ r).drop n.toNat := rfl
  rw [e3, List.drop_left' hl]

theorem dec5_ok (W : World) (b : Bytes) {h : Bytes} {p : Nat} {o r : Bytes} (hd : dec5 W b = .ok h p o r) :
    o = [5, 0, 0, 1, 0, 0, 0, 0, 0, 0] ∧ ∃ q, Req5 W q h p ∧ b = q ++ r := by
  unfold dec5 at hd
  by_cases h5 : b.length < 5
  · rw [if_pos h5] at hd; cases hd
  rw [if_neg h5] at hd
  by_cases h1 : b.getD 0 0 ≠ 5 ∨ b.getD 1 0 ≠ 1 ∨ b.getD 2 0 ≠ 0
  · rw [if_pos h1] at hd; cases hd
  rw [if_neg h1] at hd
  match b, h5 with
  | x0 :: x1 :: x2 :: x3 :: x4 :: l, _ =>
    simp at h1
    obtain ⟨rfl, rfl, rfl⟩ := h1
    have eg : (5 :: 1 :: 0 :: x3 :: x4 :: l : Bytes).getD 3 0 = x3 := rfl
    have eg4 : (5 :: 1 :: 0 :: x3 :: x4 :: l : Bytes).getD 4 0 = x4 := rfl
    unfold addrLen addrAt host addrAt at hd
    rw [eg, eg4] at hd
    -- the port
    have port : ∀ (l : Bytes) (n : Nat), ¬ l.length < n + 2 →
        ∃ p1 p2, l = l.take n ++ [p1, p2] ++ l.drop (n + 2) ∧ ofBE ((l.drop n).take 2) = 256 * p1.toNat + p2.toNat := by
      intro l n hn
      have hlen : 2 ≤ (l.drop n).length := by simp; omega
      match hm : l.drop n, hlen with
      | p1 :: p2 :: t, _ =>
        refine ⟨p1, p2, ?_, by rw [← ofBE_two]; rfl⟩
        have : l.drop (n + 2) = t := by rw [← List.drop_drop, hm]; rfl
        rw [this, List.append_assoc]
        show l = l.take n ++ (p1 :: p2 :: t)
        rw [← hm, List.take_append_drop]
      | [], hlen => simp at hlen
      | [_], hlen => simp at hlen
    by_cases a1 : x3 = 1
    · subst a1
      simp only [if_true, show ¬ ((1 : UInt8) = 3) from by decide, if_false] at hd
      by_cases hlen : (5 :: 1 :: 0 :: 1 :: x4 :: l : Bytes).length < 4 + 4 + 2
      · rw [if_pos hlen] at hd; cases hd
      rw [if_neg hlen] at hd
      injection hd with e1 e2 e3 e4
      obtain ⟨p1, p2, el, ep⟩ := port (x4 :: l) 4 (by simp at hlen ⊢; omega)
      refine ⟨e3.symm, ?_, ?_, ?_⟩
      rotate_left
      · have := Req5.v4 (W := W) (a := (x4 :: l).take 4) (p1 := p1) (p2 := p2) (by simp at hlen ⊢; omega)
        rw [← ep] at this
        rw [← e1, ← e2]
        exact this
      · rw [← e4]
        show 5 :: 1 :: 0 :: 1 :: (x4 :: l) = 5 :: 1 :: 0 :: 1 :: ((x4 :: l).take 4 ++ [p1, p2] ++ (x4 :: l).drop (4 + 2))
        rw [← el]
    by_cases a3 : x3 = 3
    · subst a3
      simp only [if_true, show ¬ ((3 : UInt8) = 1) from by decide, if_false] at hd
      by_cases hlen : (5 :: 1 :: 0 :: 3 :: x4 :: l : Bytes).length < 5 + x4.toNat + 2
      · rw [if_pos hlen] at hd; cases hd
      rw [if_neg hlen] at hd
      injection hd with e1 e2 e3 e4
      obtain ⟨p1, p2, el, ep⟩ := port l x4.toNat (by simp at hlen ⊢; omega)
      refine ⟨e3.symm, ?_, ?_, ?_⟩
      rotate_left
      · have := Req5.name (W := W) (n := x4) (a := l.take x4.toNat) (h := upTo (l.take x4.toNat)) (p1 := p1) (p2 := p2)
          (by simp at hlen ⊢; omega) (upTo_nmem _) (upTo_split _)
        rw [← ep] at this
        rw [← e1, ← e2]
        have en : ∀ k, (5 :: 1 :: 0 :: 3 :: x4 :: l : Bytes).drop (5 + k) = l.drop k := fun k => by
          rw [Nat.add_comm]; rfl
        rw [en]
        exact this
      · rw [← e4]
        have en : (5 :: 1 :: 0 :: 3 :: x4 :: l : Bytes).drop (5 + x4.toNat + 2) = l.drop (x4.toNat + 2) := by
          rw [Nat.add_assoc, Nat.add_comm]; rfl
        rw [en]
        show 5 :: 1 :: 0 :: 3 :: x4 :: l = 5 :: 1 :: 0 :: 3 :: x4 :: (l.take x4.toNat ++ [p1, p2] ++ l.drop (x4.toNat + 2))
        rw [← el]
    by_cases a4 : x3 = 4
    · subst a4
      simp only [if_true, show ¬ ((4 : UInt8) = 3) from by decide, show ¬ ((4 : UInt8) = 1) from by decide, if_false] at hd
      by_cases hlen : (5 :: 1 :: 0 :: 4 :: x4 :: l : Bytes).length < 4 + 16 + 2
      · rw [if_pos hlen] at hd; cases hd
      rw [if_neg hlen] at hd
      injection hd with e1 e2 e3 e4
      obtain ⟨p1, p2, el, ep⟩ := port (x4 :: l) 16 (by simp at hlen ⊢; omega)
      refine ⟨e3.symm, ?_, ?_, ?_⟩
      rotate_left
      · have := Req5.v6 (W := W) (a := (x4 :: l).take 16) (p1 := p1) (p2 := p2) (by simp at hlen ⊢; omega)
        rw [← ep] at this
        rw [← e1, ← e2]
        exact this
      · rw [← e4]
        show 5 :: 1 :: 0 :: 4 :: (x4 :: l) = 5 :: 1 :: 0 :: 4 :: ((x4 :: l).take 16 ++ [p1, p2] ++ (x4 :: l).drop (16 + 2))
        rw [← el]
    · simp only [if_neg a1, if_neg a3, if_neg a4] at hd
      cases hd
  | [], h => simp at h
  | [_], h => simp at h
  | [_, _], h => simp at h
  | [_, _, _], h => simp at h
  | [_, _, _, _], h => simp at h

theorem dec5_of (W : World) {q h : Bytes} {p : Nat} (hq : Req5 W q h p) (r : Bytes) :
    (q ++ r).getD 0 0 = 5 ∧ ¬ (q ++ r).length < 3 ∧ dec5 W (q ++ r) = .ok h p [5, 0, 0, 1, 0, 0, 0, 0, 0, 0] r := by
  have dp : ∀ (a : Bytes) (n : Nat) (p1 p2 : UInt8), a.length = n →
      (a ++ p1 :: p2 :: r).take n = a ∧ (a ++ p1 :: p2 :: r).drop n = p1 :: p2 :: r ∧
      (a ++ p1 :: p2 :: r).drop (n + 2) = r := by
    intro a n p1 p2 hn
    refine ⟨List.take_left' hn, List.drop_left' hn, ?_⟩
    rw [← List.drop_drop, List.drop_left' hn]; rfl
  cases hq with
  | @v4 a p1 p2 hl =>
    obtain ⟨t1, t2, t3⟩ := dp a 4 p1 p2 hl
    have e : [5, 1, 0, 1] ++ a ++ [p1, p2] ++ r = 5 :: 1 :: 0 :: 1 :: (a ++ p1 :: p2 :: r) := by simp
    rw [e]
    refine ⟨rfl, by simp, ?_⟩
    unfold dec5 addrLen host addrAt
    rw [if_neg (by simp; omega), if_neg (by simp)]
    show (if (5 :: 1 :: 0 :: 1 :: (a ++ p1 :: p2 :: r)).length < 4 + 4 + 2 then Dec.more
      else .ok (W.ntop4 ((a ++ p1 :: p2 :: r).take 4)) (ofBE (((a ++ p1 :: p2 :: r).drop 4).take 2)) _
        ((a ++ p1 :: p2 :: r).drop (4 + 2))) = _
    rw [if_neg (by simp; omega), t1, t2, t3, ← ofBE_two]
    rfl
  | @v6 a p1 p2 hl =>
    obtain ⟨t1, t2, t3⟩ := dp a 16 p1 p2 hl
    have e : [5, 1, 0, 4] ++ a ++ [p1, p2] ++ r = 5 :: 1 :: 0 :: 4 :: (a ++ p1 :: p2 :: r) := by simp
    rw [e]
    refine ⟨rfl, by simp, ?_⟩
    unfold dec5 addrLen host addrAt
    rw [if_neg (by simp; omega), if_neg (by simp)]
    show (if (5 :: 1 :: 0 :: 4 :: (a ++ p1 :: p2 :: r)).length < 4 + 16 + 2 then Dec.more
      else .ok (W.ntop6 ((a ++ p1 :: p2 :: r).take 16)) (ofBE (((a ++ p1 :: p2 :: r).drop 16).take 2)) _
        ((a ++ p1 :: p2 :: r).drop (16 + 2))) = _
    rw [if_neg (by simp; omega), t1, t2, t3, ← ofBE_two]
    rfl
  | @name n a _ p1 p2 hl hh hs =>
    obtain ⟨t1, t2, t3⟩ := dp a n.toNat p1 p2 hl
    have e : [5, 1, 0, 3, n] ++ a ++ [p1, p2] ++ r = 5 :: 1 :: 0 :: 3 :: n :: (a ++ p1 :: p2 :: r) := by simp
    rw [e]
    refine ⟨rfl, by simp, ?_⟩
    unfold dec5 addrLen host addrAt
    rw [if_neg (by simp), if_neg (by simp)]
    have en : ∀ k, (5 :: 1 :: 0 :: 3 :: n :: (a ++ p1 :: p2 :: r) : Bytes).drop (5 + k) = (a ++ p1 :: p2 :: r).drop k :=
      fun k => by rw [Nat.add_comm]; rfl
    show (if (5 :: 1 :: 0 :: 3 :: n :: (a ++ p1 :: p2 :: r)).length < 5 + n.toNat + 2 then Dec.more
      else .ok (upTo ((a ++ p1 :: p2 :: r).take n.toNat))
        (ofBE (((5 :: 1 :: 0 :: 3 :: n :: (a ++ p1 :: p2 :: r) : Bytes).drop (5 + n.toNat)).take 2)) _
        ((5 :: 1 :: 0 :: 3 :: n :: (a ++ p1 :: p2 :: r) : Bytes).drop (5 + (n.toNat + 2)))) = _
    rw [if_neg (by simp; omega), en, en, t1, t2, t3, ← ofBE_two]
    have : upTo a = h := by
      rcases hs with rfl | ⟨t, rfl⟩
      · exact upTo_self _ hh
      · exact upTo_eq _ _ hh
    rw [this]
    rfl

/-! ### The connection as a whole -/

/-- What became of the connection. -/
inductive View where
  | dead
  | waiting (out : Bytes)
  | opening (host : Bytes) (port : Nat) (out rest : Bytes)
  deriving DecidableEq, Repr

def view (s : St) : View :=
  match s.phase with
  | .dead => .dead
  | .waiting => .waiting s.output
  | .opening h p => .opening h p s.output s.input

/-- All bytes at once. -/
def total (W : World) (S : Bytes) : View :=
  match step W false S with
  | .more => .waiting []
  | .bad => .dead
  | .ok h p o r => .opening h p o r
  | .authed r =>
    match step W true r with
    | .more => .waiting [5, 0]
    | .bad => .dead
    | .ok h p o r' => .opening h p ([5, 0] ++ o) r'
    | .authed _ => .dead

inductive Inv (W : World) (S : Bytes) : St → Prop
  | start : Inv W S ⟨S, [], false, .waiting⟩
  | auth {r : Bytes} : step W false S = .authed r → Inv W S ⟨r, [5, 0], true, .waiting⟩
  | dead {s : St} : s.phase = .dead → total W S = .dead → Inv W S s
  | opening {h : Bytes} {p : Nat} {o r : Bytes} {a : Bool} : total W S = .opening h p o r → Inv W S ⟨r, o, a, .opening h p⟩

theorem inv_pre {W : World} {S : Bytes} {s : St} (h : Inv W S s) : Inv W S (pre W s) := by
  cases h with
  | start =>
    rw [pre_eq W _ rfl]
    cases hs : step W false S with
    | more => exact .start
    | bad => exact .dead rfl (by simp [total, hs])
    | authed r => exact .auth hs
    | ok h p o r => exact .opening (by simp [total, hs])
  | @auth r h1 =>
    rw [pre_eq W _ rfl]
    cases hs : step W true r with
    | more => exact .auth h1
    | bad => exact .dead rfl (by simp [total, h1, hs])
    | authed r' => exact absurd hs (step_notauthed W r r')
    | ok h p o r' => exact .opening (by simp [total, h1, hs])
  | dead h1 h2 =>
    have : pre W s = s := by unfold pre; rw [h1]
    rw [this]; exact .dead h1 h2
  | opening h1 => exact .opening h1

theorem total_mono {W : World} {S c : Bytes} :
    (total W S = .dead → total W (S ++ c) = .dead) ∧
    (∀ h p o r, total W S = .opening h p o r → total W (S ++ c) = .opening h p o (r ++ c)) := by
  unfold total
  cases hs : step W false S with
  | more => exact ⟨nofun, nofun⟩
  | bad =>
    rw [step_mono W false S c (by rw [hs]; nofun), hs]
    exact ⟨fun _ => rfl, nofun⟩
  | ok h p o r =>
    rw [step_mono W false S c (by rw [hs]; nofun), hs]
    refine ⟨nofun, fun h p o r e => ?_⟩
    injection e with e1 e2 e3 e4
    subst e1 e2 e3 e4
    rfl
  | authed r =>
    rw [step_mono W false S c (by rw [hs]; nofun), hs]
    dsimp only [Dec.extend]
    cases h2 : step W true r with
    | more => exact ⟨nofun, nofun⟩
    | bad =>
      rw [step_mono W true r c (by rw [h2]; nofun), h2]
      exact ⟨fun _ => rfl, nofun⟩
    | ok h p o r' =>
      rw [step_mono W true r c (by rw [h2]; nofun), h2]
      refine ⟨nofun, fun h p o r e => ?_⟩
      injection e with e1 e2 e3 e4
      subst e1 e2 e3 e4
      rfl
    | authed r' => exact absurd h2 (step_notauthed W r r')

theorem inv_arrive {W : World} {S : Bytes} {s : St} (h : Inv W S s) (c : Bytes) : Inv W (S ++ c) (arrive s c) := by
  cases h with
  | start => exact .start
  | auth h1 => exact .auth (by rw [step_mono W false S c (by rw [h1]; nofun), h1]; rfl)
  | dead h1 h2 =>
    have : arrive s c = s := by unfold arrive; rw [h1]
    rw [this]; exact .dead h1 (total_mono.1 h2)
  | opening h1 => exact .opening (total_mono.2 _ _ _ _ h1)

theorem inv_view {W : World} {S : Bytes} {s : St} (h : Inv W S s) : view (pre W (pre W s)) = total W S := by
  have second : ∀ {r : Bytes}, step W false S = .authed r → view (pre W ⟨r, [5, 0], true, .waiting⟩) = total W S := by
    intro r h1
    rw [pre_eq W _ rfl]
    cases hs : step W true r with
    | more => simp [total, h1, hs, apply, view]
    | bad => simp [total, h1, hs, apply, view]
    | authed r' => exact absurd hs (step_notauthed W r r')
    | ok h p o r' => simp [total, h1, hs, apply, view]
  cases h with
  | start =>
    rw [pre_eq W ⟨S, [], false, .waiting⟩ rfl]
    cases hs : step W false S with
    | more =>
      show view (pre W ⟨S, [], false, .waiting⟩) = _
      rw [pre_eq W _ rfl]
      simp [total, hs, apply, view]
    | bad => simp [total, hs, apply, view, pre]
    | authed r => exact second hs
    | ok h p o r => simp [total, hs, apply, view, pre]
  | @auth r h1 =>
    have h2 := pre_eq W ⟨r, [5, 0], true, .waiting⟩ rfl
    cases hs : step W true r with
    | more =>
      have : pre W ⟨r, [5, 0], true, .waiting⟩ = ⟨r, [5, 0], true, .waiting⟩ := by
        rw [h2]; show apply _ (step W true r) = _; rw [hs]; rfl
      rw [this]; exact second h1
    | bad => rw [h2]; simp [total, h1, hs, apply, view, pre]
    | authed r' => exact absurd hs (step_notauthed W r r')
    | ok h p o r' => rw [h2]; simp [total, h1, hs, apply, view, pre]
  | dead h1 h2 =>
    have : pre W s = s := by unfold pre; rw [h1]
    rw [this, this, h2]; unfold view; rw [h1]
  | opening h1 => rw [h1]; rfl

theorem run_view (W : World) (cs : List Bytes) (S : Bytes) (s : St) (h : Inv W S s) :
    view (run W s cs) = total W (S ++ cs.flatten) := by
  induction cs generalizing S s with
  | nil => rw [run]; simpa using inv_view h
  | cons c cs ih =>
    rw [run, ih (S ++ c) _ (inv_arrive (inv_pre h) c)]
    simp

theorem step_cases (W : World) (a : Bool) (S : Bytes) {h : Bytes} {p : Nat} {o r : Bytes} (hs : step W a S = .ok h p o r) :
    (o = [0, 90, 0, 0, 0, 0, 0, 0] ∧ ∃ q, Req4 W q h p ∧ S = q ++ r) ∨
    (a = true ∧ o = [5, 0, 0, 1, 0, 0, 0, 0, 0, 0] ∧ ∃ q, Req5 W q h p ∧ S = q ++ r) := by
  unfold step at hs
  by_cases h3 : S.length < 3
  · rw [if_pos h3] at hs; cases hs
  rw [if_neg h3] at hs
  by_cases h4 : S.getD 0 0 = 4
  · rw [if_pos h4] at hs; exact .inl (dec4_ok W S h4 hs)
  rw [if_neg h4] at hs
  by_cases h5 : S.getD 0 0 = 5
  · rw [if_pos h5] at hs
    cases a
    · exact absurd hs (decG_notok S h p o r)
    · exact .inr ⟨rfl, dec5_ok W S hs⟩
  · rw [if_neg h5] at hs; cases hs

theorem step_authed (W : World) (S : Bytes) {r : Bytes} (hs : step W false S = .authed r) : ∃ g, Greeting g ∧ S = g ++ r := by
  unfold step at hs
  by_cases h3 : S.length < 3
  · rw [if_pos h3] at hs; cases hs
  rw [if_neg h3] at hs
  by_cases h4 : S.getD 0 0 = 4
  · rw [if_pos h4] at hs; exact absurd hs (dec4_notauthed W S r)
  rw [if_neg h4] at hs
  by_cases h5 : S.getD 0 0 = 5
  · rw [if_pos h5] at hs
    exact decG_ok S h5 h3 hs
  · rw [if_neg h5] at hs; cases hs

theorem step_of4 (W : World) (a : Bool) {q h : Bytes} {p : Nat} (hq : Req4 W q h p) (r : Bytes) :
    step W a (q ++ r) = .ok h p [0, 90, 0, 0, 0, 0, 0, 0] r := by
  obtain ⟨h1, h2, h3⟩ := dec4_of W hq r
  unfold step
  rw [if_neg h2, if_pos h1, h3]

theorem step_of5 (W : World) {q h : Bytes} {p : Nat} (hq : Req5 W q h p) (r : Bytes) :
    step W true (q ++ r) = .ok h p [5, 0, 0, 1, 0, 0, 0, 0, 0, 0] r := by
  obtain ⟨h1, h2, h3⟩ := dec5_of W hq r
  unfold step
  rw [if_neg h2, if_neg (by rw [h1]; decide), if_pos h1, h3]
  rfl

theorem step_ofG (W : World) {g : Bytes} (hg : Greeting g) (r : Bytes) : step W false (g ++ r) = .authed r := by
  obtain ⟨h1, h2, h3⟩ := decG_of hg r
  unfold step
  rw [if_neg h2, if_neg (by rw [h1]; decide), if_pos h1, h3]
  rfl

theorem total_iff (W : World) (S h : Bytes) (p : Nat) (o r : Bytes) :
    total W S = .opening h p o r ↔ Asks W S h p o r := by
  constructor
  · intro ht
    unfold total at ht
    cases hs : step W false S with
    | more => rw [hs] at ht; cases ht
    | bad => rw [hs] at ht; cases ht
    | ok h' p' o' r' =>
      rw [hs] at ht
      injection ht with e1 e2 e3 e4
      subst e1 e2 e3 e4
      rcases step_cases W false S hs with ⟨rfl, q, hq, rfl⟩ | ⟨h, _⟩
      · exact .v4 hq
      · cases h
    | authed r1 =>
      rw [hs] at ht
      dsimp only at ht
      obtain ⟨g, hg, rfl⟩ := step_authed W S hs
      cases h2 : step W true r1 with
      | more => rw [h2] at ht; cases ht
      | bad => rw [h2] at ht; cases ht
      | authed r' => rw [h2] at ht; cases ht
      | ok h' p' o' r' =>
        rw [h2] at ht
        injection ht with e1 e2 e3 e4
        subst e1 e2 e3 e4
        rcases step_cases W true r1 h2 with ⟨rfl, q, hq, rfl⟩ | ⟨_, rfl, q, hq, rfl⟩
        · rw [← List.append_assoc]; exact .mixed hg hq
        · rw [← List.append_assoc]; exact .v5 hg hq
  · intro ha
    unfold total
    cases ha with
    | @v4 q _ _ _ hq => rw [step_of4 W false hq]
    | @v5 g q _ _ _ hg hq => rw [List.append_assoc, step_ofG W hg]; dsimp only; rw [step_of5 W hq]
    | @mixed g q _ _ _ hg hq => rw [List.append_assoc, step_ofG W hg]; dsimp only; rw [step_of4 W true hq]

/-- **C93 (which target).**  However the bytes of the connection arrive in pieces, the client opens a connection to a host
and port, having answered with certain bytes and holding the remaining ones for the target, exactly if the bytes begin with
a request for that host and port; the answer is the one of the protocol, and the remaining bytes are all that follow the
request. -/
theorem C93_target (W : World) (cs : List Bytes) (h : Bytes) (p : Nat) (o r : Bytes) :
    ((run W fresh cs).phase = .opening h p ∧ (run W fresh cs).output = o ∧ (run W fresh cs).input = r) ↔
      Asks W cs.flatten h p o r := by
  rw [← total_iff]
  have := run_view W cs [] fresh .start
  rw [List.nil_append] at this
  rw [← this]
  unfold view
  cases hp : (run W fresh cs).phase <;> simp
  constructor
  · rintro ⟨⟨a, b⟩, c, d⟩; exact ⟨a, b, c, d⟩
  · rintro ⟨a, b, c, d⟩; exact ⟨⟨a, b⟩, c, d⟩

/-- **C93 (refusal).**  A connection is given up only if nothing that could still follow would make its bytes a request. -/
theorem C93_refused (W : World) (cs : List Bytes) (hd : (run W fresh cs).phase = .dead) (t h : Bytes) (p : Nat) (o r : Bytes) :
    ¬ Asks W (cs.flatten ++ t) h p o r := by
  have := run_view W cs [] fresh .start
  rw [List.nil_append] at this
  have h1 : total W cs.flatten = .dead := by
    rw [← this]; unfold view; rw [hd]
  rw [← total_iff, total_mono.1 h1]
  nofun

/-- **C93 (pieces).**  Where the bytes were cut has no influence on whether the connection waits, is given up or is
opened. -/
theorem C93_pieces (W : World) (cs cs' : List Bytes) (h : cs.flatten = cs'.flatten) :
    (run W fresh cs).phase = (run W fresh cs').phase ∧
    ((run W fresh cs).phase ≠ .dead → (run W fresh cs).output = (run W fresh cs').output) := by
  have h1 := run_view W cs [] fresh .start
  have h2 := run_view W cs' [] fresh .start
  rw [h, ← h2] at h1
  unfold view at h1
  cases hp : (run W fresh cs).phase <;> cases hp' : (run W fresh cs').phase <;> simp [hp, hp'] at h1 ⊢ <;> try exact h1
  exact ⟨⟨h1.1, h1.2.1⟩, h1.2.2.1⟩

end Verif.Dyn
