/-
Property C94: forwarded X11 connections.
-/
import Verif.Dyn.Lemmas

namespace Verif.Dyn
open Verif Wire

theorem pad4_eq (n : Nat) : pad4 n = n + (4 - n % 4) % 4 := by unfold pad4; omega

theorem twelve {b : Bytes} (h : ¬ b.length < 12) :
    ∃ x0 x1 x2 x3 x4 x5 x6 x7 x8 x9 y1 y2 l, b = x0 :: x1 :: x2 :: x3 :: x4 :: x5 :: x6 :: x7 :: x8 :: x9 :: y1 :: y2 :: l := by
  match b, h with
  | x0 :: x1 :: x2 :: x3 :: x4 :: x5 :: x6 :: x7 :: x8 :: x9 :: y1 :: y2 :: l, _ =>
    exact ⟨x0, x1, x2, x3, x4, x5, x6, x7, x8, x9, y1, y2, l, rfl⟩
  | [], h => simp at h
  | [_], h => simp at h
  | [_, _], h => simp at h
  | [_, _, _], h => simp at h
  | [_, _, _, _], h => simp at h
  | [_, _, _, _, _], h => simp at h
  | [_, _, _, _, _, _], h => simp at h
  | [_, _, _, _, _, _, _], h => simp at h
  | [_, _, _, _, _, _, _, _], h => simp at h
  | [_, _, _, _, _, _, _, _, _], h => simp at h
  | [_, _, _, _, _, _, _, _, _, _], h => simp at h
  | [_, _, _, _, _, _, _, _, _, _, _], h => simp at h

theorem xLens_left {b t : Bytes} (h : ¬ b.length < 12) : xLens (b ++ t) = xLens b := by
  unfold xLens
  rw [getD_left (by omega), getD_left (by omega), getD_left (by omega), getD_left (by omega), getD_left (by omega)]

def XRes.keep (r : XRes × Bytes) (t : Bytes) : XRes × Bytes := (r.1, r.2 ++ t)

theorem xOpen_mono (v : Saved) (b t : Bytes) (h : (xOpen v false b).1 ≠ .more) :
    xOpen v false (b ++ t) = XRes.keep (xOpen v false b) t := by
  unfold xOpen at h ⊢
  simp only [Bool.false_eq_true, if_false] at h ⊢
  by_cases h12 : b.length < 12
  · rw [if_pos h12] at h; exact absurd rfl h
  rw [if_neg h12] at h ⊢
  rw [if_neg (by simp; omega), xLens_left h12]
  cases hl : xLens b with
  | none => rfl
  | some pd =>
    obtain ⟨p, d⟩ := pd
    rw [hl] at h
    dsimp only at h ⊢
    by_cases h1 : b.length < 12 + pad4 p + pad4 d
    · rw [if_pos h1] at h; exact absurd rfl h
    rw [if_neg h1] at h ⊢
    have hp := pad4_eq p
    have hd := pad4_eq d
    rw [if_neg (by simp; omega), take_drop_left (by omega)]
    by_cases h2 : p ≠ v.proto.length ∨ (b.drop 12).take p ≠ v.proto
    · rw [if_pos h2, if_pos h2]; rfl
    rw [if_neg h2, if_neg h2]
    by_cases h3 : d = v.fake.length
    · rw [take_drop_left (by omega)]
      by_cases h4 : d ≠ v.fake.length ∨ (b.drop (12 + pad4 p)).take v.fake.length ≠ v.fake
      · rw [if_pos h4, if_pos h4]; rfl
      rw [if_neg h4, if_neg h4]
      by_cases h5 : v.fake.length ≠ v.real.length
      · rw [if_pos h5, if_pos h5]; rfl
      have h5' : v.fake.length = v.real.length := by simpa using h5
      rw [if_neg h5, if_neg h5, List.take_append_of_le_length (by omega), List.drop_append_of_le_length (by omega)]
      simp [XRes.keep]
    · rw [if_pos (.inl h3), if_pos (.inl h3)]; rfl

theorem word_len (big : Bool) (n : Nat) : (word big n).length = 2 := by cases big <;> rfl

/-- The lengths as they are written. -/
theorem xLens_frame {big : Bool} {p n : Nat} {x1 v1 v2 v3 v4 : UInt8} {t : Bytes} (hp : p < 65536) (hn : n < 65536) :
    xLens ([if big then 0x42 else 0x6c, x1, v1, v2, v3, v4] ++ word big p ++ word big n ++ t) = some (p, n) := by
  cases big
  · simp [xLens, word]
    omega
  · simp [xLens, word]
    omega

theorem word_read (big : Bool) (a b : UInt8) :
    word big (if big then 256 * a.toNat + b.toNat else a.toNat + 256 * b.toNat) = [a, b] := by
  have ha := a.toNat_lt
  have hb := b.toNat_lt
  cases big
  · simp [word]
    apply UInt8.toNat_inj.1; simp; omega
  · simp [word]
    apply UInt8.toNat_inj.1; simp; omega

theorem xOpen_pass_iff (v : Saved) (b b' : Bytes) :
    xOpen v false b = (.pass, b') ↔
      v.fake.length = v.real.length ∧ ∃ head tail rest, Frame v.proto v.fake.length head tail ∧
        b = head ++ v.fake ++ tail ++ rest ∧ b' = head ++ v.real ++ tail ++ rest := by
  constructor
  · intro h
    unfold xOpen at h
    rw [if_neg (by simp)] at h
    by_cases h12 : b.length < 12
    · rw [if_pos h12] at h; cases h
    rw [if_neg h12] at h
    cases hl : xLens b with
    | none => rw [hl] at h; cases h
    | some pd =>
      obtain ⟨p, d⟩ := pd
      rw [hl] at h
      dsimp only at h
      by_cases h1 : b.length < 12 + pad4 p + pad4 d
      · rw [if_pos h1] at h; cases h
      rw [if_neg h1] at h
      by_cases h2 : p ≠ v.proto.length ∨ (b.drop 12).take p ≠ v.proto
      · rw [if_pos h2] at h; cases h
      rw [if_neg h2] at h
      by_cases h4 : d ≠ v.fake.length ∨ (b.drop (12 + pad4 p)).take v.fake.length ≠ v.fake
      · rw [if_pos h4] at h; cases h
      rw [if_neg h4] at h
      by_cases h5 : v.fake.length ≠ v.real.length
      · rw [if_pos h5] at h; cases h
      rw [if_neg h5] at h
      simp only [ne_eq, not_or, Decidable.not_not] at h2 h4 h5
      obtain ⟨rfl, hproto⟩ := h2
      obtain ⟨rfl, hfake⟩ := h4
      have hp := pad4_eq v.proto.length
      have hd := pad4_eq v.fake.length
      refine ⟨h5, b.take (12 + pad4 v.proto.length), (b.drop (12 + pad4 v.proto.length + v.fake.length)).take
        ((4 - v.fake.length % 4) % 4), b.drop (12 + pad4 v.proto.length + pad4 v.fake.length), ?_, ?_, ?_⟩
      · obtain ⟨x0, x1, x2, x3, x4, x5, x6, x7, x8, x9, y1, y2, l, rfl⟩ := twelve h12
        have hx : ∃ big : Bool, x0 = (if big then 0x42 else 0x6c) ∧
            v.proto.length = (if big then 256 * x6.toNat + x7.toNat else x6.toNat + 256 * x7.toNat) ∧
            v.fake.length = (if big then 256 * x8.toNat + x9.toNat else x8.toNat + 256 * x9.toNat) := by
          unfold xLens at hl
          simp only [List.getD_cons_zero, List.getD_cons_succ] at hl
          by_cases a1 : x0 = 0x42
          · rw [if_pos a1] at hl
            injection hl with hl
            injection hl with e1 e2
            exact ⟨true, a1, e1.symm, e2.symm⟩
          rw [if_neg a1] at hl
          by_cases a2 : x0 = 0x6c
          · rw [if_pos a2] at hl
            injection hl with hl
            injection hl with e1 e2
            exact ⟨false, a2, e1.symm, e2.symm⟩
          · rw [if_neg a2] at hl; cases hl
        obtain ⟨big, hx0, e1, e2⟩ := hx
        have ht : (x0 :: x1 :: x2 :: x3 :: x4 :: x5 :: x6 :: x7 :: x8 :: x9 :: y1 :: y2 :: l).take
            (12 + pad4 v.proto.length) =
            [if big then 0x42 else 0x6c, x1, x2, x3, x4, x5] ++ word big v.proto.length ++ word big v.fake.length ++ [y1, y2] ++
              v.proto ++ (l.drop v.proto.length).take ((4 - v.proto.length % 4) % 4) := by
          have w1 : word big v.proto.length = [x6, x7] := by rw [e1]; exact word_read big x6 x7
          have w2 : word big v.fake.length = [x8, x9] := by rw [e2]; exact word_read big x8 x9
          rw [w1, w2, ← hx0, Nat.add_comm 12]
          show x0 :: x1 :: x2 :: x3 :: x4 :: x5 :: x6 :: x7 :: x8 :: x9 :: y1 :: y2 :: l.take (pad4 v.proto.length) = _
          have hpr : l.take v.proto.length = v.proto := hproto
          have : l.take (pad4 v.proto.length) = v.proto ++ (l.drop v.proto.length).take ((4 - v.proto.length % 4) % 4) := by
            rw [hp, List.take_add, hpr]
          rw [this]
          simp
        rw [ht]
        have b1 : ∀ x : UInt8, x.toNat < 256 := fun x => by have := x.toNat_lt; simpa using this
        have := b1 x6; have := b1 x7; have := b1 x8; have := b1 x9
        refine .mk ?_ ?_ ?_ ?_
        · rw [e1]; split <;> omega
        · rw [e2]; split <;> omega
        · simp at h1 ⊢; omega
        · simp at h1 ⊢; omega
      · have s1 : b = b.take (12 + pad4 v.proto.length) ++ b.drop (12 + pad4 v.proto.length) := (List.take_append_drop _ _).symm
        have s2 : b.drop (12 + pad4 v.proto.length) = v.fake ++ b.drop (12 + pad4 v.proto.length + v.fake.length) := by
          rw [← List.drop_drop (i := v.fake.length)]
          exact (List.take_append_drop v.fake.length _).symm.trans (by rw [hfake])
        have s3 : b.drop (12 + pad4 v.proto.length + v.fake.length) =
            (b.drop (12 + pad4 v.proto.length + v.fake.length)).take ((4 - v.fake.length % 4) % 4) ++
            b.drop (12 + pad4 v.proto.length + pad4 v.fake.length) := by
          rw [hd, ← Nat.add_assoc, ← List.drop_drop (i := (4 - v.fake.length % 4) % 4)]
          exact (List.take_append_drop _ _).symm
        rw [List.append_assoc, List.append_assoc, ← s3, ← s2]
        exact s1
      · injection h with _ h
        rw [← h]
        have s3 : b.drop (12 + pad4 v.proto.length + v.fake.length) =
            (b.drop (12 + pad4 v.proto.length + v.fake.length)).take ((4 - v.fake.length % 4) % 4) ++
            b.drop (12 + pad4 v.proto.length + pad4 v.fake.length) := by
          rw [hd, ← Nat.add_assoc, ← List.drop_drop (i := (4 - v.fake.length % 4) % 4)]
          exact (List.take_append_drop _ _).symm
        rw [List.append_assoc (_ ++ v.real), ← s3, h5]
  · rintro ⟨h5, head, tail, rest, hf, rfl, rfl⟩
    cases hf with
    | @mk big x1 v1 v2 v3 v4 y1 y2 pad1 pad2 hp hn l1 l2 =>
      have hpp := pad4_eq v.proto.length
      have hdd := pad4_eq v.fake.length
      generalize hH : ([if big then 0x42 else 0x6c, x1, v1, v2, v3, v4] ++ word big v.proto.length ++
        word big v.fake.length ++ [y1, y2] : Bytes) = H
      have hHl : H.length = 12 := by rw [← hH]; simp [word_len]
      have hlens : xLens (H ++ v.proto ++ pad1 ++ v.fake ++ tail ++ rest) = some (v.proto.length, v.fake.length) := by
        rw [← hH]
        simp only [List.append_assoc]
        have := xLens_frame (big := big) (x1 := x1) (v1 := v1) (v2 := v2) (v3 := v3) (v4 := v4)
          (t := [y1, y2] ++ (v.proto ++ (pad1 ++ (v.fake ++ (tail ++ rest))))) hp hn
        simp only [List.append_assoc] at this
        exact this
      unfold xOpen
      rw [if_neg (by simp), if_neg (by simp; omega), hlens]
      dsimp only
      rw [if_neg (by simp; omega)]
      have d1 : (H ++ v.proto ++ pad1 ++ v.fake ++ tail ++ rest).drop 12 = v.proto ++ (pad1 ++ v.fake ++ tail ++ rest) := by
        rw [show H ++ v.proto ++ pad1 ++ v.fake ++ tail ++ rest = H ++ (v.proto ++ (pad1 ++ v.fake ++ tail ++ rest)) by simp]
        exact List.drop_left' hHl
      have hlen : (H ++ v.proto ++ pad1).length = 12 + pad4 v.proto.length := by simp; omega
      have d2 : (H ++ v.proto ++ pad1 ++ v.fake ++ tail ++ rest).drop (12 + pad4 v.proto.length) = v.fake ++ (tail ++ rest) := by
        rw [show H ++ v.proto ++ pad1 ++ v.fake ++ tail ++ rest = (H ++ v.proto ++ pad1) ++ (v.fake ++ (tail ++ rest)) by simp]
        exact List.drop_left' hlen
      have t2 : (H ++ v.proto ++ pad1 ++ v.fake ++ tail ++ rest).take (12 + pad4 v.proto.length) = H ++ v.proto ++ pad1 := by
        rw [show H ++ v.proto ++ pad1 ++ v.fake ++ tail ++ rest = (H ++ v.proto ++ pad1) ++ (v.fake ++ (tail ++ rest)) by simp]
        exact List.take_left' hlen
      rw [d1, List.take_left' rfl, if_neg (by simp), d2, List.take_left' rfl, if_neg (by simp), if_neg (by simpa using h5), t2,
        ← List.drop_drop, d2, ← h5, List.drop_left' rfl]
      simp

theorem xPre_waiting (v : Saved) (b : Bytes) (h : (xOpen v false b).1 = .more) : xPre v false (.waiting b) = .waiting b := by
  show xGo (xOpen v false b) = _
  have : xOpen v false b = (.more, b) := by
    unfold xOpen at h ⊢
    revert h
    repeat' split
    all_goals first | (intro _; rfl) | (intro h; cases h)
  rw [this]; rfl

theorem xRun_eq (v : Saved) (cs : List Bytes) (s : XSt) :
    xRun v s cs = match s with
      | .waiting b => xPre v false (.waiting (b ++ cs.flatten))
      | .rejected => .rejected
      | .passed b => .passed (b ++ cs.flatten) := by
  induction cs generalizing s with
  | nil => cases s <;> simp [xRun, xPre]
  | cons c cs ih =>
    rw [xRun, ih]
    cases s with
    | rejected => rfl
    | passed b => simp [xPre, xArrive]
    | waiting b =>
      cases hr : (xOpen v false b).1 with
      | more =>
        rw [xPre_waiting v b hr]
        simp [xArrive]
      | reject =>
        have h1 := xOpen_mono v b (c ++ cs.flatten) (by rw [hr]; nofun)
        have e : xOpen v false b = (.reject, (xOpen v false b).2) := by rw [← hr]
        have e1 : xPre v false (.waiting b) = .rejected := by show xGo (xOpen v false b) = _; rw [e]; rfl
        rw [e1]
        show XSt.rejected = xPre v false (.waiting (b ++ (c :: cs).flatten))
        rw [List.flatten_cons]
        show _ = xGo (xOpen v false (b ++ (c ++ cs.flatten)))
        rw [h1, e]
        rfl
      | pass =>
        have h1 := xOpen_mono v b (c ++ cs.flatten) (by rw [hr]; nofun)
        have e : xOpen v false b = (.pass, (xOpen v false b).2) := by rw [← hr]
        have e1 : xPre v false (.waiting b) = .passed (xOpen v false b).2 := by show xGo (xOpen v false b) = _; rw [e]; rfl
        rw [e1]
        show XSt.passed ((xOpen v false b).2 ++ c ++ cs.flatten) = xPre v false (.waiting (b ++ (c :: cs).flatten))
        rw [List.flatten_cons]
        show _ = xGo (xOpen v false (b ++ (c ++ cs.flatten)))
        rw [h1, e]
        simp [XRes.keep, xGo]

/-- **C94 (what reaches the display).**  However the data of a forwarded X11 connection arrive in pieces, bytes are passed to
the X11 server exactly if they begin with a complete first message that uses the protocol agreed on and the made-up cookie;
what is passed is then the same data with the real cookie in place of the made-up one. -/
theorem C94_passed (v : Saved) (cs : List Bytes) (sent : Bytes) :
    xRun v (.waiting []) cs = .passed sent ↔
      v.fake.length = v.real.length ∧ ∃ head tail rest, Frame v.proto v.fake.length head tail ∧
        cs.flatten = head ++ v.fake ++ tail ++ rest ∧ sent = head ++ v.real ++ tail ++ rest := by
  rw [xRun_eq, ← xOpen_pass_iff]
  dsimp only
  rw [List.nil_append]
  show xGo (xOpen v false cs.flatten) = _ ↔ _
  rcases hx : xOpen v false cs.flatten with ⟨r, b⟩
  cases r <;> simp [xGo]

/-- **C94 (refusal).**  A connection is refused only if nothing that could still follow would make it acceptable. -/
theorem C94_refused (v : Saved) (cs ts : List Bytes) (h : xRun v (.waiting []) cs = .rejected) (sent : Bytes) :
    xRun v (.waiting []) (cs ++ ts) = .rejected ∧ xRun v (.waiting []) (cs ++ ts) ≠ .passed sent := by
  have h1 : xRun v (.waiting []) (cs ++ ts) = .rejected := by
    rw [xRun_eq] at h ⊢
    dsimp only at h ⊢
    rw [List.nil_append] at h ⊢
    rw [List.flatten_append]
    change xGo (xOpen v false cs.flatten) = _ at h
    show xGo (xOpen v false (cs.flatten ++ ts.flatten)) = _
    rcases hx : xOpen v false cs.flatten with ⟨r, b⟩
    rw [hx] at h
    cases r with
    | more => cases h
    | pass => cases h
    | reject => rw [xOpen_mono v _ _ (by rw [hx]; nofun), hx]; rfl
  exact ⟨h1, by rw [h1]; nofun⟩

/-- **C94 (pieces).**  Where the data were cut has no influence. -/
theorem C94_pieces (v : Saved) (cs cs' : List Bytes) (h : cs.flatten = cs'.flatten) :
    xRun v (.waiting []) cs = xRun v (.waiting []) cs' := by
  rw [xRun_eq, xRun_eq, h]

/-- **C94 (complete messages are judged).**  A first message that is complete — the lengths it announces are there, with
padding — never leaves the connection waiting; and one whose first byte announces no byte order is refused. -/
theorem C94_decided (v : Saved) (cs : List Bytes) (p d : Nat) (hl : ¬ cs.flatten.length < 12)
    (h : xLens cs.flatten = none ∨ (xLens cs.flatten = some (p, d) ∧ 12 + pad4 p + pad4 d ≤ cs.flatten.length)) (b : Bytes) :
    xRun v (.waiting []) cs ≠ .waiting b := by
  rw [xRun_eq]
  dsimp only
  rw [List.nil_append]
  show xGo (xOpen v false cs.flatten) ≠ _
  unfold xOpen
  rw [if_neg (by simp), if_neg hl]
  rcases h with h | ⟨h, h'⟩
  · rw [h]; nofun
  · rw [h]
    dsimp only
    rw [if_neg (by omega)]
    repeat' split
    all_goals nofun

/-- **C94 (deadline).**  After the deadline every connection not yet judged is refused. -/
theorem C94_late (v : Saved) (b : Bytes) : xPre v true (.waiting b) = .rejected := rfl

/-- **C94 (the real cookie).**  Whether a connection is passed does not depend on the real cookie but for its length, and
unless it is passed nothing that happens does. -/
theorem C94_secret (v : Saved) (real' : Bytes) (h : real'.length = v.real.length) (cs : List Bytes) :
    (∀ sent, xRun v (.waiting []) cs ≠ .passed sent) →
    xRun { v with real := real' } (.waiting []) cs = xRun v (.waiting []) cs := by
  intro hn
  rw [xRun_eq] at hn ⊢
  rw [xRun_eq]
  dsimp only at hn ⊢
  generalize hb : [] ++ cs.flatten = b at hn
  change ∀ sent, xGo (xOpen v false b) ≠ _ at hn
  show xGo (xOpen _ false b) = xGo (xOpen v false b)
  unfold xOpen at hn ⊢
  dsimp only at hn ⊢
  rw [h]
  revert hn
  repeat' split
  all_goals first | (intro _; rfl) | (intro hn; exact absurd rfl (hn _))

end Verif.Dyn
