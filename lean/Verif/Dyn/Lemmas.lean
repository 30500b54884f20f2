/-
Lemmas about the decoding of SOCKS requests: each decoder as a function of the bytes alone, and what it accepts.
-/
import Verif.Dyn.Spec

namespace Verif.Dyn
open Verif Wire

theorem upTo_eq (u t : Bytes) (h : 0 ∉ u) : upTo (u ++ 0 :: t) = u := by
  unfold upTo
  rw [List.takeWhile_append_of_pos]
  · simp
  · intro x hx
    have : x ≠ 0 := fun e => h (e ▸ hx)
    simpa using this

theorem upTo_self (u : Bytes) (h : 0 ∉ u) : upTo u = u := by
  induction u with
  | nil => rfl
  | cons c l ih =>
    simp at h
    have hc : c ≠ 0 := fun e => h.1 e.symm
    have : upTo (c :: l) = c :: upTo l := by simp [upTo, List.takeWhile_cons, hc]
    rw [this, ih h.2]

theorem upTo_nmem (b : Bytes) : 0 ∉ upTo b := by
  induction b with
  | nil => simp [upTo]
  | cons c l ih =>
    by_cases hc : c = 0
    · subst hc; simp [upTo]
    · have : upTo (c :: l) = c :: upTo l := by simp [upTo, List.takeWhile_cons, hc]
      rw [this]
      simp [ih]
      exact fun e => hc e.symm

theorem upTo_split (b : Bytes) : b = upTo b ∨ ∃ t, b = upTo b ++ 0 :: t := by
  induction b with
  | nil => exact .inl rfl
  | cons c l ih =>
    by_cases hc : c = 0
    · subst hc
      exact .inr ⟨l, by simp [upTo]⟩
    · have : upTo (c :: l) = c :: upTo l := by simp [upTo, List.takeWhile_cons, hc]
      rw [this]
      rcases ih with h | ⟨t, h⟩
      · exact .inl (by rw [← h])
      · exact .inr ⟨t, by rw [List.cons_append, ← h]⟩

theorem split0 {b : Bytes} (h : 0 ∈ b) : ∃ t, b = upTo b ++ 0 :: t := by
  rcases upTo_split b with h1 | h1
  · exact absurd (h1 ▸ h) (upTo_nmem b)
  · exact h1

theorem scan_last {need i f : Nat} (hf : f + 1 = need) (l : Bytes) :
    scan need i f l = some true ↔ ∃ u t, l = u ++ 0 :: t ∧ 0 ∉ u ∧ (u = [] ∨ i + u.length ≤ 1025) := by
  induction l generalizing i with
  | nil => simp [scan]
  | cons c l ih =>
    rw [scan]
    by_cases hc : c = 0
    · rw [if_pos ⟨hc, hf⟩]
      exact ⟨fun _ => ⟨[], l, by rw [hc]; rfl, by simp, .inl rfl⟩, fun _ => rfl⟩
    · rw [if_neg (fun e => hc e.1)]
      by_cases hi : i > 1024
      · rw [if_pos hi]
        refine ⟨nofun, ?_⟩
        rintro ⟨u, t, e, hu, hl⟩
        cases u with
        | nil => simp at e; exact absurd e.1 hc
        | cons a u =>
          rcases hl with hl | hl
          · cases hl
          · simp at hl; omega
      · rw [if_neg hi, if_neg hc, ih]
        constructor
        · rintro ⟨u, t, e, hu, hl⟩
          refine ⟨c :: u, t, by rw [e]; rfl, by simp [hu]; exact fun e => hc e.symm, .inr ?_⟩
          rcases hl with hl | hl
          · subst hl; simp; omega
          · simp; omega
        · rintro ⟨u, t, e, hu, hl⟩
          cases u with
          | nil => simp at e; exact absurd e.1 hc
          | cons a u =>
            simp at e hu
            rcases hl with hl | hl
            · cases hl
            · simp at hl
              exact ⟨u, t, e.2, hu.2, .inr (by omega)⟩

theorem scan_first {need i f : Nat} (hf : f + 2 = need) (l : Bytes) :
    scan need i f l = some true ↔
      ∃ u t, l = u ++ 0 :: t ∧ 0 ∉ u ∧ i + u.length ≤ 1024 ∧ scan need (i + u.length + 1) (f + 1) t = some true := by
  induction l generalizing i with
  | nil => simp [scan]
  | cons c l ih =>
    rw [scan, if_neg (by omega)]
    by_cases hi : i > 1024
    · rw [if_pos hi]
      refine ⟨nofun, ?_⟩
      rintro ⟨u, t, e, hu, hl, _⟩
      omega
    rw [if_neg hi]
    by_cases hc : c = 0
    · rw [if_pos hc]
      constructor
      · intro h
        exact ⟨[], l, by rw [hc]; rfl, by simp, by simp; omega, by simpa using h⟩
      · rintro ⟨u, t, e, hu, hl, hs⟩
        cases u with
        | nil => simp at e; rw [e.2]; simpa using hs
        | cons a u => simp at e hu; exact absurd (e.1.symm.trans hc) (fun h => hu.1 h.symm)
    · rw [if_neg hc, ih]
      constructor
      · rintro ⟨u, t, e, hu, hl, hs⟩
        refine ⟨c :: u, t, by rw [e]; rfl, by simp [hu]; exact fun e => hc e.symm, by simp; omega, ?_⟩
        have : i + (c :: u).length + 1 = i + 1 + u.length + 1 := by simp; omega
        rw [this]; exact hs
      · rintro ⟨u, t, e, hu, hl, hs⟩
        cases u with
        | nil => simp at e; exact absurd e.1 hc
        | cons a u =>
          simp at e hu hl
          have : i + (a :: u).length + 1 = i + 1 + u.length + 1 := by simp; omega
          rw [this] at hs
          exact ⟨u, t, e.2, hu.2, by omega, hs⟩

theorem scan_mono {need : Nat} (l t : Bytes) (i f : Nat) (h : scan need i f l ≠ some false) :
    scan need i f (l ++ t) = scan need i f l := by
  induction l generalizing i f with
  | nil => simp [scan] at h
  | cons c l ih =>
    rw [List.cons_append, scan, scan]
    rw [scan] at h
    split
    · rfl
    · next h1 =>
      rw [if_neg h1] at h
      split
      · rfl
      · next h2 =>
        rw [if_neg h2] at h
        exact ih _ _ h

/-! ### Decoders -/

inductive Dec where
  | more
  | bad
  | authed (rest : Bytes)
  | ok (host : Bytes) (port : Nat) (reply rest : Bytes)
  deriving DecidableEq, Repr

def apply (s : St) : Dec → St
  | .more => s
  | .bad => { s with phase := .dead }
  | .authed r => { s with input := r, output := s.output ++ [5, 0], authDone := true }
  | .ok h p o r => { s with input := r, output := s.output ++ o, phase := .opening h p }

/-- Asked for by SOCKS4: nothing yet, garbage, a command other than 1, or a request. -/
def dec4 (W : World) (b : Bytes) : Dec :=
  if b.length < 8 then .more
  else
    match scan (if isA b then 2 else 1) 8 0 (b.drop 8) with
    | none => .bad
    | some false => .more
    | some true =>
      if b.getD 1 0 ≠ 1 then .bad
      else if isA b = false then
        .ok (W.ntop4 ((b.drop 4).take 4)) (ofBE ((b.drop 2).take 2)) [0, 90, 0, 0, 0, 0, 0, 0]
          (b.drop (8 + (upTo (b.drop 8)).length + 1))
      else
        .ok (upTo (b.drop (8 + (upTo (b.drop 8)).length + 1))) (ofBE ((b.drop 2).take 2)) [0, 90, 0, 0, 0, 0, 0, 0]
          ((b.drop (8 + (upTo (b.drop 8)).length + 1)).drop ((upTo (b.drop (8 + (upTo (b.drop 8)).length + 1))).length + 1))

def decG (b : Bytes) : Dec :=
  if b.length < (b.getD 1 0).toNat + 2 then .more
  else if 0 ∉ (b.drop 2).take (b.getD 1 0).toNat then .bad
  else .authed (b.drop ((b.getD 1 0).toNat + 2))

def dec5 (W : World) (b : Bytes) : Dec :=
  if b.length < 5 then .more
  else if b.getD 0 0 ≠ 5 ∨ b.getD 1 0 ≠ 1 ∨ b.getD 2 0 ≠ 0 then .bad
  else
    match addrLen b with
    | none => .bad
    | some n =>
      if b.length < addrAt b + n + 2 then .more
      else .ok (host W b n) (ofBE ((b.drop (addrAt b + n)).take 2)) [5, 0, 0, 1, 0, 0, 0, 0, 0, 0]
        (b.drop (addrAt b + n + 2))

def step (W : World) (auth : Bool) (b : Bytes) : Dec :=
  if b.length < 3 then .more
  else if b.getD 0 0 = 4 then dec4 W b
  else if b.getD 0 0 = 5 then (if auth then dec5 W b else decG b)
  else .bad

theorem two_strings {b : Bytes} (h : scan 2 8 0 b = some true) :
    ∃ u v t, b = u ++ 0 :: (v ++ 0 :: t) ∧ 0 ∉ u ∧ 0 ∉ v ∧ u.length + 1 + v.length ≤ 1017 := by
  obtain ⟨u, t, e, hu, hl, hs⟩ := (scan_first (by rfl) b).1 h
  obtain ⟨v, t', e', hv, hl'⟩ := (scan_last (by rfl) t).1 hs
  refine ⟨u, v, t', by rw [e, e'], hu, hv, ?_⟩
  rcases hl' with hl' | hl'
  · subst hl'; simp; omega
  · omega

theorem two_strings' {u v t : Bytes} (hu : 0 ∉ u) (hv : 0 ∉ v) (hl : u.length + 1 + v.length ≤ 1017) :
    scan 2 8 0 (u ++ 0 :: (v ++ 0 :: t)) = some true :=
  (scan_first (by rfl) _).2 ⟨u, _, rfl, hu, by omega, (scan_last (by rfl) _).2 ⟨v, t, rfl, hv, .inr (by omega)⟩⟩

theorem drop_str (a u t : Bytes) (c : UInt8) (n : Nat) (hn : a.length = n) :
    (a ++ (u ++ c :: t)).drop (n + u.length + 1) = t := by
  have : a ++ (u ++ c :: t) = (a ++ u ++ [c]) ++ t := by simp
  rw [this, List.drop_left' (by simp; omega)]

theorem split8 {b : Bytes} (h : ¬ b.length < 8) : b = b.take 8 ++ b.drop 8 ∧ (b.take 8).length = 8 :=
  ⟨(List.take_append_drop 8 b).symm, by simp; omega⟩

theorem drop_plus (b : Bytes) (k u : Nat) : b.drop (k + u + 1) = (b.drop k).drop (u + 1) := by
  rw [List.drop_drop]; congr 1

theorem drop_first {b u t : Bytes} (e : b = u ++ 0 :: t) (hu : 0 ∉ u) : b.drop ((upTo b).length + 1) = t := by
  rw [e, upTo_eq u t hu]
  exact drop_str [] u t 0 0 rfl |> (by simpa using ·)

theorem socks4_eq (W : World) (s : St) : socks4 W s = apply s (dec4 W s.input) := by
  unfold socks4 dec4
  by_cases h : s.input.length < 8
  · rw [if_pos h, if_pos h]; rfl
  rw [if_neg h, if_neg h]
  generalize hs : scan (if isA s.input then 2 else 1) 8 0 (s.input.drop 8) = r
  match r with
  | none => rfl
  | some false => rfl
  | some true =>
    dsimp only
    by_cases ha : isA s.input = false
    · rw [ha] at hs
      obtain ⟨u, t, e, hu, hl⟩ := (scan_last (by rfl) _).1 hs
      rw [if_neg (by rw [e]; simp), if_pos ha]
      by_cases h1 : s.input.getD 1 0 ≠ 1
      · rw [if_pos h1, if_pos h1]; rfl
      · rw [if_neg h1, if_neg h1, if_pos ha]; rfl
    · have hA : isA s.input = true := by simpa using ha
      rw [hA] at hs
      obtain ⟨u, v, t, e, hu, hv, hl⟩ := two_strings hs
      rw [if_neg (by rw [e]; simp), if_neg ha]
      have e2 : s.input.drop (8 + (upTo (s.input.drop 8)).length + 1) = v ++ 0 :: t := by
        rw [drop_plus]; exact drop_first e hu
      rw [e2, if_neg (by simp), upTo_eq v t hv, if_neg (by unfold maxHost; omega)]
      by_cases h1 : s.input.getD 1 0 ≠ 1
      · rw [if_pos h1, if_pos h1]; rfl
      · rw [if_neg h1, if_neg h1, if_neg ha]; rfl

theorem auth_eq (s : St) (h3 : ¬ s.input.length < 3) : socks5Auth s = apply s (decG s.input) := by
  unfold socks5Auth decG
  rw [if_neg (by omega)]
  repeat' split
  all_goals rfl

theorem request_eq (W : World) (s : St) : socks5Request W s = apply s (dec5 W s.input) := by
  unfold socks5Request dec5
  by_cases h : s.input.length < 5
  · rw [if_pos h, if_pos h]; rfl
  rw [if_neg h, if_neg h]
  by_cases h1 : s.input.getD 0 0 ≠ 5 ∨ s.input.getD 1 0 ≠ 1 ∨ s.input.getD 2 0 ≠ 0
  · rw [if_pos h1, if_pos h1]; rfl
  rw [if_neg h1, if_neg h1]
  cases hl : addrLen s.input with
  | none => rfl
  | some n =>
    dsimp only
    by_cases h2 : s.input.length < addrAt s.input + n + 2
    · rw [if_pos h2, if_pos h2]; rfl
    rw [if_neg h2, if_neg h2]
    rw [if_neg]
    · rfl
    · rintro ⟨h3, h4⟩
      unfold addrLen at hl
      rw [h3] at hl
      simp at hl
      have := (s.input.getD 4 0).toNat_lt
      unfold maxHost at h4
      simp at this
      omega

theorem pre_eq (W : World) (s : St) (hp : s.phase = .waiting) : pre W s = apply s (step W s.authDone s.input) := by
  unfold pre step
  rw [hp]
  dsimp only
  by_cases h : s.input.length < 3
  · rw [if_pos h, if_pos h]; rfl
  rw [if_neg h, if_neg h]
  by_cases h4 : s.input.getD 0 0 = 4
  · rw [if_pos h4, if_pos h4]; exact socks4_eq W s
  rw [if_neg h4, if_neg h4]
  by_cases h5 : s.input.getD 0 0 = 5
  · rw [if_pos h5, if_pos h5]
    unfold socks5
    rw [if_neg (by simpa using h5)]
    cases s.authDone
    · exact auth_eq s h
    · exact request_eq W s
  · rw [if_neg h5, if_neg h5]; rfl

/-! ### More bytes do not change a decision -/

theorem getD_left {b t : Bytes} {i : Nat} (h : i < b.length) : (b ++ t).getD i 0 = b.getD i 0 := by
  simp [List.getD, List.getElem?_append_left h]

theorem take_drop_left {b t : Bytes} {i n : Nat} (h : i + n ≤ b.length) :
    ((b ++ t).drop i).take n = (b.drop i).take n := by
  rw [List.drop_append_of_le_length (by omega), List.take_append_of_le_length (by simp; omega)]

theorem isA_left {b t : Bytes} (h : ¬ b.length < 8) : isA (b ++ t) = isA b := by
  unfold isA
  rw [getD_left (by omega), getD_left (by omega), getD_left (by omega), getD_left (by omega)]

def Dec.extend : Dec → Bytes → Dec
  | .more, _ => .more
  | .bad, _ => .bad
  | .authed r, t => .authed (r ++ t)
  | .ok h p o r, t => .ok h p o (r ++ t)

theorem dec4_mono (W : World) (b t : Bytes) (h : dec4 W b ≠ .more) : dec4 W (b ++ t) = (dec4 W b).extend t := by
  unfold dec4 at h ⊢
  by_cases h8 : b.length < 8
  · rw [if_pos h8] at h; exact absurd rfl h
  rw [if_neg h8] at h ⊢
  rw [if_neg (by simp; omega), isA_left h8, List.drop_append_of_le_length (by omega : 8 ≤ b.length)]
  have hs : scan (if isA b then 2 else 1) 8 0 (b.drop 8) ≠ some false := by
    intro e; rw [e] at h; exact h rfl
  rw [scan_mono _ _ _ _ hs]
  generalize hr : scan (if isA b then 2 else 1) 8 0 (b.drop 8) = r at hs
  match r with
  | none => rfl
  | some false => exact absurd rfl hs
  | some true =>
    dsimp only
    rw [getD_left (by omega)]
    by_cases h1 : b.getD 1 0 ≠ 1
    · rw [if_pos h1, if_pos h1]; rfl
    rw [if_neg h1, if_neg h1, take_drop_left (by omega), take_drop_left (by omega)]
    by_cases ha : isA b = false
    · rw [ha] at hr
      obtain ⟨u, t', e, hu, hl⟩ := (scan_last (by rfl) _).1 hr
      rw [if_pos ha, if_pos ha]
      have e1 : upTo (b.drop 8 ++ t) = upTo (b.drop 8) := by
        rw [e, List.append_assoc, List.cons_append, upTo_eq u _ hu, upTo_eq u _ hu]
      have hle : 8 + (upTo (b.drop 8)).length + 1 ≤ b.length := by
        have := congrArg List.length e
        rw [e, upTo_eq u _ hu]
        simp at this
        omega
      rw [e1, List.drop_append_of_le_length hle]
      rfl
    · have hA : isA b = true := by simpa using ha
      rw [hA] at hr
      obtain ⟨u, v, t', e, hu, hv, hl⟩ := two_strings hr
      rw [if_neg ha, if_neg ha]
      have e1 : upTo (b.drop 8 ++ t) = upTo (b.drop 8) := by
        rw [e, List.append_assoc, List.cons_append, upTo_eq u _ hu, upTo_eq u _ hu]
      have e2 : b.drop (8 + (upTo (b.drop 8)).length + 1) = v ++ 0 :: t' := by
        rw [drop_plus]; exact drop_first e hu
      have hle : 8 + (upTo (b.drop 8)).length + 1 ≤ b.length := by
        have := congrArg List.length e
        rw [e, upTo_eq u _ hu]
        simp at this
        omega
      rw [e1, List.drop_append_of_le_length hle, e2, List.append_assoc, List.cons_append, upTo_eq v _ hv, upTo_eq v _ hv]
      have d : ∀ t : Bytes, (v ++ 0 :: t).drop (v.length + 1) = t := fun t => by
        have := drop_str [] v t 0 0 rfl
        simpa using this
      rw [d, d]
      rfl

theorem decG_mono (b t : Bytes) (h3 : ¬ b.length < 3) (h : decG b ≠ .more) : decG (b ++ t) = (decG b).extend t := by
  unfold decG at h ⊢
  rw [getD_left (by omega)]
  by_cases h1 : b.length < (b.getD 1 0).toNat + 2
  · rw [if_pos h1] at h; exact absurd rfl h
  rw [if_neg h1] at h ⊢
  rw [if_neg (by simp; simp at h1; omega), take_drop_left (by omega)]
  by_cases h2 : 0 ∉ (b.drop 2).take (b.getD 1 0).toNat
  · rw [if_pos h2, if_pos h2]; rfl
  · rw [if_neg h2, if_neg h2, List.drop_append_of_le_length (by omega)]; rfl

theorem dec5_mono (W : World) (b t : Bytes) (h : dec5 W b ≠ .more) : dec5 W (b ++ t) = (dec5 W b).extend t := by
  unfold dec5 at h ⊢
  by_cases h5 : b.length < 5
  · rw [if_pos h5] at h; exact absurd rfl h
  rw [if_neg h5] at h ⊢
  rw [if_neg (by simp; omega), getD_left (by omega), getD_left (by omega), getD_left (by omega)]
  by_cases h1 : b.getD 0 0 ≠ 5 ∨ b.getD 1 0 ≠ 1 ∨ b.getD 2 0 ≠ 0
  · rw [if_pos h1, if_pos h1]; rfl
  rw [if_neg h1] at h ⊢
  rw [if_neg h1]
  have ea : addrLen (b ++ t) = addrLen b := by
    unfold addrLen; rw [getD_left (by omega), getD_left (by omega)]
  have eb : addrAt (b ++ t) = addrAt b := by
    unfold addrAt; rw [getD_left (by omega)]
  rw [ea, eb]
  cases hl : addrLen b with
  | none => rfl
  | some n =>
    rw [hl] at h
    dsimp only at h ⊢
    by_cases h2 : b.length < addrAt b + n + 2
    · rw [if_pos h2] at h; exact absurd rfl h
    rw [if_neg h2, if_neg (by simp; omega), take_drop_left (by omega), List.drop_append_of_le_length (by omega)]
    have eh : host W (b ++ t) n = host W b n := by
      unfold host
      rw [eb, getD_left (by omega), take_drop_left (by omega)]
    rw [eh]
    rfl

theorem step_mono (W : World) (auth : Bool) (b t : Bytes) (h : step W auth b ≠ .more) :
    step W auth (b ++ t) = (step W auth b).extend t := by
  unfold step at h ⊢
  by_cases h3 : b.length < 3
  · rw [if_pos h3] at h; exact absurd rfl h
  rw [if_neg h3] at h ⊢
  rw [if_neg (by simp; omega), getD_left (by omega)]
  by_cases h4 : b.getD 0 0 = 4
  · rw [if_pos h4] at h ⊢
    rw [if_pos h4]; exact dec4_mono W b t h
  rw [if_neg h4] at h ⊢
  rw [if_neg h4]
  by_cases h5 : b.getD 0 0 = 5
  · rw [if_pos h5] at h ⊢
    rw [if_pos h5]
    cases auth
    · exact decG_mono b t h3 h
    · exact dec5_mono W b t h
  · rw [if_neg h5, if_neg h5]; rfl

end Verif.Dyn
