/-
C128: packets from the stream of a control connection.
-/
import Verif.Mux.Client
import Verif.Mux.Proto

namespace Verif.Mux
open Verif Wire

/-- Packets as they are written -/
def frames (ps : List Bytes) : Bytes := (ps.map str).flatten

/-- Not a whole packet: not even its length, or fewer bytes than it says -/
def Part (b : Bytes) : Prop := b.length < 4 ∨ (ofBE (b.take 4) ≤ 262144 ∧ b.length < ofBE (b.take 4) + 4)

/-- The length of a packet, which is too much -/
def Big (b : Bytes) : Prop := b.length = 4 ∧ ofBE b > 262144

theorem readMux_all (r : Rd) (need n : Nat) : (readMux r need n).input ++ (readMux r need n).rest = r.input ++ r.rest := by
  unfold readMux
  split
  · simp only [List.append_assoc, List.take_append_drop]
  · rfl

theorem readMux_length (r : Rd) (need n : Nat) (h : r.input.length ≤ need) : (readMux r need n).input.length ≤ need := by
  unfold readMux
  split
  · simp only [List.length_append, List.length_take]
    omega
  · exact h

theorem readMux_grows (r : Rd) (need n : Nat) : ∃ x, (readMux r need n).input = r.input ++ x := by
  unfold readMux
  split
  · exact ⟨_, rfl⟩
  · exact ⟨[], by simp⟩

theorem readMux_id {r : Rd} {need n : Nat} (h : need ≤ r.input.length) : readMux r need n = r := by
  unfold readMux
  rw [if_neg (by omega)]

theorem readMux_less (r : Rd) (need n : Nat) : (readMux r need n).rest.length ≤ r.rest.length := by
  unfold readMux
  split
  · simp only [List.length_drop]; omega
  · omega

theorem readMux_progress {r : Rd} {need n : Nat} (hn : 1 ≤ n) (h : r.input.length < need) (hr : r.rest ≠ []) :
    (readMux r need n).rest.length < r.rest.length := by
  have : 0 < r.rest.length := List.length_pos_iff.2 hr
  unfold readMux
  rw [if_pos h]
  have hc : chanBuf = 16384 := rfl
  simp only [List.length_drop]
  omega

theorem take_four {a x : Bytes} (h : 4 ≤ a.length) : (a ++ x).take 4 = a.take 4 := List.take_append_of_le_length h

/-- What a look comes to -/
theorem look_cases {r : Rd} (hp : Part r.input) (n m : Nat) :
    (∃ r', look r n m = (.more, r') ∧ r'.input ++ r'.rest = r.input ++ r.rest ∧ Part r'.input ∧
      (1 ≤ n → 1 ≤ m → r.rest ≠ [] → r'.rest.length < r.rest.length)) ∨
    (∃ r', look r n m = (.tooBig, r') ∧ r'.input ++ r'.rest = r.input ++ r.rest ∧ Big r'.input) ∨
    (∃ p r', look r n m = (.packet p, r') ∧ str p ++ r'.rest = r.input ++ r.rest ∧ r'.input = [] ∧ p.length ≤ 262144 ∧
      r'.rest.length < r.rest.length) := by
  have hall := readMux_all r 4 n
  obtain ⟨x, hx⟩ := readMux_grows r 4 n
  have hless := readMux_less r 4 n
  have hmax : maxPacket = 262144 := rfl
  unfold look
  split
  · rename_i h4
    left
    refine ⟨_, rfl, hall, .inl h4, fun hn _ hr => readMux_progress hn ?_ hr⟩
    rw [hx, List.length_append] at h4
    omega
  · rename_i h4
    split
    · rename_i hbig
      right; left
      refine ⟨_, rfl, hall, ?_, ?_⟩
      · rcases hp with hp | ⟨hp, hp'⟩
        · have := readMux_length r 4 n (by omega)
          omega
        · by_cases h : 4 ≤ r.input.length
          · rw [readMux_id h] at hbig
            unfold peek at hbig
            omega
          · have := readMux_length r 4 n (by omega)
            omega
      · have hlen : (readMux r 4 n).input.length ≤ 4 := by
          rcases hp with hp | ⟨hp, hp'⟩
          · exact readMux_length r 4 n (by omega)
          · by_cases h : 4 ≤ r.input.length
            · rw [readMux_id h] at hbig
              unfold peek at hbig
              omega
            · exact readMux_length r 4 n (by omega)
        unfold peek at hbig
        rw [List.take_of_length_le hlen] at hbig
        omega
    · rename_i hbig
      have hlim : (readMux r 4 n).input.length ≤ peek (readMux r 4 n).input + 4 := by
        rcases hp with hp | ⟨hp, hp'⟩
        · have := readMux_length r 4 n (by omega)
          omega
        · by_cases h : 4 ≤ r.input.length
          · rw [readMux_id h]
            unfold peek
            omega
          · have := readMux_length r 4 n (by omega)
            omega
      generalize hR : readMux r 4 n = R at *
      have hall2 := readMux_all R (peek R.input + 4) m
      have hlen2 := readMux_length R (peek R.input + 4) m hlim
      obtain ⟨y, hy⟩ := readMux_grows R (peek R.input + 4) m
      have hless2 := readMux_less R (peek R.input + 4) m
      split
      · rename_i hsh
        left
        refine ⟨_, rfl, hall2.trans hall, .inr ?_, fun hn hm hr => ?_⟩
        · rw [hy] at hsh ⊢
          rw [take_four (by omega)]
          unfold peek at hbig hsh
          exact ⟨by omega, hsh⟩
        · by_cases h : 4 ≤ r.input.length
          · rw [readMux_id h] at hR
            subst hR
            refine readMux_progress hm ?_ hr
            rw [hy, List.length_append] at hsh
            omega
          · have := readMux_progress (n := n) hn (show r.input.length < 4 by omega) hr
            rw [hR] at this
            omega
      · rename_i hsh
        right; right
        have hl : (readMux R (peek R.input + 4) m).input.length = peek R.input + 4 := by omega
        have htake : (readMux R (peek R.input + 4) m).input.take 4 = R.input.take 4 := by rw [hy, take_four (by omega)]
        generalize hS : readMux R (peek R.input + 4) m = S at *
        have hpl : ((S.input.drop 4).take (peek R.input)) = S.input.drop 4 := List.take_of_length_le (by simp; omega)
        refine ⟨_, _, rfl, ?_, ?_, ?_, ?_⟩
        · rw [hpl]
          show str (S.input.drop 4) ++ S.rest = _
          rw [← hall, ← hall2]
          congr 1
          have h1 : str (S.input.drop 4) = be 4 (S.input.drop 4).length ++ S.input.drop 4 := rfl
          have h2 : (S.input.drop 4).length = peek R.input := by simp; omega
          have h3 : be 4 (peek R.input) = S.input.take 4 := by
            unfold peek
            rw [htake]
            have := be_ofBE (R.input.take 4)
            rwa [List.length_take, Nat.min_eq_left (by omega)] at this
          rw [h1, h2, h3, List.take_append_drop]
        · exact List.drop_eq_nil_of_le (by omega)
        · simp only [List.length_take, List.length_drop]
          omega
        · show S.rest.length < _
          have e1 := congrArg List.length hall
          have e2 := congrArg List.length hall2
          simp only [List.length_append] at e1 e2
          have hp' : r.input.length < peek R.input + 4 := by
            rcases hp with hp | ⟨_, hp⟩
            · omega
            · by_cases h : 4 ≤ r.input.length
              · rw [readMux_id h] at hR
                subst hR
                exact hp
              · omega
          omega

theorem frames_cons (p : Bytes) (ps : List Bytes) : frames (p :: ps) = str p ++ frames ps := by simp [frames]

/-- C128: whatever pieces a stream comes in, what has been read is whole packets, and a part of one more at most; never a byte beyond. -/
theorem C128_exact : ∀ (l : List (Nat × Nat)) (r : Rd), Part r.input →
    ∃ ps big r', looks r l = (ps, big, r') ∧ r.input ++ r.rest = frames ps ++ r'.input ++ r'.rest ∧
      (∀ p ∈ ps, p.length ≤ 262144) ∧ (big = false → Part r'.input) ∧ (big = true → Big r'.input) := by
  intro l
  induction l with
  | nil => intro r hp; exact ⟨[], false, r, rfl, by simp [frames], by simp, fun _ => hp, fun h => by cases h⟩
  | cons x l ih =>
    intro r hp
    obtain ⟨n, m⟩ := x
    rw [looks]
    rcases look_cases hp n m with ⟨r', h1, h2, h3, _⟩ | ⟨r', h1, h2, h3⟩ | ⟨p, r', h1, h2, h3, h4, _⟩
    · rw [h1]
      obtain ⟨ps, big, r2, i1, i2, i3⟩ := ih r' h3
      exact ⟨ps, big, r2, i1, by rw [← h2, i2], i3⟩
    · rw [h1]
      exact ⟨[], true, r', rfl, by simp [frames, h2], by simp, fun h => (by cases h), fun _ => h3⟩
    · rw [h1]
      obtain ⟨ps, big, r2, i1, i2, i3, i4⟩ := ih r' (by rw [h3]; left; simp)
      refine ⟨p :: ps, big, r2, by simp only [i1], ?_, ?_, i4⟩
      · rw [← h2, frames_cons, List.append_assoc, List.append_assoc, ← List.append_assoc (frames ps), ← i2, h3]
        simp
      · intro q hq
        rcases List.mem_cons.1 hq with rfl | hq
        · exact h4
        · exact i3 q hq

theorem str_inj {p q x y : Bytes} (hp : p.length < 2 ^ 32) (hq : q.length < 2 ^ 32) (h : str p ++ x = str q ++ y) : p = q ∧ x = y := by
  have h1 : be 4 p.length ++ (p ++ x) = be 4 q.length ++ (q ++ y) := by
    simpa [str] using h
  obtain ⟨e1, e2⟩ := List.append_inj h1 (by simp [be4_length])
  have : p.length = q.length := by
    have := congrArg ofBE e1
    rwa [ofBE_be_of_lt (by omega), ofBE_be_of_lt (by omega)] at this
  exact List.append_inj e2 this

/-- C128: two ways to read a stream give the same packets, as far as both have come. -/
theorem C128_same {s : Bytes} (l m : List (Nat × Nat)) :
    (looks ⟨[], s⟩ l).1 <+: (looks ⟨[], s⟩ m).1 ∨ (looks ⟨[], s⟩ m).1 <+: (looks ⟨[], s⟩ l).1 := by
  have hp : Part [] := .inl (by simp)
  obtain ⟨ps, _, r1, h1, h2, h3, _⟩ := C128_exact l ⟨[], s⟩ hp
  obtain ⟨qs, _, r2, g1, g2, g3, _⟩ := C128_exact m ⟨[], s⟩ hp
  rw [h1, g1]
  have key : ∀ (ps qs : List Bytes) (x y : Bytes), (∀ p ∈ ps, p.length ≤ 262144) → (∀ p ∈ qs, p.length ≤ 262144) →
      frames ps ++ x = frames qs ++ y → ps <+: qs ∨ qs <+: ps := by
    intro ps
    induction ps with
    | nil => intro qs x y _ _ _; exact .inl (List.nil_prefix)
    | cons p ps ih =>
      intro qs x y h3 g3 h
      cases qs with
      | nil => exact .inr (List.nil_prefix)
      | cons q qs =>
        rw [frames_cons, frames_cons, List.append_assoc, List.append_assoc] at h
        have hp := h3 p (List.mem_cons_self ..)
        have hq := g3 q (List.mem_cons_self ..)
        obtain ⟨rfl, h'⟩ := str_inj (by omega) (by omega) h
        rcases ih qs x y (fun p hp => h3 p (List.mem_cons_of_mem _ hp)) (fun p hp => g3 p (List.mem_cons_of_mem _ hp)) h' with h | h
        · exact .inl (List.cons_prefix_cons.2 ⟨rfl, h⟩)
        · exact .inr (List.cons_prefix_cons.2 ⟨rfl, h⟩)
  refine key ps qs (r1.input ++ r1.rest) (r2.input ++ r2.rest) h3 g3 ?_
  rw [← List.append_assoc, ← List.append_assoc, ← h2, ← g2]

/-- C128: when all of a stream has come, all of its packets have, unless one is too big. -/
theorem C128_complete : ∀ (l : List (Nat × Nat)) (r : Rd), Part r.input → (∀ x ∈ l, 1 ≤ x.1 ∧ 1 ≤ x.2) → r.rest.length ≤ l.length →
    (looks r l).2.1 = false → (looks r l).2.2.rest = [] := by
  intro l
  induction l with
  | nil => intro r _ _ h _; exact List.eq_nil_of_length_eq_zero (Nat.le_zero.1 h)
  | cons x l ih =>
    intro r hp hl hlen hb
    obtain ⟨n, m⟩ := x
    obtain ⟨hn, hm⟩ := hl (n, m) (List.mem_cons_self ..)
    have hl' : ∀ x ∈ l, 1 ≤ x.1 ∧ 1 ≤ x.2 := fun x hx => hl x (List.mem_cons_of_mem _ hx)
    rw [looks] at hb ⊢
    simp only [List.length_cons] at hlen
    rcases look_cases hp n m with ⟨r', h1, h2, h3, h4⟩ | ⟨r', h1, h2, h3⟩ | ⟨p, r', h1, h2, h3, _, h4⟩
    · rw [h1] at hb ⊢
      refine ih r' h3 hl' ?_ hb
      by_cases hr : r.rest = []
      · have := readMux_less
        have e : r'.rest.length ≤ r.rest.length := by
          have e1 := congrArg List.length h2
          have : look r n m = (.more, r') := h1
          have hle : ∀ q, look r n m = (.more, q) → q.rest.length ≤ r.rest.length := by
            intro q hq
            unfold look at hq
            split at hq
            · simp only [Prod.mk.injEq, true_and] at hq
              rw [← hq]; exact readMux_less _ _ _
            · split at hq
              · simp at hq
              · split at hq
                · simp only [Prod.mk.injEq, true_and] at hq
                  rw [← hq]; exact Nat.le_trans (readMux_less _ _ _) (readMux_less _ _ _)
                · simp at hq
          exact hle r' h1
        rw [hr] at e
        simp at e
        rw [e]; simp
      · have := h4 hn hm hr
        omega
    · rw [h1] at hb
      cases hb
    · rw [h1] at hb ⊢
      refine ih r' (by rw [h3]; left; simp) hl' ?_ hb
      omega

end Verif.Mux
