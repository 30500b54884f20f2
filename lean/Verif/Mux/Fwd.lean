/-
C123: what ends the program. C127: forwardings that a client opens and closes.
-/
import Verif.Mux.Ses

namespace Verif.Mux
open Verif Wire

theorem portOk_iff (n : Nat) : portOk n = true ↔ n = 4294967294 ∨ n ≤ 65535 := by
  unfold portOk
  rw [show pathPort = 4294967294 from rfl, Bool.or_eq_true, decide_eq_true_eq, decide_eq_true_eq]

theorem end_iff {a : Bytes} {port : Nat} {host path : Option Bytes} :
    End a port host path ↔ (port = 4294967294 ∨ port ≤ 65535) ∧ host = (if port = pathPort then none else addr a) ∧
      path = (if port = pathPort then addr a else none) := by
  have hp : pathPort = 4294967294 := rfl
  unfold End addr
  rw [hp]
  by_cases h : port = 4294967294
  · subst h
    by_cases ha : a = [] <;> simp [ha]
  · by_cases ha : a = [] <;> simp [h, ha]
    · exact fun _ => And.comm
    · exact fun _ => And.comm

theorem getFwd_iff {b : Bytes} {kind : Nat} {f : Fwd} : getFwd b = some (kind, f) ↔ Wants b kind f := by
  constructor
  · intro h
    simp only [getFwd, bind, Option.bind_eq_some_iff, Prod.exists, pure] at h
    obtain ⟨ft, b1, h1, la, b2, h2, lp, b3, h3, ca, b4, h4, cp, rest, h5, h6⟩ := h
    split at h6
    · rename_i hp
      simp only [Option.some.injEq, Prod.mk.injEq] at h6
      obtain ⟨rfl, rfl⟩ := h6
      obtain ⟨rfl, hk⟩ := getInt_some h1
      obtain ⟨nl, hnl, rfl, h7⟩ := getCstr_named h2
      obtain ⟨rfl, _⟩ := getInt_some h3
      obtain ⟨nc, hnc, rfl, h8⟩ := getCstr_named h4
      obtain ⟨rfl, _⟩ := getInt_some h5
      refine ⟨nl, la, nc, ca, rest, hnl, hnc, h7, h8, by omega, rfl, ?_, end_iff.2 ⟨(portOk_iff _).1 hp.1, rfl, rfl⟩,
        end_iff.2 ⟨(portOk_iff _).1 hp.2, rfl, rfl⟩⟩
      simp [mkFwd, List.append_assoc]
    · cases h6
  · rintro ⟨nl, la, nc, ca, rest, hnl, hnc, h7, h8, hk, ha, rfl, e1, e2⟩
    obtain ⟨p1, e1, e1'⟩ := end_iff.1 e1
    obtain ⟨p2, e2, e2'⟩ := end_iff.1 e2
    simp only [getFwd, List.append_assoc]
    rw [getInt_append 4 kind _ (by omega)]
    simp only [bind, Option.bind_some]
    rw [getCstr_of_named hnl _ h7, Option.bind_some, getInt_append 4 f.listenPort _ (by omega), Option.bind_some, getCstr_of_named hnc _ h8,
      Option.bind_some, getInt_append 4 f.connectPort _ (by omega), Option.bind_some]
    rw [if_pos ⟨(portOk_iff _).2 p1, (portOk_iff _).2 p2⟩]
    simp only [pure, mkFwd, ← e1, ← e1', ← e2, ← e2', ← ha]

theorem same_iff (f g : Fwd) : same f g = true ↔ Same f g := by
  simp only [same, Same, Bool.and_eq_true, decide_eq_true_eq]
  constructor
  · rintro ⟨⟨⟨⟨⟨h1, h2⟩, h3⟩, h4⟩, h5⟩, h6⟩; exact ⟨h1, h2, h3, h4, h5, h6⟩
  · rintro ⟨h1, h2, h3, h4, h5, h6⟩; exact ⟨⟨⟨⟨⟨h1, h2⟩, h3⟩, h4⟩, h5⟩, h6⟩

theorem same_symm {f g : Fwd} (h : Same f g) : Same g f :=
  ⟨h.1.symm, h.2.1.symm, h.2.2.1.symm, h.2.2.2.1.symm, h.2.2.2.2.1.symm, h.2.2.2.2.2.symm⟩

theorem same_trans {f g k : Fwd} (h : Same f g) (h' : Same g k) : Same f k :=
  ⟨h.1.trans h'.1, h.2.1.trans h'.2.1, h.2.2.1.trans h'.2.2.1, h.2.2.2.1.trans h'.2.2.2.1, h.2.2.2.2.1.trans h'.2.2.2.2.1,
    h.2.2.2.2.2.trans h'.2.2.2.2.2⟩

theorem same_refl (f : Fwd) : Same f f := ⟨rfl, rfl, rfl, rfl, rfl, rfl⟩

theorem same_empty {f g : Fwd} (h : Same f g) (he : Empty g) : Empty f := by
  obtain ⟨h1, h2, h3, h4, h5, h6⟩ := h
  obtain ⟨e1, e2, e3, e4, e5, e6⟩ := he
  exact ⟨h1.trans e1, h2.trans e2, h3.trans e3, h4.trans e4, h5.trans e5, h6.trans e6⟩

theorem blank_empty (f : Fwd) : Empty (blank f) := ⟨rfl, rfl, rfl, rfl, rfl, rfl⟩

/-! ### What ends the program -/

theorem format_bad {C : Conf} {kind : Nat} {f : Fwd} :
    (∃ t, format C kind f = .text t) ∨ ((kind ≠ 1 ∧ kind ≠ 2 ∧ kind ≠ 3) ∨ (kind ≠ 3 ∧ f.connectHost = none ∧ f.connectPath = none)) := by
  have h1 : fLocal = 1 := rfl
  have h2 : fRemote = 2 := rfl
  have h3 : fDynamic = 3 := rfl
  unfold format
  rw [h1, h2, h3]
  split
  · rename_i hk
    split
    · rename_i hc
      right; right
      refine ⟨by omega, ?_⟩
      cases hp : f.connectPath <;> cases hh : f.connectHost <;> simp [hp, hh] at hc ⊢
    · exact .inl ⟨_, rfl⟩
  · split
    · exact .inl ⟨_, rfl⟩
    · split
      · split
        · rename_i hc
          right; right
          refine ⟨by omega, ?_⟩
          cases hp : f.connectPath <;> cases hh : f.connectHost <;> simp [hp, hh] at hc ⊢
        · exact .inl ⟨_, rfl⟩
      · right; left
        omega

/-- The end of the program -/
def Gone (s : St) : Prop := s.status = .fatal ∨ s.status = .undefined

theorem gone_permit {C : Conf} {W : World} {s : St} {q : Bytes} (h : ¬ Gone s) : ¬ Gone (permit C W s q).2 := by
  unfold Gone at *
  rwa [permit_status]

theorem gone_of_status {s t : St} (hs : ¬ Gone s) (h : t.status = s.status ∨ t.status = .dead ∨ t.status = .closing) : ¬ Gone t := by
  unfold Gone at *
  rcases h with h | h | h <;> rw [h]
  · exact hs
  · simp
  · simp

theorem openIt_status {W : World} {s : St} {rid kind : Nat} {f : Fwd} : (openIt W s rid kind f).status = s.status := by
  unfold openIt
  repeat' split
  all_goals rfl

theorem askOpen_status {C : Conf} {W : World} {s : St} {rid kind : Nat} {f : Fwd} {d : Bytes} : (askOpen C W s rid kind f d).status = s.status := by
  unfold askOpen
  split
  · rw [openIt_status, permit_status]
  · exact permit_status ..

theorem openNew_status {C : Conf} {W : World} {s : St} {rid kind : Nat} {f : Fwd} {d : Bytes} : (openNew C W s rid kind f d).status = s.status := by
  unfold openNew
  split
  · split
    · split <;> rfl
    · exact askOpen_status
  · split
    · rfl
    · exact askOpen_status

theorem closeFound_status {W : World} {s : St} {rid kind : Nat} {f : Fwd} : (closeFound W s rid kind f).status = s.status := by
  unfold closeFound
  repeat' split
  all_goals rfl

theorem openFwd_gone {C : Conf} {W : World} {s : St} {rid : Nat} {b : Bytes} (hs : ¬ Gone s) (h : Gone (openFwd C W s rid b)) : Deadly b := by
  unfold openFwd at h
  split at h
  · exact absurd h (gone_of_status hs (.inr (.inl rfl)))
  · rename_i kind f hg
    rcases format_bad (C := C) (kind := kind) (f := f) with ⟨t, ht⟩ | hb
    · simp only [ht] at h
      refine absurd h (gone_of_status hs (.inl ?_))
      split
      · rfl
      · exact openNew_status
    · exact ⟨kind, f, getFwd_iff.1 hg, hb⟩

theorem closeFwd_gone {C : Conf} {W : World} {s : St} {rid : Nat} {b : Bytes} (hs : ¬ Gone s) (h : Gone (closeFwd C W s rid b)) : Deadly b := by
  unfold closeFwd at h
  split at h
  · exact absurd h (gone_of_status hs (.inr (.inl rfl)))
  · rename_i kind f hg
    rcases format_bad (C := C) (kind := kind) (f := f) with ⟨t, ht⟩ | hb
    · simp only [ht] at h
      exact absurd h (gone_of_status hs (.inl closeFound_status))
    · exact ⟨kind, f, getFwd_iff.1 hg, hb⟩

theorem handle_gone {C : Conf} {W : World} {s : St} {t rid : Nat} {b : Bytes} (hs : ¬ Gone s) (h : Gone (handle C W s t rid b)) :
    (t = 0x10000006 ∨ t = 0x10000007) ∧ Deadly b := by
  have dead : ∀ {u : St}, Gone u → (u.status = s.status ∨ u.status = .dead ∨ u.status = .closing) → False :=
    fun hu h => gone_of_status hs h hu
  unfold handle at h
  split at h
  · refine (dead h ?_).elim
    unfold newSession
    split
    · exact .inr (.inl rfl)
    · split
      · exact .inr (.inl rfl)
      · split
        · exact .inl rfl
        · split <;> exact .inl (permit_status ..)
  split at h
  · exact (dead h (.inl rfl)).elim
  split at h
  · refine (dead h (.inl ?_)).elim
    unfold terminate
    split <;> exact permit_status ..
  split at h
  · rename_i ht
    exact ⟨.inl ht, openFwd_gone hs h⟩
  split at h
  · rename_i ht
    exact ⟨.inr ht, closeFwd_gone hs h⟩
  split at h
  · refine (dead h ?_).elim
    unfold stdioFwd
    split
    · exact .inr (.inl rfl)
    · split
      · exact .inr (.inl rfl)
      · split
        · exact .inl rfl
        · split <;> exact .inl (permit_status ..)
  split at h
  · refine (dead h (.inl ?_)).elim
    unfold stopListening
    split
    · split <;> exact permit_status ..
    · exact permit_status ..
  split at h
  · exact (dead h (.inl rfl)).elim
  · exact (dead h (.inl rfl)).elim

theorem packet_gone {C : Conf} {W : World} {s : St} {p : Bytes} (hs : ¬ Gone s) (h : Gone (packet C W s p)) :
    ∃ t rid b, request? p = some (t, rid, b) ∧ (t = 0x10000006 ∨ t = 0x10000007) ∧ Deadly b := by
  unfold packet at h
  split at h
  · exact absurd h (gone_of_status hs (.inr (.inl rfl)))
  · rename_i t b1 h1
    split at h
    · refine absurd h (gone_of_status hs ?_)
      unfold hello
      repeat' split
      · exact .inr (.inl rfl)
      · exact .inl rfl
      · exact .inr (.inl rfl)
    · rename_i ht
      split at h
      · exact absurd h (gone_of_status hs (.inr (.inl rfl)))
      · split at h
        · exact absurd h (gone_of_status hs (.inr (.inl rfl)))
        · rename_i rid b h2
          obtain ⟨rfl, h3⟩ := getInt_some h1
          obtain ⟨rfl, h4⟩ := getInt_some h2
          exact ⟨t, rid, b, request_iff.2 ⟨by rw [List.append_assoc], ht, by omega, by omega⟩, handle_gone hs h⟩

/-- C123: no packet of a client ends the program, and neither does the server, but for these:
a request to open or close a forwarding that is of no kind, or of a kind that leads to an address and has none;
and an answer of the server with no port in it where there has to be one.
What is missing is that these do not end it either, see `C123_survives_original_false`. -/
theorem C123_survives_partial {C : Conf} {s : St} (hs : s.status ≠ .fatal ∧ s.status ≠ .undefined) (W : World) (e : Event)
    (h : (step C W s e).status = .fatal ∨ (step C W s e).status = .undefined) :
    (∃ p t rid b, e = .packet p ∧ request? p = some (t, rid, b) ∧ (t = 0x10000006 ∨ t = 0x10000007) ∧ Deadly b) ∨
    (∃ p rid fid f, e = .forwarded true p ∧ s.wait = some (.forward rid fid) ∧ s.remotes[fid]? = some f ∧ f.listenPort = 0 ∧
      (p.length < 4 ∨ ofBE (p.take 4) > 65535)) := by
  have hs : ¬ Gone s := fun h => h.elim hs.1 hs.2
  have dead : ∀ {u : St}, Gone u → (u.status = s.status ∨ u.status = .dead ∨ u.status = .closing) → False :=
    fun hu h => gone_of_status hs h hu
  unfold step at h
  split at h
  · exact (hs h).elim
  · cases e with
    | packet p =>
      left
      simp only [] at h
      split at h
      · exact (hs h).elim
      · obtain ⟨t, rid, b, h1, h2, h3⟩ := packet_gone hs h
        exact ⟨p, t, rid, b, rfl, h1, h2, h3⟩
    | opened success =>
      simp only [] at h
      refine (dead h (.inl ?_)).elim
      split
      · unfold sessionConfirm
        split <;> rfl
      · unfold stdioConfirm
        split <;> rfl
      · rfl
    | forwarded success p =>
      right
      simp only [] at h
      split at h
      · rename_i rid fid hw
        unfold forwardConfirm at h
        split at h
        · exact (dead h (.inl rfl)).elim
        · rename_i f hf
          split at h
          · exact (dead h (.inl rfl)).elim
          · split at h
            · rename_i hsu
              subst hsu
              split at h
              · rename_i hl
                refine ⟨p, rid, fid, f, rfl, hw, hf, hl, ?_⟩
                cases hg : getInt 4 p with
                | none =>
                  left
                  unfold getInt at hg
                  split at hg
                  · assumption
                  · cases hg
                | some x =>
                  obtain ⟨port, rest⟩ := x
                  simp only [hg] at h
                  split at h
                  · rename_i hp
                    right
                    obtain ⟨rfl, hlt⟩ := getInt_some hg
                    rw [List.take_append_of_le_length (by simp [be4_length]), List.take_of_length_le (by simp [be4_length]),
                      ofBE_be_of_lt (by omega)]
                    exact hp
                  · exact (dead h (.inl rfl)).elim
              · exact (dead h (.inl rfl)).elim
            · refine (dead h (.inl ?_)).elim
              show (St.err _ sFailure rid (remoteFailed f)).status = _
              split <;> rfl
      · exact (hs h).elim
    | exit status =>
      simp only [] at h
      refine (dead h (.inl ?_)).elim
      split <;> rfl
    | ttyFailed =>
      simp only [] at h
      refine (dead h (.inl ?_)).elim
      split <;> rfl
    | childClosed =>
      simp only [] at h
      refine (dead h ?_).elim
      split
      · exact .inr (.inr rfl)
      · exact .inl rfl
    | others a b => exact (dead h (.inl rfl)).elim

end Verif.Mux
