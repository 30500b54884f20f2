/-
Which keys are in the list.
-/
import Verif.CliAuth.Lemmas

namespace Verif.CliAuth
open Verif Wire Text
open _root_.Verif.PubKey (Key Kind Curve Pub)
open _root_.Verif.Match (matchPatternList)

/-- An entry made of a line of the configuration. -/
structure FileOk (C : Conf) (id : Ident) : Prop where
  key : (id.key = none ∧ (id.file, none) ∈ C.idFiles ∧ id.ext = false) ∨
    ∃ k, id.key = some k ∧ (id.file, some (k, id.ext)) ∈ C.idFiles ∧ ForUsers k ∧ usableSk C k
  agent : id.agent = false
  isPrivate : id.isPrivate = false
  tried : id.tried = false

/-- An entry that may stay. -/
structure EntryOk (C : Conf) (W : World) (id : Ident) : Prop where
  origin : Origin C W id.key id.file id.ext id.agent
  isPrivate : id.isPrivate = false
  tried : id.tried = false

theorem fromFile_ok {C : Conf} {f : Bytes × Option (Key × Bool)} {id : Ident} (hf : f ∈ C.idFiles) (h : fromFile C f = some id) :
    FileOk C id := by
  obtain ⟨f, o⟩ := f
  unfold fromFile at h
  cases o with
  | none =>
    simp only [Option.some.injEq] at h
    subst h
    exact ⟨.inl ⟨rfl, hf, rfl⟩, rfl, rfl, rfl⟩
  | some p =>
    obtain ⟨k, ext⟩ := p
    simp only at h
    split at h
    · simp at h
    · rename_i h1
      split at h
      · simp at h
      · rename_i h2
        simp only [Option.some.injEq] at h
        subst h
        refine ⟨.inr ⟨k, rfl, hf, fun c hc => ?_, fun hs => ?_⟩, rfl, rfl, rfl⟩
        · simpa [hc] using h1
        · simpa [hs] using h2

theorem fromCert_ok {C : Conf} {W : World} {f : Bytes × Key × Bool} {id : Ident} (hf : f ∈ C.certFiles)
    (h : fromCert C f = some id) : EntryOk C W id := by
  obtain ⟨f, k, ext⟩ := f
  unfold fromCert at h
  simp only at h
  split at h
  · simp at h
  · rename_i h1
    split at h
    · simp at h
    · rename_i h2
      simp only [Option.some.injEq] at h
      subst h
      refine ⟨.cert f k ext hf ?_ (fun c hc => ?_) (fun hs => ?_), rfl, rfl⟩
      · intro hc; simp [hc] at h1
      · simpa [hc] using h1
      · simpa [hs] using h2

theorem takeFile_spec {k : Key} {l l' : List Ident} {id : Ident} (h : takeFile k l = some (id, l')) :
    id ∈ l ∧ id.key.any (equalKey k) = true ∧ ∀ x ∈ l', x ∈ l := by
  induction l generalizing l' with
  | nil => simp [takeFile] at h
  | cons a l ih =>
    rw [takeFile] at h
    split at h
    · rename_i ha
      simp only [Option.some.injEq, Prod.mk.injEq] at h
      obtain ⟨rfl, rfl⟩ := h
      exact ⟨List.mem_cons_self, ha, fun x hx => List.mem_cons_of_mem _ hx⟩
    · split at h
      · simp at h
      · rename_i x l2 h2
        simp only [Option.some.injEq, Prod.mk.injEq] at h
        obtain ⟨rfl, rfl⟩ := h
        obtain ⟨i1, i2, i3⟩ := ih h2
        refine ⟨List.mem_cons_of_mem _ i1, i2, fun y hy => ?_⟩
        rcases List.mem_cons.1 hy with rfl | hy
        · exact List.mem_cons_self
        · exact List.mem_cons_of_mem _ (i3 y hy)

theorem agentGo_ok {C : Conf} {W : World} {all : List (Key × Bytes)} (hall : W.agent = some all) :
    ∀ (l : List (Key × Bytes)) (files pref other : List Ident), (∀ x ∈ l, x ∈ all) → (∀ x ∈ files, FileOk C x) →
      (∀ x ∈ pref, EntryOk C W x) → (∀ x ∈ other, EntryOk C W x) →
      (∀ x ∈ (agentGo C l files pref other).1, FileOk C x) ∧ ∀ x ∈ (agentGo C l files pref other).2, EntryOk C W x := by
  intro l
  induction l with
  | nil =>
    intro files pref other _ hf hp ho
    refine ⟨hf, fun x hx => ?_⟩
    rcases List.mem_append.1 hx with hx | hx
    · exact hp x hx
    · exact ho x hx
  | cons a l ih =>
    obtain ⟨k, comment⟩ := a
    intro files pref other hl hf hp ho
    have hl' : ∀ x ∈ l, x ∈ all := fun x hx => hl x (List.mem_cons_of_mem _ hx)
    have hk : (k, comment) ∈ all := hl _ List.mem_cons_self
    rw [agentGo]
    split
    · exact ih _ _ _ hl' hf hp ho
    · rename_i hlen
      have hlong : LongEnough C k := (rsaLengthOk_iff C k).1 (by simpa using hlen)
      split
      · rename_i id files' ht
        obtain ⟨h1, h2, h3⟩ := takeFile_spec ht
        refine ih _ _ _ hl' (fun x hx => hf x (h3 x hx)) (fun x hx => ?_) ho
        rcases List.mem_append.1 hx with hx | hx
        · exact hp x hx
        · simp only [List.mem_singleton] at hx
          subst hx
          have hfo := hf id h1
          rcases hfo.key with ⟨hn, -, -⟩ | ⟨q, hq, hm, hu, hs⟩
          · simp [hn] at h2
          · refine ⟨?_, hfo.isPrivate, hfo.tried⟩
            simp only [hq, Option.any_some] at h2
            show Origin C W id.key id.file id.ext true
            rw [hq]
            exact .file id.file q id.ext true hm hu hs (fun _ => ⟨all, k, comment, hall, hk, h2, hlong⟩) (fun _ h => by simp at h)
      · split
        · exact ih _ _ _ hl' hf hp ho
        · rename_i hi
          refine ih _ _ _ hl' hf hp (fun x hx => ?_)
          rcases List.mem_append.1 hx with hx | hx
          · exact ho x hx
          · simp only [List.mem_singleton] at hx
            subst hx
            exact ⟨.agent k comment all (by simpa using hi) hall hk hlong, rfl, rfl⟩

theorem FileOk.entry {C : Conf} {W : World} {id : Ident} (h : FileOk C id)
    (hx : id.key ≠ none → id.ext = true → C.identitiesOnly = true → ∃ f' k' k, id.key = some k ∧ (f', some (k', false)) ∈ C.idFiles ∧ equalKey k k' = true) :
    EntryOk C W id := by
  refine ⟨?_, h.isPrivate, h.tried⟩
  rw [h.agent]
  rcases h.key with ⟨hn, hm, he⟩ | ⟨k, hk, hm, hu, hs⟩
  · rw [hn, he]
    exact .private_ _ hm
  · rw [hk]
    refine .file _ k _ false hm hu hs (fun h => by simp at h) (fun h1 _ h2 => ?_)
    obtain ⟨f', k', q, hq, h3, h4⟩ := hx (by simp [hk]) h1 h2
    rw [hk] at hq
    cases hq
    exact ⟨f', k', h3, h4⟩

theorem tokenGo_ok {C : Conf} {W : World} : ∀ (l pref done : List Ident), (∀ x ∈ l, FileOk C x) →
    (∀ x ∈ done, FileOk C x ∧ EntryOk C W x) → (∀ x ∈ pref, EntryOk C W x) →
    (∀ x ∈ (tokenGo C pref done l).1, EntryOk C W x) ∧ ∀ x ∈ (tokenGo C pref done l).2, EntryOk C W x := by
  intro l
  induction l with
  | nil => intro pref done _ hd hp; exact ⟨hp, fun x hx => (hd x hx).2⟩
  | cons id l ih =>
    intro pref done hl hd hp
    have hid := hl id List.mem_cons_self
    have hl' : ∀ x ∈ l, FileOk C x := fun x hx => hl x (List.mem_cons_of_mem _ hx)
    have hdone : EntryOk C W id → ∀ x ∈ done ++ [id], FileOk C x ∧ EntryOk C W x := by
      intro he x hx
      rcases List.mem_append.1 hx with hx | hx
      · exact hd x hx
      · simp only [List.mem_singleton] at hx
        subst hx
        exact ⟨hid, he⟩
    rw [tokenGo]
    split
    · rename_i h1
      refine ih _ _ hl' (hdone (hid.entry fun hk he => ?_)) hp
      rcases h1 with h1 | h1
      · exact absurd (by simpa using h1) hk
      · rw [h1] at he; simp at he
    · split
      · rename_i h1 h2
        refine ih _ _ hl' hd (fun x hx => ?_)
        rcases List.mem_append.1 hx with hx | hx
        · exact hp x hx
        · simp only [List.mem_singleton] at hx
          subst hx
          refine hid.entry fun hk he hi => ?_
          obtain ⟨y, hy, hs⟩ := List.any_eq_true.1 h2
          have hyf : FileOk C y := by
            rcases List.mem_append.1 hy with hy | hy
            · exact (hd y hy).1
            · exact hl y hy
          unfold sameListed at hs
          split at hs
          · rename_i a b ha hb
            simp only [decide_eq_true_eq] at hs
            rcases hyf.key with ⟨hn, -, -⟩ | ⟨q, hq, hm, -, -⟩
            · rw [hb] at hn; cases hn
            · rw [hb] at hq; cases hq
              rw [hs.1] at hm
              exact ⟨y.file, b, a, ha, hm, hs.2⟩
          · simp at hs
      · split
        · exact ih _ _ hl' hd hp
        · rename_i hi
          refine ih _ _ hl' (hdone (hid.entry fun _ _ h => absurd h (by simpa using hi))) hp

theorem withAgent_ok (C : Conf) (W : World) :
    (∀ x ∈ (withAgent C W).1, FileOk C x) ∧ ∀ x ∈ (withAgent C W).2, EntryOk C W x := by
  have hf : ∀ x ∈ C.idFiles.filterMap (fromFile C), FileOk C x := by
    intro x hx
    obtain ⟨f, hf, h⟩ := List.mem_filterMap.1 hx
    exact fromFile_ok hf h
  have hc : ∀ x ∈ C.certFiles.filterMap (fromCert C), EntryOk C W x := by
    intro x hx
    obtain ⟨f, hf, h⟩ := List.mem_filterMap.1 hx
    exact fromCert_ok hf h
  unfold withAgent
  split
  · exact ⟨hf, hc⟩
  · rename_i l hl
    exact agentGo_ok hl l _ _ _ (fun x hx => hx) hf hc (by simp)

theorem typeAllowed_ok {C : Conf} {k : Key} (h : typeAllowed C k = true) : TypeAccepted C k := by
  unfold typeAllowed at h
  simp only [decide_eq_true_eq] at h
  rcases h with h | ⟨h1, h2, h3 | h3⟩ | ⟨h1, h2, h3 | h3⟩
  · exact ⟨_, h, .inl rfl⟩
  · exact ⟨_, h3, .inr (.inl ⟨h1, by simpa using h2, .inr rfl⟩)⟩
  · exact ⟨_, h3, .inr (.inl ⟨h1, by simpa using h2, .inl rfl⟩)⟩
  · exact ⟨_, h3, .inr (.inr ⟨h1, by simpa [Option.isSome_iff_ne_none] using h2, .inr rfl⟩)⟩
  · exact ⟨_, h3, .inr (.inr ⟨h1, by simpa [Option.isSome_iff_ne_none] using h2, .inl rfl⟩)⟩

/-- What `pubkey_prepare` leaves in the list. -/
theorem prepare_ok {C : Conf} {W : World} {s : St} {id : Ident} (h : id ∈ prepare C W s) :
    Listed C W id ∧ id.tried = false ∧
      ∀ k, id.key = some k → s.sigAlgs ≠ none → ∃ alg, AlgOk C s.sigAlgs k alg := by
  obtain ⟨hf, hp⟩ := withAgent_ok C W
  unfold prepare at h
  cases hw : withAgent C W with
  | mk files pref =>
    rw [hw] at h hf hp
    have ht := tokenGo_ok (C := C) (W := W) files pref [] hf (by simp) hp
    cases hg : tokenGo C pref [] files with
    | mk p f =>
      simp only [hg, List.mem_filter, List.mem_append] at h
      rw [hg] at ht
      have he : EntryOk C W id := by
        rcases h.1 with h | h
        · exact ht.1 id h
        · exact ht.2 id h
      have hk := h.2
      unfold keyAllowed at hk
      refine ⟨⟨he.origin, fun k hk' => ?_, he.isPrivate⟩, he.tried, fun k hk' hs => ?_⟩
      · rw [hk'] at hk
        simp only [decide_eq_true_eq] at hk
        exact typeAllowed_ok hk.1
      · rw [hk'] at hk
        simp only [decide_eq_true_eq] at hk
        rcases hk.2 with hn | hn
        · exact absurd hn hs
        · cases ha : sigAlgorithm C s true k with
          | none => exact absurd ha hn
          | some alg => exact ⟨alg, sigAlgorithm_ok ha⟩

end Verif.CliAuth
