/-
C129: who gets what.
-/
import Verif.Proxy.Inv

namespace Verif.Proxy
open Verif Wire

theorem passes_iff {t : Nat} : passes t = true ↔ ForChannel t := by
  simp only [passes, ForChannel, Bool.or_eq_true, decide_eq_true_eq]
  simp only [mClose, mData, mEof, mExt, mConfirm, mOpenFail, mWindow, mReqOk, mReqFail,
    mReq]
  omega

theorem has_lt {s : St} {n d id : Nat} (h : Has s n d id) (hf : Few s) : n < 2 ^ 32 := by
  obtain ⟨c, hc, -⟩ := h
  have := (List.getElem?_eq_some_iff.1 hc).1
  have hf : s.slots.length ≤ 2147483648 := hf
  omega

/-- Whatever a message of the server puts before a client, is for a channel that this client has announced last under this number, with
the client's own number for it. -/
theorem C129_routed {evs : List Event} {type : Nat} {b : Bytes} (hf : Few (run init evs)) :
    ∃ l, (step (run init evs) (.server type b)).down = (run init evs).down ++ l ∧ l.length ≤ 1 ∧
      ∀ x ∈ l, ForChannel type ∧ ∃ n d id rest, b = be 4 n ++ rest ∧ n < 2 ^ 32 ∧ Means (run init evs).up n d id ∧
        x = (d, 0 :: UInt8.ofNat type :: (be 4 id ++ rest)) := by
  have hi := inv_run inv_init hf
  generalize run init evs = s at *
  have nil : ∀ s' : St, s'.down = s.down → ∃ l, s'.down = s.down ++ l ∧ l.length ≤ 1 ∧
      ∀ x ∈ l, ForChannel type ∧ ∃ n d id rest, b = be 4 n ++ rest ∧ n < 2 ^ 32 ∧ Means s.up n d id ∧
        x = (d, 0 :: UInt8.ofNat type :: (be 4 id ++ rest)) := fun s' h => ⟨[], by simp [h], by simp, by simp⟩
  unfold step
  split
  · exact nil _ rfl
  dsimp only
  unfold message
  split
  · exact nil _ rfl
  rename_i hp
  split
  · exact nil _ rfl
  rename_i n rest hb
  obtain ⟨rfl, hn⟩ := getInt_some hb
  split
  · split
    · exact nil _ rfl
    · exact nil _ rfl
  rename_i c hc
  split
  · rename_i d id hk
    unfold upstream
    split
    · refine ⟨[(d, translated type id rest)], rfl, by simp, fun x hx => ?_⟩
      rw [List.mem_singleton.1 hx]
      exact ⟨passes_iff.1 (by simpa using hp), n, d, id, rest, rfl, hn, hi.means n d id ⟨c, at_some.1 hc, hk⟩, rfl⟩
    · exact nil _ rfl
  · split
    · exact nil _ rfl
    · exact nil _ rfl
  · split
    · exact nil _ rfl
    · exact nil _ rfl
  · exact nil _ rfl

/-- All messages for a channel of a client that is there reach it. -/
theorem C129_arrives {s : St} {type n d id : Nat} {rest : Bytes} (hs : s.status = .running) (hf : Few s) (hh : Has s n d id)
    (hd : isClient s.slots d = true) (ht : ForChannel type) :
    (step s (.server type (be 4 n ++ rest))).down = s.down ++ [(d, 0 :: UInt8.ofNat type :: (be 4 id ++ rest))] ∧
    (step s (.server type (be 4 n ++ rest))).status = .running := by
  have hn := has_lt hh hf
  obtain ⟨c, hc, hk⟩ := hh
  have hal : alive s.slots d = true := by
    obtain ⟨m, e, he, hu, -⟩ := isClient_iff.1 hd
    exact alive_iff.2 ⟨m, e, he, hu⟩
  unfold step
  rw [if_neg (by simp [hs])]
  dsimp only
  unfold message
  rw [if_neg (by simp [passes_iff.2 ht]), getInt_append 4 n rest hn]
  dsimp only
  rw [at_some.2 hc]
  dsimp only
  rw [hk]
  dsimp only
  unfold upstream
  rw [if_pos hal]
  exact ⟨rfl, hs⟩

/-- A packet that a client sends reaches the server: as it is, or if it announces a channel with a number that no channel has, for which the
client's number is kept. -/
theorem C129_sent {s : St} {d : Nat} {x t : UInt8} {b : Bytes} (hs : s.status = .running) (hd : isClient s.slots d = true)
    (ht : Taken t.toNat b) :
    ∃ b', (step s (.packet d (x :: t :: b))).up = s.up ++ [⟨some d, t.toNat, b, b'⟩] ∧
      ((b' = b ∧ t ≠ 90 ∧ t ≠ 91) ∨
        ∃ id n, Renumbered id n t.toNat b b' ∧ (∀ c, s.slots[n]? ≠ some (some c)) ∧ Has (step s (.packet d (x :: t :: b))) n d id) := by
  unfold step
  rw [if_neg (by simp [hs])]
  dsimp only
  rw [if_pos hd]
  unfold downstream
  dsimp only
  have hne : ∀ {k : UInt8}, t.toNat ≠ k.toNat → t ≠ k := fun h h' => h (by rw [h'])
  generalize ht' : t.toNat = T at *
  cases ht with
  | opens id v ctype rest hid hv hl =>
    unfold request
    rw [if_pos (show (90 : Nat) = mOpen from rfl), openParts_iff.2 ⟨hid, v, hv, hl, rfl⟩]
    exact ⟨_, rfl, .inr ⟨id, free s.slots, .opens _ _ _ hv, free_none _, _, place_self _ _, rfl⟩⟩
  | confirms r id rest hr hid =>
    unfold request
    rw [if_neg (by decide), if_pos (show (91 : Nat) = mConfirm from rfl), confirmParts_iff.2 ⟨hr, hid, rfl⟩]
    exact ⟨_, rfl, .inr ⟨id, free s.slots, .confirms _ _ hr, free_none _, _, place_self _ _, rfl⟩⟩
  | listens host _ port hl =>
    unfold request
    rw [if_neg (by decide), if_neg (by decide), if_pos (show (80 : Nat) = mGlobal from rfl), listenParts_iff.2 hl]
    exact ⟨_, rfl, .inl ⟨rfl, hne (by decide), hne (by decide)⟩⟩
  | other _ _ h1 h2 h3 =>
    unfold request
    rw [if_neg (show ¬ T = mOpen from h2), if_neg (show ¬ T = mConfirm from h3), if_neg (show ¬ T = mGlobal from h1)]
    split
    · exact ⟨_, rfl, .inl ⟨rfl, hne h2, hne h3⟩⟩
    · exact ⟨_, rfl, .inl ⟨rfl, hne h2, hne h3⟩⟩

theorem drop_gone (s : St) (d : Nat) : isClient (s.drop d).slots d = false := by
  cases h : isClient (s.drop d).slots d with
  | false => rfl
  | true =>
    obtain ⟨n, c, hc, hu, -⟩ := isClient_iff.1 h
    simp only [St.drop, List.getElem?_map, Option.map_eq_some_iff] at hc
    obtain ⟨o, ho, hc⟩ := hc
    split at hc
    · cases hc
    · rename_i hno
      subst hc
      simp [hu] at hno

/-- What is not taken ends the client, and nothing is sent. -/
theorem C129_refused {s : St} {d : Nat} {p : Bytes} (hs : s.status = .running) (hd : isClient s.slots d = true)
    (ht : ∀ x t b, p = x :: t :: b → ¬ Taken t.toNat b) :
    (step s (.packet d p)).up = s.up ∧ (step s (.packet d p)).down = s.down ∧ isClient (step s (.packet d p)).slots d = false := by
  unfold step
  rw [if_neg (by simp [hs])]
  dsimp only
  rw [if_pos hd]
  have done : (s.drop d).up = s.up ∧ (s.drop d).down = s.down ∧ isClient (s.drop d).slots d = false := ⟨rfl, rfl, drop_gone s d⟩
  unfold downstream
  split
  · rename_i x t b
    have ht := ht x t b rfl
    unfold request
    split
    · rename_i h
      split
      · exact done
      · rename_i ctype id rest hp
        obtain ⟨hid, v, hv, hl, rfl⟩ := openParts_iff.1 hp
        rw [h] at ht
        exact absurd (.opens id v ctype rest hid hv hl) ht
    split
    · rename_i h
      split
      · exact done
      · rename_i r id rest hp
        obtain ⟨hr, hid, rfl⟩ := confirmParts_iff.1 hp
        rw [h] at ht
        exact absurd (.confirms r id rest hr hid) ht
    split
    · rename_i h
      split
      · exact done
      · rename_i host port hp
        rw [h] at ht
        exact absurd (.listens host b port (listenParts_iff.1 hp)) ht
    · rename_i h1 h2 h3
      exact absurd (.other _ b h3 h1 h2) ht
  · exact done

theorem getElem_set_ne {l : List (Option Ch)} {n m : Nat} (o : Option Ch) (h : n ≠ m) : (l.set m o)[n]? = l[n]? := by
  rw [List.getElem?_set, if_neg fun h' => h h'.symm]

theorem getElem_set_self {l : List (Option Ch)} {n : Nat} {c : Ch} (o : Option Ch) (h : l[n]? = some (some c)) : (l.set n o)[n]? = some o := by
  rw [List.getElem?_set, if_pos rfl, if_pos (List.getElem?_eq_some_iff.1 h).1]

theorem closed_keeps {l : List (Option Ch)} {b : Bytes} {n : Nat} {c : Ch} (h : l[n]? = some (some c)) :
    (∃ c', (closed l b)[n]? = some (some c') ∧ c'.kind = c.kind) ∨
    (c.rcvd = true ∧ ∃ r, c.remote = some r ∧ ∃ rest, b = be 4 r ++ rest) := by
  unfold closed
  split
  · exact .inl ⟨c, h, rfl⟩
  rename_i r rest hb
  obtain ⟨rfl, -⟩ := getInt_some hb
  split
  · exact .inl ⟨c, h, rfl⟩
  rename_i m hm
  obtain ⟨e, he, hr⟩ := byRemote_some hm
  unfold closeAt
  rw [at_some.2 he]
  dsimp only
  by_cases hnm : n = m
  · subst hnm
    rw [h] at he
    cases he
    split
    · rename_i hrc
      exact .inr ⟨hrc, r, hr, rest, rfl⟩
    · exact .inl ⟨_, getElem_set_self _ h, rfl⟩
  · left
    split
    · exact ⟨c, by rw [getElem_set_ne _ hnm]; exact h, rfl⟩
    · exact ⟨c, by rw [getElem_set_ne _ hnm]; exact h, rfl⟩

theorem update_keeps {l : List (Option Ch)} {m type n : Nat} {c e : Ch} {rest : Bytes} (h : l[n]? = some (some c)) (he : l[m]? = some (some e)) :
    (∃ c', (update l m type e rest)[n]? = some (some c') ∧ c'.kind = c.kind) ∨ (m = n ∧ type = 97 ∧ c.sent = true) := by
  by_cases hnm : n = m
  · subst hnm
    rw [h] at he
    cases he
    unfold update
    split
    · split
      · exact .inl ⟨_, getElem_set_self _ h, rfl⟩
      · exact .inl ⟨_, h, rfl⟩
    · split
      · rename_i ht
        split
        · rename_i hs
          exact .inr ⟨rfl, ht, hs⟩
        · exact .inl ⟨_, getElem_set_self _ h, rfl⟩
      · exact .inl ⟨_, h, rfl⟩
  · left
    refine ⟨c, ?_, rfl⟩
    unfold update
    split
    · split
      · rw [getElem_set_ne _ hnm]; exact h
      · exact h
    · split
      · split
        · rw [getElem_set_ne _ hnm]; exact h
        · rw [getElem_set_ne _ hnm]; exact h
      · exact h

theorem place_keeps {l : List (Option Ch)} {e c : Ch} {n : Nat} (h : l[n]? = some (some c)) : (place e l)[n]? = some (some c) := by
  have : n ≠ free l := fun h' => free_none l c (h' ▸ h)
  rw [place_other this]
  exact h

theorem map_keeps {l : List (Option Ch)} {f : Option Ch → Option Ch} {n : Nat} {c : Ch} (h : l[n]? = some (some c)) :
    (l.map f)[n]? = some (f (some c)) := by
  rw [List.getElem?_map, h]
  rfl

theorem drop_keeps {s : St} {n d : Nat} {c : Ch} (h : s.slots[n]? = some (some c)) (hu : c.uid ≠ d) :
    (s.drop d).slots[n]? = some (some c) := by
  have := map_keeps (f := fun o => if o.any fun c => c.uid = d then none else o) h
  simpa [St.drop, hu] using this

theorem client_uid {s : St} (hi : Inv s) {n d : Nat} {c : Ch} (h : s.slots[n]? = some (some c)) (hk : c.kind ≠ .client)
    (hd : isClient s.slots d = true) : c.uid ≠ d := by
  obtain ⟨m, e, he, hu, hke⟩ := isClient_iff.1 hd
  intro hcd
  have := hi.uniq n m c e h he (by rw [hcd, hu])
  subst this
  rw [h] at he
  cases he
  exact hk hke

/-- A channel stays until both sides have closed it or its client has ended. -/
theorem C129_stays {evs : List Event} {e : Event} {n d id : Nat} (hf : Few (run init evs)) (hh : Has (run init evs) n d id)
    (hh' : ¬ Has (step (run init evs) e) n d id) :
    ∃ c, (run init evs).slots[n]? = some (some c) ∧
      (e = .eof d ∨
        (c.sent = true ∧ ∃ rest, e = .server 97 (be 4 n ++ rest)) ∨
        (c.rcvd = true ∧ ∃ r, c.remote = some r ∧ ∃ a x rest, e = .packet a (x :: 97 :: (be 4 r ++ rest)))) := by
  have hi := inv_run inv_init hf
  generalize run init evs = s at *
  obtain ⟨c, hc, hk⟩ := hh
  have hck : c.kind ≠ .client := by rw [hk]; intro h; cases h
  refine ⟨c, hc, ?_⟩
  have keep : ∀ s' : St, (∃ c', s'.slots[n]? = some (some c') ∧ c'.kind = c.kind) → Has s' n d id :=
    fun s' ⟨c', h, hk'⟩ => ⟨c', h, by rw [hk', hk]⟩
  have same : Has s n d id := keep s ⟨c, hc, rfl⟩
  unfold step at hh'
  split at hh'
  · exact absurd same hh'
  cases e with
  | client => exact absurd (keep _ ⟨c, place_keeps hc, rfl⟩) hh'
  | packet a p =>
    dsimp only at hh'
    split at hh'
    · rename_i hcl
      have hdrop : Has (s.drop a) n d id := keep _ ⟨c, drop_keeps hc (client_uid hi hc hck hcl), rfl⟩
      unfold downstream at hh'
      split at hh'
      · rename_i x t b
        unfold request at hh'
        split at hh'
        · split at hh'
          · exact absurd hdrop hh'
          · exact absurd (keep _ ⟨c, place_keeps hc, rfl⟩) hh'
        split at hh'
        · split at hh'
          · exact absurd hdrop hh'
          · exact absurd (keep _ ⟨c, place_keeps hc, rfl⟩) hh'
        split at hh'
        · split at hh'
          · exact absurd hdrop hh'
          · exact absurd (keep _ ⟨c, hc, rfl⟩) hh'
        split at hh'
        · rename_i ht
          rcases closed_keeps (b := b) hc with h | ⟨hr, r, hrem, rest, rfl⟩
          · exact absurd (keep _ h) hh'
          · refine .inr (.inr ⟨hr, r, hrem, a, x, rest, ?_⟩)
            have : t = 97 := UInt8.toNat_inj.1 ht
            rw [this]
        · exact absurd (keep _ ⟨c, hc, rfl⟩) hh'
      · exact absurd hdrop hh'
    · exact absurd same hh'
  | eof a =>
    dsimp only at hh'
    split at hh'
    · rename_i hcl
      by_cases had : a = d
      · exact .inl (by rw [had])
      · refine absurd (keep _ ⟨c, ?_, rfl⟩) hh'
        have h1 := client_uid hi hc hck hcl
        have := map_keeps (f := fun o => if o.any fun c => c.uid = a then none else o.map (detach a)) hc
        have hda : ¬ d = a := fun h => had h.symm
        simpa [leave, h1, detach, hk, hda] using this
    · exact absurd same hh'
  | lost a =>
    dsimp only at hh'
    split at hh'
    · rename_i hcl
      exact absurd (keep _ ⟨c, drop_keeps hc (client_uid hi hc hck hcl), rfl⟩) hh'
    · exact absurd same hh'
  | server type b =>
    dsimp only at hh'
    unfold message at hh'
    split at hh'
    · exact absurd same hh'
    split at hh'
    · exact absurd (keep _ ⟨c, hc, rfl⟩) hh'
    rename_i m rest hb
    obtain ⟨rfl, -⟩ := getInt_some hb
    split at hh'
    · split at hh'
      · exact absurd same hh'
      · exact absurd (keep _ ⟨c, hc, rfl⟩) hh'
    rename_i e he
    have he := at_some.1 he
    split at hh'
    · unfold upstream at hh'
      split at hh'
      · rcases update_keeps (type := type) (rest := rest) hc he with h | ⟨rfl, rfl, hsent⟩
        · exact absurd (keep _ h) hh'
        · exact .inr (.inl ⟨hsent, rest, rfl⟩)
      · exact absurd (keep _ ⟨c, hc, rfl⟩) hh'
    · split at hh'
      · exact absurd same hh'
      · exact absurd (keep _ ⟨c, hc, rfl⟩) hh'
    · rename_i hke
      split at hh'
      · have hnm : n ≠ m := fun h => by
          subst h
          rw [hc] at he
          cases he
          rw [hk] at hke
          cases hke
        exact absurd (keep _ ⟨c, by dsimp only; rw [getElem_set_ne _ hnm]; exact hc, rfl⟩) hh'
      · exact absurd same hh'
    · exact absurd same hh'
  | forwarded host port rchan window max from_ fromPort =>
    exact absurd (keep _ ⟨c, by rw [(forwarded_frame s host port rchan window max from_ fromPort).1]; exact hc, rfl⟩) hh'
  | answer ok => exact absurd (keep _ ⟨c, by rw [(answer_frame s ok).1]; exact hc, rfl⟩) hh'
  | collect m =>
    dsimp only at hh'
    unfold collect at hh'
    split at hh'
    · rename_i e he
      have he := at_some.1 he
      split at hh'
      · rename_i hke
        have hnm : n ≠ m := fun h => by
          subst h
          rw [hc] at he
          cases he
          rw [hk] at hke
          cases hke
        have hset : ∀ o, (s.slots.set m o)[n]? = some (some c) := fun o => by rw [getElem_set_ne _ hnm]; exact hc
        split at hh'
        · split at hh'
          · exact absurd (keep _ ⟨c, hset _, rfl⟩) hh'
          · exact absurd same hh'
        · split at hh'
          · exact absurd (keep _ ⟨c, hc, rfl⟩) hh'
          · exact absurd (keep _ ⟨c, hset _, rfl⟩) hh'
      · exact absurd same hh'
    · exact absurd same hh'
  | own => exact absurd (keep _ ⟨c, place_keeps hc, rfl⟩) hh'
  | ownSend m type before after =>
    dsimp only at hh'
    split at hh'
    · split at hh'
      · exact absurd (keep _ ⟨c, hc, rfl⟩) hh'
      · exact absurd same hh'
    · exact absurd same hh'
  | ownRemote m r =>
    dsimp only at hh'
    split at hh'
    · rename_i e he
      have he := at_some.1 he
      split at hh'
      · rename_i hke
        have hnm : n ≠ m := fun h => by
          subst h
          rw [hc] at he
          cases he
          rw [hk] at hke
          cases hke
        exact absurd (keep _ ⟨c, by dsimp only; rw [getElem_set_ne _ hnm]; exact hc, rfl⟩) hh'
      · exact absurd same hh'
    · exact absurd same hh'
  | ownFree m =>
    dsimp only at hh'
    split at hh'
    · rename_i e he
      have he := at_some.1 he
      split at hh'
      · rename_i hke
        have hnm : n ≠ m := fun h => by
          subst h
          rw [hc] at he
          cases he
          rw [hk] at hke
          cases hke
        exact absurd (keep _ ⟨c, by dsimp only; rw [getElem_set_ne _ hnm]; exact hc, rfl⟩) hh'
      · exact absurd same hh'
    · exact absurd same hh'
  | ownAsk q => exact absurd (keep _ ⟨c, hc, rfl⟩) hh'
  | ownListen host port => exact absurd (keep _ ⟨c, hc, rfl⟩) hh'

/-! ### Connections to ports -/

/-- Each permission of a client is for a request that it has made. -/
def Asked (s : St) : Prop := ∀ p ∈ s.perms, ∀ d, p.down = some d → ∃ u ∈ s.up, u.src = some d ∧ u.type = 80 ∧ Listens p.host p.port u.orig

theorem asked_more {s s' : St} (h : Asked s) (hp : ∀ p ∈ s'.perms, p ∈ s.perms ∨ p.down = none) (hu : ∃ l, s'.up = s.up ++ l) : Asked s' := by
  intro p hp' d hd
  rcases hp p hp' with h' | h'
  · obtain ⟨u, hu', h1⟩ := h p h' d hd
    obtain ⟨l, hl⟩ := hu
    exact ⟨u, by rw [hl]; exact List.mem_append_left _ hu', h1⟩
  · rw [hd] at h'
    cases h'

theorem asked_request {s : St} (h : Asked s) (d t : Nat) (b : Bytes) : Asked (request s d t b) := by
  have same : ∀ s' : St, s'.perms = s.perms → (∃ l, s'.up = s.up ++ l) → Asked s' :=
    fun s' hp hu => asked_more h (fun p h' => .inl (hp ▸ h')) hu
  unfold request
  split
  · split
    · exact same _ rfl ⟨[], (List.append_nil _).symm⟩
    · exact same _ rfl ⟨_, rfl⟩
  split
  · split
    · exact same _ rfl ⟨[], (List.append_nil _).symm⟩
    · exact same _ rfl ⟨_, rfl⟩
  split
  · rename_i ht
    split
    · exact same _ rfl ⟨[], (List.append_nil _).symm⟩
    · rename_i host port hl
      intro p hp e he
      have hp : p ∈ s.perms ++ [⟨host, port, some d⟩] := hp
      show ∃ u ∈ s.up ++ [⟨some d, t, b, b⟩], _
      rcases List.mem_append.1 hp with hp | hp
      · obtain ⟨u, hu, h1⟩ := h p hp e he
        exact ⟨u, List.mem_append_left _ hu, h1⟩
      · rw [List.mem_singleton.1 hp] at he ⊢
        exact ⟨_, List.mem_append_right _ (List.mem_singleton.2 rfl), he, ht, listenParts_iff.1 hl⟩
  split
  · exact same _ rfl ⟨_, rfl⟩
  · exact same _ rfl ⟨_, rfl⟩

theorem asked_step {s : St} (h : Asked s) (e : Event) : Asked (step s e) := by
  have same : ∀ s' : St, s'.perms = s.perms → s'.up = s.up → Asked s' :=
    fun s' hp hu => asked_more h (fun p h' => .inl (hp ▸ h')) ⟨[], by rw [hu, List.append_nil]⟩
  unfold step
  split
  · exact h
  cases e with
  | client => exact same _ rfl rfl
  | packet a p =>
    dsimp only
    split
    · unfold downstream
      split
      · exact asked_request h _ _ _
      · exact same _ rfl rfl
    · exact h
  | eof a =>
    dsimp only
    split
    · exact asked_more h (fun p h' => .inl (List.mem_filter.1 h').1) ⟨_, rfl⟩
    · exact h
  | lost a =>
    dsimp only
    split
    · exact same _ rfl rfl
    · exact h
  | server type b =>
    dsimp only
    unfold message upstream
    repeat' split
    all_goals first | exact h | exact same _ rfl rfl
  | forwarded host port rchan window max from_ fromPort =>
    dsimp only
    unfold forwarded
    repeat' split
    all_goals first | exact h | exact same _ rfl rfl
  | answer ok =>
    dsimp only
    unfold answer
    repeat' split
    all_goals first | exact h | exact same _ rfl rfl
  | collect m =>
    dsimp only
    unfold collect
    repeat' split
    all_goals first | exact h | exact same _ rfl rfl | exact asked_more h (fun p h' => .inl h') ⟨_, rfl⟩
  | own => exact same _ rfl rfl
  | ownSend m type before after =>
    dsimp only
    repeat' split
    all_goals first | exact h | exact asked_more h (fun p h' => .inl h') ⟨_, rfl⟩
  | ownRemote m r =>
    dsimp only
    repeat' split
    all_goals first | exact h | exact same _ rfl rfl
  | ownFree m =>
    dsimp only
    repeat' split
    all_goals first | exact h | exact same _ rfl rfl
  | ownAsk q => exact same _ rfl rfl
  | ownListen host port =>
    refine asked_more h (fun p h' => ?_) ⟨[], by simp⟩
    rcases List.mem_append.1 h' with h' | h'
    · exact .inl h'
    · exact .inr (by rw [List.mem_singleton.1 h'])

theorem asked_run {s : St} (h : Asked s) (evs : List Event) : Asked (run s evs) := by
  induction evs generalizing s with
  | nil => exact h
  | cons e l ih => exact ih (asked_step h e)

theorem fits_iff {p : Perm} {host : Bytes} {port : Nat} : p.fits host port = true ↔ p.port = port ∧ Same p.host host := by
  simp only [Perm.fits, Bool.and_eq_true, decide_eq_true_eq]
  simp only [bindHost, Same]
  refine and_congr_right fun _ => ?_
  by_cases h1 : p.host = []
  · rw [if_pos (.inl h1), h1]
    exact ⟨fun h => .inl ⟨h, by decide⟩, fun h => h.elim (·.1) (fun h => h.2.symm)⟩
  by_cases h2 : p.host = b!"*"
  · rw [if_pos (.inr h2), h2]
    exact ⟨fun h => .inr ⟨rfl, h.symm⟩, fun h => h.elim (fun h => absurd rfl h.2) (fun h => h.2.symm)⟩
  · rw [if_neg (by simp [h1, h2])]
    exact ⟨fun h => .inl ⟨h, h2⟩, fun h => h.elim (·.1) (fun h => absurd h.1 h2)⟩

/-- A connection to a port is only shown to a client that has asked the server to listen there, with all that the server says of it; and it is
the only one to which it is shown. -/
theorem C129_forwarded {evs : List Event} {host from_ : Bytes} {port rchan window max fromPort : Nat} :
    ∃ l, (step (run init evs) (.forwarded host port rchan window max from_ fromPort)).down = (run init evs).down ++ l ∧ l.length ≤ 1 ∧
      ∀ x ∈ l, x.2 = 0 :: 90 :: (str b!"forwarded-tcpip" ++ be 4 rchan ++ be 4 window ++ be 4 max ++ str host ++ be 4 port ++ str from_ ++
          be 4 fromPort) ∧
        ∃ u ∈ (run init evs).up, u.src = some x.1 ∧ u.type = 80 ∧ ∃ asked, Listens asked port u.orig ∧ Same asked host := by
  have ha := asked_run (s := init) (fun p hp => by cases hp) evs
  generalize run init evs = s at *
  have nil : ∀ s' : St, s'.down = s.down → ∃ l, s'.down = s.down ++ l ∧ l.length ≤ 1 ∧
      ∀ x ∈ l, x.2 = 0 :: 90 :: (str b!"forwarded-tcpip" ++ be 4 rchan ++ be 4 window ++ be 4 max ++ str host ++ be 4 port ++ str from_ ++
          be 4 fromPort) ∧
        ∃ u ∈ s.up, u.src = some x.1 ∧ u.type = 80 ∧ ∃ asked, Listens asked port u.orig ∧ Same asked host :=
    fun s' h => ⟨[], by simp [h], by simp, by simp⟩
  unfold step
  split
  · exact nil _ rfl
  dsimp only
  unfold forwarded
  split
  · rename_i h p d hfind
    split
    · refine ⟨[(d, opening host port rchan window max from_ fromPort)], rfl, by simp, fun x hx => ?_⟩
      rw [List.mem_singleton.1 hx]
      obtain ⟨u, hu, h1, h2, h3⟩ := ha _ (List.mem_of_find?_eq_some hfind) d rfl
      obtain ⟨hport, hs⟩ := fits_iff.1 (by simpa using List.find?_some hfind)
      refine ⟨rfl, u, hu, h1, h2, h, ?_, hs⟩
      rw [← hport]
      exact h3
    · exact nil _ rfl
  · exact nil _ rfl

/-- Nothing else is put before a client. -/
theorem C129_others {s : St} {e : Event} (h1 : ∀ t b, e ≠ .server t b) (h2 : ∀ a b c d f g h, e ≠ .forwarded a b c d f g h) :
    (step s e).down = s.down := by
  unfold step
  split
  · rfl
  cases e with
  | server type b => exact absurd rfl (h1 type b)
  | forwarded a b c d f g h => exact absurd rfl (h2 a b c d f g h)
  | packet a p =>
    dsimp only
    unfold downstream request
    repeat' split
    all_goals rfl
  | collect m =>
    dsimp only
    unfold collect
    repeat' split
    all_goals rfl
  | answer ok =>
    dsimp only
    unfold answer
    repeat' split
    all_goals rfl
  | client => rfl
  | own => rfl
  | ownAsk q => rfl
  | ownListen host port => rfl
  | eof d =>
    dsimp only
    repeat' split
    all_goals rfl
  | lost d =>
    dsimp only
    repeat' split
    all_goals rfl
  | ownSend n type before after =>
    dsimp only
    repeat' split
    all_goals rfl
  | ownRemote n r =>
    dsimp only
    repeat' split
    all_goals rfl
  | ownFree n =>
    dsimp only
    repeat' split
    all_goals rfl

end Verif.Proxy
