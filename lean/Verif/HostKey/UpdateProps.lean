/-
C83: what the announcement of host keys by the server changes in the user's known hosts files.
-/
import Verif.HostKey.UpdateLemmas

namespace Verif.HostKey.Update
open Verif
open _root_.Verif.Hostfile

/-- What was read, against what the files hold. -/
structure Got (E : Env) (all : List Line) : Prop where
  read : readAll E E.files = some all
  from_ : ∀ ln ∈ all, ∃ l, At E l ∧ Reads E l ln
  all : ∀ l, At E l → ∃ ln ∈ all, Reads E l ln

theorem got (E : Env) (he : Ended E) : ∃ all, Got E all := by
  obtain ⟨all, h1, h2, h3⟩ := readAll_ok E E.files he
  refine ⟨all, h1, ?_, ?_⟩
  · intro ln hln
    obtain ⟨m, ls, l, a, b, c, d⟩ := h2 ln hln
    exact ⟨l, ⟨m, ls, a, b, c⟩, d⟩
  · rintro l ⟨m, ls, a, b, c⟩
    exact h3 m ls l a b c

theorem readable_of_names {E : Env} (hP : Base64Ok E.P) {n hosts : Bytes} (h : Names E.P n hosts) : Readable E hosts := by
  have := (names_iff hP n hosts).2 h
  intro hh hn
  unfold matchMaybeHashed at this
  rw [if_pos hh, hn] at this
  cases this

theorem readable_of_either {E : Env} (hP : Base64Ok E.P) {hosts : Bytes} (h : NamesEither E.P E.host E.ip hosts) :
    Readable E hosts := by
  rcases h with h | ⟨a, _, h⟩ <;> exact readable_of_names hP h

/-- A plain line, as it is read. -/
theorem plain_read {E : Env} (hP : Base64Ok E.P) {l : Bytes} {k : Key} {ln : Line} (hr : Reads E l ln)
    (hp : Plain E.P E.host E.ip l k) : ln.key = some k ∧ ln.status = .matched ∧ ln.marker = .none := by
  obtain ⟨hosts, key, hs, hn, hk⟩ := hp
  obtain ⟨a, b⟩ := reads_says hr hs hk (readable_of_either hP hn)
  obtain ⟨hosts', key', hs', _, _, hst, _⟩ := reads_key hP hr a
  rw [b] at hs'
  obtain ⟨_, rfl, _⟩ := says_unique hs hs'
  exact ⟨a, hst.2 hn, b⟩

theorem read_plain {E : Env} (hP : Base64Ok E.P) {l : Bytes} {k : Key} {ln : Line} (hr : Reads E l ln)
    (hk : ln.key = some k) (hs : ln.status = .matched) (hm : ln.marker = .none) : Plain E.P E.host E.ip l k := by
  obtain ⟨hosts, key, hs', hrk, _, hst, _⟩ := reads_key hP hr hk
  rw [hm] at hs'
  exact ⟨hosts, key, hs', hst.1 hs, hrk⟩

theorem clean_marker {keys : List Key} {ip : Option Bytes} {ln : Line} {k : Key} (h : Clean keys ip ln)
    (hk : ln.key = some k) (hs : ln.status = .matched) : ln.marker = .none := ((h k hk).2 hs).1

/-- The keys about to go. -/
theorem old_iff {E : Env} (hP : Base64Ok E.P) {all : List Line} (G : Got E all) (keys : List Key)
    (hc : ∀ ln ∈ all, Clean keys E.ip ln) (k : Key) :
    k ∈ (all.foldl (findLine keys E.ip) {}).old ↔ Stale E keys k := by
  rw [fold_step hc, fold_mem.2]
  simp only [List.not_mem_nil, false_or]
  constructor
  · rintro ⟨ln, hln, hk, hs, hf⟩
    obtain ⟨l, hl, hr⟩ := G.from_ ln hln
    refine ⟨l, hl, read_plain hP hr hk hs (clean_marker (hc ln hln) hk hs), ?_⟩
    rw [List.findIdx?_eq_none_iff] at hf
    exact hf
  · rintro ⟨l, hl, hp, hx⟩
    obtain ⟨ln, hln, hr⟩ := G.all l hl
    obtain ⟨a, b, _⟩ := plain_read hP hr hp
    refine ⟨ln, hln, a, b, ?_⟩
    rw [List.findIdx?_eq_none_iff]
    exact hx

theorem equal_two {k a b : Key} (ha : a.cert = none) (h1 : equal k a = true) (h2 : equal k b = true) : equal a b = true := by
  simp only [equal, equalPublic, Bool.and_eq_true, decide_eq_true_eq] at h1 h2 ⊢
  exact ⟨⟨h1.1.1.symm.trans h2.1.1, by simp [Key.isCert, ha]⟩, h1.2.symm.trans h2.2⟩

/-- The keys already there. -/
theorem seen_iff {E : Env} (hP : Base64Ok E.P) {all : List Line} (G : Got E all) (keys : List Key)
    (hc : ∀ ln ∈ all, Clean keys E.ip ln) (hpl : ∀ k ∈ keys, k.cert = none)
    (hd : keys.Pairwise (fun a b => equal b a = false)) (i : Nat) (k : Key) (hi : keys[i]? = some k) :
    i ∈ (all.foldl (findLine keys E.ip) {}).seen ↔ Known E k := by
  rw [fold_step hc, fold_mem.1]
  simp only [List.not_mem_nil, false_or]
  obtain ⟨hlt, hik⟩ := List.getElem?_eq_some_iff.1 hi
  constructor
  · rintro ⟨ln, hln, k', hk, hs, hf⟩
    obtain ⟨l, hl, hr⟩ := G.from_ ln hln
    refine ⟨l, k', hl, read_plain hP hr hk hs (clean_marker (hc ln hln) hk hs), ?_⟩
    rw [List.findIdx?_eq_some_iff_getElem] at hf
    obtain ⟨_, h, _⟩ := hf
    rw [hik] at h; exact h
  · rintro ⟨l, k', hl, hp, he⟩
    obtain ⟨ln, hln, hr⟩ := G.all l hl
    obtain ⟨a, b, _⟩ := plain_read hP hr hp
    refine ⟨ln, hln, k', a, b, ?_⟩
    rw [List.findIdx?_eq_some_iff_getElem]
    refine ⟨hlt, by rw [hik]; exact he, ?_⟩
    intro j hj hx
    have hje : equal k' keys[j] = true := by simpa using hx
    have h1 := List.pairwise_iff_getElem.1 hd j i (by omega) hlt hj
    rw [hik, equal_two (hpl k (hik ▸ List.getElem_mem hlt)) he hje] at h1
    cases h1

/-- The files are tidy, in terms of what was read. -/
theorem tidy_iff {E : Env} (hP : Base64Ok E.P) {all : List Line} (G : Got E all) (keys : List Key) :
    ((∀ ln ∈ all, Clean keys E.ip ln) ∧ oldElsewhere (all.foldl (findLine keys E.ip) {}).old all = false) ↔
      Tidy E keys := by
  constructor
  · rintro ⟨hc, ho⟩ l mk hosts key k hl hs hk hg
    obtain ⟨ln, hln, hr⟩ := G.all l hl
    obtain ⟨h1, h2⟩ := reads_says hr hs hk hg
    obtain ⟨hosts', key', hs', hrk, _, hst, hmh, hmi, hf⟩ := reads_key hP hr h1
    rw [h2] at hs'
    obtain ⟨_, rfl, rfl⟩ := says_unique hs hs'
    obtain ⟨c1, c2⟩ := hc ln hln k h1
    constructor
    · intro hn
      obtain ⟨d1, d2, d3⟩ := c2 (hst.2 hn)
      rw [hf] at d2 d3
      refine ⟨h2 ▸ d1, (complex_iff _).1 d2, ?_⟩
      intro a ha hc'
      obtain ⟨e1, e2⟩ := d3 (by rw [ha]; rfl) hc'
      exact ⟨hmh.1 e1, (hmi a ha).1 e2⟩
    · intro hn
      have hns : ln.status ≠ .matched := fun e => hn (hst.1 e)
      refine ⟨?_, ?_⟩
      · intro x hx
        have := c1 hns
        rw [List.any_eq_false] at this
        simpa using this x hx
      · intro k' hst'
        have hk' := (old_iff hP G keys hc k').2 hst'
        unfold oldElsewhere at ho
        rw [List.any_eq_false] at ho
        have := ho ln hln
        rw [h1] at this
        simp only [Option.any_some, Bool.and_eq_true, decide_eq_true_eq, List.any_eq_true, not_and, not_exists] at this
        have := this hns k' hk'
        simpa using this
  · intro T
    have hc : ∀ ln ∈ all, Clean keys E.ip ln := by
      intro ln hln k hk
      obtain ⟨l, hl, hr⟩ := G.from_ ln hln
      obtain ⟨hosts, key, hs, hrk, hg, hst, hmh, hmi, hf⟩ := reads_key hP hr hk
      obtain ⟨t1, t2⟩ := T l ln.marker hosts key k hl hs hrk hg
      constructor
      · intro hns
        rw [List.any_eq_false]
        intro x hx
        rw [(t2 (fun hn => hns (hst.2 hn))).1 x hx]
        simp
      · intro hm
        obtain ⟨u1, u2, u3⟩ := t1 (hst.1 hm)
        rw [hf]
        refine ⟨u1, (complex_iff _).2 u2, ?_⟩
        intro hi h44
        obtain ⟨a, ha⟩ := Option.isSome_iff_exists.1 hi
        obtain ⟨v1, v2⟩ := u3 a ha h44
        exact ⟨hmh.2 v1, (hmi a ha).2 v2⟩
    refine ⟨hc, ?_⟩
    unfold oldElsewhere
    rw [List.any_eq_false]
    intro ln hln hx
    simp only [Bool.and_eq_true, decide_eq_true_eq] at hx
    obtain ⟨hns, hx⟩ := hx
    cases hk : ln.key with
    | none => rw [hk] at hx; simp at hx
    | some k =>
      rw [hk] at hx
      simp only [Option.any_some, List.any_eq_true] at hx
      obtain ⟨k', hk', he⟩ := hx
      obtain ⟨l, hl, hr⟩ := G.from_ ln hln
      obtain ⟨hosts, key, hs, hrk, hg, hst, _⟩ := reads_key hP hr hk
      have := ((T l ln.marker hosts key k hl hs hrk hg).2 (fun hn => hns (hst.2 hn))).2 k'
        ((old_iff hP G keys hc k').1 hk')
      rw [this] at he; cases he

theorem marked_all (keys : List Key) (seen : List Nat) :
    (marked keys seen).all Prod.snd = true ↔ ∀ i k, keys[i]? = some k → i ∈ seen := by
  unfold marked
  rw [List.all_eq_true]
  constructor
  · intro h i k hi
    obtain ⟨hlt, hik⟩ := List.getElem?_eq_some_iff.1 hi
    have := h (k, decide (i ∈ seen)) (List.mem_mapIdx.2 ⟨i, hlt, by rw [hik]⟩)
    simpa using this
  · intro h x hx
    obtain ⟨i, hlt, rfl⟩ := List.mem_mapIdx.1 hx
    simpa using h i _ (List.getElem?_eq_getElem hlt)

/-- What the announcement leads to, on the level of the files. -/
theorem plan_cases {E : Env} (hP : Base64Ok E.P) (he : Ended E) (keys : List Key) (hpl : ∀ k ∈ keys, k.cert = none)
    (hd : keys.Pairwise (fun a b => equal b a = false)) :
    (plan E keys = .nothing ∧ (keys = [] ∨ (((∀ k ∈ keys, Known E k) ∧ ∀ k, ¬ Stale E keys k)) ∨ ¬ Tidy E keys)) ∨
    (plan E keys = .update keys ∧ keys ≠ [] ∧ (∀ k ∈ keys, Known E k) ∧ (∃ k, Stale E keys k) ∧ Tidy E keys) ∨
    (keys ≠ [] ∧ (∃ k ∈ keys, ¬ Known E k) ∧ Tidy E keys ∧ ∃ ks : List (Key × Bool), plan E keys = .prove ks ∧
      ks.map Prod.fst = keys ∧ ∀ x ∈ ks, x.2 = true ↔ Known E x.1) := by
  obtain ⟨all, G⟩ := got E he
  unfold plan
  by_cases hk : keys = []
  · left; rw [if_pos hk]; exact ⟨rfl, .inl hk⟩
  rw [if_neg hk, G.read]
  dsimp only
  unfold decide_
  have hflags := fold_flags (keys := keys) (ip := E.ip) (ls := all) (f := {})
  have ht := tidy_iff hP G keys
  have hold := old_iff hP G keys
  have hseen := seen_iff hP G keys
  generalize all.foldl (findLine keys E.ip) {} = f at hflags ht hold hseen ⊢
  by_cases hc : ∀ ln ∈ all, Clean keys E.ip ln
  · obtain ⟨f1, f2⟩ := hflags.2 ⟨⟨rfl, rfl⟩, hc⟩
    replace hold := hold hc
    replace hseen := fun i k h => hseen hc hpl hd i k h
    have hnew : (marked keys f.seen).all Prod.snd = true ↔ ∀ k ∈ keys, Known E k := by
      rw [marked_all]
      constructor
      · intro h k hk'
        obtain ⟨i, hi⟩ := List.mem_iff_getElem?.1 hk'
        exact (hseen i k hi).1 (h i k hi)
      · intro h i k hi
        exact (hseen i k hi).2 (h k (List.mem_iff_getElem?.2 ⟨i, hi⟩))
    have hemp : f.old.isEmpty = true ↔ ∀ k, ¬ Stale E keys k := by
      rw [List.isEmpty_iff, List.eq_nil_iff_forall_not_mem]
      constructor
      · intro h k hs; exact h k ((hold k).2 hs)
      · intro h k hs; exact h k ((hold k).1 hs)
    by_cases h1 : ((marked keys f.seen).all Prod.snd && f.old.isEmpty) = true
    · left
      rw [if_pos h1]
      rw [Bool.and_eq_true] at h1
      exact ⟨rfl, .inr (.inl ⟨hnew.1 h1.1, hemp.1 h1.2⟩)⟩
    rw [if_neg h1, if_neg (by simp [f1]), if_neg (by simp [f2])]
    have hel : oldElsewhere f.old all = true → f.old.isEmpty = false := by
      intro h
      cases ho : f.old with
      | nil => rw [ho] at h; simp [oldElsewhere] at h
      | cons => rfl
    by_cases h2 : oldElsewhere f.old all = true
    · left
      rw [if_pos (by simp [h2, hel h2])]
      refine ⟨rfl, .inr (.inr fun hT => ?_)⟩
      rw [(ht.2 hT).2] at h2; cases h2
    · rw [if_neg (by simp [h2])]
      have hT := ht.1 ⟨hc, by simpa using h2⟩
      right
      by_cases h3 : (marked keys f.seen).all Prod.snd = true
      · left
        rw [if_pos h3]
        refine ⟨rfl, hk, hnew.1 h3, ?_, hT⟩
        apply Classical.byContradiction
        intro hn
        exact h1 (by rw [h3, hemp.2 fun k hs => hn ⟨k, hs⟩]; rfl)
      · right
        rw [if_neg h3]
        refine ⟨hk, ?_, hT, _, rfl, ?_, ?_⟩
        · apply Classical.byContradiction
          intro hn
          exact h3 (hnew.2 fun k hk' => Classical.byContradiction fun hx => hn ⟨k, hk', hx⟩)
        · unfold marked
          apply List.ext_getElem?
          intro i
          rw [List.getElem?_map, List.getElem?_mapIdx, Option.map_map]
          cases keys[i]? <;> rfl
        · intro x hx
          obtain ⟨i, hlt, rfl⟩ := List.mem_mapIdx.1 hx
          simpa using hseen i _ (List.getElem?_eq_getElem hlt)
  · left
    refine ⟨?_, .inr (.inr fun hT => hc (ht.2 hT).1)⟩
    by_cases h1 : ((marked keys f.seen).all Prod.snd && f.old.isEmpty) = true
    · rw [if_pos h1]
    rw [if_neg h1]
    by_cases h2 : f.complex = true
    · rw [if_pos h2]
    rw [if_neg h2]
    by_cases h3 : f.other = true
    · rw [if_pos h3]
    exact absurd (hflags.1 ⟨by simpa using h2, by simpa using h3⟩).2 hc

/-- May the client act on an announcement at all? -/
def May (E : Env) (blobs : List Bytes) : Prop :=
  E.mode ≠ .off ∧ ¬ (E.mode = .ask ∧ E.batch = true) ∧ E.files ≠ [] ∧
    (accepted E blobs).Pairwise (fun a b => equal b a = false)

theorem announce_eq (E : Env) (blobs : List Bytes) :
    (May E blobs ∧ announce E blobs = plan E (accepted E blobs)) ∨ (¬ May E blobs ∧ announce E blobs = .nothing) := by
  unfold announce canUpdate May
  by_cases h1 : E.mode = .ask ∧ E.batch = true
  · right
    refine ⟨fun h => h.2.1 h1, ?_⟩
    rw [if_pos]; simp [h1]
  by_cases h2 : E.mode = .off ∨ E.files = []
  · right
    refine ⟨fun h => h2.elim h.1 h.2.2.1, ?_⟩
    have : (E.mode = .ask && E.batch) = false := by
      cases hb : E.batch
      · simp
      · simp only [hb, and_true] at h1; simp [h1]
    rw [if_pos]
    simp [this, h2]
  have hcu : (!(if (decide (E.mode = .ask) && E.batch) = true then false
      else if (decide (E.mode = .off) || decide (E.files = [])) = true then false else true)) = false := by
    rw [if_neg (by simpa using h1), if_neg (by simpa using h2)]; rfl
  rw [if_neg (by rw [hcu]; simp)]
  cases hc : collect E blobs [] with
  | none =>
    right
    refine ⟨?_, rfl⟩
    rintro ⟨_, _, _, hd⟩
    have := (collect_iff E blobs [] (accepted E blobs)).2 ⟨rfl, hd, by simp⟩
    rw [hc] at this; cases this
  | some ks =>
    obtain ⟨rfl, hd, _⟩ := (collect_iff E blobs [] ks).1 hc
    left
    rw [not_or] at h2
    exact ⟨⟨h2.1, h1, h2.2, hd⟩, rfl⟩

theorem accepted_plain (E : Env) (blobs : List Bytes) : ∀ k ∈ accepted E blobs, k.cert = none :=
  fun _ hk => (accepted_mem.1 hk).choose_spec.2.2.2

/-- **C83 (when).**  The client acts on an announcement exactly if it is allowed to, no key comes twice, some
announced key is not listed for the host yet or some listed one was not announced, and nothing in the files
speaks against it. -/
theorem C83_when (E : Env) (hP : Base64Ok E.P) (he : Ended E) (blobs : List Bytes) :
    announce E blobs ≠ .nothing ↔ May E blobs ∧ accepted E blobs ≠ [] ∧
      ((∃ k ∈ accepted E blobs, ¬ Known E k) ∨ ∃ k, Stale E (accepted E blobs) k) ∧ Tidy E (accepted E blobs) := by
  rcases announce_eq E blobs with ⟨hm, h⟩ | ⟨hm, h⟩
  · rw [h]
    rcases plan_cases hP he (accepted E blobs) (accepted_plain E blobs) hm.2.2.2 with
      ⟨hp, hx⟩ | ⟨hp, h1, h2, h3, h4⟩ | ⟨h1, h2, h3, ks, hp, _⟩
    · simp only [hp, ne_eq, not_true_eq_false, false_iff]
      rintro ⟨_, h1, h2, h3⟩
      rcases hx with hx | ⟨hx, hy⟩ | hx
      · exact h1 hx
      · rcases h2 with ⟨k, hk, hn⟩ | ⟨k, hs⟩
        · exact hn (hx k hk)
        · exact hy k hs
      · exact hx h3
    · rw [hp]; exact ⟨fun _ => ⟨hm, h1, .inr h3, h4⟩, fun _ h => by cases h⟩
    · rw [hp]; exact ⟨fun _ => ⟨hm, h1, .inl h2, h3⟩, fun _ h => by cases h⟩
  · rw [h]; simp [hm]

/-- The keys that stay after the proof. -/
theorem prove_spec (E : Env) (ks : List (Key × Bool)) (sigs : List Bytes) (out : List Key)
    (h : prove E ks sigs = some out) :
    (∀ k ∈ out, ∃ x ∈ ks, x.1 = k ∧ (x.2 = true ∨ Proved E sigs k)) ∧
    (∀ x ∈ ks, x.1 ∈ out ∨ (x.2 = false ∧ E.isRsa x.1 = true ∧ E.rsaKex = none ∧ ∃ sig ∈ sigs, ∃ a, E.sigAlg sig = some a ∧
      a ≠ b!"rsa-sha2-512" ∧ a ≠ b!"rsa-sha2-256")) ∧ out.Sublist (ks.map Prod.fst) ∧
    (ks.filter (fun x => !x.2)).length = sigs.length := by
  induction ks generalizing sigs out with
  | nil =>
    cases sigs with
    | nil => simp [prove] at h; subst h; simp
    | cons => simp [prove] at h
  | cons x ks ih =>
    obtain ⟨k, b⟩ := x
    have weak : ∀ {s : Bytes} {ss : List Bytes} {k : Key}, Proved E ss k → Proved E (s :: ss) k := by
      rintro s ss k ⟨sig, h1, h2⟩; exact ⟨sig, by simp [h1], h2⟩
    cases b with
    | true =>
      rw [prove] at h
      cases hp : prove E ks sigs with
      | none => rw [hp] at h; cases h
      | some o =>
        rw [hp] at h; simp at h; subst h
        obtain ⟨i1, i2, i3, i4⟩ := ih sigs o hp
        refine ⟨?_, ?_, ?_, by simpa using i4⟩
        · intro k' hk'
          rcases List.mem_cons.1 hk' with rfl | hk'
          · exact ⟨(k', true), by simp, rfl, .inl rfl⟩
          · obtain ⟨x, a, b⟩ := i1 k' hk'; exact ⟨x, by simp [a], b⟩
        · intro x hx
          rcases List.mem_cons.1 hx with rfl | hx
          · left; simp
          · rcases i2 x hx with h | h
            · left; simp [h]
            · exact .inr h
        · simpa using i3
    | false =>
      cases sigs with
      | nil => simp [prove] at h
      | cons sig sigs =>
        rw [prove] at h
        cases ha : E.sigAlg sig with
        | none => rw [ha] at h; cases h
        | some alg =>
          rw [ha] at h
          dsimp only at h
          by_cases hz : (E.isRsa k && E.rsaKex.isNone && decide (alg ∉ proofRsaAlgs)) = true
          · rw [if_pos hz] at h
            obtain ⟨i1, i2, i3, i4⟩ := ih sigs out h
            simp only [Bool.and_eq_true, decide_eq_true_eq, Option.isNone_iff_eq_none, proofRsaAlgs, List.mem_cons,
              List.not_mem_nil, or_false, not_or] at hz
            refine ⟨?_, ?_, ?_, by simpa using i4⟩
            · intro k' hk'
              obtain ⟨x, a, b, c⟩ := i1 k' hk'
              exact ⟨x, by simp [a], b, c.imp id weak⟩
            · intro x hx
              rcases List.mem_cons.1 hx with rfl | hx
              · exact .inr ⟨rfl, hz.1.1, hz.1.2, sig, by simp, alg, ha, hz.2.1, hz.2.2⟩
              · rcases i2 x hx with h | ⟨h1, h2, h3, s, hs, h4⟩
                · exact .inl h
                · exact .inr ⟨h1, h2, h3, s, by simp [hs], h4⟩
            · exact i3.cons _
          · rw [if_neg hz] at h
            by_cases hv : E.verify k sig (proofData E k) (if E.isRsa k then E.rsaKex else none) = true
            · rw [if_neg (by simp [hv])] at h
              cases hp : prove E ks sigs with
              | none => rw [hp] at h; cases h
              | some o =>
                rw [hp] at h; simp at h; subst h
                obtain ⟨i1, i2, i3, i4⟩ := ih sigs o hp
                refine ⟨?_, ?_, ?_, by simpa using i4⟩
                · intro k' hk'
                  rcases List.mem_cons.1 hk' with rfl | hk'
                  · refine ⟨(k', false), by simp, rfl, .inr ⟨sig, by simp, ?_, ?_⟩⟩
                    · unfold proofData at hv; rw [List.append_assoc] at hv; exact hv
                    · intro h1 h2
                      rw [ha]
                      have : alg ∈ proofRsaAlgs := by
                        apply Classical.byContradiction
                        intro hn; exact hz (by simp [h1, h2, hn])
                      simp only [proofRsaAlgs, List.mem_cons, List.not_mem_nil, or_false] at this
                      exact this.imp (congrArg some) (congrArg some)
                  · obtain ⟨x, a, b, c⟩ := i1 k' hk'
                    exact ⟨x, by simp [a], b, c.imp id weak⟩
                · intro x hx
                  rcases List.mem_cons.1 hx with rfl | hx
                  · left; simp
                  · rcases i2 x hx with h | ⟨h1, h2, h3, s, hs, h4⟩
                    · left; simp [h]
                    · exact .inr ⟨h1, h2, h3, s, by simp [hs], h4⟩
                · simpa using i3
            · rw [if_pos (by simpa using hv)] at h; cases h

theorem update_some {E : Env} {keys : List Key} {replies : List Bytes} {out : List (Option (List Bytes))}
    (h : update E keys replies = some out) : (E.mode = .ask → Agreed replies) ∧ out = write E keys := by
  unfold update at h
  by_cases hx : (decide (E.mode = .ask) && !ask 3 replies) = true
  · rw [if_pos hx] at h; cases h
  · rw [if_neg hx] at h
    refine ⟨?_, (Option.some.inj h).symm⟩
    intro hm
    apply (ask_iff 3 replies).1
    simp only [hm, decide_true, Bool.true_and, Bool.not_eq_true, Bool.not_eq_false'] at hx
    exact hx

/-- Whenever the files are rewritten: with which keys. -/
theorem run_some {E : Env} (hP : Base64Ok E.P) (he : Ended E) {blobs : List Bytes} {answer : Option (List Bytes)}
    {replies : List Bytes} {out : List (Option (List Bytes))} (h : run E blobs answer replies = some out) :
    announce E blobs ≠ .nothing ∧ (E.mode = .ask → Agreed replies) ∧ ∃ ks, out = write E ks ∧
      ks.Sublist (accepted E blobs) ∧
      (∀ k ∈ ks, Known E k ∨ ∃ sigs, answer = some sigs ∧ Proved E sigs k) ∧
      (∀ k ∈ accepted E blobs, k ∈ ks ∨ (¬ Known E k ∧ E.isRsa k = true ∧ E.rsaKex = none ∧
        ∃ sigs, answer = some sigs ∧ ∃ sig ∈ sigs, ∃ a, E.sigAlg sig = some a ∧ a ≠ b!"rsa-sha2-512" ∧ a ≠ b!"rsa-sha2-256")) := by
  unfold run at h
  rcases announce_eq E blobs with ⟨hm, ha⟩ | ⟨hm, ha⟩
  · rw [ha] at h ⊢
    rcases plan_cases hP he (accepted E blobs) (accepted_plain E blobs) hm.2.2.2 with
      ⟨hp, hx⟩ | ⟨hp, h1, h2, h3, h4⟩ | ⟨h1, h2, h3, ks, hp, hk1, hk2⟩
    · rw [hp] at h; cases h
    · rw [hp] at h ⊢
      obtain ⟨u1, u2⟩ := update_some h
      exact ⟨fun h => (by cases h), u1, _, u2, List.Sublist.refl _, fun k hk => .inl (h2 k hk), fun k hk => .inl hk⟩
    · rw [hp] at h ⊢
      dsimp only at h
      unfold confirm at h
      cases answer with
      | none => cases h
      | some sigs =>
        dsimp only at h
        cases hpr : prove E ks sigs with
        | none => rw [hpr] at h; cases h
        | some keys =>
          rw [hpr] at h
          obtain ⟨u1, u2⟩ := update_some h
          obtain ⟨p1, p2, p3, _⟩ := prove_spec E ks sigs keys hpr
          refine ⟨fun h => (by cases h), u1, keys, u2, hk1 ▸ p3, ?_, ?_⟩
          · intro k hk
            obtain ⟨x, hx, rfl, hh⟩ := p1 k hk
            rcases hh with hh | hh
            · exact .inl ((hk2 x hx).1 hh)
            · exact .inr ⟨sigs, rfl, hh⟩
          · intro k hk
            rw [← hk1] at hk
            obtain ⟨x, hx, rfl⟩ := List.mem_map.1 hk
            rcases p2 x hx with h | ⟨h1, h2, h3, hs⟩
            · exact .inl h
            · refine .inr ⟨fun hn => ?_, h2, h3, sigs, rfl, hs⟩
              rw [(hk2 x hx).2 hn] at h1; cases h1
  · rw [ha] at h; cases h

/-- **C83 (consent).**  The files change only if the client may act on the announcement, nothing in the files
speaks against it, and with `ask` the user agreed. -/
theorem C83_asked (E : Env) (hP : Base64Ok E.P) (he : Ended E) (blobs : List Bytes) (answer : Option (List Bytes))
    (replies : List Bytes) (out : List (Option (List Bytes))) (h : run E blobs answer replies = some out) :
    May E blobs ∧ Tidy E (accepted E blobs) ∧ (E.mode = .ask → Agreed replies) := by
  obtain ⟨h1, h2, _⟩ := run_some hP he h
  obtain ⟨a, _, _, b⟩ := (C83_when E hP he blobs).1 h1
  exact ⟨a, b, h2⟩

theorem write_file {E : Env} {ks : List Key} {i : Nat} {ls' : List Bytes} (h : (write E ks)[i]? = some (some ls')) :
    ∃ mems, E.files[i]? = some (some mems) ∧
      replaceEntries E.P E.salt E.hash E.host E.ip (if i = 0 then ks else []) mems = some ls' := by
  unfold write at h
  rw [List.getElem?_mapIdx] at h
  cases hf : E.files[i]? with
  | none => rw [hf] at h; cases h
  | some f =>
    rw [hf] at h
    simp only [Option.map_some, Option.some.injEq] at h
    cases f with
    | none => cases h
    | some mems => exact ⟨mems, rfl, h⟩

theorem Setting.sub {P : Prims} {salt : Bytes → Bytes} {hash : Bool} {host : Bytes} {ip : Option Bytes}
    {ks ks' : List Key} (S : Setting P salt hash host ip ks) (h : ∀ k ∈ ks', k ∈ ks) : Setting P salt hash host ip ks' :=
  ⟨S.b64, S.noBlank, S.salts, S.names, fun k hk => S.write k (h k hk)⟩

/-- **C83 (what is listed).**  After the change, a key listed on an unmarked line for the host or its address,
in any of the files, is one the server announced, of an accepted algorithm and not a certificate, and was
listed for the host or its address before or its private half was proved to be the server's.  Conversely all
those are listed for both in the first file, if there is one, except RSA keys proved with SHA-1. -/
theorem C83_listed (E : Env) (he : Ended E) (blobs : List Bytes)
    (S : Setting E.P E.salt E.hash E.host E.ip (accepted E blobs)) (answer : Option (List Bytes))
    (replies : List Bytes) (out : List (Option (List Bytes))) (h : run E blobs answer replies = some out)
    (n : Bytes) (hn : n = E.host ∨ E.ip = some n) :
    (∀ i ls', out[i]? = some (some ls') → ∀ k', Lists E.P ls' n .none k' →
      i = 0 ∧ ∃ k ∈ accepted E blobs, equal k k' = true ∧ (Known E k ∨ ∃ sigs, answer = some sigs ∧ Proved E sigs k)) ∧
    (∀ mems, E.files[0]? = some (some mems) → ∃ ls', out[0]? = some (some ls') ∧ ∀ k ∈ accepted E blobs,
      (∃ k', equal k k' = true ∧ Lists E.P ls' n .none k') ∨
      (¬ Known E k ∧ E.isRsa k = true ∧ E.rsaKex = none ∧ ∃ sigs, answer = some sigs ∧
        ∃ sig ∈ sigs, ∃ a, E.sigAlg sig = some a ∧ a ≠ b!"rsa-sha2-512" ∧ a ≠ b!"rsa-sha2-256")) := by
  obtain ⟨_, _, ks, rfl, hsub, h1, h2⟩ := run_some S.b64 he h
  constructor
  · intro i ls' hi k' hk'
    obtain ⟨mems, hf, hr⟩ := write_file hi
    obtain ⟨ls, ht⟩ := he mems (List.mem_of_getElem? hf)
    by_cases h0 : i = 0
    · rw [if_pos h0] at hr
      obtain ⟨out, ho, hl⟩ := C62_listed (Setting.sub S (fun k hk => hsub.subset hk) : Setting _ _ _ _ _ ks) ht
      rw [hr] at ho; injection ho with ho; subst ho
      obtain ⟨k, hk, hkk⟩ := (hl n hn).2 k' hk'
      exact ⟨h0, k, hsub.subset hk, hkk, h1 k hk⟩
    · rw [if_neg h0] at hr
      obtain ⟨out, ho, hl⟩ := C62_listed (Setting.sub S (by simp) : Setting _ _ _ _ _ []) ht
      rw [hr] at ho; injection ho with ho; subst ho
      obtain ⟨k, hk, _⟩ := (hl n hn).2 k' hk'
      cases hk
  · intro mems hf
    obtain ⟨ls, ht⟩ := he mems (List.mem_of_getElem? hf)
    obtain ⟨out, ho, hl⟩ := C62_listed (Setting.sub S (fun k hk => hsub.subset hk) : Setting _ _ _ _ _ ks) ht
    refine ⟨out, ?_, ?_⟩
    · unfold write
      rw [List.getElem?_mapIdx, hf]
      simp [ho]
    · intro k hk
      rcases h2 k hk with hk | hx
      · exact .inl ((hl n hn).1 k hk)
      · exact .inr hx

/-- **C83 (the rest).**  Every other line stays, in order: the only ones that go are unmarked lines for the host
or its address. -/
theorem C83_kept (E : Env) (hP : Base64Ok E.P) (he : Ended E) (blobs : List Bytes) (answer : Option (List Bytes))
    (replies : List Bytes) (out : List (Option (List Bytes))) (h : run E blobs answer replies = some out)
    (i : Nat) (ls' : List Bytes) (hi : out[i]? = some (some ls')) :
    ∃ mems ls, E.files[i]? = some (some mems) ∧ Terminated mems ls ∧ ∃ (keep : Bytes → Bool) (added : List Bytes),
      ls' = ls.filter keep ++ added ∧ ∀ l ∈ ls, keep l = false → ∃ k, Plain E.P E.host E.ip l k := by
  obtain ⟨_, _, ks, rfl, _⟩ := run_some hP he h
  obtain ⟨mems, hf, hr⟩ := write_file hi
  obtain ⟨ls, ht⟩ := he mems (List.mem_of_getElem? hf)
  obtain ⟨keep, added, ho, hk⟩ := C62_kept hP E.salt E.hash E.host E.ip (if i = 0 then ks else []) ht
  rw [hr] at ho; injection ho with ho
  refine ⟨mems, ls, hf, ht, keep, added, ho, ?_⟩
  intro l hl hx
  obtain ⟨k, hp, _⟩ := (hk l hl).1 hx
  exact ⟨k, hp⟩

/-! ## Concrete cases -/

/-- Keys are blobs of one letter; signatures are the key, its algorithm byte and the data's length in a
letter. -/
def env (files : List (Option (List Bytes))) (ip : Option Bytes) (mode : Mode) (ok : Bytes) : Env where
  P := toy
  salt _ := List.replicate 20 1
  hash := false
  mode := mode
  batch := false
  host := b!"h"
  ip := ip
  files := files.map (·.map (·.map (· ++ [10, 0])))
  parse b := if b.length = 1 then some { pub := b, type := 1 } else none
  blob k := k.pub
  algOk k := ok.all (fun c => decide (c ∉ k.pub))
  isRsa k := k.pub = b!"R"
  sid := b!"session"
  rsaKex := none
  sigAlg s := if s.take 1 = b!"1" then some b!"ssh-rsa" else some b!"rsa-sha2-256"
  verify k s d _ := s.drop 1 = k.pub ++ d

/-- A signature by the key `k`. -/
def sign (a k : Bytes) : Bytes :=
  a ++ (k ++ (Wire.str b!"hostkeys-prove-00@openssh.com" ++ (Wire.str b!"session" ++ Wire.str k)))

example : run (env [some [b!"x t Z", b!"h t K", b!"h t O"]] none .yes b!"") [b!"N", b!"K", b!"R"]
    (some [sign b!"2" b!"N", sign b!"2" b!"R"]) [] = some [some [b!"x t Z", b!"h t K", b!"h t N", b!"h t R"]] := by
  decide +kernel
/-- Without a proof for one of the keys nothing changes. -/
example : run (env [some [b!"h t K"]] none .yes b!"") [b!"N", b!"K"] (some [sign b!"2" b!"K"]) [] = none := by
  decide +kernel
example : run (env [some [b!"h t K"]] none .ask b!"") [b!"N", b!"K"] (some [sign b!"2" b!"N"]) [b!"what", b!"no"] = none ∧
    run (env [some [b!"h t K"]] none .ask b!"") [b!"N", b!"K"] (some [sign b!"2" b!"N"]) [b!"what", b!"YES"] =
      some [some [b!"h t K", b!"h t N"]] := by
  decide +kernel
/-- An RSA key proved with SHA-1 is left out. -/
example : run (env [some [b!"h t K"]] none .yes b!"") [b!"N", b!"K", b!"R"]
    (some [sign b!"2" b!"N", sign b!"1" b!"R"]) [] = some [some [b!"h t K", b!"h t N"]] := by
  decide +kernel
/-- A revoked key for the host, a wildcard, the key under another name: nothing happens. -/
example : ∀ l ∈ [b!"@revoked h t Z", b!"h* t K", b!"x t K", b!"x t O"],
    run (env [some [b!"h t K", b!"h t O", l]] none .yes b!"") [b!"K"] (some []) [] = none := by
  decide +kernel

theorem env_ended (files : List (Option (List Bytes))) (ip : Option Bytes) (mode : Mode) (ok : Bytes)
    (h : ∀ f ∈ files, ∀ ls, f = some ls → ∀ l ∈ ls, 0 ∉ l ∧ 10 ∉ l) : Ended (env files ip mode ok) := by
  intro mems hm
  have hm' : some mems ∈ files.map (·.map (·.map (· ++ [10, 0]))) := hm
  obtain ⟨f, hf, he⟩ := List.mem_map.1 hm'
  cases f with
  | none => cases he
  | some ls =>
    simp only [Option.map_some, Option.some.injEq] at he
    subst he
    refine ⟨ls, ?_⟩
    have hl := h _ hf ls rfl
    clear hf hm hm'
    induction ls with
    | nil => trivial
    | cons l ls ih =>
      exact ⟨⟨(hl l (by simp)).1, (hl l (by simp)).2, [], rfl⟩, ih (fun x hx => hl x (by simp [hx]))⟩

/-- The hypotheses are met by the first case. -/
example : May (env [some [b!"h t K"]] none .yes b!"") [b!"N", b!"K"] ∧
    Tidy (env [some [b!"h t K"]] none .yes b!"") (accepted (env [some [b!"h t K"]] none .yes b!"") [b!"N", b!"K"]) := by
  have h := C83_asked (env [some [b!"h t K"]] none .yes b!"") toy_ok
    (env_ended _ _ _ _ (by
      intro f hf ls he l hl
      simp only [List.mem_singleton] at hf
      subst hf
      injection he with he; subst he
      simp only [List.mem_singleton] at hl
      subst hl
      decide)) [b!"N", b!"K"] (some [sign b!"2" b!"N"]) []
    [some [b!"h t K", b!"h t N"]] (by decide +kernel)
  exact ⟨h.1, h.2.1⟩

/-- Where the first of the files does not exist, all the host's keys are lost from the others. -/
theorem C83_first_missing_false :
    run (env [none, some [b!"x t Z", b!"h t K"]] none .yes b!"") [b!"N", b!"K"] (some [sign b!"2" b!"N"]) [] =
      some [none, some [b!"x t Z"]] := by
  decide +kernel

/-- A key that the server does announce is removed, if its algorithm is not in HostkeyAlgorithms now. -/
theorem C83_algorithms_false :
    run (env [some [b!"h t K", b!"h t O"]] none .yes b!"O") [b!"K", b!"O"] none [] = some [some [b!"h t K"]] := by
  decide +kernel

/-- A key listed only for the address is listed for the name afterwards without any proof. -/
theorem C83_address_false :
    run (env [some [b!"h t K", b!"1 t K", b!"1 t A", b!"h t O"]] (some b!"1") .yes b!"") [b!"K", b!"A"] none [] =
      some [some [b!"h t K", b!"1 t K", b!"1 t A", b!"h t A"]] := by
  decide +kernel

end Verif.HostKey.Update
