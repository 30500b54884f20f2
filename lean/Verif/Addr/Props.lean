/-
C09: CIDR matching.  C51: address lists.
-/
import Verif.Addr.Lemmas
import Verif.Match.Props

namespace Verif.Addr
open Verif Text

/-! ## C09 -/

/-- `addr_netmatch` against any network value: masked host bits equal the network's bits. -/
theorem netmatch_bits (host net : XAddr) (l : Nat) (hk : Known net) :
    netmatch host net l = 0 ↔
      host.af = net.af ∧ l ≤ width net.af ∧ (∀ i < width net.af, (bit host i && decide (i < l)) = bit net i) ∧
      (host.af = .inet6 → host.scope = net.scope) := by
  unfold netmatch
  by_cases haf : host.af = net.af
  · rw [if_neg (by simp [haf])]
    by_cases hl : l ≤ width net.af
    · obtain ⟨m, hm, hmaf, hb⟩ := netmask_bits host.af l (by rw [haf]; exact hl) (by rw [haf]; exact hk)
      obtain ⟨r, hr, hraf, hrs⟩ := and_ok host m (by rw [Known, haf]; exact hk) hmaf.symm
      simp only [hm, hr]
      rw [cmp_zero r net (by rw [Known, hraf, haf]; exact hk) (by rw [hraf, haf]), hraf, hrs]
      constructor
      · rintro ⟨h1, h2⟩
        refine ⟨haf, hl, fun i hi => ?_, h2⟩
        rw [← h1 i (by rw [haf]; exact hi), bit_and host m r hr i (by rw [haf]; exact hi), hb i (by rw [haf]; exact hi)]
      · rintro ⟨-, -, h1, h2⟩
        refine ⟨fun i hi => ?_, h2⟩
        rw [bit_and host m r hr i hi, hb i hi]
        exact h1 i (by rw [← haf]; exact hi)
    · rw [netmask_none host.af l (by rw [haf]; exact .inl hl)]
      simp [hl]
  · rw [if_pos haf]
    simp [haf]

/-- What `addr_pton_cidr` accepts has a legal length and no host bits. -/
theorem ptonCidr_ok (pton : Bytes → Option XAddr) (hp : ∀ s a, pton s = some a → Known a)
    {e : Bytes} {n : XAddr} {l : Nat} (h : ptonCidr pton e = .ok n l) :
    Known n ∧ l ≤ width n.af ∧ HostBitsZero n l := by
  have key : ∀ host m, ptonCidr.finish pton host m = .ok n l → Known n ∧ l ≤ width n.af ∧ HostBitsZero n l := by
    intro host m hf
    unfold ptonCidr.finish at hf
    split at hf
    · simp at hf
    · rename_i a ha
      simp only at hf
      split at hf
      · simp at hf
      · rename_i h1
        split at hf
        · simp at hf
        · rename_i h2
          simp only [CidrRes.ok.injEq] at hf
          obtain ⟨rfl, rfl⟩ := hf
          have hk := hp _ _ ha
          have hl : m.getD (unicastMasklen a.af) ≤ width a.af := by
            rcases hk with hk | hk <;> simpa [hk, masklenValid, width] using h1
          exact ⟨hk, hl, (hostIsAll0s_iff a _ hk hl).1 (by simpa using h2)⟩
  unfold ptonCidr at h
  split at h
  · simp at h
  · split at h
    · split at h
      · simp at h
      · exact key _ _ h
    · exact key _ _ h

/-- C09 (all of it except IPv6 scopes): an address matches the network `net/l` exactly when both are of
the same family and their leading `l` bits agree.  `net` has no bits beyond `l`, which is what the parser
guarantees (`C09_text`).  Missing: for IPv6 addresses with different scope ids the code never matches. -/
theorem C09_netmatch_partial (host net : XAddr) (l : Nat) (hk : Known net) (hz : HostBitsZero net l)
    (hs : host.af = .inet6 → host.scope = net.scope) :
    netmatch host net l = 0 ↔ InNet host net l := by
  rw [netmatch_bits host net l hk]
  constructor
  · rintro ⟨haf, hl, h, -⟩
    refine ⟨haf, hl, fun i hi => ?_⟩
    have := h i (by omega)
    simpa [hi] using this
  · rintro ⟨haf, hl, h⟩
    refine ⟨haf, hl, fun i hi => ?_, hs⟩
    by_cases hil : i < l
    · simp [hil, h i hil]
    · simp [hil, hz i (by omega) hi]

/-- Entries written as text: whatever numeric-address parser is used, an entry accepted as a network
matches exactly the addresses in it. -/
theorem C09_text (pton : Bytes → Option XAddr) (hp : ∀ s a, pton s = some a → Known a)
    (e : Bytes) (n : XAddr) (l : Nat) (h : ptonCidr pton e = .ok n l) (host : XAddr) :
    netmatch host n l = 0 ↔ InNet host n l ∧ (host.af = .inet6 → host.scope = n.scope) := by
  obtain ⟨hk, hl, hz⟩ := ptonCidr_ok pton hp h
  constructor
  · intro hm
    have hs := ((netmatch_bits host n l hk).1 hm).2.2.2
    exact ⟨(C09_netmatch_partial host n l hk hz hs).1 hm, hs⟩
  · rintro ⟨h1, h2⟩
    exact (C09_netmatch_partial host n l hk hz h2).2 h1

/-- Invalid prefix lengths never match, whatever the addresses. -/
theorem C09_invalid_length (host net : XAddr) (l : Nat) (h : width host.af < l) : netmatch host net l ≠ 0 := by
  unfold netmatch
  split
  · decide
  · rw [netmask_none host.af l (.inl (by omega))]
    simp

/-- A text entry with a prefix length larger than the address is refused as inconsistent. -/
theorem C09_text_invalid_length (pton : Bytes → Option XAddr) (host m : Bytes) (a : XAddr) (l : Int)
    (hlen : (host ++ 47 :: m).length < 64) (hh : 47 ∉ host) (hm : Num.strtonum m 0 2147483647 = some l)
    (hp : pton host = some a) (h : width a.af < l.toNat) :
    ptonCidr pton (host ++ 47 :: m) = .inconsistent := by
  have hs : strsep 47 (host ++ 47 :: m) = (host, some m) := by
    clear hlen hp
    induction host with
    | nil => simp [strsep_cons]
    | cons x xs ih =>
      simp only [List.mem_cons, not_or] at hh
      rw [List.cons_append, strsep_cons, if_neg (Ne.symm hh.1), ih hh.2]
  unfold ptonCidr
  rw [if_neg (by omega), hs]
  simp only [hm]
  unfold ptonCidr.finish
  simp only [hp, Option.getD_some]
  have : masklenValid a.af l.toNat = false := by
    cases ha : a.af <;> rw [ha] at h <;> simp [width, masklenValid] at * <;> omega
  rw [if_pos this]

/-- 10.1.2.3 is in 10.1.0.0/16, not in 10.2.0.0/16. -/
example : netmatch ⟨.inet, 0x0a010203, 0, 0, 0, 0⟩ ⟨.inet, 0x0a010000, 0, 0, 0, 0⟩ 16 = 0 ∧
    netmatch ⟨.inet, 0x0a010203, 0, 0, 0, 0⟩ ⟨.inet, 0x0a020000, 0, 0, 0, 0⟩ 16 ≠ 0 := by decide
/-- 2001:db8::5 is in 2001:db8::/33. -/
example : netmatch ⟨.inet6, 0x20010db8, 0, 0, 5, 0⟩ ⟨.inet6, 0x20010db8, 0, 0, 0, 0⟩ 33 = 0 := by decide
example : HostBitsZero ⟨.inet, 0x0a010000, 0, 0, 0, 0⟩ 16 := by
  have : ∀ i < 32, 16 ≤ i → bit ⟨.inet, 0x0a010000, 0, 0, 0, 0⟩ i = false := by decide
  intro i h1 h2; exact this i h2 h1

/-- The full statement of C09 is false of the code: `fe80::1%2` (scope 2) is in `fe80::/10` bit for bit,
but does not match, because the comparison includes the scope id. -/
theorem C09_scoped_address_false :
    ∃ host net l, Known net ∧ HostBitsZero net l ∧ InNet host net l ∧ netmatch host net l ≠ 0 := by
  refine ⟨⟨.inet6, 0xfe800000, 0, 0, 1, 2⟩, ⟨.inet6, 0xfe800000, 0, 0, 0, 0⟩, 10, .inr rfl, ?_, ⟨rfl, ?_, ?_⟩, ?_⟩
  · have : ∀ i < 128, 10 ≤ i → bit ⟨.inet6, 0xfe800000, 0, 0, 0, 0⟩ i = false := by decide +kernel
    intro i h1 h2; exact this i h2 h1
  · decide
  · decide
  · decide

/-! ## C51: address lists -/

/-- The loop seen on the list of entries. -/
def listRun (pton : Bytes → Option XAddr) (addr : Option (Bytes × XAddr)) : List Bytes → Int → Int
  | [], ret => ret
  | e :: es, ret =>
    if eBody e = [] then -2
    else match entryMatches pton addr (eBody e) with
      | none => -2
      | some true => if e.head? = some 33 then -1 else listRun pton addr es 1
      | some false => listRun pton addr es ret

theorem matchListGo_run (pton : Bytes → Option XAddr) (addr : Option (Bytes × XAddr)) :
    ∀ (fuel : Nat) (s : Bytes) (ret : Int), s.length < fuel →
      matchListGo pton addr fuel (some s) ret = listRun pton addr (split 44 s) ret := by
  intro fuel
  induction fuel with
  | zero => intro s _ h; omega
  | succ fuel ih =>
    intro s ret h
    rw [split_eq_rest]
    unfold matchListGo
    rcases hsep : strsep 44 s with ⟨cp, rest⟩
    have hnext : ∀ r, matchListGo pton addr fuel rest r =
        listRun pton addr (splitRest 44 rest) r := by
      intro r
      cases rest with
      | none => cases fuel <;> rfl
      | some rest =>
        have := strsep_length (c := 44) (s := s) (r := rest) (by rw [hsep])
        exact ih rest r (by omega)
    simp only [listRun, eBody, hnext]
    rfl

theorem entryMatches_hit (pton : Bytes → Option XAddr) (hp : ∀ s a, pton s = some a → Known a)
    (s : Bytes) (a : XAddr) (e : Bytes) :
    (entryMatches pton (some (s, a)) (eBody e) = none ↔ ptonCidr pton (eBody e) = .inconsistent) ∧
    (entryMatches pton (some (s, a)) (eBody e) = some true ↔ eHit pton s a e) := by
  unfold entryMatches eHit
  cases h : ptonCidr pton (eBody e) with
  | parseError => simp [Match.C05_match_pattern]
  | inconsistent => simp
  | ok n l =>
    simp only [reduceCtorEq, false_and, or_false, Option.some.injEq, decide_eq_true_eq, C09_text pton hp _ n l h a,
      CidrRes.ok.injEq, true_and]
    constructor
    · intro h; exact ⟨n, l, ⟨rfl, rfl⟩, h⟩
    · rintro ⟨n', l', ⟨rfl, rfl⟩, h⟩; exact h

/-- C51: the verdict of an address list.  With `es` the comma separated entries, scanning left to right,
the first decisive entry (a malformed one, or a negated one that covers the address) determines -2 or -1;
if there is none the result is 1 exactly when some entry covers the address. -/
theorem C51_list (pton : Bytes → Option XAddr) (hp : ∀ s a, pton s = some a → Known a)
    (s list : Bytes) (a : XAddr) (ha : pton s = some a) :
    let es := split 44 list
    let quiet (e : Bytes) := ¬ eBad pton e ∧ ¬ (eNeg e ∧ eHit pton s a e)
    (matchList pton (some s) list = -2 ↔ ∃ u e v, es = u ++ e :: v ∧ (∀ x ∈ u, quiet x) ∧ eBad pton e) ∧
    (matchList pton (some s) list = -1 ↔
      ∃ u e v, es = u ++ e :: v ∧ (∀ x ∈ u, quiet x) ∧ ¬ eBad pton e ∧ eNeg e ∧ eHit pton s a e) ∧
    (matchList pton (some s) list = 1 ↔ (∀ x ∈ es, quiet x) ∧ ∃ e ∈ es, eHit pton s a e) ∧
    (matchList pton (some s) list = 0 ↔ (∀ x ∈ es, quiet x) ∧ ∀ e ∈ es, ¬ eHit pton s a e) := by
  intro es quiet
  have hrun : matchList pton (some s) list = listRun pton (some (s, a)) es 0 := by
    simp only [matchList, ha]
    exact matchListGo_run pton _ _ _ _ (by omega)
  rw [hrun]
  have gen : ∀ (es : List Bytes) (ret : Int), ret = 0 ∨ ret = 1 →
    (listRun pton (some (s, a)) es ret = -2 ↔ ∃ u e v, es = u ++ e :: v ∧ (∀ x ∈ u, quiet x) ∧ eBad pton e) ∧
    (listRun pton (some (s, a)) es ret = -1 ↔
      ∃ u e v, es = u ++ e :: v ∧ (∀ x ∈ u, quiet x) ∧ ¬ eBad pton e ∧ eNeg e ∧ eHit pton s a e) ∧
    (listRun pton (some (s, a)) es ret = 1 ↔ (∀ x ∈ es, quiet x) ∧ (ret = 1 ∨ ∃ e ∈ es, eHit pton s a e)) ∧
    (listRun pton (some (s, a)) es ret = 0 ↔ (∀ x ∈ es, quiet x) ∧ ret = 0 ∧ ∀ e ∈ es, ¬ eHit pton s a e) := by
    intro es
    induction es with
    | nil => intro ret hr; rcases hr with rfl | rfl <;> simp [listRun]
    | cons e es ih =>
      intro ret hr
      obtain ⟨hm1, hm2⟩ := entryMatches_hit pton hp s a e
      -- a decisive first entry
      have shift2 : quiet e → ((∃ u e' v, e :: es = u ++ e' :: v ∧ (∀ x ∈ u, quiet x) ∧ eBad pton e') ↔
          ∃ u e' v, es = u ++ e' :: v ∧ (∀ x ∈ u, quiet x) ∧ eBad pton e') := by
        intro hq
        constructor
        · rintro ⟨u, e', v, h1, h2, h3⟩
          cases u with
          | nil => simp at h1; rw [h1.1] at hq; exact absurd h3 hq.1
          | cons x u => simp at h1; exact ⟨u, e', v, h1.2, fun y hy => h2 y (by simp [hy]), h3⟩
        · rintro ⟨u, e', v, h1, h2, h3⟩
          exact ⟨e :: u, e', v, by simp [h1], by simpa using ⟨hq, h2⟩, h3⟩
      have shift1 : quiet e → ((∃ u e' v, e :: es = u ++ e' :: v ∧ (∀ x ∈ u, quiet x) ∧ ¬ eBad pton e' ∧
            eNeg e' ∧ eHit pton s a e') ↔
          ∃ u e' v, es = u ++ e' :: v ∧ (∀ x ∈ u, quiet x) ∧ ¬ eBad pton e' ∧ eNeg e' ∧ eHit pton s a e') := by
        intro hq
        constructor
        · rintro ⟨u, e', v, h1, h2, h3⟩
          cases u with
          | nil => simp at h1; rw [h1.1] at hq; exact absurd h3.2 hq.2
          | cons x u => simp at h1; exact ⟨u, e', v, h1.2, fun y hy => h2 y (by simp [hy]), h3⟩
        · rintro ⟨u, e', v, h1, h2, h3⟩
          exact ⟨e :: u, e', v, by simp [h1], by simpa using ⟨hq, h2⟩, h3⟩
      have first2 : eBad pton e → (∃ u e' v, e :: es = u ++ e' :: v ∧ (∀ x ∈ u, quiet x) ∧ eBad pton e') :=
        fun hb => ⟨[], e, es, rfl, by simp, hb⟩
      have no1 : eBad pton e → ¬ (∃ u e' v, e :: es = u ++ e' :: v ∧ (∀ x ∈ u, quiet x) ∧ ¬ eBad pton e' ∧
            eNeg e' ∧ eHit pton s a e') := by
        rintro hb ⟨u, e', v, h1, h2, h3, -⟩
        cases u with
        | nil => simp at h1; rw [h1.1] at hb; exact h3 hb
        | cons x u => simp at h1; rw [← h1.1] at h2; exact (h2 e (by simp)).1 hb
      by_cases hb : eBad pton e
      · have hrun : listRun pton (some (s, a)) (e :: es) ret = -2 := by
          unfold listRun
          rcases hb with hb | hb
          · rw [if_pos hb]
          · split
            · rfl
            · rw [hm1.2 hb]
        have hnq : ¬ quiet e := fun h => h.1 hb
        rw [hrun]
        exact ⟨⟨fun _ => first2 hb, fun _ => rfl⟩, ⟨fun h => by simp at h, fun h => absurd h (no1 hb)⟩,
          ⟨fun h => by simp at h, fun h => absurd (h.1 e (by simp)) hnq⟩,
          ⟨fun h => by simp at h, fun h => absurd (h.1 e (by simp)) hnq⟩⟩
      · have hb1 : eBody e ≠ [] := fun h => hb (.inl h)
        have hb2 : entryMatches pton (some (s, a)) (eBody e) ≠ none := fun h => hb (.inr (hm1.1 h))
        by_cases hit : eHit pton s a e
        · by_cases hn : eNeg e
          · have hrun : listRun pton (some (s, a)) (e :: es) ret = -1 := by
              unfold listRun
              rw [if_neg hb1, hm2.2 hit]
              simp only
              rw [if_pos (show e.head? = some 33 from hn)]
            have hnq : ¬ quiet e := fun h => h.2 ⟨hn, hit⟩
            rw [hrun]
            refine ⟨⟨fun h => by simp at h, ?_⟩, ⟨fun _ => ⟨[], e, es, rfl, by simp, hb, hn, hit⟩, fun _ => rfl⟩,
              ⟨fun h => by simp at h, fun h => absurd (h.1 e (by simp)) hnq⟩,
              ⟨fun h => by simp at h, fun h => absurd (h.1 e (by simp)) hnq⟩⟩
            rintro ⟨u, e', v, h1, h2, h3⟩
            cases u with
            | nil => simp at h1; rw [← h1.1] at h3; exact absurd h3 hb
            | cons x u => simp at h1; rw [← h1.1] at h2; exact absurd (h2 e (by simp)) hnq
          · have hrun : listRun pton (some (s, a)) (e :: es) ret = listRun pton (some (s, a)) es 1 := by
              conv => lhs; unfold listRun
              rw [if_neg hb1, hm2.2 hit]
              simp only
              rw [if_neg (show ¬ e.head? = some 33 from hn)]
            have hq : quiet e := ⟨hb, fun h => hn h.1⟩
            obtain ⟨i1, i2, i3, i4⟩ := ih 1 (.inr rfl)
            rw [hrun, shift2 hq, shift1 hq]
            refine ⟨i1, i2, ?_, ?_⟩
            · rw [i3]; simp [hq, hit]
            · rw [i4]; simp [hit]
        · have hf : entryMatches pton (some (s, a)) (eBody e) = some false := by
            rcases hc : entryMatches pton (some (s, a)) (eBody e) with _ | _ | _
            · exact absurd hc hb2
            · rfl
            · exact absurd (hm2.1 hc) hit
          have hrun : listRun pton (some (s, a)) (e :: es) ret = listRun pton (some (s, a)) es ret := by
            conv => lhs; unfold listRun
            rw [if_neg hb1, hf]
          have hq : quiet e := ⟨hb, fun h => hit h.2⟩
          obtain ⟨i1, i2, i3, i4⟩ := ih ret hr
          rw [hrun, shift2 hq, shift1 hq]
          refine ⟨i1, i2, ?_, ?_⟩
          · rw [i3]; simp [hq, hit]
          · rw [i4]; simp [hq, hit]
  obtain ⟨g1, g2, g3, g4⟩ := gen es 0 (.inl rfl)
  refine ⟨g1, g2, ?_, ?_⟩
  · rw [g3]; simp
  · rw [g4]; simp

/-- Consequence: an address covered by a negated entry is never accepted. -/
theorem C51_negation_wins (pton : Bytes → Option XAddr) (hp : ∀ s a, pton s = some a → Known a)
    (s list : Bytes) (a : XAddr) (ha : pton s = some a) (e : Bytes) (he : e ∈ split 44 list) (hn : eNeg e)
    (hit : eHit pton s a e) : matchList pton (some s) list ≠ 1 := by
  intro h
  exact (((C51_list pton hp s list a ha).2.2.1.1 h).1 e he).2 ⟨hn, hit⟩

/-- A toy address parser for the examples below: `1` to `9` are IPv4 addresses, `x%` a scoped one. -/
def toyPton (s : Bytes) : Option XAddr :=
  match s with
  | [c] => if 49 ≤ c ∧ c ≤ 57 then some ⟨.inet, (c.toNat - 48).toUInt32, 0, 0, 0, 0⟩ else none
  | [c, 37] => some ⟨.inet6, c.toUInt32, 0, 0, 0, 7⟩
  | _ => none

example : matchList toyPton (some b!"5") b!"1,!6,5/32,7" = 1 ∧ matchList toyPton (some b!"5") b!"*,!5" = -1 ∧
    matchList toyPton (some b!"5") b!"1/8" = -2 ∧ matchList toyPton (some b!"5") b!"4" = 0 := by decide

/-- Disagreement found in `addr_match_cidr_list`: an entry with characters outside the permitted set sets
the result to "error" but the scan goes on (no `break`, addrmatch.c:143-147), and a later matching entry
overwrites the error with "match".  (`x%` stands for a scoped address that `getaddrinfo` accepts.) -/
theorem C51_cidr_error_lost :
    ∃ (pton : Bytes → Option XAddr) (s list : Bytes), (∀ s a, pton s = some a → Known a) ∧
      matchCidrList pton none list = -1 ∧ matchCidrList pton (some s) list = 1 := by
  refine ⟨toyPton, b!"5", b!"a%,5", ?_, by decide, by decide⟩
  intro s a h
  unfold toyPton at h
  split at h
  · split at h <;> simp at h; subst h; exact .inl rfl
  · simp at h; subst h; exact .inr rfl
  · simp at h

/-! ### Lists of networks only (`addr_match_cidr_list`) -/

/-- An entry that ends the scan with an error: empty, too long, or not a network. -/
def cStop (pton : Bytes → Option XAddr) (e : Bytes) : Prop :=
  e = [] ∨ e.length > 49 ∨ ∀ n l, ptonCidr pton e ≠ .ok n l

/-- An entry whose network contains the address. -/
def cHit (pton : Bytes → Option XAddr) (a : XAddr) (e : Bytes) : Prop :=
  ∃ n l, ptonCidr pton e = .ok n l ∧ netmatch a n l = 0

theorem matchCidrGo_spec (pton : Bytes → Option XAddr) (a : XAddr) (fuel : Nat) (s : Option Bytes) (ret : Int)
    (hf : ∀ b, s = some b → b.length < fuel) :
    ((∃ e ∈ splitRest 44 s, cStop pton e) → matchCidrGo pton (some a) fuel s ret = -1) ∧
    ((∀ e ∈ splitRest 44 s, ¬ cStop pton e ∧ e.all validCidrChar = true) →
      ((∃ e ∈ splitRest 44 s, cHit pton a e) → matchCidrGo pton (some a) fuel s ret = 1) ∧
      ((∀ e ∈ splitRest 44 s, ¬ cHit pton a e) → matchCidrGo pton (some a) fuel s ret = ret)) := by
  induction fuel generalizing s ret with
  | zero =>
    cases s with
    | none => simp [splitRest, matchCidrGo]
    | some b => exact absurd (hf b rfl) (by omega)
  | succ fuel ih =>
    cases s with
    | none => simp [splitRest, matchCidrGo]
    | some b =>
      have hsplit := split_eq_rest 44 b
      rw [matchCidrGo]
      rcases hs : strsep 44 b with ⟨cp, rest⟩
      rw [hs] at hsplit
      simp only at hsplit ⊢
      show ((∃ e ∈ split 44 b, _) → _) ∧ ((∀ e ∈ split 44 b, _) → ((∃ e ∈ split 44 b, _) → _) ∧ ((∀ e ∈ split 44 b, _) → _))
      rw [hsplit]
      have hf' : ∀ r, rest = some r → r.length < fuel := by
        intro r' hr'
        have := strsep_length (c := 44) (s := b) (r := r') (by rw [hs]; exact hr')
        have h3 := hf b rfl
        omega
      by_cases h1 : cp = []
      · rw [if_pos h1]
        exact ⟨fun _ => rfl, fun h => absurd (.inl h1) (h cp (by simp)).1⟩
      rw [if_neg h1]
      by_cases h2 : cp.length > 46 + 3
      · rw [if_pos h2]
        exact ⟨fun _ => rfl, fun h => absurd (.inr (.inl h2)) (h cp (by simp)).1⟩
      rw [if_neg h2]
      have hbad : ∀ r, ptonCidr pton cp = r → (∀ n l, r ≠ .ok n l) → cStop pton cp :=
        fun r hr hne => .inr (.inr (by intro n l; rw [hr]; exact hne n l))
      rcases h3 : ptonCidr pton cp
      case ok n l =>
        simp only
        have hns : ¬ cStop pton cp := by
          rintro (h | h | h)
          · exact h1 h
          · exact h2 h
          · exact h n l h3
        obtain ⟨i1, i2⟩ := ih rest (if netmatch a n l = 0 then 1 else if cp.all validCidrChar then ret else -1) hf'
        constructor
        · rintro ⟨e, he, hb⟩
          rcases List.mem_cons.1 he with rfl | he
          · exact absurd hb hns
          · exact i1 ⟨e, he, hb⟩
        · intro hall
          obtain ⟨j1, j2⟩ := i2 (fun e he => hall e (by simp [he]))
          have hv := (hall cp (by simp)).2
          constructor
          · rintro ⟨e, he, hh⟩
            by_cases hr : ∃ e ∈ splitRest 44 rest, cHit pton a e
            · exact j1 hr
            · rw [j2 (fun e he hh => hr ⟨e, he, hh⟩)]
              rcases List.mem_cons.1 he with rfl | he
              · obtain ⟨n', l', h4, h5⟩ := hh
                rw [h3] at h4; injection h4 with h4 h4'; subst h4 h4'
                rw [if_pos h5]
              · exact absurd ⟨e, he, hh⟩ hr
          · intro hno
            rw [j2 (fun e he => hno e (by simp [he]))]
            rw [if_neg (fun h => hno cp (by simp) ⟨n, l, h3, h⟩), if_pos hv]
      all_goals
        exact ⟨fun _ => rfl, fun h => absurd (hbad _ h3 (by simp)) (h cp (by simp)).1⟩

/-- **C51** for lists of networks only: an entry that is empty, too long or not a network makes the result
an error; if every entry is well formed the result says whether some network contains the address.  Missing
for the full claim: an entry with characters outside `VALID_CIDR_CHARS` that still parses is not always
reported (`C51_cidr_error_lost`). -/
theorem C51_cidr_list_partial (pton : Bytes → Option XAddr) (s list : Bytes) (a : XAddr) (ha : pton s = some a) :
    ((∃ e ∈ split 44 list, cStop pton e) → matchCidrList pton (some s) list = -1) ∧
    ((∀ e ∈ split 44 list, ¬ cStop pton e ∧ e.all validCidrChar = true) →
      (matchCidrList pton (some s) list = 1 ↔ ∃ e ∈ split 44 list, cHit pton a e) ∧
      (matchCidrList pton (some s) list = 0 ↔ ∀ e ∈ split 44 list, ¬ cHit pton a e)) := by
  have h := matchCidrGo_spec pton a (list.length + 1) (some list) 0 (by
    intro b hb; injection hb with hb; subst hb; omega)
  have he : matchCidrList pton (some s) list = matchCidrGo pton (some a) (list.length + 1) (some list) 0 := by
    simp only [matchCidrList, ha]
  rw [he]
  refine ⟨h.1, fun hall => ?_⟩
  obtain ⟨h1, h2⟩ := h.2 hall
  have h1 : (∃ e ∈ split 44 list, cHit pton a e) → _ := h1
  have h2 : (∀ e ∈ split 44 list, ¬ cHit pton a e) → _ := h2
  by_cases hx : ∃ e ∈ split 44 list, cHit pton a e
  · rw [h1 hx]
    refine ⟨by simp [hx], by simp; obtain ⟨e, he, hh⟩ := hx; exact ⟨e, he, hh⟩⟩
  · have hx' : ∀ e ∈ split 44 list, ¬ cHit pton a e := fun e he hh => hx ⟨e, he, hh⟩
    rw [h2 hx']
    refine ⟨by simp; exact hx', by simp; exact hx'⟩

example : matchCidrList toyPton (some b!"5") b!"5/32,1" = 1 ∧ matchCidrList toyPton (some b!"5") b!"1,,5" = -1 ∧
    matchCidrList toyPton (some b!"5") b!"1,2" = 0 := by decide

end Verif.Addr
