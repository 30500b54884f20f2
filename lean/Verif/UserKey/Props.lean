/-
Properties C95 (which keys let a user in) and C97 (what a signature must cover).
-/
import Verif.UserKey.Path

namespace Verif.UserKey
open Verif Wire
open _root_.Verif.KeyOpts (Key Opts)

/-! ### C95 -/

theorem isRevoked_iff (W : World) (key : Key) : isRevoked W key = false ↔ NotRevoked W key := by
  unfold NotRevoked
  cases key with
  | plain k => simp [isRevoked]
  | cert c => simp [isRevoked]

theorem inFiles_some {W : World} {C : Conf} {pw : User} {key : Key} {ps : List Bytes} {o : Opts}
    (h : inFiles W C pw key ps = some o) : ∃ p ∈ ps, inFile W C pw key p = some o := by
  induction ps with
  | nil => cases h
  | cons p ps ih =>
    rw [inFiles] at h
    cases h1 : inFile W C pw key p with
    | some o' =>
      rw [h1] at h
      injection h with h
      exact ⟨p, by simp, h ▸ h1⟩
    | none =>
      rw [h1] at h
      obtain ⟨q, hq, e⟩ := ih h
      exact ⟨q, by simp [hq], e⟩

theorem inFiles_none {W : World} {C : Conf} {pw : User} {key : Key} {ps : List Bytes}
    (h : inFiles W C pw key ps = none) : ∀ p ∈ ps, inFile W C pw key p = none := by
  induction ps with
  | nil => intro p hp; cases hp
  | cons p ps ih =>
    rw [inFiles] at h
    cases h1 : inFile W C pw key p with
    | some o' => rw [h1] at h; cases h
    | none =>
      rw [h1] at h
      intro q hq
      rcases List.mem_cons.1 hq with rfl | hq
      · exact h1
      · exact ih h q hq

theorem inConfigured_some {W : World} {C : Conf} {pw : User} {key : Key} {fs : List Bytes} {o : Opts}
    (h : inConfigured W C pw key fs = some o) :
    ∃ f ∈ fs, isNone f = false ∧ ∃ p ∈ globbed W pw f, inFile W C pw key p = some o := by
  induction fs with
  | nil => cases h
  | cons f fs ih =>
    rw [inConfigured] at h
    by_cases hn : isNone f = true
    · rw [if_pos hn] at h
      obtain ⟨g, hg, e⟩ := ih h
      exact ⟨g, by simp [hg], e⟩
    rw [if_neg hn] at h
    cases h1 : inFiles W C pw key (globbed W pw f) with
    | some o' =>
      rw [h1] at h
      injection h with h
      exact ⟨f, by simp, by simpa using hn, inFiles_some (h ▸ h1)⟩
    | none =>
      rw [h1] at h
      obtain ⟨g, hg, e⟩ := ih h
      exact ⟨g, by simp [hg], e⟩

theorem inConfigured_none {W : World} {C : Conf} {pw : User} {key : Key} {fs : List Bytes}
    (h : inConfigured W C pw key fs = none) :
    ∀ f ∈ fs, isNone f = false → ∀ p ∈ globbed W pw f, inFile W C pw key p = none := by
  induction fs with
  | nil => intro f hf; cases hf
  | cons f fs ih =>
    rw [inConfigured] at h
    by_cases hn : isNone f = true
    · rw [if_pos hn] at h
      intro g hg hgn
      rcases List.mem_cons.1 hg with rfl | hg
      · rw [hn] at hgn; cases hgn
      · exact ih h g hg hgn
    rw [if_neg hn] at h
    cases h1 : inFiles W C pw key (globbed W pw f) with
    | some o' => rw [h1] at h; cases h
    | none =>
      rw [h1] at h
      intro g hg hgn
      rcases List.mem_cons.1 hg with rfl | hg
      · exact inFiles_none h1
      · exact ih h g hg hgn

theorem inFile_iff {W : World} {C : Conf} {pw : User} {key : Key} {p : Bytes} {o : Opts} :
    inFile W C pw key p = some o ↔ ∃ lines, openFile W.fs pw C.strict p = some lines ∧
      KeyOpts.checkFile W.opts W.read W.now pw.name W.ip W.host key lines = some o := by
  unfold inFile
  cases openFile W.fs pw C.strict p with
  | none => simp
  | some l => simp

theorem globbed_mem {W : World} {pw : User} {f p : Bytes} :
    p ∈ globbed W pw f ↔ ∃ names, W.glob (expandFile W pw f) = some names ∧ p ∈ names := by
  unfold globbed
  cases W.glob (expandFile W pw f) <;> simp

private theorem bytes {p : UInt8 → Prop} (h : ∀ n : Fin 256, p (UInt8.ofNat n)) (c : UInt8) : p c := by
  have := h ⟨c.toNat, c.toNat_lt⟩
  simpa using this

theorem isNone_iff (f : Bytes) : isNone f = true ↔ NoneWord f := by
  have hn : ∀ c : UInt8, (Match.toLower c = 110 ↔ (c = 110 ∨ c = 78)) ∧ (Match.toLower c = 111 ↔ (c = 111 ∨ c = 79)) ∧
      (Match.toLower c = 101 ↔ (c = 101 ∨ c = 69)) := by
    apply bytes; decide +kernel
  unfold isNone NoneWord
  rw [decide_eq_true_eq]
  constructor
  · intro h
    match f, h with
    | [n, o, m, e], h =>
      simp only [List.map_cons, List.map_nil, List.cons.injEq, and_true] at h
      exact ⟨n, o, m, e, rfl, (hn n).1.1 h.1, (hn o).2.1.1 h.2.1, (hn m).1.1 h.2.2.1, (hn e).2.2.1 h.2.2.2⟩
    | [], h => simp at h
    | [_], h => simp at h
    | [_, _], h => simp at h
    | [_, _, _], h => simp at h
    | _ :: _ :: _ :: _ :: _ :: _, h => simp at h
  · rintro ⟨n, o, m, e, rfl, h1, h2, h3, h4⟩
    simp only [List.map_cons, List.map_nil, (hn n).1.2 h1, (hn o).2.1.2 h2, (hn m).1.2 h3, (hn e).2.2.2 h4]

theorem isNone_false {f : Bytes} : isNone f = false ↔ ¬ NoneWord f := by
  rw [← isNone_iff]; simp

theorem usable_iff {fs : Fs} {pw : User} {strict : Bool} {ns : List Bytes} {l : List (List Bytes)} :
    Usable fs pw strict ns l ↔ l = ns.filterMap (openFile fs pw strict) := by
  constructor
  · intro h
    induction h with
    | nil => rfl
    | used h _ ih => rw [List.filterMap_cons, h, ih]
    | not h _ ih => rw [List.filterMap_cons, h, ih]
  · rintro rfl
    induction ns with
    | nil => exact .nil
    | cons n ns ih =>
      rw [List.filterMap_cons]
      split
      · rename_i h; exact .not h ih
      · rename_i h; exact .used h ih

theorem principals_iff {W : World} {C : Conf} {pw : User} {src : KeyOpts.Sources} : Principals W C pw src ↔ src = sources W C pw := by
  unfold sources globbed
  constructor
  · intro h
    cases h with
    | noFile h => rw [h]; rfl
    | noGlob h h' => rw [h]; simp [h']
    | files h h' hu => rw [h]; simp [h', usable_iff.1 hu]
  · rintro rfl
    cases hf : C.principalsFile with
    | none => exact .noFile hf
    | some f =>
      cases hg : W.glob (expandFile W pw f) with
      | none => simp only [Option.map_some, hg]; exact .noGlob hf hg
      | some names =>
        simp only [Option.map_some, hg]
        exact .files hf hg (usable_iff.2 rfl)

/-- **C95 (only keys that are listed).**  If a key is accepted, neither it nor the key that signed it is revoked, and one of the
places configured accepts it with just the options it is then given: a line of an authorized_keys file that may be used, a
trusted certification authority, or a line printed by the command configured. -/
theorem C95_only {W : World} {C : Conf} {pw : User} {key : Key} {o : Opts} (h : allowed W C pw key = some o) :
    NotRevoked W key ∧ Accepts W C pw key o := by
  unfold allowed at h
  by_cases hr : isRevoked W key = true
  · rw [if_pos hr] at h; cases h
  rw [if_neg hr] at h
  refine ⟨(isRevoked_iff W key).1 (by simpa using hr), ?_⟩
  cases h1 : inConfigured W C pw key C.keyFiles with
  | some o' =>
    rw [h1] at h
    injection h with h
    subst h
    obtain ⟨f, hf, hn, p, hp, hi⟩ := inConfigured_some h1
    obtain ⟨names, hg, hm⟩ := globbed_mem.1 hp
    obtain ⟨lines, ho, hc⟩ := inFile_iff.1 hi
    exact .file hf (isNone_false.1 hn) hg hm ho hc
  | none =>
    rw [h1] at h
    dsimp only at h
    cases h2 : byCa W C pw key with
    | some o' =>
      rw [h2] at h
      injection h with h
      subst h
      cases key with
      | plain k => cases h2
      | cert c => exact .ca rfl (principals_iff.2 rfl) h2
    | none =>
      rw [h2] at h
      dsimp only at h
      unfold byCommand at h
      cases h3 : W.keysCommand with
      | none => rw [h3] at h; cases h
      | some x =>
        rw [h3] at h
        cases x with
        | none => cases h
        | some lines => exact .command h3 h

/-- **C95 (every key that is listed).**  A key that is not revoked is refused only if no place configured accepts it. -/
theorem C95_every {W : World} {C : Conf} {pw : User} {key : Key} (h : allowed W C pw key = none) (hr : NotRevoked W key)
    (o : Opts) : ¬ Accepts W C pw key o := by
  unfold allowed at h
  rw [if_neg (by rw [(isRevoked_iff W key).2 hr]; simp)] at h
  cases h1 : inConfigured W C pw key C.keyFiles with
  | some o' => rw [h1] at h; cases h
  | none =>
    rw [h1] at h
    dsimp only at h
    cases h2 : byCa W C pw key with
    | some o' => rw [h2] at h; cases h
    | none =>
      rw [h2] at h
      dsimp only at h
      intro ha
      cases ha with
      | file hf hn hg hm ho hc =>
        have := inConfigured_none h1 _ hf (isNone_false.2 hn) _ (globbed_mem.2 ⟨_, hg, hm⟩)
        have h' := inFile_iff.2 ⟨_, ho, hc⟩
        rw [this] at h'; cases h'
      | ca he hp hc =>
        subst he
        rw [principals_iff.1 hp] at hc
        have h2' : KeyOpts.trustedCert W.opts W.trusted (sources W C pw) W.now pw.name W.ip W.host _ = none := h2
        rw [hc] at h2'; cases h2'
      | command hk hc =>
        unfold byCommand at h
        rw [hk] at h
        dsimp only at h
        rw [hc] at h; cases h

/-- **C95 (order).**  Files come first, in the order configured; a later place decides only if no earlier one accepts. -/
theorem C95_order {W : World} {C : Conf} {pw : User} {key : Key} (hr : NotRevoked W key) {pre post : List Bytes} {f p : Bytes}
    {ps qs : List Bytes} {o : Opts} (hf : C.keyFiles = pre ++ f :: post) (hn : ¬ NoneWord f)
    (hg : W.glob (expandFile W pw f) = some (ps ++ p :: qs)) (hi : inFile W C pw key p = some o)
    (h1 : ∀ g ∈ pre, ¬ NoneWord g → ∀ q ∈ globbed W pw g, inFile W C pw key q = none)
    (h2 : ∀ q ∈ ps, inFile W C pw key q = none) : allowed W C pw key = some o := by
  have hn := isNone_false.2 hn
  have h1 : ∀ g ∈ pre, isNone g = false → ∀ q ∈ globbed W pw g, inFile W C pw key q = none := fun g hg hgn => h1 g hg (isNone_false.1 hgn)
  have a1 : inFiles W C pw key (ps ++ p :: qs) = some o := by
    induction ps with
    | nil => rw [List.nil_append, inFiles, hi]
    | cons q ps ih =>
      rw [List.cons_append, inFiles, h2 q (by simp)]
      -- the file names do not matter here
      have : ∀ l : List Bytes, (∀ q ∈ l, inFile W C pw key q = none) → inFiles W C pw key (l ++ p :: qs) = some o := by
        intro l
        induction l with
        | nil => intro _; rw [List.nil_append, inFiles, hi]
        | cons q l ih => intro h; rw [List.cons_append, inFiles, h q (by simp)]; exact ih fun q hq => h q (by simp [hq])
      exact this ps fun q hq => h2 q (by simp [hq])
  have a2 : ∀ l : List Bytes, (∀ g ∈ l, isNone g = false → ∀ q ∈ globbed W pw g, inFile W C pw key q = none) →
      inConfigured W C pw key (l ++ f :: post) = some o := by
    intro l
    induction l with
    | nil =>
      intro _
      rw [List.nil_append, inConfigured, if_neg (by rw [hn]; simp)]
      unfold globbed
      rw [hg]
      dsimp only [Option.getD]
      rw [a1]
    | cons g l ih =>
      intro h
      rw [List.cons_append, inConfigured]
      have h' := ih fun x hx => h x (by simp [hx])
      by_cases hgn : isNone g = true
      · rw [if_pos hgn]; exact h'
      · rw [if_neg hgn]
        have : inFiles W C pw key (globbed W pw g) = none := by
          have hall := h g (by simp) (by simpa using hgn)
          generalize globbed W pw g = l at hall
          induction l with
          | nil => rfl
          | cons q l ih => rw [inFiles, hall q (by simp)]; exact ih fun q hq => hall q (by simp [hq])
        rw [this]; exact h'
  unfold allowed
  rw [if_neg (by rw [(isRevoked_iff W key).2 hr]; simp), hf, a2 pre h1]

/-- **C95 and C96 together.**  With StrictModes and no command, a key that is not a certificate is accepted only for a line of
a file that nobody but root and the user can change, nor can they put another file in its place by writing to a directory on its
real path up to the home directory. -/
theorem C95_strict {W : World} {C : Conf} {pw : User} {k : Nat} {o : Opts} (h : allowed W C pw (.plain k) = some o)
    (hs : C.strict = true) (hk : W.keysCommand = none) (hc : W.fs.Canonical) :
    ∃ (path : Bytes) (st : Stat) (lines cs : List Bytes), W.fs.openf path = some (st, lines) ∧
      KeyOpts.checkFile W.opts W.read W.now pw.name W.ip W.host (.plain k) lines = some o ∧
      W.fs.realpath path = some (render cs) ∧ Comps cs ∧
      ∀ u, u ≠ 0 → u ≠ pw.uid → ∀ groups, mayWrite u groups st = false ∧
        ∀ d, OnTheWay (W.fs.realpath pw.dir) cs d →
          ∃ st', W.fs.stat (render d) = some st' ∧ mayWrite u groups st' = false := by
  obtain ⟨_, ha⟩ := C95_only h
  cases ha with
  | ca he _ _ => cases he
  | command hk' _ => rw [hk] at hk'; cases hk'
  | @file _ path _ _ _ _ _ _ _ ho hch =>
    obtain ⟨st, h1, h2, h3⟩ := (C96_opened _ _ _ _ _).1 ho
    have h3 := h3 hs
    cases hr : W.fs.realpath path with
    | none => unfold safePath at h3; rw [hr] at h3; cases h3
    | some r =>
      obtain ⟨cs, hcs, rfl⟩ := hc _ _ hr
      refine ⟨_, st, _, cs, h1, hch, hr, hcs, fun u u0 u1 groups => ?_⟩
      by_cases hne : cs = []
      · subst hne
        refine ⟨?_, ?_⟩
        · unfold safePath at h3
          rw [hr] at h3
          dsimp only at h3
          rw [if_neg (by rw [h2]; simp)] at h3
          by_cases hb : badStat pw.uid st = true
          · rw [if_pos hb] at h3; cases h3
          · obtain ⟨a, b, c⟩ := (badStat_iff pw.uid st).1 (by simpa using hb)
            unfold mayWrite
            rw [if_neg u0, if_neg (by omega), b, c]
            simp
        · rintro d ⟨⟨e, he, h⟩, _⟩
          simp at h; exact absurd h.2 he
      · exact C96_nobody W.fs _ st (some pw.dir) pw.uid cs hr hcs hne h3 u ⟨u0, u1⟩ groups

/-! ### C97 -/

theorem request_iff (K : KeyWorld) (method b : Bytes) (h : Nat) (alg blob rest : Bytes) :
    getRequest K (method = b!"publickey-hostbound-v00@openssh.com") b = some (h, alg, blob, rest) ↔
      ∃ x : UInt8, h = x.toNat ∧ Request K method x alg blob rest b := by
  constructor
  · intro hg
    unfold getRequest at hg
    cases h1 : getInt 1 b with
    | none => rw [h1] at hg; cases hg
    | some v1 =>
      obtain ⟨h0, b1⟩ := v1
      rw [h1] at hg
      dsimp only at hg
      cases h2 : getCstr b1 with
      | none => rw [h2] at hg; cases hg
      | some v2 =>
        obtain ⟨alg', b2⟩ := v2
        rw [h2] at hg
        dsimp only at hg
        cases h3 : getStr b2 with
        | none => rw [h3] at hg; cases hg
        | some v3 =>
          obtain ⟨blob', b3⟩ := v3
          rw [h3] at hg
          dsimp only at hg
          obtain ⟨x, e1, e2⟩ := getInt_one h1
          obtain ⟨a, ha, e3, hal⟩ := getCstr_named h2
          obtain ⟨e4, hbl⟩ := getStr_some h3
          by_cases hm : method = b!"publickey-hostbound-v00@openssh.com"
          · rw [if_pos (by simpa using hm)] at hg
            cases h4 : getStr b3 with
            | none => rw [h4] at hg; cases hg
            | some v4 =>
              obtain ⟨hk, b4⟩ := v4
              rw [h4] at hg
              dsimp only at hg
              obtain ⟨e5, hhl⟩ := getStr_some h4
              cases h5 : K.parse hk with
              | none => rw [h5] at hg; cases hg
              | some k =>
                rw [h5] at hg
                dsimp only at hg
                by_cases h6 : K.isHostKey k = true
                · rw [if_pos h6] at hg
                  injection hg with hg
                  injection hg with g1 hg
                  injection hg with g2 hg
                  injection hg with g3 g4
                  subst g1 g2 g3 g4
                  refine ⟨x, e2, ?_⟩
                  have := Request.bound (K := K) (h := x) (rest := b4) hm ha hal hbl hhl h5 h6
                  rw [e1, e3, e4, e5]
                  simpa using this
                · rw [if_neg h6] at hg; cases hg
          · rw [if_neg (by simpa using hm)] at hg
            injection hg with hg
            injection hg with g1 hg
            injection hg with g2 hg
            injection hg with g3 g4
            subst g1 g2 g3 g4
            refine ⟨x, e2, ?_⟩
            have := Request.plain (K := K) (h := x) (rest := b3) hm ha hal hbl
            rw [e1, e3, e4]
            simpa using this
  · rintro ⟨x, rfl, hr⟩
    cases hr with
    | @plain a _ _ _ hm ha hal hbl =>
      unfold getRequest
      have e : [x] ++ str a ++ str blob ++ rest = x :: (str a ++ (str blob ++ rest)) := by simp
      rw [e, getInt_cons]
      dsimp only
      rw [getCstr_of_named ha _ hal]
      dsimp only
      rw [getStr_append _ _ hbl]
      dsimp only
      rw [if_neg (by simpa [Hostbound] using hm)]
    | @bound a _ _ hk _ k hm ha hal hbl hhl hp hh =>
      unfold getRequest
      have e : [x] ++ str a ++ str blob ++ str hk ++ rest = x :: (str a ++ (str blob ++ (str hk ++ rest))) := by simp
      rw [e, getInt_cons]
      dsimp only
      rw [getCstr_of_named ha _ hal]
      dsimp only
      rw [getStr_append _ _ hbl]
      dsimp only
      rw [if_pos (by simpa [Hostbound] using hm), getStr_append _ _ hhl]
      dsimp only
      rw [hp]
      dsimp only
      rw [if_pos hh]

theorem getKey_iff (K : KeyWorld) (C : Conf) (alg blob : Bytes) (k : PubKey) :
    getKey K C alg blob = some k ↔ Eligible K C alg blob k := by
  unfold getKey Eligible
  cases h1 : K.typeOf alg with
  | none => simp
  | some t =>
    cases h2 : K.parse blob with
    | none => simp
    | some k' =>
      dsimp only
      by_cases h3 : k'.kind ≠ t
      · rw [if_pos h3]
        refine ⟨nofun, ?_⟩
        rintro ⟨e, h, _⟩
        injection e with e
        injection h with h
        exact absurd (e ▸ h.symm) h3
      rw [if_neg h3]
      have h3' : k'.kind = t := by simpa using h3
      by_cases h4 : K.used k' = true
      · rw [if_pos h4]
        refine ⟨nofun, ?_⟩
        rintro ⟨e, _, h, _⟩
        injection e with e
        rw [← e, h4] at h; cases h
      rw [if_neg h4]
      by_cases h5 : Match.matchPatternList alg C.accepted false ≠ 1
      · rw [if_pos h5]
        exact ⟨nofun, fun h => absurd h.2.2.2.1 h5⟩
      rw [if_neg h5]
      by_cases h6 : K.caSigOk k' = false
      · rw [if_pos h6]
        refine ⟨nofun, ?_⟩
        rintro ⟨e, _, _, _, h, _⟩
        injection e with e
        rw [← e, h6] at h; cases h
      rw [if_neg h6]
      by_cases h7 : K.sizeOk k' = false
      · rw [if_pos h7]
        refine ⟨nofun, ?_⟩
        rintro ⟨e, _, _, _, _, h⟩
        injection e with e
        rw [← e, h7] at h; cases h
      rw [if_neg h7]
      constructor
      · intro e
        injection e with e
        subst e
        exact ⟨rfl, by rw [h3'], by simpa using h4, by simpa using h5, by simpa using h6, by simpa using h7⟩
      · rintro ⟨e, _⟩; exact e

theorem be_byte (h : UInt8) : be 1 h.toNat = [h] := by simp [be]

theorem signed_iff (K : KeyWorld) (s : Session) (method : Bytes) (h : UInt8) (alg blob d : Bytes) :
    Signed K s method h alg blob d ↔
      d = signedData K s method (method = b!"publickey-hostbound-v00@openssh.com") h.toNat alg blob := by
  have e50 : be 1 50 = [50] := by decide
  constructor
  · rintro ⟨hi, hu, ht⟩
    rename_i i u t
    unfold signedData
    rw [be_byte, e50]
    have e1 : (if s.oldId = true then s.id else str s.id) = i := by
      rcases hi with ⟨rfl, h⟩ | ⟨rfl, h⟩ <;> rw [h] <;> rfl
    have e2 : userStyle s = u := by
      unfold userStyle
      rcases hu with ⟨rfl, h⟩ | ⟨y, h, rfl⟩
      · rw [h]; simp
      · rw [h]; simp
    have e3 : (if decide (method = b!"publickey-hostbound-v00@openssh.com") = true then str K.hostBlob else []) = t := by
      rcases ht with ⟨rfl, h⟩ | ⟨rfl, h⟩
      · exact if_neg (by simpa [Hostbound] using h)
      · exact if_pos (by simpa [Hostbound] using h)
    rw [e1, e2, e3]
  · rintro rfl
    unfold signedData
    rw [be_byte, e50]
    refine .mk ?_ ?_ ?_
    · cases hs : s.oldId
      · exact .inl ⟨rfl, rfl⟩
      · exact .inr ⟨rfl, rfl⟩
    · unfold userStyle
      cases hs : s.style with
      | none => exact .inl ⟨by simp, rfl⟩
      | some y => exact .inr ⟨y, rfl, by simp⟩
    · by_cases hm : method = b!"publickey-hostbound-v00@openssh.com"
      · exact .inr ⟨if_pos (by simpa using hm), hm⟩
      · exact .inl ⟨if_neg (by simpa using hm), hm⟩

theorem and_one (n : Nat) : n &&& 1 = 0 ↔ n.testBit 0 = false := by
  rw [Nat.and_one_is_mod, Nat.testBit_zero]
  simp

theorem and_four (n : Nat) : n &&& 4 = 0 ↔ n.testBit 2 = false := by
  constructor
  · intro h
    have := congrArg (fun n => Nat.testBit n 2) h
    simp only [Nat.testBit_and, Nat.zero_testBit] at this
    have a : Nat.testBit 4 2 = true := by decide
    rw [a, Bool.and_true] at this
    exact this
  · intro h
    apply Nat.eq_of_testBit_eq
    intro i
    rw [Nat.testBit_and, Nat.zero_testBit]
    by_cases i2 : i = 2
    · subst i2; rw [h]; rfl
    have : Nat.testBit 4 i = false := by
      by_cases hi : i < 8
      · have : ∀ i < 8, i ≠ 2 → Nat.testBit 4 i = false := by decide
        exact this i hi i2
      · apply Nat.testBit_lt_two_pow
        have : 2 ^ 8 ≤ 2 ^ i := Nat.pow_le_pow_right (by omega) (by omega)
        omega
    rw [this, Bool.and_false]

theorem presence_iff (C : Conf) (o : Opts) (d : Option SigDetails) : presenceOk C o d = true ↔ TouchOk C o d := by
  unfold TouchOk
  cases d with
  | none => simp [presenceOk]
  | some x =>
    simp only [presenceOk, and_one, and_four, Option.some.injEq, forall_eq']
    cases C.touch <;> cases o.noPresence <;> cases C.verify <;> cases o.verify <;> cases x.flags.testBit 0 <;>
      cases x.flags.testBit 2 <;> simp

/-- **C97 (what is accepted).**  A request for public-key authentication succeeds, with certain options, exactly if it has the
prescribed form and nothing after the signature, the user is valid, the key may be tried and is listed for the user with these
options (C95), the signature is right for this key and algorithm over the data that name this session, user, service, method,
algorithm and key (and host key), the demands on touching are met, and the options fit those in force. -/
theorem C97_accepted (W : World) (K : KeyWorld) (C : Conf) (pw : User) (s : Session) (method b : Bytes) (o : Opts) :
    userauth W K C pw s method b = .accepted o ↔
      s.valid = true ∧ ∃ (h : UInt8) (alg blob sig d : Bytes) (k : PubKey) (x : Option SigDetails), h ≠ 0 ∧
        sig.length ≤ maxString ∧ Request K method h alg blob (str sig) b ∧ Eligible K C alg blob k ∧
        allowed W C pw k.key = some o ∧ Signed K s method h alg blob d ∧
        K.verify k sig d (if s.bugSigtype then none else some alg) = some x ∧ TouchOk C o x ∧
        (KeyOpts.activate s.current o).isSome := by
  constructor
  · intro hu
    unfold userauth at hu
    cases h1 : getRequest K (method = b!"publickey-hostbound-v00@openssh.com") b with
    | none => rw [h1] at hu; cases hu
    | some v =>
      obtain ⟨h, alg, blob, rest⟩ := v
      rw [h1] at hu
      dsimp only at hu
      obtain ⟨x, rfl, hreq⟩ := (request_iff K method b h alg blob rest).1 h1
      cases h2 : getKey K C alg blob with
      | none => rw [h2] at hu; cases hu
      | some k =>
        rw [h2] at hu
        dsimp only at hu
        by_cases h0 : x.toNat ≠ 0
        · rw [if_pos h0] at hu
          unfold withSig at hu
          cases h3 : getStr rest with
          | none => rw [h3] at hu; cases hu
          | some v =>
            obtain ⟨sig, tail⟩ := v
            rw [h3] at hu
            dsimp only at hu
            by_cases h4 : tail ≠ []
            · rw [if_pos h4] at hu; cases hu
            rw [if_neg h4] at hu
            have h4' : tail = [] := by simpa using h4
            subst h4'
            obtain ⟨e, hl⟩ := getStr_some h3
            by_cases h5 : s.valid = false
            · rw [if_pos h5] at hu; cases hu
            rw [if_neg h5] at hu
            cases h6 : allowed W C pw k.key with
            | none => rw [h6] at hu; cases hu
            | some o' =>
              rw [h6] at hu
              dsimp only at hu
              cases h7 : K.verify k sig (signedData K s method (method = b!"publickey-hostbound-v00@openssh.com") x.toNat alg blob)
                  (if s.bugSigtype then none else some alg) with
              | none => rw [h7] at hu; cases hu
              | some d =>
                rw [h7] at hu
                dsimp only at hu
                by_cases h8 : presenceOk C o' d = true
                · rw [if_pos h8] at hu
                  unfold activated at hu
                  cases h9 : KeyOpts.activate s.current o' with
                  | none => rw [h9] at hu; cases hu
                  | some a =>
                    rw [h9] at hu
                    injection hu with hu
                    subst hu
                    refine ⟨by simpa using h5, x, alg, blob, sig, _, k, d, ?_, hl, ?_, (getKey_iff K C alg blob k).1 h2, h6,
                      (signed_iff K s method x alg blob _).2 rfl, h7, (presence_iff C o' d).1 h8, by rw [h9]; rfl⟩
                    · intro e; subst e; exact h0 rfl
                    · rw [e, List.append_nil] at hreq; exact hreq
                · rw [if_neg h8] at hu; cases hu
        · rw [if_neg h0] at hu
          unfold withoutSig at hu
          by_cases h4 : rest ≠ []
          · rw [if_pos h4] at hu; cases hu
          rw [if_neg h4] at hu
          by_cases h5 : s.valid = false
          · rw [if_pos h5] at hu; cases hu
          rw [if_neg h5] at hu
          cases h6 : allowed W C pw k.key with
          | none => rw [h6] at hu; cases hu
          | some o' => rw [h6] at hu; cases hu
  · rintro ⟨hv, h, alg, blob, sig, d, k, x, h0, hl, hreq, hel, hall, hsig, hver, htouch, hact⟩
    unfold userauth
    rw [(request_iff K method b h.toNat alg blob (str sig)).2 ⟨h, rfl, hreq⟩]
    dsimp only
    rw [(getKey_iff K C alg blob k).2 hel]
    dsimp only
    rw [if_pos (show h.toNat ≠ 0 from fun e => h0 (UInt8.toNat_inj.1 e))]
    unfold withSig
    have := getStr_append sig [] hl
    rw [List.append_nil] at this
    rw [this]
    dsimp only
    rw [if_neg (by simp), if_neg (by rw [hv]; simp), hall]
    dsimp only
    rw [← (signed_iff K s method h alg blob d).1 hsig, hver]
    dsimp only
    rw [if_pos ((presence_iff C o x).2 htouch)]
    unfold activated
    cases ha : KeyOpts.activate s.current o with
    | none => rw [ha] at hact; cases hact
    | some a => rfl

/-- **C97 (a signature is for one request).**  What is signed determines the session, the user with style, the service, the
method, algorithm and key: a signature made for one of them is of no use for another.  (For peers with the old form of the
identifier of the session, identifiers of the same length are assumed.) -/
theorem C97_binding {K K' : KeyWorld} {s s' : Session} {method method' : Bytes} {h h' : UInt8} {alg alg' blob blob' d : Bytes}
    (h1 : Signed K s method h alg blob d) (h2 : Signed K' s' method' h' alg' blob' d)
    (ho : s.oldId = s'.oldId) (hi : s.oldId = true → s.id.length = s'.id.length)
    (hl : ∀ x ∈ [s.id, s.service, s'.id, s'.service, userStyle s, userStyle s', method, method', alg, alg', blob, blob', K.hostBlob, K'.hostBlob],
      x.length < 4294967296) :
    s.id = s'.id ∧ userStyle s = userStyle s' ∧ s.service = s'.service ∧ method = method' ∧ h = h' ∧ alg = alg' ∧
    blob = blob' ∧ (Hostbound method → K.hostBlob = K'.hostBlob) := by
  have si : ∀ {a b x y : Bytes}, a.length < 4294967296 → b.length < 4294967296 → str a ++ x = str b ++ y → a = b ∧ x = y := by
    intro a b x y ha hb e
    unfold str at e
    rw [List.append_assoc, List.append_assoc] at e
    have e1 := List.append_inj e (by simp)
    have e2 := be_inj (n := 4) (by simpa using ha) (by simpa using hb) e1.1
    exact List.append_inj e1.2 e2
  have g1 := (signed_iff K s method h alg blob d).1 h1
  have g2 := (signed_iff K' s' method' h' alg' blob' d).1 h2
  rw [g1] at g2
  unfold signedData at g2
  simp only [List.append_assoc, be_byte] at g2
  have first : s.id = s'.id ∧
      (be 1 50 ++ (str (userStyle s) ++ (str s.service ++ (str method ++ ([h] ++ (str alg ++ (str blob ++
        (if decide (method = b!"publickey-hostbound-v00@openssh.com") = true then str K.hostBlob else [])))))))) =
      (be 1 50 ++ (str (userStyle s') ++ (str s'.service ++ (str method' ++ ([h'] ++ (str alg' ++ (str blob' ++
        (if decide (method' = b!"publickey-hostbound-v00@openssh.com") = true then str K'.hostBlob else [])))))))) := by
    cases hs : s.oldId
    · rw [← ho, hs] at g2
      exact si (hl _ (by simp)) (hl _ (by simp)) g2
    · rw [← ho, hs] at g2
      exact List.append_inj g2 (hi hs)
  obtain ⟨e1, g3⟩ := first
  have g4 := List.append_cancel_left g3
  obtain ⟨e2, g5⟩ := si (hl _ (by simp)) (hl _ (by simp)) g4
  obtain ⟨e3, g6⟩ := si (hl _ (by simp)) (hl _ (by simp)) g5
  obtain ⟨e4, g7⟩ := si (hl _ (by simp)) (hl _ (by simp)) g6
  have g8 := List.append_inj g7 (by simp)
  obtain ⟨e5, g9⟩ := si (hl _ (by simp)) (hl _ (by simp)) g8.2
  obtain ⟨e6, g10⟩ := si (hl _ (by simp)) (hl _ (by simp)) g9
  refine ⟨e1, e2, e3, e4, by simpa using g8.1, e5, e6, fun hb => ?_⟩
  have hb' : method' = b!"publickey-hostbound-v00@openssh.com" := e4 ▸ hb
  rw [if_pos (by simpa [Hostbound] using hb), if_pos (by simpa using hb')] at g10
  have := si (x := []) (y := []) (hl K.hostBlob (by simp)) (hl K'.hostBlob (by simp)) (by simpa using g10)
  exact this.1

/-- **C97 (without a signature nothing is granted).**  A request without signature never succeeds; the answer that a key would
do is given only for a valid user and a key that is listed. -/
theorem C97_query (W : World) (K : KeyWorld) (C : Conf) (pw : User) (s : Session) (method b alg blob : Bytes) :
    userauth W K C pw s method b = .pkOk alg blob ↔
      s.valid = true ∧ ∃ (k : PubKey) (o : Opts), Request K method 0 alg blob [] b ∧ Eligible K C alg blob k ∧
        allowed W C pw k.key = some o := by
  constructor
  · intro hu
    unfold userauth at hu
    cases h1 : getRequest K (method = b!"publickey-hostbound-v00@openssh.com") b with
    | none => rw [h1] at hu; cases hu
    | some v =>
      obtain ⟨h, alg', blob', rest⟩ := v
      rw [h1] at hu
      dsimp only at hu
      obtain ⟨x, rfl, hreq⟩ := (request_iff K method b h alg' blob' rest).1 h1
      cases h2 : getKey K C alg' blob' with
      | none => rw [h2] at hu; cases hu
      | some k =>
        rw [h2] at hu
        dsimp only at hu
        by_cases h0 : x.toNat ≠ 0
        · rw [if_pos h0] at hu
          unfold withSig at hu
          cases h3 : getStr rest with
          | none => rw [h3] at hu; cases hu
          | some v =>
            obtain ⟨sig, tail⟩ := v
            rw [h3] at hu
            dsimp only at hu
            by_cases h4 : tail ≠ []
            · rw [if_pos h4] at hu; cases hu
            rw [if_neg h4] at hu
            by_cases h5 : s.valid = false
            · rw [if_pos h5] at hu; cases hu
            rw [if_neg h5] at hu
            cases h6 : allowed W C pw k.key with
            | none => rw [h6] at hu; cases hu
            | some o' =>
              rw [h6] at hu
              dsimp only at hu
              cases h7 : K.verify k sig (signedData K s method (method = b!"publickey-hostbound-v00@openssh.com") x.toNat alg' blob')
                  (if s.bugSigtype then none else some alg') with
              | none => rw [h7] at hu; cases hu
              | some d =>
                rw [h7] at hu
                dsimp only at hu
                by_cases h8 : presenceOk C o' d = true
                · rw [if_pos h8] at hu
                  unfold activated at hu
                  cases h9 : KeyOpts.activate s.current o' with
                  | none => rw [h9] at hu; cases hu
                  | some a => rw [h9] at hu; cases hu
                · rw [if_neg h8] at hu; cases hu
        · rw [if_neg h0] at hu
          unfold withoutSig at hu
          by_cases h4 : rest ≠ []
          · rw [if_pos h4] at hu; cases hu
          rw [if_neg h4] at hu
          have h4' : rest = [] := by simpa using h4
          subst h4'
          by_cases h5 : s.valid = false
          · rw [if_pos h5] at hu; cases hu
          rw [if_neg h5] at hu
          cases h6 : allowed W C pw k.key with
          | none => rw [h6] at hu; cases hu
          | some o' =>
            rw [h6] at hu
            injection hu with e1 e2
            subst e1 e2
            have hx : x = 0 := UInt8.toNat_inj.1 (by simpa using h0)
            subst hx
            exact ⟨by simpa using h5, k, o', hreq, (getKey_iff K C _ _ k).1 h2, h6⟩
  · rintro ⟨hv, k, o, hreq, hel, hall⟩
    unfold userauth
    rw [(request_iff K method b 0 alg blob []).2 ⟨0, rfl, hreq⟩]
    dsimp only
    rw [(getKey_iff K C alg blob k).2 hel]
    dsimp only
    rw [if_neg (by simp)]
    unfold withoutSig
    rw [if_neg (by simp), if_neg (by rw [hv]; simp), hall]

end Verif.UserKey
