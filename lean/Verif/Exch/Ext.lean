/-
What an end learns from EXT_INFO (RFC 8308, PROTOCOL section 1.7 and following).
-/
import Verif.Exch.Hash
import Verif.WireMore

namespace Verif.Exch
open Verif Wire

/-! ### What is promised -/

/-- An extension as it stands in the message. -/
structure Entry where
  raw : Bytes
  name : Bytes
  value : Bytes

/-- The body of a message with the extensions. -/
def Body (es : List Entry) (b : Bytes) : Prop :=
  b = be 4 es.length ++ es.flatMap (fun e => str e.raw ++ str e.value) ∧
    ∀ e ∈ es, Named e.raw e.name ∧ e.raw.length ≤ maxString ∧ e.value.length ≤ maxString

/-- The value given last. -/
def last (name : Bytes) (old : Option Bytes) (es : List Entry) : Option Bytes :=
  match (es.filter fun e => e.name = name).getLast? with
  | some e => some e.value
  | none => old

/-- The extension is announced in the version known. -/
def has (name : Bytes) (es : List Entry) : Bool := es.any fun e => e.name = name ∧ e.value = b!"0"

/-- The extensions this end looks at; a client looks at two of them only in the first message. -/
def known (server first : Bool) : List Bytes :=
  if server then [b!"ext-info-in-auth@openssh.com"]
  else if first then [b!"server-sig-algs", b!"publickey-hostbound@openssh.com", b!"ping@openssh.com"]
  else [b!"server-sig-algs"]

/-- What is known after the extensions. -/
def told (server first : Bool) (es : List Entry) (s : St) : St :=
  { s with
    sigAlgs := if server then s.sigAlgs else last b!"server-sig-algs" s.sigAlgs es
    hostbound := s.hostbound || (!server && first && has b!"publickey-hostbound@openssh.com" es)
    ping := s.ping || (!server && first && has b!"ping@openssh.com" es)
    extInAuth := s.extInAuth || (server && has b!"ext-info-in-auth@openssh.com" es) }

/-- How many such messages are read. -/
def limit (server : Bool) : Nat := if server then 1 else 2

/-! ### Proofs -/

theorem last_cons (n : Bytes) (o : Option Bytes) (e : Entry) (es : List Entry) :
    last n o (e :: es) = last n (if e.name = n then some e.value else o) es := by
  unfold last
  rw [List.filter_cons]
  by_cases h : e.name = n
  · rw [if_pos (by simpa using h), if_pos h]
    cases hf : es.filter (fun e => e.name = n) with
    | nil => rfl
    | cons a l => rw [List.getLast?_cons_cons]; cases hl : (a :: l).getLast? with
      | none => simp at hl
      | some x => rfl
  · rw [if_neg (by simpa using h), if_neg h]

theorem has_cons (n : Bytes) (e : Entry) (es : List Entry) :
    has n (e :: es) = (decide (e.name = n ∧ e.value = b!"0") || has n es) := rfl

theorem extVersion_iff {v : Bytes} {b : Bool} : extVersion v = .ok b ↔ 0 ∉ v ∧ b = decide (v = b!"0") := by
  unfold extVersion
  by_cases h : (0 : UInt8) ∈ v
  · rw [if_pos h]
    constructor
    · intro e; cases e
    · intro e; exact absurd h e.1
  · rw [if_neg h]
    constructor
    · intro e; cases e; exact ⟨h, rfl⟩
    · intro e; rw [e.2]

def nAlgs : Bytes := b!"server-sig-algs"
def nBound : Bytes := b!"publickey-hostbound@openssh.com"
def nPing : Bytes := b!"ping@openssh.com"
def nAuth : Bytes := b!"ext-info-in-auth@openssh.com"

theorem nn : nBound ≠ nAlgs ∧ nPing ≠ nAlgs ∧ nPing ≠ nBound := by decide +kernel

theorem told_one (server first : Bool) (e : Entry) (s : St) : told server first [e] s = { s with
    sigAlgs := if server then s.sigAlgs else if e.name = nAlgs then some e.value else s.sigAlgs
    hostbound := s.hostbound || (!server && first && decide (e.name = nBound ∧ e.value = b!"0"))
    ping := s.ping || (!server && first && decide (e.name = nPing ∧ e.value = b!"0"))
    extInAuth := s.extInAuth || (server && decide (e.name = nAuth ∧ e.value = b!"0")) } := by
  unfold told
  rw [last_cons, has_cons, has_cons, has_cons]
  simp only [has, List.any_nil, Bool.or_false]
  rfl

theorem server_one {s s1 : St} {e : Entry} {first : Bool} : extServer s e.name e.value = .ok s1 ↔
      (e.name ∈ known true first → 0 ∉ e.value) ∧ s1 = told true first [e] s := by
  have hk : e.name ∈ known true first ↔ e.name = nAuth := by
    show e.name ∈ [nAuth] ↔ _
    simp
  rw [hk, told_one]
  unfold extServer
  split
  · rename_i h
    have h : e.name = nAuth := h
    cases hv : extVersion e.value with
    | error x =>
      constructor
      · intro e; cases e
      · rintro ⟨h1, -⟩
        rw [extVersion_iff.mpr ⟨h1 h, rfl⟩] at hv
        cases hv
    | ok b =>
      obtain ⟨h1, rfl⟩ := extVersion_iff.mp hv
      simp [h, h1, eq_comm]
  · rename_i h
    have h : ¬ e.name = nAuth := h
    simp [h]
    exact eq_comm

theorem client_one {s s1 : St} {e : Entry} {first : Bool} (hf : first = decide (s.extReceived = 1)) :
    extClient s e.name e.value = .ok s1 ↔ (e.name ∈ known false first → 0 ∉ e.value) ∧ s1 = told false first [e] s := by
  have hk : e.name ∈ known false first ↔ e.name = nAlgs ∨ first = true ∧ (e.name = nBound ∨ e.name = nPing) := by
    cases first with
    | false => show e.name ∈ [nAlgs] ↔ _; simp
    | true => show e.name ∈ [nAlgs, nBound, nPing] ↔ _; simp
  rw [hk, told_one]
  obtain ⟨n1, n2, n3⟩ := nn
  unfold extClient
  split
  · rename_i h
    have h : e.name = nAlgs := h
    split
    · rename_i h0
      constructor
      · intro e; cases e
      · rintro ⟨h1, -⟩
        exact absurd h0 (h1 (.inl h))
    · rename_i h0
      simp [h, h0, n1.symm, n2.symm, eq_comm]
  · rename_i ha
    have ha : ¬ e.name = nAlgs := ha
    split
    · rename_i h
      obtain ⟨hr, h⟩ := h
      have h : e.name = nBound := h
      have hf : first = true := by rw [hf]; simpa using hr
      cases hv : extVersion e.value with
      | error x =>
        constructor
        · intro e; cases e
        · rintro ⟨h1, -⟩
          rw [extVersion_iff.mpr ⟨h1 (.inr ⟨hf, .inl h⟩), rfl⟩] at hv
          cases hv
      | ok b =>
        obtain ⟨h1, rfl⟩ := extVersion_iff.mp hv
        simp [h, h1, hf, n1, n3.symm, eq_comm]
    · rename_i hb
      split
      · rename_i h
        obtain ⟨hr, h⟩ := h
        have h : e.name = nPing := h
        have hf : first = true := by rw [hf]; simpa using hr
        cases hv : extVersion e.value with
        | error x =>
          constructor
          · intro e; cases e
          · rintro ⟨h1, -⟩
            rw [extVersion_iff.mpr ⟨h1 (.inr ⟨hf, .inr h⟩), rfl⟩] at hv
            cases hv
        | ok b =>
          obtain ⟨h1, rfl⟩ := extVersion_iff.mp hv
          simp [h, h1, hf, n2, n3, eq_comm]
      · rename_i hp
        have h1 : ¬ (first = true ∧ (e.name = nBound ∨ e.name = nPing)) := by
          rintro ⟨h1, h2⟩
          rw [hf] at h1
          have h1 : s.extReceived = 1 := by simpa using h1
          rcases h2 with h2 | h2
          · exact hb ⟨h1, h2⟩
          · exact hp ⟨h1, h2⟩
        have hb' : (first && decide (e.name = nBound ∧ e.value = b!"0")) = false := by
          rw [Bool.eq_false_iff]
          intro h
          simp only [Bool.and_eq_true, decide_eq_true_eq] at h
          exact h1 ⟨h.1, .inl h.2.1⟩
        have hp' : (first && decide (e.name = nPing ∧ e.value = b!"0")) = false := by
          rw [Bool.eq_false_iff]
          intro h
          simp only [Bool.and_eq_true, decide_eq_true_eq] at h
          exact h1 ⟨h.1, .inr h.2.1⟩
        rw [Bool.not_false, Bool.true_and, hb', hp']
        simp [ha, h1]
        exact eq_comm

/-- One extension -/
theorem ext_one {E : Env} {s s1 : St} {e : Entry} {first : Bool} (hf : first = decide (s.extReceived = 1)) :
    (if E.server then extServer s e.name e.value else extClient s e.name e.value) = .ok s1 ↔
      (e.name ∈ known E.server first → 0 ∉ e.value) ∧ s1 = told E.server first [e] s := by
  cases E.server with
  | true => exact server_one
  | false => exact client_one hf

theorem told_cons (server first : Bool) (e : Entry) (es : List Entry) (s : St) :
    told server first (e :: es) s = told server first es (told server first [e] s) := by
  have h1 : ∀ n o, last n o (e :: es) = last n (last n o [e]) es := fun n o => by
    rw [last_cons, last_cons n o e []]; rfl
  have h2 : ∀ n, has n (e :: es) = (has n [e] || has n es) := fun n => by
    rw [has_cons, has_cons n e []]; simp [has]
  unfold told
  simp only [h1, h2]
  generalize has b!"publickey-hostbound@openssh.com" [e] = x1
  generalize has b!"ping@openssh.com" [e] = x2
  generalize has b!"ext-info-in-auth@openssh.com" [e] = x3
  cases server <;> cases first <;> simp [Bool.or_assoc]

theorem extEntries_iff {E : Env} {first : Bool} : ∀ (n : Nat) (s s1 : St) (b : Bytes), first = decide (s.extReceived = 1) →
    (extEntries E s n b = .ok s1 ↔ ∃ es, es.length = n ∧ b = es.flatMap (fun e => str e.raw ++ str e.value) ∧
      (∀ e ∈ es, Named e.raw e.name ∧ e.raw.length ≤ maxString ∧ e.value.length ≤ maxString) ∧
      (∀ e ∈ es, e.name ∈ known E.server first → 0 ∉ e.value) ∧ s1 = told E.server first es s) := by
  intro n
  induction n with
  | zero =>
    intro s s1 b hf
    have h0 : told E.server first [] s = s := by
      cases s
      simp [told, has, last]
    rw [extEntries]
    split
    · rename_i hb
      constructor
      · intro e
        cases e
        exact ⟨[], rfl, hb, by simp, by simp, h0.symm⟩
      · rintro ⟨es, h1, -, -, -, h2⟩
        rw [List.length_eq_zero_iff.mp h1, h0] at h2
        rw [h2]
    · rename_i hb
      constructor
      · intro e; cases e
      · rintro ⟨es, h1, h2, -⟩
        rw [List.length_eq_zero_iff.mp h1] at h2
        exact absurd h2 hb
  | succ n ih =>
    intro s s1 b hf
    rw [extEntries]
    constructor
    · intro h
      split at h; · cases h
      rename_i name rest hn
      split at h; · cases h
      rename_i v rest' hv
      obtain ⟨w, w1, w2, w3⟩ := getCstr_named hn
      obtain ⟨v1, v2⟩ := getStr_some hv
      split at h; · cases h
      rename_i s2 h2
      obtain ⟨k1, rfl⟩ := (ext_one (e := ⟨w, name, v⟩) hf).mp h2
      obtain ⟨es, e1, e2, e3, e4, e5⟩ := (ih (told E.server first [⟨w, name, v⟩] s) s1 rest' hf).mp h
      refine ⟨⟨w, name, v⟩ :: es, by rw [List.length_cons, e1], ?_, ?_, ?_, by rw [told_cons]; exact e5⟩
      · rw [w2, v1, e2, List.flatMap_cons, List.append_assoc]
      · intro e he
        rcases List.mem_cons.mp he with rfl | he
        · exact ⟨w1, w3, v2⟩
        · exact e3 e he
      · intro e he
        rcases List.mem_cons.mp he with rfl | he
        · exact k1
        · exact e4 e he
    · rintro ⟨es, e1, rfl, e3, e4, e5⟩
      cases es with
      | nil => simp at e1
      | cons e es =>
        obtain ⟨a1, a2, a3⟩ := e3 e (by simp)
        rw [List.flatMap_cons, List.append_assoc, getCstr_of_named a1 _ a2]
        simp only
        rw [getStr_append _ _ a3]
        simp only
        rw [told_cons] at e5
        rw [(ext_one hf).mpr ⟨e4 e (by simp), rfl⟩]
        simp only
        exact (ih (told E.server first [e] s) s1 _ hf).mpr ⟨es, by simpa using e1, rfl, fun x hx => e3 x (by simp [hx]), fun x hx => e4 x (by simp [hx]), e5⟩

/-- A message within the limit is accepted just if it is well formed and the extensions this end looks at have no NUL in
their values; the end then knows what it was told, and nothing else changes.  1024 or more extensions are not looked at. -/
theorem C92_received (E : Env) (s s1 : St) (seq : Nat) (b : Bytes) (hl : s.extReceived < limit E.server) :
    inputExtInfo E s seq b = .ok s1 ↔
      (∃ es, Body es b ∧ es.length < 1024 ∧
        (∀ e ∈ es, e.name ∈ known E.server (decide (s.extReceived = 0)) → 0 ∉ e.value) ∧
        s1 = told E.server (decide (s.extReceived = 0)) es
          { s with extReceived := s.extReceived + 1, table := setH 7 .kexError s.table }) ∨
      (∃ n r, b = be 4 n ++ r ∧ 1024 ≤ n ∧ n < 4294967296 ∧
        s1 = send { s with extReceived := s.extReceived + 1, table := setH 7 .kexError s.table } 3 (be 4 seq)) := by
  have hm : maxExtInfo E.server = limit E.server := rfl
  have hf : decide (s.extReceived = 0) = decide (s.extReceived + 1 = 1) := by simp
  unfold inputExtInfo
  rw [hm, if_neg (by omega)]
  constructor
  · intro h
    split at h; · cases h
    rename_i n r hn
    obtain ⟨h1, h2⟩ := getInt_some hn
    split at h
    · rename_i hbig
      cases h
      exact .inr ⟨n, r, h1, hbig, h2, rfl⟩
    · rename_i hsm
      obtain ⟨es, e1, e2, e3, e4, e5⟩ := (extEntries_iff n _ _ r hf).mp h
      exact .inl ⟨es, ⟨by rw [h1, e2, e1], e3⟩, by omega, e4, e5⟩
  · rintro (⟨es, ⟨rfl, h1⟩, h2, h3, h4⟩ | ⟨n, r, rfl, h1, h2, rfl⟩)
    · rw [getInt_append _ _ _ (by omega)]
      simp only
      rw [if_neg (by omega)]
      exact (extEntries_iff _ _ _ _ hf).mpr ⟨es, rfl, rfl, h1, h3, h4⟩
    · rw [getInt_append _ _ _ h2]
      simp only
      rw [if_pos h1]
      rfl

/-- A message beyond the limit is answered by UNIMPLEMENTED and not looked at. -/
theorem C92_limit (E : Env) (s : St) (seq : Nat) (b : Bytes) (hl : limit E.server ≤ s.extReceived) :
    inputExtInfo E s seq b = .ok (send { s with extReceived := s.extReceived + 1 } 3 (be 4 seq)) := by
  have hm : maxExtInfo E.server = limit E.server := rfl
  unfold inputExtInfo
  rw [hm, if_pos (by omega)]
  rfl

theorem named_self {n : Bytes} (h : 0 ∉ n) : Named n n := ⟨.inl rfl, h⟩

/-- What a server sends, the client understands: the algorithms, and that it has the two extensions. -/
theorem C92_server_to_client (E E' : Env) (f : Kex.Flags) (s : St) (seq : Nat) (h : E'.server = false) (hs : s.extReceived = 0)
    (hc : f.extInfoC = true) (hcs : f.extInfoS = false) (ha : 0 ∉ E.sigAlgs) (hl : E.sigAlgs.length ≤ maxString) :
    inputExtInfo E' s seq (extInfoBody E f) = .ok { s with
      extReceived := 1, table := setH 7 .kexError s.table, sigAlgs := some E.sigAlgs, hostbound := true, ping := true } := by
  refine (C92_received E' s _ seq _ (by rw [h, hs]; decide)).mpr (.inl ⟨[⟨nAlgs, nAlgs, E.sigAlgs⟩, ⟨nBound, nBound, b!"0"⟩,
    ⟨nPing, nPing, b!"0"⟩], ⟨?_, ?_⟩, by simp, ?_, ?_⟩)
  · unfold extInfoBody
    rw [hc, hcs]
    simp [nAlgs, nBound, nPing]
  · intro e he
    simp only [List.mem_cons, List.not_mem_nil, or_false] at he
    rcases he with rfl | rfl | rfl
    · exact ⟨named_self (n := nAlgs) (by decide +kernel), by show nAlgs.length ≤ _; decide +kernel, hl⟩
    · exact ⟨named_self (by decide +kernel), by decide +kernel, by decide⟩
    · exact ⟨named_self (by decide +kernel), by decide +kernel, by decide⟩
  · intro e he _
    simp only [List.mem_cons, List.not_mem_nil, or_false] at he
    rcases he with rfl | rfl | rfl
    · exact ha
    · decide
    · decide
  · rw [h, hs]
    rw [told_cons, told_cons, told_one, told_one, told_one]
    obtain ⟨n1, n2, n3⟩ := nn
    simp [n1, n2, n3.symm, n1.symm, n2.symm, n3]

/-- What a client sends, the server understands. -/
theorem C92_client_to_server (E E' : Env) (f : Kex.Flags) (s : St) (seq : Nat) (h : E'.server = true) (hs : s.extReceived = 0)
    (hc : f.extInfoC = false) (hcs : f.extInfoS = true) :
    inputExtInfo E' s seq (extInfoBody E f) = .ok { s with
      extReceived := 1, table := setH 7 .kexError s.table, extInAuth := true } := by
  refine (C92_received E' s _ seq _ (by rw [h, hs]; decide)).mpr (.inl ⟨[⟨nAuth, nAuth, b!"0"⟩], ⟨?_, ?_⟩, by decide, ?_, ?_⟩)
  · unfold extInfoBody
    rw [hc, hcs]
    simp [nAuth]
  · intro e he
    simp only [List.mem_cons, List.not_mem_nil, or_false] at he
    subst he
    exact ⟨named_self (by decide +kernel), by decide +kernel, by decide⟩
  · intro e he _
    simp only [List.mem_cons, List.not_mem_nil, or_false] at he
    subst he
    decide
  · rw [h, hs, told_one]
    simp

end Verif.Exch
