/-
C33: destination constraints; and concrete histories for C32 and C33.
-/
import Verif.Agent.Props

namespace Verif.Agent
open Verif Wire Match

/-- What a use of a constrained key needs: the bindings of the connection are a path of forwardings and a last
binding for authentication; each hop is permitted by a constraint and the last one for the user named in the signed data, which
is an authentication request with this key for the last session; and when the data names the host key it is that of the last
binding, otherwise there is no forwarding. -/
def Permitted (w : World) (ds : List Dest) (key : Key) (data : Bytes) (binds : List Bind) : Prop :=
  ∃ (l : List Bind) (last : Bind) (user : Bytes) (host : Option Key), binds = l ++ [last] ∧ (∀ b ∈ l, b.fwd = true) ∧ last.fwd = false ∧
    Path w ds none (l.map (·.key)) ∧ (∃ d ∈ ds, Lets w d (endOf none (l.map (·.key))) last.key ∧ ForUser d user) ∧
    Request w data key last.sid user host ∧ ((host = none ∧ l = []) ∨ host = some last.key)

theorem identityPermitted_sign {w : World} {id : Ident} {e : Conn} {l : List Bind} {last : Bind} {u : Bytes} (hd : id.dests ≠ [])
    (he : e.binds = l ++ [last]) :
    identityPermitted w id e (some u) = true ↔ (∀ b ∈ l, b.fwd = true) ∧ last.fwd = false ∧ Path w id.dests none (l.map (·.key)) ∧
        ∃ d ∈ id.dests, Lets w d (endOf none (l.map (·.key))) last.key ∧ ForUser d u := by
  unfold identityPermitted
  rw [if_neg hd, he, if_neg (by simp), if_neg (by simp), Bool.and_eq_true, hops_sign]
  simp [beyond]

theorem hostOk_iff {l : List Bind} {last : Bind} {host : Option Key} :
    hostOk (l ++ [last]).length last host = true ↔ (host = none ∧ l = []) ∨ host = some last.key := by
  cases host with
  | none =>
    simp only [hostOk, decide_eq_true_eq, List.length_append, List.length_cons, List.length_nil, true_and, reduceCtorEq, or_false]
    constructor
    · intro h; exact List.eq_nil_of_length_eq_zero (by omega)
    · rintro rfl; simp
  | some k => simp [hostOk]

theorem destOk_iff {w : World} {id : Ident} {e : Conn} {key : Key} {data : Bytes} (hd : id.dests ≠ []) (hl : data.length ≤ maxString) :
    destOk w id e key data = true ↔ Permitted w id.dests key data e.binds := by
  unfold destOk Permitted
  rw [if_neg hd]
  rcases List.eq_nil_or_concat e.binds with hb | ⟨l, last, hb⟩
  · rw [hb]; simp
  · rw [List.concat_eq_append] at hb
    rw [hb]
    simp only [List.getLast?_concat]
    cases hp : parseUserauth w data key with
    | none =>
      simp only [Bool.false_eq_true, false_iff]
      rintro ⟨l', last', user, host, h1, _, _, _, _, h6, _⟩
      rw [parseUserauth_of_request h6 hl] at hp
      cases hp
    | some u =>
      simp only [Bool.and_eq_true, decide_eq_true_eq, identityPermitted_sign hd hb, hostOk_iff]
      constructor
      · rintro ⟨⟨⟨h1, h2, h3, h4⟩, h5⟩, h6⟩
        exact ⟨l, last, u.user, u.hostkey, rfl, h1, h2, h3, h4, h5 ▸ parseUserauth_request hp, h6⟩
      · rintro ⟨l', last', user, host, h0, h1, h2, h3, h4, h5, h6⟩
        obtain ⟨rfl, h0'⟩ := List.append_inj' h0 rfl
        simp only [List.cons.injEq, and_true] at h0'
        subst h0'
        rw [parseUserauth_of_request h5 hl] at hp
        obtain rfl := Option.some.inj hp
        exact ⟨⟨⟨h1, h2, h3, h4⟩, rfl⟩, h6⟩

theorem parseSign_size {w : World} {req : Bytes} {key : Key} {data : Bytes} (h : parseSign w req = some (key, data)) : data.length ≤ maxString := by
  unfold parseSign at h
  simp only [Option.bind_eq_bind, Option.bind_eq_some_iff] at h
  obtain ⟨k, h1, d, h2, f, h3, h4⟩ := h
  cases h4
  exact (getStr_some (v := d.1) (rest := d.2) h2).2

/-- C33.  A destination-constrained key is used only along a permitted path: the bindings, as recorded from the requests
answered on that connection, lead from here over hosts permitted by the constraints to the host and user that the signed data
names. -/
theorem C33_sign {w : World} {h : List (Ev × Option Out)} {s : State} {t : Nat} (hh : Hist w h s t) {now c : Nat} {ty : UInt8} {req : Bytes}
    {a : Ans} {s' : State} {o : Out} {u : Use} (hs : step w s (.msg now c ty req a) = some (s', some o)) (hu : o.use = some u)
    (hd : u.id.dests ≠ []) : Permitted w u.id.dests u.id.key u.data (bound w c h) := by
  obtain ⟨now', c', req', a', e, hl, _, key, data, hp, hx, rfl⟩ := use_sign hs hu
  cases e
  obtain ⟨h1, h2, h3⟩ := signWith_use hu
  obtain ⟨hm, hk⟩ := lookup_some hx
  have := (destOk_iff hd (parseSign_size hp)).1 h1
  rw [(hist_ainv hh).binds] at this
  have hdata : u.data = data := by rw [h3]
  rw [hk, hdata]
  exact this

/-- C33.  The converse: a sign request for a key in the table, along a permitted path, is granted, if the user agrees where
confirmation is wanted and the restriction on security keys (which asks for a known kind of message) does not apply. -/
theorem C33_granted {w : World} {h : List (Ev × Option Out)} {s : State} {t : Nat} (hh : Hist w h s t) (hl : lockedBy h = none)
    {now c : Nat} {blob data flags : Bytes} {a : Ans} {x : Ident} (hx : x ∈ s.ids) (hb : w.readPub blob = some x.key)
    (hsz : blob.length ≤ maxString ∧ data.length ≤ maxString ∧ flags.length = 4)
    (hp : x.dests = [] ∨ Permitted w x.dests x.key data (bound w c h)) (hc : x.confirm = true → a.confirm = true)
    (hsk : w.isSk x.key = false ∨ w.restrictWeb = false) :
    step w s (.msg now c 13 (str blob ++ str data ++ flags) a) =
      some (s, some ⟨match a.sign with | none => .status false | some sg => .signature sg, some ⟨x, data, x.confirm⟩⟩) := by
  have hi := hist_ainv hh
  have hk := C32_lock_state hh
  rw [hl] at hk
  simp only [step, process]
  rw [if_neg (by rw [hk]; simp)]
  have hdd : ∀ r, dispatch w s now c 13 r a = some (s, processSign w s (s.conns c) r a) := fun r => rfl
  rw [hdd]
  have hps : parseSign w (str blob ++ str data ++ flags) = some (x.key, data) := by
    unfold parseSign
    rw [List.append_assoc, readKey_str hb hsz.1]
    simp only [Option.bind_eq_bind, Option.bind_some]
    rw [getStr_append _ _ hsz.2.1]
    simp only [Option.bind_some]
    have : flags = be 4 (ofBE flags) ++ [] := by rw [List.append_nil, ← hsz.2.2, be_ofBE]
    rw [this, getInt_append 4 _ _ (by rw [← hsz.2.2]; exact ofBE_lt _)]
    rfl
  unfold processSign
  rw [hps]
  simp only [lookup_mem hi.tab.keys hx]
  unfold signWith
  have hd : destOk w x (s.conns c) x.key data = true := by
    by_cases hd : x.dests = []
    · unfold destOk; rw [if_pos hd]
    · rw [destOk_iff hd hsz.2.1, hi.binds]
      exact hp.resolve_left hd
  have hsk' : skOk w x x.key data = true := by
    unfold skOk
    rw [if_neg (by rcases hsk with h | h <;> simp [h])]
  rw [hd, hsk', if_neg (by simp), if_neg (by rintro ⟨h1, h2⟩; rw [hc h1] at h2; cases h2), if_neg (by simp)]
  have hap : (x.confirm && a.confirm) = x.confirm := by
    cases hcc : x.confirm with
    | false => rfl
    | true => rw [hc hcc]; rfl
  unfold signOut
  rw [hap]
  cases a.sign <;> rfl

/-- C33.  Which entries a connection is shown: the unconstrained ones; the constrained ones on a connection
where no binding was ever attempted; and otherwise those for which the bindings are a permitted path and, when the last one is
a forwarding, some constraint lets the key be used from there. -/
theorem C33_listed {w : World} {h : List (Ev × Option Out)} {s : State} {t : Nat} (hh : Hist w h s t) (hl : lockedBy h = none)
    {now c : Nat} {req : Bytes} {a : Ans} :
    ∃ l : List Ident, step w s (.msg now c 11 req a) = some (s, some ⟨.keys (l.map fun x => (w.pubBlob x.key, x.comment)), none⟩) ∧
      List.Sublist l s.ids ∧ ∀ x, x ∈ l ↔ x ∈ s.ids ∧ (x.dests = [] ∨ (bound w c h = [] ∧ (s.conns c).attempted = false) ∨
        ∃ (m : List Bind) (last : Bind), bound w c h = m ++ [last] ∧ (∀ b ∈ m, b.fwd = true) ∧ Path w x.dests none ((m ++ [last]).map (·.key)) ∧
          (last.fwd = true → ∃ d ∈ x.dests, Starts w (some last.key) d.frm)) := by
  have hi := hist_ainv hh
  have hk := C32_lock_state hh
  rw [hl] at hk
  simp only [step, process]
  rw [if_neg (by rw [hk]; simp)]
  refine ⟨_, rfl, List.filter_sublist, fun x => ?_⟩
  rw [List.mem_filter]
  refine and_congr_right fun _ => ?_
  rw [← hi.binds c]
  unfold identityPermitted
  by_cases hd : x.dests = []
  · simp [hd]
  rw [if_neg hd]
  rcases List.eq_nil_or_concat (s.conns c).binds with hb | ⟨m, last, hb⟩
  · cases ha : (s.conns c).attempted <;> simp [hb, hd]
  · rw [List.concat_eq_append] at hb
    rw [hb, if_neg (by simp), if_neg (by simp), Bool.and_eq_true, hops_list]
    simp only [List.getLast?_concat, beyond]
    have hbe : (if last.fwd = true ∧ True then permittedBy w (some last.key) none none x.dests else true) = true ↔
        (last.fwd = true → ∃ d ∈ x.dests, Starts w (some last.key) d.frm) := by
      cases last.fwd with
      | false => simp
      | true => simp [permitted_onward]
    rw [hbe]
    simp only [hd, false_or, List.append_eq_nil_iff, List.cons_ne_nil, and_false, false_and]
    constructor
    · rintro ⟨⟨h1, h2⟩, h3⟩
      exact ⟨m, last, rfl, h1, h2, h3⟩
    · rintro ⟨m', last', h0, h1, h2, h3⟩
      obtain ⟨rfl, h0'⟩ := List.append_inj' h0 rfl
      simp only [List.cons.injEq, and_true] at h0'
      subst h0'
      exact ⟨⟨h1, h2⟩, h3⟩

/-- C33.  The bindings of a connection: at most 16, with different session identifiers, each vouched for by a
signature of its host key; only the last may be for authentication. -/
theorem C33_bindings {w : World} {h : List (Ev × Option Out)} {s : State} {t : Nat} (hh : Hist w h s t) (c : Nat) :
    (s.conns c).binds = bound w c h ∧ (bound w c h).length ≤ 16 ∧ ((bound w c h).map (·.sid)).Nodup ∧
      (∀ b ∈ bound w c h, ∃ sig, w.verify b.key sig b.sid = true) ∧ (∀ b ∈ (bound w c h).dropLast, b.fwd = true) := by
  have hi := hist_ainv hh
  have hg := hi.good c
  exact ⟨hi.binds c, hg.len, hg.sids, hg.vouched, hg.fwd⟩

/-- C33.  A session-bind request, even one that fails, marks the connection for good: constrained keys are hidden until a
binding succeeds. -/
theorem C33_attempted {w : World} {h : List (Ev × Option Out)} {s : State} {t : Nat} (hh : Hist w h s t) (hl : lockedBy h = none)
    {now c : Nat} {rest : Bytes} {a : Ans} :
    ∃ s' b, step w s (.msg now c 27 (str b!"session-bind@openssh.com" ++ rest) a) = some (s', some (say b)) ∧
      (s'.conns c).attempted = true := by
  have hk := C32_lock_state hh
  rw [hl] at hk
  simp only [step, process]
  rw [if_neg (by rw [hk]; simp)]
  have hdd : ∀ r, dispatch w s now c 27 r a = some (processExt w s c r) := fun r => rfl
  rw [hdd]
  unfold processExt
  rw [getCstr_append _ _ (by decide) (by decide)]
  simp only [if_true]
  refine ⟨_, _, rfl, ?_⟩
  simp only [setConn, if_true, sessionBind]
  split <;> rfl

/-- C33.  The mark stays until the connection ends. -/
theorem C33_attempted_stays {w : World} {s s' : State} {ev : Ev} {o : Option Out} {c : Nat} (hs : step w s ev = some (s', o))
    (ha : (s.conns c).attempted = true) (hc : ev ≠ .conn c) : (s'.conns c).attempted = true := by
  cases ev with
  | round now => simp only [step, reaper] at hs; cases hs; exact ha
  | drop => simp only [step, removeAll] at hs; cases hs; exact ha
  | conn c' =>
    simp only [step] at hs
    cases hs
    simp only [setConn]
    rw [if_neg (fun e => hc (by rw [e]))]
    exact ha
  | msg now c' ty req a =>
    simp only [step, Option.map_eq_some_iff] at hs
    obtain ⟨q, hq, he⟩ := hs
    simp only [Prod.mk.injEq] at he
    obtain ⟨rfl, rfl⟩ := he
    have lock : ∀ b, processLock w s b req a = some q → q.1.conns = s.conns := by
      intro b hb
      unfold processLock at hb
      repeat' split at hb
      all_goals cases hb
      all_goals rfl
    have rem : processRemove w s (s.conns c') req = some q → q.1.conns = s.conns := by
      intro hb
      unfold processRemove at hb
      repeat' split at hb
      all_goals cases hb
      all_goals rfl
    have add : (processAdd w s (s.conns c') now req).1.conns = s.conns := by
      unfold processAdd
      split
      · rfl
      · unfold place
        repeat' split
        all_goals rfl
    have p11 : (processAddP11 w s (s.conns c') now req a).1.conns = s.conns := by
      unfold processAddP11
      split
      · rfl
      · have certs : ∀ (t : Token) (k : Key) (cm : Bytes) (l : List Key) (x : State × Bool), (addCerts w t k cm l x).1.conns = x.1.conns := by
          intro t k cm l
          induction l with
          | nil => intro x; rfl
          | cons y l ih =>
            intro x
            unfold addCerts
            split
            · exact ih x
            · split
              · exact ih x
              · rw [ih]; unfold addP11; split <;> rfl
        have bare : ∀ (t : Token) (co : Bool) (k : Key) (cm : Bytes) (x : State × Bool), (addBare t co k cm x).1.conns = x.1.conns := by
          intro t co k cm x
          unfold addBare
          split
          · unfold addP11; split <;> rfl
          · rfl
        have keys : ∀ (t : Token) (co : Bool) (cs : List Key) (l : List (Key × Bytes)) (x : State × Bool), (addKeys w t co cs l x).1.conns = x.1.conns := by
          intro t co cs l
          induction l with
          | nil => intro x; rfl
          | cons y l ih =>
            intro x
            unfold addKeys
            rw [ih, bare, certs]
        exact keys _ _ _ _ _
    unfold process at hq
    split at hq
    · split at hq <;> (cases hq; exact ha)
    rcases dispatch_cases hq with ⟨e, h⟩ | ⟨e, h⟩ | ⟨e, hq⟩ | ⟨e, hq⟩ | ⟨e, hq⟩ | ⟨e, hq⟩ | ⟨e, hq⟩ | ⟨e, h⟩ | ⟨e, hq⟩ | ⟨e, hq⟩ | ⟨e, hq⟩ |
        ⟨e, hq⟩ | ⟨e, hq⟩ | hq
    · rw [lock _ h]; exact ha
    · rw [lock _ h]; exact ha
    · cases hq; exact ha
    · cases hq; exact ha
    · cases hq; exact ha
    · cases hq; rw [add]; exact ha
    · cases hq; rw [add]; exact ha
    · rw [rem h]; exact ha
    · cases hq; exact ha
    · cases hq; rw [p11]; exact ha
    · cases hq; rw [p11]; exact ha
    · cases hq
      unfold processDelP11
      split <;> exact ha
    · cases hq
      unfold processExt
      split
      · exact ha
      · split
        · simp only [setConn]
          split
          · unfold sessionBind; split <;> rfl
          · exact ha
        · exact ha
    · cases hq; exact ha

end Verif.Agent
