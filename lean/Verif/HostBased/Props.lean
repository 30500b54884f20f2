/-
Properties C98 (what the server accepts) and C100 (what the helper signs).
-/
import Verif.HostBased.Rhosts

namespace Verif.HostBased
open Verif Wire
open _root_.Verif.UserKey (Stat User badStat badStat_iff)

/-! ### C98 -/

theorem known_mem (W : World) (C : Conf) (pw : User) (second : Bool) (host : Bytes) (e : Hostfile.Entry) :
    e ∈ (W.sysKnown second host ++
      (if C.ignoreKnown then []
       else if C.strict = true ∧ ((W.userKnown second host).1.any (badStat pw.uid)) = true then []
       else (W.userKnown second host).2)) ↔ KnownLine W C pw second host e := by
  unfold KnownLine
  rw [List.mem_append]
  refine or_congr_right ?_
  cases C.ignoreKnown with
  | true => simp
  | false =>
    rw [if_neg (by simp)]
    cases h : (W.userKnown second host).1 with
    | none => simp
    | some st =>
      simp only [Option.any_some, Option.some.injEq, forall_eq', true_and]
      rw [← private_iff]
      by_cases hb : C.strict = true ∧ badStat pw.uid st = true
      · rw [if_pos hb]; simp [hb]
      · rw [if_neg hb]; simp [hb]

theorem exists_known (W : World) (C : Conf) (pw : User) (second : Bool) (host : Bytes) (p : Hostfile.Entry → Prop) :
    (∃ e ∈ (W.sysKnown second host ++
      (if C.ignoreKnown then []
       else if C.strict = true ∧ ((W.userKnown second host).1.any (badStat pw.uid)) = true then []
       else (W.userKnown second host).2)), p e) ↔ ∃ e, KnownLine W C pw second host e ∧ p e := by
  constructor
  · rintro ⟨e, h, x⟩; exact ⟨e, (known_mem ..).1 h, x⟩
  · rintro ⟨e, h, x⟩; exact ⟨e, (known_mem ..).2 h, x⟩

theorem inHostfiles_ok (W : World) (C : Conf) (pw : User) (second : Bool) (host : Bytes) (k : Hostfile.Key) :
    inHostfiles W C pw second k host = .ok ↔ Vouched W C pw second host k := by
  unfold inHostfiles Vouched
  rw [← exists_known, ← exists_known]
  generalize W.sysKnown second host ++ _ = es
  by_cases h : ∃ e ∈ es, Hostfile.Revokes e k
  · have := (Hostfile.C38_revoked es k).2 h
    rw [this]
    simp [h]
  · rw [(Hostfile.C38_otherwise es k h).1]
    simp [h]

theorem inHostfiles_new (W : World) (C : Conf) (pw : User) (host : Bytes) (k : Hostfile.Key) :
    inHostfiles W C pw false k host = .new ↔ Silent W C pw host k := by
  unfold inHostfiles Silent
  rw [← exists_known, ← exists_known, ← exists_known]
  generalize W.sysKnown false host ++ _ = es
  by_cases h : ∃ e ∈ es, Hostfile.Revokes e k
  · have := (Hostfile.C38_revoked es k).2 h
    rw [this]
    simp [h]
  · rw [(Hostfile.C38_otherwise es k h).2.2.1]
    simp only [h, not_false_eq_true, true_and]

theorem status_ok (W : World) (C : Conf) (pw : User) (host : Bytes) (k : Hostfile.Key) :
    status W C pw k host = .ok ↔
      Vouched W C pw false host k ∨ (Silent W C pw host k ∧ Vouched W C pw true host k) := by
  unfold status
  rw [← inHostfiles_ok, ← inHostfiles_ok, ← inHostfiles_new]
  by_cases h : inHostfiles W C pw false k host = .new
  · rw [if_pos h]; simp [h]
  · rw [if_neg h]; simp [h]

theorem certNow_iff (W : World) (k : Hostfile.Key) (name : Bytes) :
    KeyOpts.certCheckNow (W.cert k) true false false W.now (some name) = true ↔ CertFor W k name := by
  unfold KeyOpts.certCheckNow CertFor
  by_cases h0 : W.now < 0
  · rw [if_pos h0]
    simp only [Bool.false_eq_true, false_iff]
    intro h; omega
  rw [if_neg h0]
  unfold KeyOpts.certCheck
  rw [if_pos rfl]
  by_cases h1 : (W.cert k).type ≠ .host
  · rw [if_pos h1]; simp only [Bool.false_eq_true, false_iff]; exact fun h => h1 h.1
  rw [if_neg h1]
  by_cases h2 : W.now.toNat < (W.cert k).validAfter
  · rw [if_pos h2]; simp only [Bool.false_eq_true, false_iff]; intro h; omega
  rw [if_neg h2]
  by_cases h3 : W.now.toNat ≥ (W.cert k).validBefore
  · rw [if_pos h3]; simp only [Bool.false_eq_true, false_iff]; intro h; omega
  rw [if_neg h3]
  unfold KeyOpts.nameOk
  have h1' : (W.cert k).type = .host := by simpa using h1
  cases hp : (W.cert k).principals with
  | nil =>
    refine ⟨fun _ => ⟨h1', by omega, by omega, by omega, .inl rfl⟩, fun _ => rfl⟩
  | cons p ps =>
    have : ((p :: ps).any fun q => decide (name = q)) = true ↔ name ∈ p :: ps := by simp
    refine ⟨fun h => ⟨h1', by omega, by omega, by omega, .inr (this.1 h)⟩, fun h => this.2 (h.2.2.2.2.resolve_left (by simp))⟩

theorem stripDot_cases (c : Bytes) :
    (c = stripDot c ++ b!"." ) ∨ (c = stripDot c ∧ (stripDot c).getLast? ≠ some 46) := by
  unfold stripDot
  by_cases h : c.getLast? = some 46
  · rw [if_pos h]
    obtain ⟨ys, rfl⟩ := List.getLast?_eq_some_iff.1 h
    exact .inl (by simp)
  · rw [if_neg h]; exact .inr ⟨rfl, h⟩

theorem stripDot_eq {c h : Bytes} (x : c = h ++ b!"." ∨ c = h ∧ h.getLast? ≠ some 46) : stripDot c = h := by
  unfold stripDot
  rcases x with rfl | ⟨rfl, x⟩
  · simp
  · rw [if_neg x]

theorem lookup_iff (W : World) (C : Conf) (pw : User) (cuser chost name : Bytes)
    (hs : ∀ f, (W.files.openf f).isSome = true → (W.files.stat f).isSome = true) :
    lookup W C pw cuser (stripDot chost) = some name ↔ From W C pw cuser chost name := by
  unfold lookup
  cases hp : C.nameFromPacket with
  | true =>
    rw [if_pos rfl]
    constructor
    · intro h
      by_cases hr : rhosts W.files W.groups C pw cuser (stripDot chost) (stripDot chost) = true
      · rw [if_pos hr] at h
        injection h with h
        subst h
        exact .packet hp (stripDot_cases chost) ((C99_trusted _ _ _ _ _ _ _ hs).1 hr)
      · rw [if_neg hr] at h; cases h
    · intro h
      cases h with
      | packet _ hc ht => rw [stripDot_eq hc, if_pos ((C99_trusted _ _ _ _ _ _ _ hs).2 ht)]
      | resolved h _ => rw [hp] at h; cases h
  | false =>
    rw [if_neg (by simp)]
    constructor
    · intro h
      by_cases hr : rhosts W.files W.groups C pw cuser W.resolved W.ip = true
      · rw [if_pos hr] at h
        injection h with h
        subst h
        exact .resolved hp ((C99_trusted _ _ _ _ _ _ _ hs).1 hr)
      · rw [if_neg hr] at h; cases h
    · intro h
      cases h with
      | packet h _ _ => rw [hp] at h; cases h
      | resolved _ ht => rw [if_pos ((C99_trusted _ _ _ _ _ _ _ hs).2 ht)]

/-- **C98 (which host keys are allowed).** -/
theorem C98_allowed (W : World) (C : Conf) (pw : User) (cuser chost : Bytes) (k : Hostfile.Key)
    (hs : ∀ f, (W.files.openf f).isSome = true → (W.files.stat f).isSome = true) :
    keyAllowed W C pw cuser chost k = true ↔
      W.revoked k = false ∧ ∃ name, From W C pw cuser chost name ∧ (k.isCert = true → CertFor W k name) ∧
        (Vouched W C pw false name k ∨ (Silent W C pw name k ∧ Vouched W C pw true name k)) := by
  unfold keyAllowed
  by_cases hr : W.revoked k = true
  · rw [if_pos hr]; simp [hr]
  rw [if_neg hr]
  have hr' : W.revoked k = false := by simpa using hr
  cases hl : lookup W C pw cuser (stripDot chost) with
  | none =>
    simp only [Bool.false_eq_true, false_iff]
    rintro ⟨_, name, h, _⟩
    rw [(lookup_iff W C pw cuser chost name hs).2 h] at hl; cases hl
  | some name =>
    dsimp only
    have hf := (lookup_iff W C pw cuser chost name hs).1 hl
    have uniq : ∀ n, From W C pw cuser chost n → n = name := by
      intro n h
      have := (lookup_iff W C pw cuser chost n hs).2 h
      rw [hl] at this
      injection this with this
      exact this.symm
    by_cases hc : k.isCert = true ∧ KeyOpts.certCheckNow (W.cert k) true false false W.now (some name) = false
    · rw [if_pos hc]
      simp only [Bool.false_eq_true, false_iff]
      rintro ⟨_, n, h, h2, _⟩
      have := uniq n h
      subst this
      rw [(certNow_iff W k n).2 (h2 hc.1)] at hc
      cases hc.2
    · rw [if_neg hc]
      simp only [decide_eq_true_eq]
      rw [status_ok]
      constructor
      · intro h
        refine ⟨hr', name, hf, fun hk => ?_, h⟩
        apply (certNow_iff W k name).1
        cases hx : KeyOpts.certCheckNow (W.cert k) true false false W.now (some name) with
        | true => rfl
        | false => exact absurd ⟨hk, hx⟩ hc
      · rintro ⟨_, n, h, _, h3⟩
        have := uniq n h
        subst this
        exact h3

theorem getReq_iff (b : Bytes) (r : Req) : getReq b = some r ↔ Request r.alg r.blob r.chost r.cuser r.sig b := by
  constructor
  · intro h
    unfold getReq at h
    cases h1 : getCstr b with
    | none => rw [h1] at h; cases h
    | some v =>
      obtain ⟨alg, b1⟩ := v
      rw [h1] at h; dsimp only at h
      cases h2 : getStr b1 with
      | none => rw [h2] at h; cases h
      | some v =>
        obtain ⟨blob, b2⟩ := v
        rw [h2] at h; dsimp only at h
        cases h3 : getCstr b2 with
        | none => rw [h3] at h; cases h
        | some v =>
          obtain ⟨chost, b3⟩ := v
          rw [h3] at h; dsimp only at h
          cases h4 : getCstr b3 with
          | none => rw [h4] at h; cases h
          | some v =>
            obtain ⟨cuser, b4⟩ := v
            rw [h4] at h; dsimp only at h
            cases h5 : getStr b4 with
            | none => rw [h5] at h; cases h
            | some v =>
              obtain ⟨sig, b5⟩ := v
              rw [h5] at h; dsimp only at h
              injection h with h
              subst h
              obtain ⟨a, n1, e1, l1⟩ := getCstr_named h1
              obtain ⟨e2, l2⟩ := getStr_some h2
              obtain ⟨c, n3, e3, l3⟩ := getCstr_named h3
              obtain ⟨u, n4, e4, l4⟩ := getCstr_named h4
              obtain ⟨e5, l5⟩ := getStr_some h5
              have := Request.mk (blob := blob) (sig := sig) (rest := b5) n1 n3 n4 l1 l2 l3 l4 l5
              rw [e1, e2, e3, e4, e5]
              simpa using this
  · obtain ⟨alg, blob, chost, cuser, sig⟩ := r
    rintro ⟨n1, n3, n4, l1, l2, l3, l4, l5⟩
    simp only [List.append_assoc]
    unfold getReq
    rw [getCstr_of_named n1 _ l1]; dsimp only
    rw [getStr_append _ _ l2]; dsimp only
    rw [getCstr_of_named n3 _ l3]; dsimp only
    rw [getCstr_of_named n4 _ l4]; dsimp only
    rw [getStr_append _ _ l5]

theorem getKey_iff (W : World) (C : Conf) (alg blob : Bytes) (k : Hostfile.Key) :
    getKey W C alg blob = some k ↔ Eligible W C alg blob k := by
  unfold getKey Eligible
  cases h1 : W.typeOf alg with
  | none => simp
  | some t =>
    cases h2 : W.parse blob with
    | none => simp
    | some k' =>
      dsimp only
      by_cases h3 : k'.type ≠ t
      · rw [if_pos h3]
        refine ⟨nofun, ?_⟩
        rintro ⟨e, h, _⟩
        injection e with e
        injection h with h
        exact absurd (e ▸ h.symm) h3
      rw [if_neg h3]
      have h3' : k'.type = t := by simpa using h3
      by_cases h5 : Match.matchPatternList alg C.accepted false ≠ 1
      · rw [if_pos h5]
        exact ⟨nofun, fun h => absurd h.2.2.1 h5⟩
      rw [if_neg h5]
      by_cases h6 : W.keyOk k' = false
      · rw [if_pos h6]
        refine ⟨nofun, ?_⟩
        rintro ⟨e, _, _, h⟩
        injection e with e
        rw [← e, h6] at h; cases h
      rw [if_neg h6]
      constructor
      · intro e
        injection e with e
        subst e
        exact ⟨rfl, by rw [h3'], by simpa using h5, by simpa using h6⟩
      · rintro ⟨e, _⟩; exact e

theorem signedData_eq (s : Session) (method alg blob chost cuser : Bytes) :
    signedData s method alg blob chost cuser = Signed s method alg blob chost cuser := by
  have e50 : be 1 50 = [50] := by decide
  unfold signedData Signed
  rw [e50]

/-- **C98 (what is accepted).**  Host-based authentication succeeds exactly if the request has the fields prescribed, the user
is valid, the key may be tried, is not revoked and is vouched for by the known-hosts files under the name of the client's host,
which is trusted for this user; a certificate is one of a host, valid now, and for that name; and the signature is right for
the key over data naming this session, user, service, method, key, host and user on that host. -/
theorem C98_accepted (W : World) (C : Conf) (pw : User) (s : Session) (method b : Bytes)
    (hs : ∀ f, (W.files.openf f).isSome = true → (W.files.stat f).isSome = true) :
    userauth W C pw s method b = .accepted ↔
      s.valid = true ∧ ∃ (alg blob chost cuser sig : Bytes) (k : Hostfile.Key) (name : Bytes),
        Request alg blob chost cuser sig b ∧ Eligible W C alg blob k ∧ W.revoked k = false ∧
        From W C pw cuser chost name ∧ (k.isCert = true → CertFor W k name) ∧
        (Vouched W C pw false name k ∨ (Silent W C pw name k ∧ Vouched W C pw true name k)) ∧
        W.verify k sig (Signed s method alg blob chost cuser) alg = true := by
  unfold userauth
  cases h1 : getReq b with
  | none =>
    refine ⟨nofun, ?_⟩
    rintro ⟨_, alg, blob, chost, cuser, sig, k, name, h, _⟩
    rw [(getReq_iff b ⟨alg, blob, chost, cuser, sig⟩).2 h] at h1; cases h1
  | some r =>
    dsimp only
    have hr := (getReq_iff b r).1 h1
    have uniq : ∀ {alg blob chost cuser sig}, Request alg blob chost cuser sig b → r = ⟨alg, blob, chost, cuser, sig⟩ := by
      intro alg blob chost cuser sig h
      have := (getReq_iff b ⟨alg, blob, chost, cuser, sig⟩).2 h
      rw [h1] at this
      injection this
    cases h2 : getKey W C r.alg r.blob with
    | none =>
      refine ⟨nofun, ?_⟩
      rintro ⟨_, alg, blob, chost, cuser, sig, k, name, h, he, _⟩
      have := uniq h
      subst this
      rw [(getKey_iff W C _ _ k).2 he] at h2; cases h2
    | some k =>
      dsimp only
      by_cases h3 : s.valid = false
      · rw [if_pos h3]; simp [h3]
      rw [if_neg h3]
      have h3' : s.valid = true := by simpa using h3
      by_cases h4 : keyAllowed W C pw r.cuser r.chost k = true ∧
          W.verify k r.sig (signedData s method r.alg r.blob r.chost r.cuser) r.alg = true
      · rw [if_pos h4]
        obtain ⟨a, name, c, d, e⟩ := (C98_allowed W C pw r.cuser r.chost k hs).1 h4.1
        exact ⟨fun _ => ⟨h3', r.alg, r.blob, r.chost, r.cuser, r.sig, k, name, hr, (getKey_iff W C _ _ k).1 h2, a, c, d, e,
          by rw [← signedData_eq]; exact h4.2⟩, fun _ => rfl⟩
      · rw [if_neg h4]
        refine ⟨nofun, ?_⟩
        rintro ⟨_, alg, blob, chost, cuser, sig, k', name, h, he, a, c, d, e, v⟩
        have := uniq h
        subst this
        rw [(getKey_iff W C _ _ k').2 he] at h2
        injection h2 with h2
        subst h2
        exact absurd ⟨(C98_allowed W C pw cuser chost k' hs).2 ⟨a, name, c, d, e⟩, by rw [signedData_eq]; exact v⟩ h4

theorem str_inj {a b x y : Bytes} (ha : a.length < 4294967296) (hb : b.length < 4294967296) (e : str a ++ x = str b ++ y) :
    a = b ∧ x = y := by
  unfold str at e
  rw [List.append_assoc, List.append_assoc] at e
  have e1 := List.append_inj e (by simp)
  have e2 := be_inj (n := 4) (by simpa using ha) (by simpa using hb) e1.1
  exact List.append_inj e1.2 e2

/-- **C98 (a signature is for one request).**  The data signed determine all that they name. -/
theorem C98_binding {s s' : Session} {method method' alg alg' blob blob' chost chost' cuser cuser' : Bytes}
    (e : Signed s method alg blob chost cuser = Signed s' method' alg' blob' chost' cuser')
    (hl : ∀ x ∈ [s.id, s'.id, s.user, s'.user, s.service, s'.service, method, method', alg, alg', blob, blob', chost, chost',
      cuser, cuser'], x.length < 4294967296) :
    s.id = s'.id ∧ s.user = s'.user ∧ s.service = s'.service ∧ method = method' ∧ alg = alg' ∧ blob = blob' ∧ chost = chost' ∧
    cuser = cuser' := by
  unfold Signed at e
  simp only [List.append_assoc] at e
  obtain ⟨e1, e⟩ := str_inj (hl _ (by simp)) (hl _ (by simp)) e
  have e := List.append_cancel_left e
  obtain ⟨e2, e⟩ := str_inj (hl _ (by simp)) (hl _ (by simp)) e
  obtain ⟨e3, e⟩ := str_inj (hl _ (by simp)) (hl _ (by simp)) e
  obtain ⟨e4, e⟩ := str_inj (hl _ (by simp)) (hl _ (by simp)) e
  obtain ⟨e5, e⟩ := str_inj (hl _ (by simp)) (hl _ (by simp)) e
  obtain ⟨e6, e⟩ := str_inj (hl _ (by simp)) (hl _ (by simp)) e
  obtain ⟨e7, e⟩ := str_inj (hl _ (by simp)) (hl _ (by simp)) e
  have e8 := str_inj (x := []) (y := []) (hl cuser (by simp)) (hl cuser' (by simp)) (by simpa using e)
  exact ⟨e1, e2, e3, e4, e5, e6, e7, e8.1⟩

/-! ### C100 -/

theorem isHost_iff (host p : Bytes) :
    isHost host p = true ↔ ∃ p', p = p' ++ b!"." ∧ p'.map Match.toLower = host.map Match.toLower := by
  unfold isHost
  constructor
  · intro h
    by_cases h1 : host.length + 1 ≠ p.length
    · rw [if_pos h1] at h; cases h
    rw [if_neg h1] at h
    by_cases h2 : p.getLast? ≠ some 46
    · rw [if_pos h2] at h; cases h
    rw [if_neg h2] at h
    obtain ⟨p', rfl⟩ := List.getLast?_eq_some_iff.1 (by simpa using h2)
    have hl : p'.length = host.length := by simp at h1; omega
    rw [← hl, List.take_left] at h
    exact ⟨p', rfl, by simpa using (of_decide_eq_true h).symm⟩
  · rintro ⟨p', rfl, h⟩
    have hl : p'.length = host.length := by simpa using congrArg List.length h
    rw [if_neg (by simp [hl]), if_neg (by simp), ← hl, List.take_left]
    simpa using h.symm

theorem keyOf_iff (W : World) (alg blob : Bytes) (k : Hostfile.Key) :
    keyOf W alg blob = some k ↔ W.parse blob = some k ∧ W.typeOf alg = some k.type := by
  unfold keyOf
  cases h1 : W.typeOf alg with
  | none => simp
  | some t =>
    cases h2 : W.parse blob with
    | none => simp
    | some k' =>
      dsimp only
      by_cases h3 : k'.type ≠ t
      · rw [if_pos h3]
        refine ⟨nofun, ?_⟩
        rintro ⟨e, h⟩
        injection e with e
        injection h with h
        exact absurd (e ▸ h.symm) h3
      · rw [if_neg h3]
        have h3' : k'.type = t := by simpa using h3
        constructor
        · intro e
          injection e with e
          subst e
          exact ⟨rfl, by rw [h3']⟩
        · exact fun h => h.1

theorem getInt_byte {d r : Bytes} {v : Nat} (h : getInt 1 d = some (v, r)) (hv : v = 50) : d = [50] ++ r := by
  obtain ⟨x, rfl, e⟩ := getInt_one h
  rw [hv] at e
  have : x = 50 := UInt8.toNat_inj.1 (by rw [← e]; rfl)
  rw [this]; rfl

theorem named_length {a x : Bytes} (h : Named a x) : a.length ≤ x.length + 1 := by
  rcases h.1 with rfl | rfl <;> simp

/-- **C100 (what is signed).**  The helper takes data for signing exactly if they are a request for host-based authentication
from this host, on behalf of the user who runs the helper, and nothing else. -/
theorem C100_valid (W : World) (name host d : Bytes) (k : Hostfile.Key) (alg : Bytes) :
    validRequest W name host d = some (k, alg) ↔ Signable W name host k alg d := by
  have hm : ∀ n ≤ 64, n ≤ maxString := by decide
  constructor
  · intro h
    unfold validRequest at h
    cases h1 : getStr d with
    | none => rw [h1] at h; cases h
    | some v =>
    obtain ⟨id, d1⟩ := v
    rw [h1] at h; dsimp only at h
    cases h2 : getInt 1 d1 with
    | none => rw [h2] at h; cases h
    | some v =>
    obtain ⟨type, d2⟩ := v
    rw [h2] at h; dsimp only at h
    cases h3 : getStr d2 with
    | none => rw [h3] at h; cases h
    | some v =>
    obtain ⟨user, d3⟩ := v
    rw [h3] at h; dsimp only at h
    cases h4 : getCstr d3 with
    | none => rw [h4] at h; cases h
    | some v =>
    obtain ⟨service, d4⟩ := v
    rw [h4] at h; dsimp only at h
    cases h5 : getCstr d4 with
    | none => rw [h5] at h; cases h
    | some v =>
    obtain ⟨method, d5⟩ := v
    rw [h5] at h; dsimp only at h
    cases h6 : getCstr d5 with
    | none => rw [h6] at h; cases h
    | some v =>
    obtain ⟨alg', d6⟩ := v
    rw [h6] at h; dsimp only at h
    cases h7 : getStr d6 with
    | none => rw [h7] at h; cases h
    | some v =>
    obtain ⟨blob, d7⟩ := v
    rw [h7] at h; dsimp only at h
    cases h8 : getCstr d7 with
    | none => rw [h8] at h; cases h
    | some v =>
    obtain ⟨p, d8⟩ := v
    rw [h8] at h; dsimp only at h
    cases h9 : getCstr d8 with
    | none => rw [h9] at h; cases h
    | some v =>
    obtain ⟨luser, d9⟩ := v
    rw [h9] at h; dsimp only at h
    cases h10 : keyOf W alg' blob with
    | none => rw [h10] at h; cases h
    | some k' =>
    rw [h10] at h; dsimp only at h
    by_cases hc : idOk id type = true ∧ service = b!"ssh-connection" ∧ method = b!"hostbased" ∧ isHost host p = true ∧
        luser = name ∧ d9 = []
    · rw [if_pos hc] at h
      injection h with h
      injection h with g1 g2
      subst g1 g2
      obtain ⟨c1, rfl, rfl, c4, rfl, rfl⟩ := hc
      unfold idOk at c1
      simp only [decide_eq_true_eq] at c1
      obtain ⟨p', rfl, hp⟩ := (isHost_iff host p).1 c4
      obtain ⟨hk, ht⟩ := (keyOf_iff W _ _ _).1 h10
      obtain ⟨e1, l1⟩ := getStr_some h1
      have e2 := getInt_byte h2 c1.2
      obtain ⟨e3, l3⟩ := getStr_some h3
      obtain ⟨sv, n4, e4, l4⟩ := getCstr_named h4
      obtain ⟨mt, n5, e5, l5⟩ := getCstr_named h5
      obtain ⟨a, n6, e6, l6⟩ := getCstr_named h6
      obtain ⟨e7, l7⟩ := getStr_some h7
      obtain ⟨q, n8, e8, l8⟩ := getCstr_named h8
      obtain ⟨l, n9, e9, l9⟩ := getCstr_named h9
      have := Signable.mk (W := W) (user := user) c1.1 l3 l7 n4 n5 n6 l6 n8 l8 hp n9 l9 hk ht
      rw [e1, e2, e3, e4, e5, e6, e7, e8, e9]
      simpa using this
    · rw [if_neg hc] at h; cases h
  · rintro ⟨hid, l3, l7, n4, n5, n6, l6, n8, l8, hp, n9, l9, hk, ht⟩
    rename_i id user blob sv mt a p p' l
    simp only [List.append_assoc]
    unfold validRequest
    rw [getStr_append _ _ (hm _ (by omega))]; dsimp only
    rw [List.singleton_append, getInt_cons]; dsimp only
    rw [getStr_append _ _ l3]; dsimp only
    rw [getCstr_of_named n4 _ (hm _ (by have := named_length n4; simp at this; omega))]; dsimp only
    rw [getCstr_of_named n5 _ (hm _ (by have := named_length n5; simp at this; omega))]; dsimp only
    rw [getCstr_of_named n6 _ l6]; dsimp only
    rw [getStr_append _ _ l7]; dsimp only
    rw [getCstr_of_named n8 _ l8]; dsimp only
    have := getCstr_of_named n9 [] l9
    rw [List.append_nil] at this
    rw [this]; dsimp only
    rw [(keyOf_iff W alg blob k).2 ⟨hk, ht⟩]; dsimp only
    rw [if_pos]
    refine ⟨?_, rfl, rfl, (isHost_iff host _).2 ⟨p', rfl, hp⟩, rfl, rfl⟩
    unfold idOk
    simp only [decide_eq_true_eq]
    exact ⟨hid, rfl⟩

/-- **C100 (signing).**  A signature is made only if the helper is enabled, only with a host key, over data that are such a
request, with the algorithm named there, and for the host name of a connection the user holds. -/
theorem C100_signs {W : World} {enabled : Bool} {keys : List Hostfile.Key} {a : Asker} {msg : Bytes} {x : Hostfile.Key} {d alg : Bytes}
    (h : keysign W enabled keys a msg = some (x, d, alg)) :
    enabled = true ∧ x ∈ keys ∧ ∃ fd host k, 2 < fd ∧ fd < 2147483648 ∧ a.local_ fd = some host ∧ Signable W a.name host k alg d ∧
      k.pub = x.pub := by
  unfold keysign at h
  by_cases he : enabled = false
  · rw [if_pos he] at h; cases h
  rw [if_neg he] at h
  cases h1 : getInt 1 msg with
  | none => rw [h1] at h; cases h
  | some v =>
  obtain ⟨v, m1⟩ := v
  rw [h1] at h; dsimp only at h
  by_cases hv : v ≠ 2
  · rw [if_pos hv] at h; cases h
  rw [if_neg hv] at h
  cases h2 : getInt 4 m1 with
  | none => rw [h2] at h; cases h
  | some w =>
  obtain ⟨fd, m2⟩ := w
  rw [h2] at h; dsimp only at h
  by_cases hfd : fd ≤ 2 ∨ fd ≥ 2147483648
  · rw [if_pos hfd] at h; cases h
  rw [if_neg hfd] at h
  cases h3 : a.local_ fd with
  | none => rw [h3] at h; cases h
  | some host =>
  rw [h3] at h; dsimp only at h
  cases h4 : getStr m2 with
  | none => rw [h4] at h; cases h
  | some w =>
  obtain ⟨data, m3⟩ := w
  rw [h4] at h; dsimp only at h
  cases h5 : validRequest W a.name host data with
  | none => rw [h5] at h; cases h
  | some w =>
  obtain ⟨k, al⟩ := w
  rw [h5] at h; dsimp only at h
  cases h6 : keys.find? fun x => Hostfile.equalPublic k x with
  | none => rw [h6] at h; cases h
  | some y =>
  rw [h6] at h; dsimp only at h
  injection h with h
  injection h with g1 h
  injection h with g2 g3
  subst g1 g2 g3
  refine ⟨by simpa using he, List.mem_of_find?_eq_some h6, fd, host, k, by omega, by omega, h3, (C100_valid ..).1 h5, ?_⟩
  have := List.find?_some h6
  unfold Hostfile.equalPublic at this
  simpa using this

/-- **C98 and C100 together: no impersonation.**  If the data that a server checks are ones the helper signed, then the user on
the client's host that the server is told of is the one who ran the helper, and the host is that of the connection, up to case
and the dot: with the helper alone nobody can pass for another user of the host. -/
theorem C100_honest {W : World} {name host d alg' : Bytes} {k : Hostfile.Key} {s : Session} {method alg blob chost cuser : Bytes}
    (h : Signable W name host k alg' d) (e : d = Signed s method alg blob chost cuser)
    (hn : (0 : UInt8) ∉ s.service ∧ (0 : UInt8) ∉ method ∧ (0 : UInt8) ∉ alg ∧ (0 : UInt8) ∉ chost ∧ (0 : UInt8) ∉ cuser)
    (hl : ∀ x ∈ [s.id, s.user, s.service, method, alg, blob, chost, cuser], x.length < 4294967296) :
    cuser = name ∧ method = b!"hostbased" ∧ s.service = b!"ssh-connection" ∧ alg = alg' ∧
    ∃ p, chost = p ++ b!"." ∧ p.map Match.toLower = host.map Match.toLower := by
  have hmx : maxString < 4294967296 := by decide
  have clean : ∀ {a x y : Bytes}, Named a x → a = y → (0 : UInt8) ∉ y → y = x := by
    rintro a x y ⟨rfl | rfl, _⟩ rfl h0
    · rfl
    · exact absurd (by simp) h0
  subst e
  generalize ed : Signed s method alg blob chost cuser = d at h
  cases h with
  | @mk id user blob' sv mt a p p' l hid l3 l7 n4 n5 n6 l6 n8 l8 hp n9 l9 hk ht =>
    unfold Signed at ed
    simp only [List.append_assoc] at ed
    obtain ⟨_, ed⟩ := str_inj (hl _ (by simp)) (by omega) ed
    have ed := List.append_cancel_left ed
    obtain ⟨_, ed⟩ := str_inj (hl _ (by simp)) (Nat.lt_of_le_of_lt l3 hmx) ed
    obtain ⟨e3, ed⟩ := str_inj (hl _ (by simp)) (by have := named_length n4; simp at this; omega) ed
    obtain ⟨e4, ed⟩ := str_inj (hl _ (by simp)) (by have := named_length n5; simp at this; omega) ed
    obtain ⟨e5, ed⟩ := str_inj (hl _ (by simp)) (by omega) ed
    obtain ⟨_, ed⟩ := str_inj (hl _ (by simp)) (by omega) ed
    obtain ⟨e7, ed⟩ := str_inj (hl _ (by simp)) (by omega) ed
    have e8 := str_inj (x := []) (y := []) (b := l) (hl cuser (by simp)) (by omega) (by simpa using ed)
    exact ⟨clean n9 e8.1.symm hn.2.2.2.2, clean n5 e4.symm hn.2.1, clean n4 e3.symm hn.1, clean n6 e5.symm hn.2.2.1, p',
      clean n8 e7.symm hn.2.2.2.1, hp⟩

end Verif.HostBased
