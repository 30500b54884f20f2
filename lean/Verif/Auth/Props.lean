/-
C23, C24 and C58: who is logged in, what AuthenticationMethods means, and how many tries there are.
-/
import Verif.Auth.Devices

namespace Verif.Auth

open Spec

/-! ### C23 -/

/-- **C23: nobody is let in without a method's consent.**  Whatever a client sends, if the server
sends the success message then some single message of the client was an attempt the method itself
approved, the method is known and switched on, the user named in the very first request exists, may
log in and asked for the connection service, root was admitted by PermitRootLogin, and (with PAM)
the account check passed. -/
theorem C23_login_backed {c : Cfg} {h : List (Ev × Out)} {st : St} (hh : Hist c h st)
    {e : Ev} {l : Option Log} (hs : (e, (⟨l, .success⟩ : Out)) ∈ h) :
    ∃ m s, l = some ⟨.accepted, m, s⟩ ∧ Backed c h e m s ∧
      (c.usePam = true → (resultOf e).account = true) := by
  have hp := (hist_inv hh).1.past
  obtain ⟨⟨m, s, rfl⟩, hpam⟩ := hp.success e l hs
  exact ⟨m, s, rfl, hp.backed e _ .accepted m s hs rfl (Or.inl rfl), hpam⟩

/-- **C23: every step counted as passed was really passed**, also those that are only one of several
required. -/
theorem C23_step_backed {c : Cfg} {h : List (Ev × Out)} {st : St} (hh : Hist c h st)
    {e : Ev} {o : Out} {v : Verdict} {m : Bytes} {s : Option Bytes} (ho : (e, o) ∈ h)
    (hl : o.log = some ⟨v, m, s⟩) (hv : v = .accepted ∨ v = .partly) : Backed c h e m s :=
  (hist_inv hh).1.past.backed e o v m s ho hl hv

/-- **C23: the user cannot be changed.**  Every request the server acts on names the user and
service of the first one. -/
theorem C23_same_user {c : Cfg} {h : List (Ev × Out)} {st : St} (hh : Hist c h st)
    {u s m d : Bytes} {r : Result} {o : Out} (ho : (Ev.request u s m d r, o) ∈ h) (hl : o.log ≠ none) :
    target h = some (u.takeWhile (· ≠ 58), s) :=
  (hist_inv hh).1.past.sameUser u s m d r o ho hl

/-- **C23: "none" passes at most once.** -/
theorem C23_none_once {c : Cfg} {h : List (Ev × Out)} {st : St} (hh : Hist c h st) :
    (wins h).countP (fun x => decide (x.1 = b!"none")) ≤ 1 :=
  (hist_inv hh).1.past.noneOnce

/-- **C23: tries are limited.**  However the client interleaves methods, it never gets more than
MaxAuthTries counted failures, nor more than 1024 requests acted on; and the server hangs up because
of failures only if at least that many attempts failed. -/
theorem C23_tries {c : Cfg} {h : List (Ev × Out)} {st : St} (hh : Hist c h st) :
    strikes true h ≤ max c.maxTries 1 ∧ answered h ≤ 1024 ∧
    (st.over = false → failed h = 0 ∨ strikes true h < c.maxTries) := by
  have hi := (hist_inv hh).1
  refine ⟨hi.past.strikes, hi.past.answered, ?_⟩
  intro ho
  have hl := hi.live ho
  rcases hl.lim with h1 | h1
  · right; have := hl.low; omega
  · exact Or.inl h1

theorem step_failEnd {c : Cfg} {h : List (Ev × Out)} {st : St} (e : Ev) (hi : Inv c h st)
    {m : Bytes} {s : Option Bytes} (hr : (step c st e).1 = ⟨some ⟨.failed, m, s⟩, .fatal⟩) :
    c.maxTries ≤ failed h + 1 := by
  by_cases hover : st.over = true
  · rw [step_over e hover] at hr
    simp at hr
  · have hover : st.over = false := by simpa using hover
    have hl := hi.live hover
    have hsum := step_sum e hover hi.kbd hi.kbdQ
    revert hsum hr
    generalize (step c st e).1 = o
    generalize (step c st e).2 = st'
    intro hr hsum
    cases hsum with
    | die => simp at hr
    | ignored _ => simp at hr
    | go st1 st2 authed pm sub _ _ hp hs hf _ _ _ _ _ _ =>
      have hfail := (prep_ready ⟨none, .quiet⟩ hl hi.kbd0 hp).2.1
      cases hf with
      | failEnd m' _ _ hlim =>
        have h1 := bump_le st2 m'
        have h2 := hs.failures
        have h3 := hl.high
        omega
      | _ => simp at hr

/-- **C23: no client is cut off early.**  If the server hangs up over a failed attempt, MaxAuthTries
attempts had failed; successes on the way do not count. -/
theorem C23_tries_fair {c : Cfg} {h : List (Ev × Out)} {st : St} (hh : Hist c h st) {e : Ev}
    {m : Bytes} {s : Option Bytes} (hr : (step c st e).1 = ⟨some ⟨.failed, m, s⟩, .fatal⟩) :
    c.maxTries ≤ failed (h ++ [(e, (step c st e).1)]) := by
  have := step_failEnd e (hist_inv hh).1 hr
  rw [failed_append, hr]
  simpa [failed] using this

/-- **C23: the end is the end.**  After the success message, or after the connection was cut, no
message has any effect any more. -/
theorem C23_final {c : Cfg} {h : List (Ev × Out)} {st : St} (hh : Hist c h st)
    {h1 h2 : List (Ev × Out)} {p : Ev × Out} (he : h = h1 ++ p :: h2)
    (hr : p.2.reply = .success ∨ p.2.reply = .fatal) : ∀ q ∈ h2, q.2 = ⟨none, .quiet⟩ := by
  induction hh generalizing h2 with
  | nil => simp at he
  | @snoc h st e hh ih =>
    rcases List.eq_nil_or_concat h2 with rfl | ⟨h2', q', rfl⟩
    · simp
    · have he' : h ++ [(e, (step c st e).1)] = (h1 ++ p :: h2') ++ [q'] := by rw [he]; simp
      have hq := List.append_inj' he' rfl
      have hh1 : h = h1 ++ p :: h2' := hq.1
      have hq' : (e, (step c st e).1) = q' := by simpa using hq.2
      have hover : st.over = true := (hist_inv hh).2 ⟨p, by rw [hh1]; simp, hr⟩
      intro q hqm
      rw [List.concat_eq_append] at hqm
      rcases List.mem_append.1 hqm with hqm | hqm
      · exact ih hh1 q hqm
      · simp at hqm
        rw [hqm, ← hq', step_over e hover]

/-! ### C24 -/

/-- **C24: a login needs a whole list.**  When AuthenticationMethods is set, the success message
means that some configured list whose methods are all switched on has been worked through from left
to right. -/
theorem C24_login_needs_list {c : Cfg} {h : List (Ev × Out)} {st : St} (hh : Hist c h st)
    (hm : Multi c) (hs : LoggedIn h) :
    ∃ l ∈ c.lists, Usable c l ∧ Fulfils (steps l) (wins h) :=
  (hist_inv hh).1.past.lists hs hm

/-- **C24: a whole list is enough.**  As long as the server keeps asking, no usable list has been
worked through. -/
theorem C24_whole_list_ends {c : Cfg} {h : List (Ev × Out)} {st : St} (hh : Hist c h st)
    (hm : Multi c) (ho : st.over = false) :
    ∀ l ∈ c.lists, Usable c l → ¬ Fulfils (steps l) (wins h) := by
  intro l hl hu hf
  have hi := (hist_inv hh).1.live ho
  rcases Nat.eq_zero_or_pos st.attempt with h0 | h0
  · rw [(hi.zero h0).2.1, fulfils_iff, left_nil] at hf
    exact steps_ne l hf
  · have hr := hi.pos h0
    refine hr.open_ (hr.multi.2 hm) (steps l) ?_ ((fulfils_iff _ _).1 hf)
    exact List.mem_map.2 ⟨l, List.mem_filter.2 ⟨hl, (methodsValid_iff c l).2 hu⟩, rfl⟩

/-- **C24: without AuthenticationMethods one success is enough**: no success is ever logged as only
a part. -/
theorem C24_single {c : Cfg} {h : List (Ev × Out)} {st : St} (hh : Hist c h st)
    (hm : ¬ Multi c) : ∀ e o m s, (e, o) ∈ h → o.log ≠ some ⟨.partly, m, s⟩ := by
  induction hh with
  | nil => simp
  | @snoc h st e hh ih =>
    intro e' o m s hmem hl
    rcases List.mem_append.1 hmem with hmem | hmem
    · exact ih e' o m s hmem hl
    · simp at hmem
      obtain ⟨rfl, rfl⟩ := hmem
      have hi := (hist_inv hh).1
      by_cases hover : st.over = true
      · rw [step_over e' hover] at hl; simp at hl
      · have hover : st.over = false := by simpa using hover
        have hsum := step_sum e' hover hi.kbd hi.kbdQ
        revert hsum hl
        generalize (step c st e').1 = o
        generalize (step c st e').2 = st'
        intro hl hsum
        cases hsum with
        | die => simp at hl
        | ignored _ => simp at hl
        | go st1 st2 authed pm sub _ _ hp hs hf _ _ _ _ _ _ =>
          have hmu : st2.multi = true → Multi c := fun hx =>
            (((prep_ready ⟨none, .quiet⟩ (hi.live hover) hi.kbd0 hp).1.same hs).multi).1 hx
          cases hf with
          | part _ _ _ h' => exact hm (hmu h')
          | partEnd _ _ _ h' => exact hm (hmu h')
          | _ => simp at hl

/-! #### The list of methods offered -/

theorem fulfils_prefix {a b : List Bytes} {xs} (h : Fulfils (a ++ b) xs) : Fulfils a xs := by
  generalize hu : a ++ b = u at h
  induction h generalizing a with
  | nil =>
    simp at hu
    rw [hu.1]; exact .nil _
  | skip _ ih => exact .skip (ih hu)
  | take hs _ ih =>
    cases a with
    | nil => exact .nil _
    | cons x a =>
      simp at hu
      obtain ⟨rfl, hu⟩ := hu
      exact .take hs (ih hu)

theorem left_split (ts : List Bytes) (xs) : ∃ a, ts = a ++ left ts xs ∧ Fulfils a xs ∧
    ∀ t r, left ts xs = t :: r → ¬ Fulfils (a ++ [t]) xs := by
  induction xs generalizing ts with
  | nil =>
    refine ⟨[], by rw [left_nil]; rfl, .nil _, ?_⟩
    intro t r _ hf
    cases hf
  | cons x xs ih =>
    cases ts with
    | nil => exact ⟨[], by simp [left], .nil _, by simp [left]⟩
    | cons t ts =>
      simp only [left]
      split
      · rename_i hs
        obtain ⟨a, h1, h2, h3⟩ := ih ts
        refine ⟨t :: a, by rw [List.cons_append, ← h1], .take hs h2, ?_⟩
        intro t' r' hl hf
        refine h3 t' r' hl ?_
        cases hf with
        | skip hf => exact fulfils_tail hf
        | take _ hf => exact hf
      · rename_i hs
        obtain ⟨a, h1, h2, h3⟩ := ih (t :: ts)
        refine ⟨a, h1, .skip h2, ?_⟩
        intro t' r' hl hf
        refine h3 t' r' hl ?_
        rw [fulfils_iff] at hf ⊢
        cases a with
        | nil =>
          simp only [List.nil_append] at h1 hf ⊢
          rw [hl] at h1
          simp only [List.cons.injEq] at h1
          rw [← h1.1] at hf ⊢
          simpa [left, hs] using hf
        | cons y a =>
          simp only [List.cons_append, List.cons.injEq] at h1 hf ⊢
          rw [← h1.1] at hf ⊢
          simpa [left, hs] using hf

theorem next_iff (l : Bytes) (xs) (t : Bytes) :
    NextStep l xs t ↔ ∃ r, left (steps l) xs = t :: r := by
  obtain ⟨a, h1, h2, h3⟩ := left_split (steps l) xs
  constructor
  · rintro ⟨a', b', e1, e2, e3⟩
    have heq : a' ++ t :: b' = a ++ left (steps l) xs := e1.symm.trans h1
    rw [List.append_eq_append_iff] at heq
    rcases heq with ⟨w, w1, w2⟩ | ⟨w, w1, w2⟩
    · cases w with
      | nil => exact ⟨b', by simpa using w2.symm⟩
      | cons y w =>
        simp at w2
        exfalso
        apply e3
        rw [w1, ← w2.1] at h2
        have : a' ++ t :: w = (a' ++ [t]) ++ w := by simp
        rw [this] at h2
        exact fulfils_prefix h2
    · cases w with
      | nil => exact ⟨b', by simpa using w2⟩
      | cons y w =>
        exfalso
        apply h3 y (w ++ t :: b') (by simpa using w2)
        rw [w1] at e2
        have : a ++ y :: w = (a ++ [y]) ++ w := by simp
        rw [this] at e2
        exact fulfils_prefix e2
  · rintro ⟨r, hr⟩
    exact ⟨a, r, by rw [h1, hr], h2, h3 t r hr⟩

theorem methodsGet_spec {c : Cfg} {tgt} {xs} {st : St} (hr : Ready c tgt xs st) (m : Bytes) :
    m ∈ methodsGet c st ↔ Known m ∧ m ≠ b!"none" ∧ c.enabled m = true ∧
      (Multi c → ∃ l ∈ c.lists, Usable c l ∧ ∃ t, NextStep l xs t ∧ (stepOf t).1 = m) := by
  unfold methodsGet
  rw [List.mem_filter, mem_names]
  simp only [Bool.and_eq_true, decide_eq_true_eq]
  constructor
  · rintro ⟨hk, ⟨hn, he⟩, ha⟩
    have he' : c.enabled m = true := by simpa only [isEnabled, if_neg hn] using he
    refine ⟨hk, hn, he', ?_⟩
    intro hm
    have hmu := hr.multi.2 hm
    unfold methodAllowed at ha
    rw [if_pos hmu, List.any_eq_true] at ha
    obtain ⟨tx, htx, hst⟩ := ha
    rw [hr.tracks hmu] at htx
    obtain ⟨ts, hts, rfl⟩ := List.mem_map.1 htx
    obtain ⟨l, hl, rfl⟩ := List.mem_map.1 hts
    obtain ⟨l1, l2⟩ := List.mem_filter.1 hl
    have hu := (methodsValid_iff c l).1 l2
    refine ⟨l, l1, hu, ?_⟩
    cases hlf : left (steps l) xs with
    | nil => exact absurd hlf (hr.open_ hmu _ hts)
    | cons t r =>
      refine ⟨t, (next_iff l xs t).2 ⟨r, hlf⟩, ?_⟩
      rw [hlf] at hst
      have ht : t ∈ steps l := left_subset (steps l) xs t (by simp [hlf])
      exact (allowed_join (usable_clean hu t ht).1 ⟨(known_clean hk).1, (known_clean hk).2.1⟩).1
        (of_decide_eq_true hst)
  · rintro ⟨hk, hn, he, hx⟩
    refine ⟨hk, ⟨hn, by simpa only [isEnabled, if_neg hn] using he⟩, ?_⟩
    unfold methodAllowed
    by_cases hmu : st.multi = true
    · rw [if_pos hmu, List.any_eq_true]
      obtain ⟨l, l1, hu, t, hnext, htm⟩ := hx (hr.multi.1 hmu)
      obtain ⟨r, hlf⟩ := (next_iff l xs t).1 hnext
      have hts : steps l ∈ usableSteps c :=
        List.mem_map.2 ⟨l, List.mem_filter.2 ⟨l1, (methodsValid_iff c l).2 hu⟩, rfl⟩
      refine ⟨Text.join 44 (left (steps l) xs), ?_, ?_⟩
      · rw [hr.tracks hmu]; exact List.mem_map.2 ⟨_, hts, rfl⟩
      · rw [hlf]
        have ht : t ∈ steps l := left_subset (steps l) xs t (by simp [hlf])
        exact decide_eq_true ((allowed_join (usable_clean hu t ht).1
          ⟨(known_clean hk).1, (known_clean hk).2.1⟩).2 htm)
    · rw [if_neg hmu]

/-- **C24: the failure message tells the truth.**  The methods it names as able to continue are
exactly the known ones that are switched on and (with AuthenticationMethods) are the next step of
some usable list, counting the success just made. -/
theorem C24_offered {c : Cfg} {h : List (Ev × Out)} {st : St} (hh : Hist c h st) {e : Ev}
    {l : Option Log} {ms : Bytes} {part : Bool} (hr : (step c st e).1 = ⟨l, .failure ms part⟩) :
    ∃ names, ms = Text.join 44 names ∧ ∀ m, m ∈ names ↔
      Known m ∧ m ≠ b!"none" ∧ c.enabled m = true ∧
      (Multi c → ∃ l ∈ c.lists, Usable c l ∧
        ∃ t, NextStep l (wins (h ++ [(e, (step c st e).1)])) t ∧ (stepOf t).1 = m) := by
  have hi := (hist_inv hh).1
  have hinv := (hist_inv (Hist.snoc e hh)).1
  by_cases hover : st.over = true
  · rw [step_over e hover] at hr; simp at hr
  · have hover : st.over = false := by simpa using hover
    have hsum := step_sum e hover hi.kbd hi.kbdQ
    revert hsum hr hinv
    generalize (step c st e).1 = o
    generalize (step c st e).2 = st'
    intro hr hinv hsum
    cases hsum with
    | die => simp at hr
    | ignored _ => simp at hr
    | go st1 st2 authed pm sub _ _ hp hs hf _ _ _ _ _ _ =>
      obtain ⟨_, _, hov, _, _, hpos, _⟩ := prep_ready ⟨none, .quiet⟩ (hi.live hover) hi.kbd0 hp
      have hov2 : st2.over = false := by rw [← hs.over, hov, hover]
      have hpos2 : 0 < st2.attempt := hs.attempt ▸ hpos
      cases hf with
      | part m ls hw hm hu hlim =>
        simp only [Out.mk.injEq, Reply.failure.injEq] at hr
        have hready := (hinv.live (by simpa using hov2)).pos (by simpa using hpos2)
        exact ⟨_, hr.2.1.symm, methodsGet_spec hready⟩
      | fail m hpost hm hlim =>
        simp only [Out.mk.injEq, Reply.failure.injEq] at hr
        have hready := (hinv.live (by simpa using hov2)).pos (by simpa using hpos2)
        refine ⟨_, hr.2.1.symm, ?_⟩
        have : methodsGet c st2 = methodsGet c { st2 with failures := bump st2 m } := rfl
        rw [this]
        exact methodsGet_spec hready
      | _ => simp at hr

/-! ### C58 -/

/-- **C58: one keyboard-interactive request, one verdict per device.**  In the run of responses after
any request, whatever devices the client asked for and however often it named them, no device gives
its verdict twice. -/
theorem C58_one_guess {c : Cfg} {h1 h2 : List (Ev × Out)} {st : St} (hh : Hist c (h1 ++ h2) st)
    (hr : ∀ p ∈ h2, isRequest p.1 = false) :
    (guesses h2).Nodup ∧ ∀ d ∈ guesses h2, d ∈ c.devices := by
  suffices hx : ∀ h st, Hist c h st → ∀ h2, h = h1 ++ h2 → (∀ p ∈ h2, isRequest p.1 = false) →
      (guesses h2).Nodup ∧ (∀ d ∈ guesses h2, d ∈ c.devices) ∧ Pending c st.kbd (guesses h2) by
    obtain ⟨a, b, _⟩ := hx _ st hh h2 rfl hr
    exact ⟨a, b⟩
  intro h st hh
  induction hh with
  | nil =>
    intro h2 he _
    have : h2 = [] := by
      cases h2 with
      | nil => rfl
      | cons a t => simp at he
    subst this
    refine ⟨by simp [guesses], by simp [guesses], ?_⟩
    intro k hk; simp [init] at hk
  | @snoc h st e hh ih =>
    intro h2 he hr
    rcases List.eq_nil_or_concat h2 with rfl | ⟨h2', q, rfl⟩
    · exact ⟨by simp [guesses], by simp [guesses], hist_pending (Hist.snoc e hh)⟩
    · have he' : h ++ [(e, (step c st e).1)] = (h1 ++ h2') ++ [q] := by rw [he]; simp
      have hq := List.append_inj' he' rfl
      have hq' : (e, (step c st e).1) = q := by simpa using hq.2
      obtain ⟨i1, i2, i3⟩ := ih h2' hq.1 (fun p hp => hr p (by simp [hp]))
      subst hq'
      have hresp := hr (e, (step c st e).1) (by simp)
      cases e with
      | request => simp [isRequest] at hresp
      | response r =>
        obtain ⟨d, d1, d2, d3, d4⟩ := response_pending (r := r) i3 i1 (hist_inv hh).1.kbd
        rw [List.concat_eq_append, guesses_append, d1]
        refine ⟨d2, ?_, d4⟩
        intro x hx
        rcases List.mem_append.1 hx with hx | hx
        · exact i2 x hx
        · exact d3 x hx

/-! ### A concrete conversation -/

/-- public key and then keyboard-interactive with PAM, or a password followed by a public key -/
def exCfg : Cfg :=
  { enabled := fun _ => true
    lists := [b!"publickey,keyboard-interactive:pam", b!"password,publickey"]
    maxTries := 6, usePam := true, root := .withoutPassword
    getpw := fun u => if u = b!"alice" then some 1000 else none
    bsdauth := false }

def exYes : Result :=
  { ok := true, wait := false, serverFail := false, more := false, avail := true, forced := false,
    account := true }

def exNo : Result := { exYes with ok := false }

def exReq (m : Bytes) (r : Result) : Ev := .request b!"alice:style" b!"ssh-connection" m [] r

/-- runs a list of messages -/
def exRun (c : Cfg) : List Ev → List (Ev × Out) × St → List (Ev × Out) × St
  | [], p => p
  | e :: es, p => exRun c es (p.1 ++ [(e, (step c p.2 e).1)], (step c p.2 e).2)

theorem exRun_hist (c : Cfg) (es : List Ev) (p) (h : Hist c p.1 p.2) :
    Hist c (exRun c es p).1 (exRun c es p).2 := by
  induction es generalizing p with
  | nil => exact h
  | cons e es ih => exact ih _ (Hist.snoc e h)

def exEvents : List Ev :=
  [exReq b!"none" exNo, exReq b!"keyboard-interactive" exYes, exReq b!"publickey-hostbound-v00@openssh.com" exYes,
   exReq b!"keyboard-interactive" exYes, .response { exNo with more := true }, .response exYes,
   exReq b!"password" exYes]

/-- The conversation: "none" fails without being counted, keyboard-interactive is refused before the
key, the key is a first step, keyboard-interactive asks twice and completes; later messages are dead. -/
example : (exRun exCfg exEvents ([], init)).1.map (fun p => (p.2.log.map (·.verdict), p.2.reply)) =
    [(some .failed, .failure b!"publickey,password" false),
     (some .failed, .failure b!"publickey,password" false),
     (some .partly, .failure b!"password,keyboard-interactive" true),
     (some .postponed, .quiet), (some .postponed, .quiet), (some .accepted, .success),
     (none, .quiet)] := by decide +kernel

example : LoggedIn (exRun exCfg exEvents ([], init)).1 :=
  ⟨.response exYes, some ⟨.accepted, b!"keyboard-interactive", some b!"pam"⟩, by decide +kernel⟩

example : Multi exCfg := ⟨by decide, by decide⟩

example : Fulfils (steps b!"publickey,keyboard-interactive:pam")
    [(b!"publickey", none), (b!"keyboard-interactive", some b!"pam")] := by
  have : steps b!"publickey,keyboard-interactive:pam" = [b!"publickey", b!"keyboard-interactive:pam"] := by
    decide
  rw [this]
  refine .take ⟨by decide, Or.inl (by decide)⟩ (.take ⟨by decide, Or.inr (by decide)⟩ (.nil _))

example : strikes true (exRun exCfg exEvents ([], init)).1 = 1 := by decide +kernel

example : guesses ((exRun exCfg exEvents ([], init)).1.drop 4) = [b!"pam"] := by decide +kernel

end Verif.Auth
