/-
Downloads: the claims.
-/
import Verif.Sftp.Download
import Verif.Sftp.Honest

namespace Verif.Sftp.Client
open Verif Wire Sftp

theorem truncTo_length (f : Bytes) (n : Nat) : (truncTo f n).length = n := by
  simp [truncTo]; omega

theorem truncTo_get (f : Bytes) (n p : Nat) (h : p < n) (hf : p < f.length) : (truncTo f n)[p]? = f[p]? := by
  unfold truncTo
  rw [List.getElem?_take_of_lt h, List.getElem?_append_left hf]

theorem get_lt {f g : Bytes} {p : Nat} (h : f[p]? = g[p]?) (hp : p < g.length) : p < f.length := by
  refine Nat.lt_of_not_le fun hc => ?_
  rw [List.getElem?_eq_none hc, List.getElem?_eq_getElem hp] at h
  cases h

theorem whole_get (f0 F : Bytes) (start p : Nat) (h : start ≤ f0.length) :
    (f0.take start ++ F.drop start)[p]? = if p < start then f0[p]? else F[p]? := by
  by_cases hp : p < start
  · rw [if_pos hp, List.getElem?_append_left (by simp; omega), List.getElem?_take_of_lt hp]
  · rw [if_neg hp, List.getElem?_append_right (by simp; omega), List.getElem?_drop]
    congr 1
    simp; omega

/-- A file that has the right bytes up to `n` and no others. -/
theorem file_ext {f f0 F : Bytes} {start n : Nat} (h : start ≤ f0.length) (hs : start ≤ n) (hl : f.length = n)
    (low : ∀ p, p < start → f[p]? = f0[p]?) (mid : ∀ p, start ≤ p → p < n → f[p]? = F[p]?) :
    f = (f0.take start ++ F.drop start).take n := by
  apply List.ext_getElem?
  intro p
  by_cases hp : p < n
  · rw [List.getElem?_take_of_lt hp, whole_get _ _ _ _ h]
    split
    · exact low p (by omega)
    · exact mid p (by omega) hp
  · rw [List.getElem?_eq_none (by omega), List.getElem?_eq_none (by simp; omega)]

/-- What is known when the download has come to its end. -/
theorem download_ended {cfg : DlCfg} {srv : Nat → List Rq → Bytes} {ev : Nat → Ev} {z : EndEv} {old F file : Bytes} {msgId n : Nat}
    {ok : Bool} (hb : 0 < cfg.buflen) (hn : n + max 1 cfg.numRequests ≤ 2 ^ 32) (hs : Honest F srv)
    (h : download cfg srv ev z old msgId n = .done ok file) :
    (ok = false ∧ file = old ∧ cfg.resume = true) ∨
      ∃ k s, Inv F (opened cfg old) (if cfg.resume then old.length else 0) msgId (max 1 cfg.numRequests) k s ∧ s.reqs = [] ∧
        (s.maxReq = 0 ∨ s.intr = true) ∧ (Once ev → Hw F (if cfg.resume then old.length else 0) ev k s) ∧
        ok = (!s.readErr && !s.writeErr && z.closed && !(s.intr || z.intr)) ∧ file = cut cfg z s := by
  unfold download at h
  split at h
  · rename_i hc
    simp only [Bool.and_eq_true, decide_eq_true_eq] at hc
    cases h
    exact Or.inl ⟨rfl, by simp [opened, hc.1], hc.1⟩
  · cases hl : loop cfg srv ev n 0 (startDl cfg old msgId) with
    | fatal => rw [hl] at h; cases h
    | running s => rw [hl] at h; cases h
    | ended s =>
      rw [hl] at h
      simp only [finishDl] at h
      obtain ⟨k, h1, h2, h3, h4⟩ := inv_loop (Nat.le_refl _) hs n 0 _ s (by omega) (inv_start F old cfg msgId hb) hl
      rw [if_neg (by simp [h2])] at h
      simp only [Res.done.injEq] at h
      exact Or.inr ⟨k, s, h1, h2, h3, fun once => h4 once (hw_start F old cfg ev msgId), h.1.symm, h.2.symm⟩

theorem start_le (cfg : DlCfg) (old : Bytes) : (if cfg.resume then old.length else 0) ≤ (opened cfg old).length := by
  unfold opened
  cases cfg.resume <;> simp

/-- All that was to be fetched is there. -/
theorem complete {F old : Bytes} {cfg : DlCfg} {msgId M k : Nat} {s : Dl} {z : EndEv}
    (h : Inv F (opened cfg old) (if cfg.resume then old.length else 0) msgId M k s) (hr : s.reqs = [])
    (hm : s.maxReq = 0 ∨ s.intr = true) (e1 : s.readErr = false) (e2 : s.writeErr = false) (e3 : (s.intr || z.intr) = false)
    (ht : cfg.inplace = true → z.truncated = true ∨ cfg.resume = true) :
    cut cfg z s = (opened cfg old).take (if cfg.resume then old.length else 0) ++ F.drop (if cfg.resume then old.length else 0) := by
  have e3' : s.intr = false := by
    cases hi : s.intr
    · rfl
    · rw [hi] at e3; cases e3
  obtain ⟨_, hf⟩ := ended_file h hr hm e1 e2 e3'
  have hack := h.ack
  have hst := start_le cfg old
  have hlow := h.low
  have hlen := h.len
  have hflen := h.flen
  generalize hS : (if cfg.resume = true then old.length else 0) = start at *
  have hmax : s.maxack = max start F.length := by
    by_cases hle : F.length ≤ start
    · omega
    · have := (hf (F.length - 1) (by omega) (by omega)).1
      omega
  have hwl : ((opened cfg old).take start ++ F.drop start).length = max start F.length := by simp; omega
  have key : ∀ f : Bytes, f.length = max start F.length → (∀ p, p < max start F.length → f[p]? = s.file[p]?) →
      f = (opened cfg old).take start ++ F.drop start := by
    intro f h1 h2
    have := file_ext (f := f) (f0 := opened cfg old) (F := F) (start := start) (n := max start F.length) hst (Nat.le_max_left _ _) h1
      (fun p hp => by rw [h2 p (by omega)]; exact hlow p hp)
      (fun p hp hq => by rw [h2 p hq]; exact (hf p hp (by omega)).2)
    rw [this, List.take_of_length_le (by omega)]
  have hfl : max start F.length ≤ s.file.length := by
    by_cases hle : F.length ≤ start
    · omega
    · have := get_lt (hf (F.length - 1) (by omega) (by omega)).2 (by omega)
      omega
  unfold cut
  split
  · rw [show reached z s = s.maxack from by simp [reached, e1, e2, e3], hmax]
    exact key _ (truncTo_length _ _) (fun p hp => truncTo_get _ _ _ hp (by omega))
  · rename_i hc
    refine key _ ?_ (fun _ _ => rfl)
    by_cases hres : cfg.resume = true
    · have : (opened cfg old).length = start := by
        unfold opened; rw [hres] at hS ⊢
        simpa using hS
      omega
    · have hin : cfg.inplace = false := by
        cases hi : cfg.inplace with
        | false => rfl
        | true =>
          rcases ht hi with g | g
          · simp [hi, g] at hc
          · exact absurd g hres
      have : opened cfg old = [] := by
        unfold opened
        cases hr2 : cfg.resume with
        | true => exact absurd hr2 hres
        | false => simp [hin]
      rw [this] at hlen
      simp only [List.length_nil] at hlen
      omega

/-- A download that reports success has fetched the whole file, whatever the order and the sizes of the replies. -/
theorem C37_download (cfg : DlCfg) (srv : Nat → List Rq → Bytes) (ev : Nat → Ev) (z : EndEv) (old F file : Bytes) (msgId n : Nat)
    (hb : 0 < cfg.buflen) (hn : n + max 1 cfg.numRequests ≤ 2 ^ 32) (hs : Honest F srv) (hr : cfg.resume = false)
    (ht : cfg.inplace = true → z.truncated = true) (h : download cfg srv ev z old msgId n = .done true file) : file = F := by
  rcases download_ended hb hn hs h with ⟨h0, _⟩ | ⟨k, s, h1, h2, h3, _, h5, h6⟩
  · cases h0
  · simp only [Bool.true_eq, Bool.and_eq_true, Bool.not_eq_true'] at h5
    rw [h6, complete h1 h2 h3 h5.1.1.1 h5.1.1.2 h5.2 (fun g => Or.inl (ht g)), hr]
    simp

/-- A resumed download that reports success has added what was missing. -/
theorem C37_resume (cfg : DlCfg) (srv : Nat → List Rq → Bytes) (ev : Nat → Ev) (z : EndEv) (old F file : Bytes) (msgId n : Nat)
    (hb : 0 < cfg.buflen) (hn : n + max 1 cfg.numRequests ≤ 2 ^ 32) (hs : Honest F srv) (hr : cfg.resume = true)
    (h : download cfg srv ev z old msgId n = .done true file) :
    file = old ++ F.drop old.length ∧ (old <+: F → file = F) := by
  have key : file = old ++ F.drop old.length := by
    rcases download_ended hb hn hs h with ⟨h0, _⟩ | ⟨k, s, h1, h2, h3, _, h5, h6⟩
    · cases h0
    · simp only [Bool.true_eq, Bool.and_eq_true, Bool.not_eq_true'] at h5
      rw [h6, complete h1 h2 h3 h5.1.1.1 h5.1.1.2 h5.2 (fun _ => Or.inr hr), hr]
      simp [opened, hr]
  refine ⟨key, fun hp => ?_⟩
  obtain ⟨t, rfl⟩ := hp
  rw [key, List.drop_left]

/-- A download that fails, too, leaves a beginning of the file, if no more than one local write failed.
Not proved, as it is not so: that this holds when several writes fail (`C71_prefix_false`). -/
theorem C71_prefix_partial (cfg : DlCfg) (srv : Nat → List Rq → Bytes) (ev : Nat → Ev) (z : EndEv) (old F file : Bytes) (msgId n : Nat)
    (ok : Bool) (hb : 0 < cfg.buflen) (hn : n + max 1 cfg.numRequests ≤ 2 ^ 32) (hs : Honest F srv) (once : Once ev)
    (ht : z.truncated = true) (h : download cfg srv ev z old msgId n = .done ok file) :
    (cfg.resume = false → file <+: F) ∧ (cfg.resume = true → old <+: file ∧ (old <+: F → file <+: F)) := by
  have key : ∃ m, (if cfg.resume then old.length else 0) ≤ m ∧ file =
      ((opened cfg old).take (if cfg.resume then old.length else 0) ++ F.drop (if cfg.resume then old.length else 0)).take m := by
    rcases download_ended hb hn hs h with ⟨_, h1, h2⟩ | ⟨k, s, h1, h2, h3, h4, _, h6⟩
    · refine ⟨old.length, by rw [h2]; exact Nat.le_refl _, ?_⟩
      rw [h1, h2]
      simp [opened, h2]
    · by_cases he : s.readErr = false ∧ s.writeErr = false ∧ (s.intr || z.intr) = false
      · refine ⟨((opened cfg old).take (if cfg.resume then old.length else 0) ++ F.drop (if cfg.resume then old.length else 0)).length, ?_, ?_⟩
        · have := start_le cfg old
          simp only [List.length_append, List.length_take]; omega
        · rw [h6, complete h1 h2 h3 he.1 he.2.1 he.2.2 (fun _ => Or.inl ht), List.take_length]
      · have w := h4 once
        have hst := start_le cfg old
        have hc : cut cfg z s = truncTo s.file s.highwater := by
          have g : (s.readErr || s.writeErr || (s.intr || z.intr)) = true := by
            cases hre : s.readErr <;> cases hwe : s.writeErr <;> cases hie : (s.intr || z.intr) <;> simp_all
          have g1 : (cfg.inplace || s.readErr || s.writeErr || (s.intr || z.intr)) = true := by
            cases cfg.inplace
            · simpa [Bool.or_assoc] using g
            · simp
          have g2 : (!s.readErr && !s.writeErr && !(s.intr || z.intr)) = false := by
            cases hre : s.readErr <;> cases hwe : s.writeErr <;> cases hie : (s.intr || z.intr) <;> simp_all
          simp only [cut, reached, g1, g2, ht, Bool.and_self, if_true, Bool.false_eq_true, if_false]
        refine ⟨s.highwater, w.lo, ?_⟩
        rw [h6, hc]
        refine file_ext hst w.lo (truncTo_length _ _) (fun p hp => ?_) (fun p hp hq => ?_)
        · have := h1.flen
          have := w.lo
          rw [truncTo_get _ _ _ (by omega) (by omega)]
          exact h1.low p hp
        · obtain ⟨g1, g2⟩ := w.fill p hp hq
          rw [truncTo_get _ _ _ hq (get_lt g2 g1), g2]
  obtain ⟨m, hm, hf⟩ := key
  refine ⟨fun hr => ?_, fun hr => ?_⟩
  · rw [hf, hr]
    simp only [Bool.false_eq_true, if_false, List.take_zero, List.nil_append, List.drop_zero]
    exact List.take_prefix _ _
  · rw [hr] at hf hm
    simp only [if_true] at hf hm
    have ho : (opened cfg old).take old.length = old := by simp [opened, hr]
    rw [ho] at hf
    refine ⟨?_, fun hp => ?_⟩
    · rw [hf, List.take_append, List.take_of_length_le hm]
      exact List.prefix_append _ _
    · obtain ⟨t, rfl⟩ := hp
      rw [hf, List.drop_left]
      exact List.take_prefix _ _

/-! ### A server -/

/-- Answers a request with at most `lim` bytes. -/
def answer (F : Bytes) (lim : Nat) (r : Rq) : Bytes :=
  if F.length ≤ r.off then encReply 3 (.status r.id FX_EOF none)
  else if r.len = 0 then encReply 3 (.status r.id FX_FAILURE none)
  else encReply 3 (.data r.id ((F.drop r.off).take (min r.len (min (max 1 lim) 1000))))

/-- Answers in round `k` the request `pick k`. -/
def reader (F : Bytes) (pick lim : Nat → Nat) (k : Nat) (sent : List Rq) : Bytes :=
  answer F (lim k) (sent.getD (pick k) (sent.headD ⟨0, 0, 0⟩))

theorem reader_honest (F : Bytes) (pick lim : Nat → Nat) : Honest F (reader F pick lim) := by
  intro k sent hs
  have hm : sent.getD (pick k) (sent.headD ⟨0, 0, 0⟩) ∈ sent := by
    rw [List.getD_eq_getElem?_getD]
    cases hg : sent[pick k]? with
    | some r => exact List.mem_of_getElem? hg
    | none =>
      cases sent with
      | nil => exact absurd rfl hs
      | cons x l => exact List.mem_cons_self
  unfold reader answer
  generalize sent.getD (pick k) (sent.headD ⟨0, 0, 0⟩) = r at hm
  split
  · rename_i h1
    exact .eof 3 r none hm h1
  · split
    · exact .error 3 r FX_FAILURE none hm (by decide) (by decide)
    · rename_i h1 h2
      refine .data 3 r _ hm ?_ (List.take_prefix _ _) ?_ ?_
      · intro h0
        have := congrArg List.length h0
        simp at this
        omega
      · simp; omega
      · simp; omega

/-- A file of six bytes in pieces of two, which come in the order 0, 2, 1. -/
example : download { numRequests := 2, buflen := 2 } (reader [1, 2, 3, 4, 5, 6] (fun k => [0, 2, 1, 3, 4].getD k 0) (fun _ => 1000))
    (fun _ => {}) {} [9, 9] 7 9 = .done true [1, 2, 3, 4, 5, 6] := by decide +kernel

/-- The first piece comes byte by byte. -/
example : download { numRequests := 2, buflen := 2 } (reader [1, 2, 3] (fun k => k) (fun _ => 1))
    (fun _ => {}) {} [] 7 9 = .done true [1, 2, 3] := by decide +kernel

/-- Going on with a file that is there in part. -/
example : download { numRequests := 2, buflen := 2, size := 4, resume := true } (reader [1, 2, 3, 4] (fun k => k) (fun _ => 1000))
    (fun _ => {}) {} [1] 7 9 = .done true [1, 2, 3, 4] := by decide +kernel

/-- The user interrupts while two pieces are missing; one of them comes out of order. -/
example : download { numRequests := 2, buflen := 2 } (reader [1, 2, 3, 4, 5, 6] (fun k => [0, 2, 1, 3, 4].getD k 0) (fun _ => 1000))
    (fun k => { intr := decide (k = 2) }) {} [] 7 9 = .done false [1, 2] := by decide +kernel

example : Once fun k => if k = 3 then { fails := some 1 } else {} := by
  intro i j h1 h2
  simp only at h1 h2
  split at h1
  · split at h2
    · omega
    · exact absurd rfl h2
  · exact absurd rfl h1

/-- When two local writes fail, bytes that were never written can be taken for written: what is left then is not a
beginning of the file (and would be built upon by a resumed download). -/
theorem C71_prefix_false : ∃ (cfg : DlCfg) (srv : Nat → List Rq → Bytes) (ev : Nat → Ev) (F file : Bytes),
    0 < cfg.buflen ∧ Honest F srv ∧ download cfg srv ev {} [] 0 9 = .done false file ∧ ¬ file <+: F :=
  ⟨{ numRequests := 2, buflen := 2 }, reader [1, 2, 3, 4, 5, 6] (fun k => [0, 2, 1].getD k 0) (fun _ => 1000),
    fun k => if k = 1 ∨ k = 2 then { fails := some 0 } else {}, [1, 2, 3, 4, 5, 6], [1, 2, 0, 0], by decide,
    reader_honest _ _ _, by decide +kernel, by decide⟩

/-- When the local file cannot be cut to its new size, success is reported all the same. -/
theorem C37_truncate_false : ∃ (cfg : DlCfg) (srv : Nat → List Rq → Bytes) (F old file : Bytes),
    0 < cfg.buflen ∧ Honest F srv ∧ download cfg srv (fun _ => {}) { truncated := false } old 0 9 = .done true file ∧ file ≠ F :=
  ⟨{ inplace := true }, reader [1, 2] (fun k => k) (fun _ => 1000), [1, 2], [9, 9, 9], [1, 2, 9], by decide,
    reader_honest _ _ _, by decide +kernel, by decide⟩

/-! ### Our server -/

/-- The request is understood by the server. -/
theorem C37_request (cfg : Cfg) (x rest : Bytes) (r : Rq) (hp : permitted cfg ⟨b!"read", false, pfail⟩ = true)
    (h1 : r.id < 2 ^ 32) (h2 : r.off < 2 ^ 64) (h3 : r.len < 2 ^ 32) (hx : x.length ≤ 134217724) :
    plan cfg true (encRead x r ++ rest) = some (.req r.id (.read x r.off r.len), rest) := by
  have one : ∀ (t : UInt8) (x : Bytes), getInt 1 (t :: x) = some (t.toNat, x) := by
    intro t x; simp [getInt, ofBE]
  have hperm : ∀ p, permitted cfg ⟨b!"read", false, p⟩ = true := by
    intro p; rw [← hp]; rfl
  unfold plan
  simp only [encRead, List.append_assoc, List.cons_append, List.nil_append, pbind, one, show (5 : UInt8).toNat = 5 from rfl]
  rw [if_neg (by decide), if_neg (by decide)]
  simp only [pbind, getInt_append 4 r.id _ (show r.id < 256 ^ 4 from h1)]
  rw [if_neg (by decide)]
  simp only [planType, show handlers.lookup 5 = some ⟨b!"read", false,
    pbind getStr fun h => pbind (getInt 8) fun o => pbind (getInt 4) fun l => pret (.read h o l)⟩ from rfl, withHandler, hperm, if_true,
    pbind, getStr_append _ _ hx, getInt_append 8 r.off _ (show r.off < 256 ^ 8 from h2), getInt_append 4 r.len _ (show r.len < 256 ^ 4 from h3), pret]

/-- What the server of this model answers to it is what `Honest` asks for, if the system reads from the file `F`. -/
theorem C37_server (cfg : Cfg) (l : List HEv) (s s' : Srv) (v : Nat) (r : Rq) (x F : Bytes) (fd : Nat) (ap : Bool) (nm : Bytes)
    (tr : List (Call × Resp)) (rs : List Reply) (h : Hist cfg l s) (ho : current l x = some (.file fd ap nm)) (hl : 0 < r.len)
    (sys : ∀ n a, (.read fd n, a) ∈ tr → a.err = none → a.data <+: F.drop r.off ∧ (a.data = [] → F.length ≤ r.off))
    (run : Runs (act cfg s (.req r.id (.read x r.off r.len))) tr (s', rs)) :
    ∃ m, rs = [m] ∧ Answers F [r] (encReply v m) := by
  have st : ∀ e : Nat, portable e ≠ 1 ∧ portable e < 2 ^ 32 := by
    intro e
    unfold portable
    repeat' split
    all_goals decide
  obtain ⟨hi, hn⟩ := hist_named h
  rw [← hn] at ho
  obtain ⟨h1, -, -⟩ := toFd_of ho
  simp only [act, exec, doRead, h1, runs_call] at run
  obtain ⟨a, tr', rfl, run⟩ := run
  cases he : a.err with
  | some e =>
    simp only [he, status, runs_ret, Prod.mk.injEq] at run
    exact ⟨_, run.2.2, .error v r _ none List.mem_cons_self (st e).1 (st e).2⟩
  | none =>
    simp only [he] at run
    rw [if_neg (by omega)] at run
    simp only [runs_call] at run
    obtain ⟨d, tr'', rfl, run⟩ := run
    cases hd : d.err with
    | some e =>
      simp only [hd, status, runs_ret, Prod.mk.injEq] at run
      exact ⟨_, run.2.2, .error v r _ none List.mem_cons_self (st e).1 (st e).2⟩
    | none =>
      obtain ⟨g1, g2⟩ := sys (min r.len 261120) d (by simp) hd
      simp only [hd] at run
      by_cases h0 : d.data.length = 0
      · rw [if_pos h0] at run
        simp only [status, runs_ret, Prod.mk.injEq] at run
        exact ⟨_, run.2.2, .eof v r none List.mem_cons_self (g2 (List.length_eq_zero_iff.mp h0))⟩
      · rw [if_neg h0] at run
        simp only [runs_ret, Prod.mk.injEq] at run
        refine ⟨_, run.2.2, .data v r _ List.mem_cons_self ?_ ((List.take_prefix _ _).trans g1) ?_ ?_⟩
        · intro hc
          have := congrArg List.length hc
          rw [List.length_take, List.length_nil] at this
          omega
        · simp; omega
        · simp; omega

end Verif.Sftp.Client
