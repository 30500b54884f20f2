/-
Concrete histories of the agent: the hypotheses of C32 and C33 can be met, and what the agent does not do.
-/
import Verif.Agent.Paths

namespace Verif.Agent
open Verif Wire Match

/-- Run a list of events, checking that the clock does not run backwards. -/
def play (w : World) : List Ev → List (Ev × Option Out) → State → Nat → Option (List (Ev × Option Out) × State × Nat)
  | [], h, s, t => some (h, s, t)
  | ev :: evs, h, s, t =>
    if t ≤ ev.time.getD t then
      match step w s ev with
      | none => none
      | some r => play w evs (h ++ [(ev, r.2)]) r.1 (ev.time.getD t)
    else none

theorem play_hist {w : World} : ∀ (evs : List Ev) (h : List (Ev × Option Out)) (s : State) (t : Nat) (r), Hist w h s t →
    play w evs h s t = some r → Hist w r.1 r.2.1 r.2.2
  | [], h, s, t, r, hh, hp => by cases hp; exact hh
  | ev :: evs, h, s, t, r, hh, hp => by
    unfold play at hp
    split at hp
    · rename_i hok
      cases hs : step w s ev with
      | none => rw [hs] at hp; cases hp
      | some q =>
        rw [hs] at hp
        exact play_hist evs _ _ _ r (Hist.step hh hok hs) hp
    · cases hp

namespace Toy

/-- Keys are bytes; a host certificate is `C`, one byte for the authority and the host's name; the signature of a key on data
is the key followed by the data; the hash of a password is the password and the salt. -/
def w : World where
  readPub b := if b = [] then none else some b
  readPriv := getStr
  pubBlob k := k
  isCert k := decide (k.take 1 = b!"C")
  sigKey k := some ((k.drop 1).take 1)
  certHost k n := decide (k.drop 2 = n)
  isSk _ := false
  skApp _ := []
  algFits _ _ := true
  verify k sig d := decide (sig = k ++ d)
  kdf p s := some (p ++ s)
  realpath p := some p
  samePublic _ _ := false
  makeCert _ _ := none
  allowed := b!"/lib/*"
  remoteAdd := false
  lifetime := 0
  restrictWeb := true
  webAllow := b!"ssh:*"

def ans : Ans := ⟨true, some b!"sig", b!"salt", [], true⟩
def no : Ans := ⟨false, some b!"sig", b!"salt", [], true⟩

def sign (key data : Bytes) : Bytes := str key ++ str data ++ [0, 0, 0, 0]

/-- Key `k`, ten seconds, with confirmation. -/
def addK : Bytes := str b!"k" ++ str b!"comment" ++ encLife (some 10) ++ encConfirm true

/-- From here to the host `jump`, and from there, as `bob`, to hosts certified by the authority `A` as `srv`. -/
def toJump : Dest := ⟨⟨none, none, []⟩, ⟨none, some b!"jump", [(b!"J", false)]⟩⟩
def toSrv : Dest := ⟨⟨none, some b!"jump", [(b!"J", false)]⟩, ⟨some b!"bob", some b!"srv", [(b!"A", true)]⟩⟩

def addD : Bytes := str b!"d" ++ str b!"" ++ encRestrict w [toJump, toSrv]

def bindReq (key sid : Bytes) (fwd : UInt8) : Bytes :=
  str b!"session-bind@openssh.com" ++ str key ++ str sid ++ str (key ++ sid) ++ [fwd]

def request (sid user key host : Bytes) : Bytes :=
  str sid ++ [50] ++ str user ++ str b!"ssh-connection" ++ str b!"publickey-hostbound-v00@openssh.com" ++ [1] ++ str b!"alg" ++
    str key ++ str host

/-- What was answered in a run that begins at time 1. -/
def answers (evs : List Ev) : Option (List (Option Out)) := (play w evs [] init 1).map fun r => r.1.map (·.2)

/-- Used when the user agrees, not otherwise; not listed and not used while locked; gone after a round that begins after
its deadline. -/
example : (answers [.round 1, .msg 2 0 25 addK ans, .msg 3 0 13 (sign b!"k" b!"x") ans, .msg 3 0 13 (sign b!"k" b!"x") no,
    .msg 4 0 22 (str b!"pw") ans, .msg 5 0 11 [] ans, .msg 5 0 13 (sign b!"k" b!"x") ans, .msg 5 0 23 (str b!"pq") ans,
    .msg 5 0 23 (str b!"pw") ans, .msg 5 0 11 [] ans, .round 12, .msg 12 0 11 [] ans]).map (·.map (·.map (·.reply))) =
    some [none, some (.status true), some (.signature b!"sig"), some (.status false), some (.status true), some (.keys []),
      some (.status false), some (.status false), some (.status true), some (.keys [(b!"k", b!"comment")]), none, some (.keys [])] := by
  decide +kernel

theorem goodDests : ∀ d ∈ [toJump, toSrv], GoodDest w d := by
  have gj : GoodHop w ⟨none, some b!"jump", [(b!"J", false)]⟩ := ⟨nofun, by intro s h; cases h; decide, by decide, by decide⟩
  intro d hd
  simp only [List.mem_cons, List.not_mem_nil, or_false] at hd
  rcases hd with rfl | rfl
  · exact ⟨⟨nofun, nofun, by decide, by decide⟩, gj, by decide, rfl, by decide, by decide, by decide⟩
  · exact ⟨gj, ⟨by intro s h; cases h; decide, by intro s h; cases h; decide, by decide, by decide⟩, by decide, rfl, by decide, by decide, by decide⟩

/-- The constrained key goes over the jump host to the server as `bob`, but not as `eve`, not to another certified host, and not when
the jump host was not bound. -/
example : (answers [.msg 2 0 25 addD ans,
      .msg 3 1 27 (bindReq b!"J" b!"s1" 1) ans, .msg 3 1 11 [] ans,
      .msg 4 1 27 (bindReq b!"CAsrv" b!"s2" 0) ans, .msg 4 1 11 [] ans,
      .msg 5 1 13 (sign b!"d" (request b!"s2" b!"bob" b!"d" b!"CAsrv")) ans,
      .msg 5 1 13 (sign b!"d" (request b!"s2" b!"eve" b!"d" b!"CAsrv")) ans,
      .msg 5 1 13 (sign b!"d" (request b!"s1" b!"bob" b!"d" b!"CAsrv")) ans,
      .msg 6 2 27 (bindReq b!"CAsrv" b!"s2" 0) ans, .msg 6 2 11 [] ans,
      .msg 6 2 13 (sign b!"d" (request b!"s2" b!"bob" b!"d" b!"CAsrv")) ans]).map (·.map (·.map (·.reply))) =
    some [some (.status true), some (.status true), some (.keys [(b!"d", [])]), some (.status true), some (.keys [(b!"d", [])]),
      some (.signature b!"sig"), some (.status false), some (.status false), some (.status true), some (.keys []), some (.status false)] := by
  decide +kernel

end Toy

/-- C32 is false of the agent as it stands in one respect: deadlines are looked at only when a round of the main loop begins, so
a key is still used when its deadline passes during a round, for instance while another request waits for the user. -/
theorem C32_expired_false : ∃ (w : World) (h : List (Ev × Option Out)) (s : State) (t now c : Nat) (req : Bytes) (a : Ans) (s' : State)
    (o : Out) (u : Use), Hist w h s t ∧ t ≤ now ∧ step w s (.msg now c 13 req a) = some (s', some o) ∧ o.use = some u ∧
      0 < u.id.death ∧ u.id.death < now := by
  have hp : ∃ r, play Toy.w [.round 1, .msg 2 0 25 Toy.addK Toy.ans] [] init 1 = some r ∧ r.2.2 = 2 ∧
      (step Toy.w r.2.1 (.msg 50 0 13 (Toy.sign b!"k" b!"x") Toy.ans)).map (·.2) =
        some (some ⟨.signature b!"sig", some ⟨⟨b!"k", b!"comment", none, 12, true, none, []⟩, b!"x", true⟩⟩) := by
    exact ⟨_, rfl, by decide +kernel, by decide +kernel⟩
  obtain ⟨r, hr, h1, h2⟩ := hp
  obtain ⟨q, hq, hq2⟩ := Option.map_eq_some_iff.1 h2
  refine ⟨Toy.w, r.1, r.2.1, r.2.2, 50, 0, Toy.sign b!"k" b!"x", Toy.ans, q.1, ⟨.signature b!"sig", some ⟨⟨b!"k", b!"comment", none, 12, true, none, []⟩, b!"x", true⟩⟩, _, play_hist _ _ _ _ r (Hist.init 1 (by decide)) hr, by omega, ?_, rfl, ?_, ?_⟩
  · rw [hq, ← hq2]
  · decide
  · decide

/-- A session-bind request with a session identifier of more than 128 bytes is answered with success, for any signature, although
nothing is recorded. -/
theorem C33_long_sid {w : World} {h : List (Ev × Option Out)} {s : State} {t : Nat} (hh : Hist w h s t) (hl : lockedBy h = none)
    {now c : Nat} {blob sid sig : Bytes} {key : Key} {f : UInt8} (hb : w.readPub blob = some key) (hbl : blob.length ≤ maxString)
    (hs1 : 128 < sid.length) (hs2 : sid.length ≤ maxString) (hsg : sig.length ≤ maxString) {a : Ans} :
    ∃ s', step w s (.msg now c 27 (str b!"session-bind@openssh.com" ++ (str blob ++ (str sid ++ (str sig ++ [f])))) a) =
      some (s', some (say true)) ∧ (s'.conns c).binds = (s.conns c).binds := by
  have hk := C32_lock_state hh
  rw [hl] at hk
  simp only [step, process]
  rw [if_neg (by rw [hk]; simp)]
  have hdd : ∀ r, dispatch w s now c 27 r a = some (processExt w s c r) := fun r => rfl
  rw [hdd]
  unfold processExt
  rw [getCstr_append _ _ (by decide) (by decide)]
  simp only [if_true]
  have hpb : parseBind w (str blob ++ (str sid ++ (str sig ++ [f]))) = some ⟨key, sid, sig, decide (f.toNat ≠ 0)⟩ := by
    unfold parseBind
    rw [readKey_str hb hbl]
    simp only [Option.bind_eq_bind, Option.bind_some]
    rw [getStr_append _ _ hs2]
    simp only [Option.bind_some]
    rw [getStr_append _ _ hsg]
    simp only [Option.bind_some]
    rw [getInt_cons]
    rfl
  simp only [sessionBind, hpb, bindTo, if_pos hs1]
  exact ⟨_, rfl, by simp [setConn]⟩

/-- An add request whose list of destination constraints is empty makes an unconstrained key. -/
theorem C33_empty_restriction : (parseAdd Toy.w noConn 5 (str b!"k" ++ str b!"" ++ [255] ++ str b!"restrict-destination-v00@openssh.com" ++ str [])).map
    (·.dests) = some [] := by decide +kernel

end Verif.Agent
