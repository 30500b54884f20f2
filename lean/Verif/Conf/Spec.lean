/-
What a configuration means, without the reader's state: a log of what the lines said, of which the first word counts.
-/
import Verif.Conf.Model

namespace Verif.Conf
open Verif Match

/-- What was said, in order, and whether it applied. -/
abbrev Log := List (Bool × Setting)

/-- What applied. -/
def said (log : Log) : List Setting := log.filterMap fun x => if x.1 then some x.2 else none

/-- The number a setting gives an option, if any. -/
def saysInt (k : Key) : Setting → Option Int
  | .int k' v => if k' = k then some v else none
  | .pair a b v w => if a = k then some v else if b = k then some w else none
  | .facility v => if k = .logFacility then some v else none
  | .mask v => if k = .bindMask then some v else none
  | _ => none

def saysStr (k : Key) : Setting → Option Bytes
  | .str k' v => if k' = k then some v else none
  | _ => none

/-- A list; the empty list says nothing. -/
def saysList (k : Key) : Setting → Option (List Bytes)
  | .list k' l => if k' = k ∧ l ≠ [] then some l else none
  | .array k' l _ => if k' = k ∧ l ≠ [] then some l else none
  | _ => none

def saysFile (k : Key) : Setting → Option (Bytes × Bool)
  | .addFile k' f u _ => if k' = k then some (f, u) else none
  | _ => none

def saysForward (k : Key) : Setting → Option Bytes
  | .addForward k' f => if k' = k then some f else none
  | _ => none

def saysEnv : Setting → Option (List Bytes)
  | .env l => some l
  | _ => none

/-- How the server is reached: ProxyCommand and ProxyJump are one option. -/
inductive Way where
  | command (c : Bytes)
  | noJump
  | jump (host : Bytes) (user : Option Bytes) (port : Int) (extra : Option Bytes)
  deriving DecidableEq, Repr

def saysWay : Setting → Option Way
  | .proxyCommand c => some (.command c)
  | .noJump => some .noJump
  | .jump h u p e => some (.jump h u p e)
  | _ => none

/-- The first that says something. -/
def first (f : Setting → Option α) (l : List Setting) : Option α := (l.filterMap f).head?

/-- The first number other than "not set". -/
def firstInt (k : Key) (l : List Setting) : Option Int := (l.filterMap (saysInt k)).find? (· ≠ -1)

/-- Each once, at its first place. -/
def once [DecidableEq α] (l : List α) : List α := l.foldl (fun acc x => if x ∈ acc then acc else acc ++ [x]) []

/-- The options the first word decides. -/
def ordinary (k : Key) : Bool := k ≠ .logFacility && k ≠ .bindMask && k ≠ .jumpPort

def ordinaryStr (k : Key) : Bool := k ≠ .proxyCommand && k ≠ .jumpHost && k ≠ .jumpUser && k ≠ .jumpExtra

def wayInt (w : Option Way) : Int :=
  match w with
  | some .noJump => 0
  | some (.jump _ _ p _) => p
  | _ => -1

def wayStr (w : Option Way) (k : Key) : Option Bytes :=
  match w, k with
  | some (.command c), .proxyCommand => some c
  | some (.jump _ _ _ _), .proxyCommand => some b!"none"
  | some .noJump, .jumpHost => some b!"none"
  | some (.jump h _ _ _), .jumpHost => some h
  | some (.jump _ u _ _), .jumpUser => u
  | some (.jump _ _ _ e), .jumpExtra => e
  | _, _ => none

/-- The number of an option.  SyslogFacility does not care whether it applies, nor does StreamLocalBindMask, of which
the last word counts. -/
def viewInt (log : Log) (k : Key) : Int :=
  if ordinary k then (firstInt k (said log)).getD (-1)
  else if k = .logFacility then (firstInt k (log.map (·.2))).getD (-1)
  else if k = .bindMask then ((log.map (·.2)).filterMap (saysInt k)).getLast?.getD (-1)
  else wayInt (first saysWay (said log))

def viewStr (log : Log) (k : Key) : Option Bytes :=
  if ordinaryStr k then first (saysStr k) (said log) else wayStr (first saysWay (said log)) k

def viewList (log : Log) (k : Key) : List Bytes :=
  if k = .sendEnv then ((said log).filterMap saysEnv).flatten.foldl envArg []
  else if k = .localForward ∨ k = .remoteForward then once ((said log).filterMap (saysForward k))
  else (first (saysList k) (said log)).getD []

/-- The options a log makes. -/
def view (log : Log) : Opts where
  int := viewInt log
  str := viewStr log
  list := viewList log
  files k := once ((said log).filterMap (saysFile k))

/-! ### Blocks -/

/-- A Host line selects a host: some pattern matches and no negated one does. -/
def HostSel (host : Bytes) (args : List Bytes) : Prop :=
  (∃ a ∈ args, a.head? ≠ some 33 ∧ matchPattern host a = true) ∧
  (∀ a ∈ args, a.head? = some 33 → matchPattern host (a.drop 1) = false)

/-- The criteria of a Match line. -/
inductive Item where
  | all (neg : Bool)
  | final (neg : Bool)
  | crit (neg : Bool) (c : Crit) (arg : Bytes)
  deriving DecidableEq, Repr

/-- How a line is read as criteria. -/
inductive Criteria : List Bytes → List Item → Prop where
  | nil : Criteria [] []
  | comment {a r} : a.head? = some 35 → Criteria (a :: r) []
  | all {a} : a.head? ≠ some 35 → same (attrOf a) b!"all" = true → Criteria [a] [.all (negOf a)]
  | allComment {a b r} : a.head? ≠ some 35 → same (attrOf a) b!"all" = true → b = [] ∧ r = [] ∨ b.head? = some 35 →
      Criteria (a :: b :: r) [.all (negOf a)]
  | final {a r cs} : a.head? ≠ some 35 → same (attrOf a) b!"canonical" = true ∨ same (attrOf a) b!"final" = true →
      Criteria r cs → Criteria (a :: r) (.final (negOf a) :: cs)
  | word {a c x arg r cs} : a.head? ≠ some 35 → (c, x) ∈ (critOf (attrOf a) arg) → Criteria r cs →
      Criteria (a :: arg :: r) (.crit (negOf a) c x :: cs)
  | equals {a name c x arg r cs} : a.head? ≠ some 35 → attrOf a = name ++ 61 :: arg → (c, x) ∈ critOf name arg →
      c ≠ .sessionType →
      Criteria r cs → Criteria (a :: r) (.crit (negOf a) c x :: cs)

/-- The command of a criterion `exec`. -/
def commandOf (W : World) (o : Opts) (host x : Bytes) : Option Bytes :=
  W.expand host (userNow W o) (o.int .port) (o.str .hostKeyAlias) (o.str .jumpHost) x

/-- What each criterion looks at. -/
def Truth (W : World) (o : Opts) (host : Bytes) : Crit → Bytes → Prop
  | .host, x => matchHostname host x = 1
  | .originalHost, x => matchHostname W.original x = 1
  | .user, x => matchPatternList ((o.str .user).getD W.localUser) x false = 1
  | .localUser, x => matchPatternList W.localUser x false = 1
  | .localNetwork, x => W.localNet x = true
  | .version, x => matchPatternList W.release x false = 1
  | .tagged, x => textMatch ((o.str .tag).getD []) x = true
  | .command, x => textMatch (W.command.getD []) x = true
  | .sessionType, x => matchPatternList (sessionNow W o) x false = 1
  | .exec, x => ∃ cmd ∈ commandOf W o host x, W.run cmd = some true

/-- A criterion holds, or fails if it is negated. -/
def Holds (W : World) (o : Opts) (host : Bytes) : Item → Prop
  | .all neg => neg = false
  | .final neg => W.final ≠ neg
  | .crit neg c x => if neg then ¬ Truth W o host c x else Truth W o host c x

/-- A Match line: the criteria it is made of. -/
structure MatchSel (W : World) (o : Opts) (args : List Bytes) (b : Bool) (ran : List Bytes) : Prop where
  sel : ∃ host cs, hostNow W o = some host ∧ Criteria args cs ∧ cs ≠ [] ∧
    /- it applies just if all of them hold -/
    (b = true ↔ ∀ i ∈ cs, Holds W o host i) ∧
    /- "all" comes last, after at most one other -/
    (∀ pre neg post, cs = pre ++ .all neg :: post → pre.length ≤ 1 ∧ post = []) ∧
    /- and a command is run just if all that precede it hold -/
    (∀ cmd, cmd ∈ ran ↔ ∃ pre neg x post, cs = pre ++ .crit neg .exec x :: post ∧ (∀ i ∈ pre, Holds W o host i) ∧
      commandOf W o host x = some cmd)

/-! ### Files -/

/-- What has been said, whether the block applies, and the commands run. -/
structure At where
  log : Log
  act : Bool
  ran : List Bytes

mutual
/-- One line. -/
inductive Line (E : Env) (W : World) (user : Bool) : Nat → Bool → Bytes → At → At → Prop where
  | blank {n never l s} : rawLine l = .blank → Line E W user n never l s s
  | sets {n never l s kw str k args sets} : rawLine l = .line kw str →
      kindOf ((view s.log).str .ignoreUnknown) kw = some k → Misc.Argv.argvSplit str true = some args →
      settings E user k str args = some sets →
      Line E W user n never l s { s with log := s.log ++ sets.map fun x => (s.act, x) }
  | host {n never l s kw str args b} : rawLine l = .line kw str → kw = b!"host" →
      Misc.Argv.argvSplit str true = some args → (b = true ↔ never = false ∧ HostSel W.host args) →
      Line E W user n never l s { s with act := b }
  | matches {n never l s kw str args b ran} : rawLine l = .line kw str → kw = b!"match" →
      Misc.Argv.argvSplit str true = some args → MatchSel W (view s.log) args b ran →
      Line E W user n never l s { s with act := b && !never, ran := s.ran ++ ran }
  | incl {n never l s kw str args t} : rawLine l = .line kw str → kw = b!"include" →
      Misc.Argv.argvSplit str true = some args → Includes E W user n never args s t →
      Line E W user n never l s t

/-- The arguments of an Include line. -/
inductive Includes (E : Env) (W : World) (user : Bool) : Nat → Bool → List Bytes → At → At → Prop where
  | nil {n never s} : Includes E W user n never [] s s
  | cons {n never a r s host fs t u} : hostNow W (view s.log) = some host →
      W.glob host (userNow W (view s.log)) ((view s.log).int .port) ((view s.log).str .hostKeyAlias)
        ((view s.log).str .jumpHost) user a = some fs →
      Files E W user n never fs s t → Includes E W user n never r t u → Includes E W user n never (a :: r) s u

/-- The files they stand for.  A file is read as part of the block; the block goes on after it as before. -/
inductive Files (E : Env) (W : World) (user : Bool) : Nat → Bool → List Bytes → At → At → Prop where
  | nil {n never s} : Files E W user n never [] s s
  | missing {n never f fs s t} : W.file f = some none → Files E W user n never fs s t → Files E W user n never (f :: fs) s t
  | file {n never f fs lines s t u} : W.file f = some (some lines) →
      Lines E W user n (never || !s.act) lines s t → Files E W user (n + 1) never fs { t with act := s.act } u →
      Files E W user (n + 1) never (f :: fs) s u

/-- The lines of a file; `never` says that no block of it applies, and `n` how deep it may include others. -/
inductive Lines (E : Env) (W : World) (user : Bool) : Nat → Bool → List Bytes → At → At → Prop where
  | nil {n never s} : Lines E W user n never [] s s
  | cons {n never l ls s t u} : Line E W user n never l s t → Lines E W user n never ls t u →
      Lines E W user n never (l :: ls) s u
end

end Verif.Conf
