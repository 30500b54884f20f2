/-
What sshd_config(5) says: lines are read in order and the first value counts; a Match block counts for the connections
its criteria describe, and overrides what stands outside of blocks; an included file stands where it is included and
cannot end or begin a block of the file that includes it.
-/
import Verif.SrvConf.Model

namespace Verif.SrvConf
open Verif Match
open _root_.Verif.Conf (Raw same)

/-! ### Where a line stands -/

/-- Outside of all Match blocks; in a block (that applies or not); in a file that does not count at all. -/
inductive Place where
  | global
  | block (applies : Bool)
  | off
  deriving DecidableEq, Repr

/-- Whether a line there counts.  What stands outside of blocks counts when the server is started (`conn = false`), and not once
more for a connection. -/
def Place.counts (conn : Bool) : Place → Bool
  | .global => !conn
  | .block b => b
  | .off => false

/-- After a Match line. -/
def Place.enter (b : Bool) : Place → Place
  | .off => .off
  | _ => .block b

/-- The connection that a Match line is compared with. -/
def Place.sees (ci : Option Conn) : Place → Option Conn
  | .off => none
  | _ => ci

/-- Where an included file stands. -/
def Place.within : Place → Place
  | .global => .global
  | .block true => .block true
  | _ => .off

/-- The contents of all files that the arguments of an Include stand for. -/
def filesOf (W : World) : List Bytes → Option (List Bytes)
  | [] => some []
  | a :: r => if a = [] then none else (W.glob a).bind fun fs => (filesOf W r).map (fs ++ ·)

/-- A line, as keyword, the text after it, and its words. -/
def Line (line kw str : Bytes) (args : List Bytes) : Prop :=
  rawLine line = .line kw str ∧ Misc.Argv.argvSplit str true = some args

/-- A keyword that says something: how to read it. -/
def Says (kw : Bytes) (k : Kind) : Prop :=
  ∃ b, kindOf kw = some (k, b) ∧ k ≠ .match_ ∧ k ≠ .incl

def MayMatch (kw : Bytes) : Prop := ∃ k, kindOf kw = some (k, true)

mutual
/-- Reading lines at a place sets these, in this order; included files may be nested `n` deep. -/
inductive Reads (E : Env) (W : World) (ci : Option Conn) : Nat → Place → List Bytes → List Setting → Prop where
  | done (n p) : Reads E W ci (n + 1) p [] []
  | blank (n p line r g) : rawLine line = .blank → Reads E W ci n p r g → Reads E W ci n p (line :: r) g
  | old (n p line kw str args r g) : Line line kw str args → ci.isSome → p.counts true = false → ¬ MayMatch kw →
      Reads E W ci n p r g → Reads E W ci n p (line :: r) g
  | says (n p line kw str args k s r g) : Line line kw str args → Says kw k → settings E k str args = some s →
      (p.counts ci.isSome ∨ MayMatch kw) → Reads E W ci n p r g →
      Reads E W ci n p (line :: r) ((if p.counts ci.isSome then s else []) ++ g)
  | match_ (n p line str args b r g) : Line line b!"match" str args → matchLine E W (p.sees ci) args = some (b, []) →
      Reads E W ci n (p.enter b) r g → Reads E W ci n p (line :: r) g
  | incl (n p line str args fs g₁ r g₂) : Line line b!"include" str args → args ≠ [] → filesOf W args = some fs →
      ReadsAll E W ci n p.within fs g₁ → Reads E W ci (n + 1) p r g₂ → Reads E W ci (n + 1) p (line :: r) (g₁ ++ g₂)
/-- Files, one after another. -/
inductive ReadsAll (E : Env) (W : World) (ci : Option Conn) : Nat → Place → List Bytes → List Setting → Prop where
  | done (n p) : ReadsAll E W ci n p [] []
  | file (n p f fs g₁ g₂) : Reads E W ci n p (loadConfig f) g₁ → ReadsAll E W ci n p fs g₂ →
      ReadsAll E W ci n p (f :: fs) (g₁ ++ g₂)
end

/-- The options of the command line set these. -/
inductive Given (E : Env) : List Bytes → List Setting → Prop where
  | done : Given E [] []
  | blank (line r g) : rawLine line = .blank → Given E r g → Given E (line :: r) g
  | says (line kw str args k s r g) : Line line kw str args → Says kw k → settings E k str args = some s → Given E r g →
      Given E (line :: r) (s ++ g)

/-! ### What a line says about an option -/

def Setting.int? (k : Key) : Setting → Option Int
  | .int k' v => if k' = k then some v else none
  | .penalty k' v => if k' = k then some v else none
  | .userEnv v _ => if k = .userEnv then some v else none
  | _ => none

def Setting.last? (k : Key) : Setting → Option Int
  | .last k' v => if k' = k then some v else none
  | _ => none

def Setting.str? (k : Key) : Setting → Option Bytes
  | .str k' v => if k' = k then some v else none
  | _ => none

def Setting.list? (k : Key) : Setting → Option (List Bytes)
  | .list k' v => if k' = k then some v else none
  | _ => none

def Setting.more (k : Key) : Setting → List Bytes
  | .add k' v _ => if k' = k then v else []
  | _ => []

/-- The first value. -/
def firstInt (k : Key) (g : List Setting) : Option Int := g.findSome? (·.int? k)
def firstStr (k : Key) (g : List Setting) : Option Bytes := g.findSome? (·.str? k)
def firstList (k : Key) (g : List Setting) : Option (List Bytes) := g.findSome? (·.list? k)
/-- The last one. -/
def lastInt (k : Key) (g : List Setting) : Option Int := g.reverse.findSome? (·.last? k)
/-- All of them. -/
def allOf (k : Key) (g : List Setting) : List Bytes := (g.map (·.more k)).flatten

/-- Numbers for which the last line counts -/
def lastKeys : List Key := [.startupsBegin, .startupsRate, .startupsMax, .sourceMask4, .qosInteractive, .qosBulk, .bindMask,
  .fingerprintHash]

/-- Numbers for which the first line counts.  UnusedConnectionTimeout, whether there are penalties, and the second number of
PerSourceNetBlockSize follow other rules. -/
def numbers : List Key := [.usePam, .loginGrace, .permitRoot, .logFacility, .logLevel, .hostbasedAuth, .hostbasedFromPacket, .pubkeyAuth,
  .pubkeyOptions, .passwordAuth, .kbdintAuth, .addressFamily, .printMotd, .printLastlog, .ignoreRhosts, .ignoreKnownHosts,
  .x11Forwarding, .x11Offset, .x11Localhost, .strictModes, .emptyPasswd, .userEnv, .compression, .rekeyLimit, .rekeyInterval,
  .tcpKeepAlive, .tcpForwarding, .agentForwarding, .gatewayPorts, .sourceMax, .penaltyCrash, .penaltyAuthfail, .penaltyNoauth,
  .penaltyGrace, .penaltyRefuse, .penaltyMax, .penaltyMin, .maxSources4, .maxSources6, .overflow, .maxAuthTries, .maxSessions,
  .useDns, .aliveInterval, .aliveCountMax, .permitTun, .permitTty, .permitUserRc, .bindUnlink, .streamForwarding,
  .disableForwarding, .exposeAuthInfo, .requiredRSASize, .refuseConnection]

/-- Texts, except the list of names of PermitUserEnvironment. -/
def texts : List Key := [.pamService, .hostKeyAgent, .pidFile, .moduliFile, .hostbasedAlgos, .hostKeyAlgos, .pubkeyAlgos, .xauthLocation,
  .ciphers, .macs, .penaltyExempt, .banner, .forceCommand, .chroot, .revokedKeys, .trustedCAs, .principalsFile, .kexAlgos,
  .keysCommand, .keysCommandUser, .principalsCommand, .principalsCommandUser, .versionAddendum, .caAlgos, .skProvider,
  .sessionPath, .authPath]

/-- Lists of which the first line counts. -/
def lists : List Key := [.logVerbose, .authKeysFiles, .setEnv, .permitOpen, .permitListen, .authMethods, .channelTimeouts]

/-- Lists that grow. -/
def growing : List Key := [.ports, .hostKeys, .hostCerts, .listenAddrs, .allowUsers, .denyUsers, .allowGroups, .denyGroups, .acceptEnv]

/-- Subsystems: the first of a name counts. -/
def subsOf : List Setting → List Sub → Option (List Sub)
  | [], l => some l
  | .subsystem n c :: r, l => (addSub n c l).bind (subsOf r)
  | _ :: r, l => subsOf r l

/-- The options a Match block may override: those listed in sshd_config(5), and LogVerbose and RequiredRSASize. -/
def overridable : List Key := [.acceptEnv, .agentForwarding, .allowGroups, .streamForwarding, .tcpForwarding, .allowUsers,
  .authMethods, .keysCommand, .keysCommandUser, .authKeysFiles, .principalsCommand, .principalsCommandUser, .principalsFile,
  .banner, .caAlgos, .channelTimeouts, .chroot, .aliveCountMax, .aliveInterval, .denyGroups, .denyUsers, .disableForwarding,
  .exposeAuthInfo, .forceCommand, .gatewayPorts, .hostbasedAlgos, .hostbasedAuth, .hostbasedFromPacket, .ignoreRhosts,
  .qosInteractive, .qosBulk, .kbdintAuth, .logLevel, .logVerbose, .maxAuthTries, .maxSessions, .pamService, .passwordAuth,
  .emptyPasswd, .permitListen, .permitOpen, .permitRoot, .permitTty, .permitTun, .permitUserRc, .pubkeyAlgos, .pubkeyAuth,
  .pubkeyOptions, .refuseConnection, .rekeyLimit, .rekeyInterval, .requiredRSASize, .revokedKeys, .setEnv, .bindMask,
  .bindUnlink, .trustedCAs, .unusedTimeout, .x11Offset, .x11Forwarding, .x11Localhost]

/-- What is said: in the blocks that apply, if it may be said there, else outside of them. -/
def inForce (k : Key) (m g : Option α) : Option α := if k ∈ overridable then m.or g else g

/-- The texts for which "none" means that there is none. -/
def noneKeys : List Key := [.pidFile, .xauthLocation, .banner, .trustedCAs, .revokedKeys, .skProvider, .principalsFile, .forceCommand,
  .chroot, .routingDomain, .hostKeyAgent, .penaltyExempt]

/-- With "none" as nothing. -/
def notNone (v : Option Bytes) : Option Bytes := v.filter fun x => !same x b!"none"

/-- A list with one word that means that there is none. -/
def notList (k : Key) (l : List Bytes) : List Bytes :=
  if k = .channelTimeouts ∧ l.length = 1 ∧ l.all (same · b!"none") then []
  else if k = .authMethods ∧ l.length = 1 ∧ l.all (same · b!"any") then []
  else l

/-! ### Files without Include -/

/-- A line that is neither Match nor Include. -/
def Plain (line : Bytes) : Prop :=
  rawLine line = .blank ∨ ∃ kw str, rawLine line = .line kw str ∧ kw ≠ b!"match" ∧ kw ≠ b!"include"

/-- What such a line says. -/
def said (E : Env) (line : Bytes) : List Setting :=
  match rawLine line with
  | .line kw str => ((Misc.Argv.argvSplit str true).bind fun args => (kindOf kw).bind fun k => settings E k.1 str args).getD []
  | _ => []

/-- A Match line and what follows it. -/
structure Block where
  line : Bytes
  body : List Bytes

/-- Whether a Match line applies. -/
def applies (E : Env) (W : World) (ci : Option Conn) (line : Bytes) : Bool :=
  match rawLine line with
  | .line _ str => (((Misc.Argv.argvSplit str true).bind (matchLine E W ci)).map Prod.fst).getD false
  | _ => false

/-- What the parameters never give. -/
structure Sane (E : Env) : Prop where
  level : ∀ a v, E.level a = some v → v ≠ -1
  facility : ∀ a v, E.facility a = some v → v ≠ -1
  scaled : ∀ a v, E.scaled a = some v → v ≠ -1
  ipqos : ∀ a v, E.ipqos a = some v → v ≠ -1
  digest : ∀ a v, E.digest a = some v → v ≠ -1
  mask : ∀ a v, E.mask a = some v → v ≠ -1

/-! ### Criteria -/

/-- A condition on a Match line. -/
inductive Cond where
  | all
  | invalidUser
  | crit (c : Crit) (arg : Bytes)
  deriving DecidableEq, Repr

def Crit.name : Crit → Bytes
  | .user => b!"user"
  | .group => b!"group"
  | .host => b!"host"
  | .address => b!"address"
  | .localAddress => b!"localaddress"
  | .localPort => b!"localport"
  | .rdomain => b!"rdomain"
  | .version => b!"version"

/-- The words of a Match line, as conditions; `name value` and `name=value` are the same. -/
inductive Conds : List Bytes → List Cond → Prop where
  | done : Conds [] []
  | all (a) : same a b!"all" → Conds [a] [.all]
  | allMark (a b r) : same a b!"all" → b.head? = some 35 → Conds (a :: b :: r) [.all]
  | allEmpty (a) : same a b!"all" → Conds [a, []] [.all]
  | mark (a r) : a.head? = some 35 → Conds (a :: r) []
  | invalidUser (a r cs) : same a b!"invalid-user" → Conds r cs → .all ∉ cs → Conds (a :: r) (.invalidUser :: cs)
  | pair (a c x r cs) : same a (Crit.name c) → x ≠ [] → x.head? ≠ some 35 → Conds r cs → .all ∉ cs →
      Conds (a :: x :: r) (.crit c x :: cs)
  | joined (a n c x r cs) : a = n ++ 61 :: x → same n (Crit.name c) → x ≠ [] → x.head? ≠ some 35 → Conds r cs → .all ∉ cs →
      Conds (a :: r) (.crit c x :: cs)

/-- Whether a condition holds of a connection.  Without a connection, only "all" and the version may hold. -/
def Holds (E : Env) (W : World) (ci : Option Conn) : Cond → Prop
  | .all => True
  | .invalidUser => ∃ c, ci = some c ∧ c.userInvalid
  | .crit .user a => ∃ c u, ci = some c ∧ c.user = some u ∧ matchUsergroup u a = 1
  | .crit .group a => ∃ c u g, ci = some c ∧ c.user = some u ∧ W.groups u = some g ∧ g ≠ [] ∧ Access.gaMatchPatternList g a
  | .crit .host a => ∃ c h, ci = some c ∧ c.host = some h ∧ matchHostname h a = 1
  | .crit .address a => ∃ c x, ci = some c ∧ c.address = some x ∧ Addr.matchList E.pton (some x) a = 1
  | .crit .localAddress a => ∃ c x, ci = some c ∧ c.laddress = some x ∧ Addr.matchList E.pton (some x) a = 1
  | .crit .localPort a => ∃ c, ci = some c ∧ c.lport = Permit.a2port E.serv a ∧ c.lport ≠ -1 ∧ c.lport ≠ 0
  | .crit .rdomain a => ∃ c d, ci = some c ∧ c.rdomain = some d ∧ matchPatternList d a false = 1
  | .crit .version a => matchPatternList W.release a false = 1

end Verif.SrvConf
