/-
The server's configuration (servconf.c): the first reading, and the second one for a connection.

Checks of argument syntax that do not matter to what is claimed here are parameters, and so are the defaults.
A line that is refused only makes the reader give up at the end of the file (servconf.c:3041-3043); here it does so at
once.  Built for Linux with PAM, zlib and lastlog, without Kerberos and GSSAPI.  Lists of algorithms are kept as
written (`assemble_algorithms` is left out).
-/
import Verif.Conf.Model
import Verif.Access.Model

namespace Verif.SrvConf
open Verif Match
open _root_.Verif.Conf (lower same multistate arg1 intValue algoOk noneAlone envNames isWs stripTail Raw)

/-- The options (servconf.h:75-258) -/
inductive Key where
  | usePam | pamService | ports | hostKeys | hostKeyAgent | hostCerts | pidFile | moduliFile | loginGrace | permitRoot
  | logFacility | logLevel | logVerbose | hostbasedAuth | hostbasedFromPacket | hostbasedAlgos | hostKeyAlgos | pubkeyAuth
  | pubkeyAlgos | pubkeyOptions | passwordAuth | kbdintAuth | listenAddrs | addressFamily | printMotd | printLastlog
  | ignoreRhosts | ignoreKnownHosts | x11Forwarding | x11Offset | x11Localhost | xauthLocation | strictModes | emptyPasswd
  | userEnv | userEnvList | compression | rekeyLimit | rekeyInterval | tcpKeepAlive | tcpForwarding | agentForwarding
  | allowUsers | denyUsers | allowGroups | denyGroups | ciphers | macs | gatewayPorts | startupsBegin | startupsRate
  | startupsMax | sourceMax | sourceMask4 | sourceMask6 | penaltyOn | penaltyCrash | penaltyAuthfail | penaltyNoauth
  | penaltyGrace | penaltyRefuse | penaltyMax | penaltyMin | maxSources4 | maxSources6 | overflow | overflow6 | penaltyExempt
  | maxAuthTries | maxSessions | banner | useDns | aliveInterval | aliveCountMax | authKeysFiles | acceptEnv | setEnv
  | permitTun | permitTty | permitUserRc | permitOpen | permitListen | forceCommand | chroot | revokedKeys | trustedCAs
  | principalsFile | kexAlgos | qosInteractive | qosBulk | keysCommand | keysCommandUser | principalsCommand
  | principalsCommandUser | versionAddendum | authMethods | bindMask | bindUnlink | streamForwarding | fingerprintHash
  | disableForwarding | exposeAuthInfo | routingDomain | caAlgos | skProvider | requiredRSASize | channelTimeouts
  | unusedTimeout | sessionPath | authPath | refuseConnection
  deriving DecidableEq, Repr

/-- A subsystem: its name, command, and command with arguments. -/
structure Sub where
  name : Bytes
  command : Bytes
  args : Bytes
  deriving DecidableEq, Repr

/-- `ServerOptions`: -1, NULL and the empty list are "not set" (servconf.c:89-220 `initialize_server_options`). -/
structure Opts where
  int : Key → Int := fun _ => -1
  str : Key → Option Bytes := fun _ => none
  list : Key → List Bytes := fun _ => []
  subs : List Sub := []

/-- What a line wants to set. -/
inductive Setting where
  | int (k : Key) (v : Int)
  | str (k : Key) (v : Bytes)
  /-- a list, at once -/
  | list (k : Key) (l : List Bytes)
  /-- more for a list, which has room for `max` -/
  | add (k : Key) (l : List Bytes) (max : Option Nat)
  /-- a number that is set though it has been set before -/
  | last (k : Key) (v : Int)
  | userEnv (v : Int) (p : Option Bytes)
  /-- one of the numbers of PerSourcePenalties; it turns them on -/
  | penalty (k : Key) (v : Int)
  | subsystem (name : Bytes) (cmd : List Bytes)
  deriving DecidableEq, Repr

def upd (f : Key → α) (k : Key) (v : α) : Key → α := fun x => if x = k then v else f x

/-- servconf.c:1995-2043: a subsystem; `none`: the command is missing -/
def addSub (name : Bytes) (cmd : List Bytes) (l : List Sub) : Option (List Sub) :=
  if l.any fun x => x.name = name then some l
  else match cmd with
    | [] => none
    | c :: r => if c = [] then none else
      some (l ++ [⟨name, c, Misc.Argv.argvAssemble [c] ++ (if Misc.Argv.argvAssemble r = [] then [] else 32 :: Misc.Argv.argvAssemble r)⟩])

/-- Set it, if the block is active: servconf.c:1431, 1495, 1526-1531, 1711-1714 and others, 1833-1838 and others (lists at once),
1862-1863 (more for a list), 2167-2171 (penalties).  `none`: fatal. -/
def apply (active : Bool) (s : Setting) (o : Opts) : Option Opts :=
  match s with
  | .int k v => some (if active && decide (o.int k = -1) then { o with int := upd o.int k v } else o)
  | .str k v => some (if active && decide (o.str k = none) then { o with str := upd o.str k (some v) } else o)
  | .list k l => some (if active && decide (o.list k = []) then { o with list := upd o.list k l } else o)
  | .add k l max =>
    if active then
      if (max.map fun m => decide (m ≤ (o.list k).length)) = some true then none
      else some { o with list := upd o.list k (o.list k ++ l) }
    else some o
  | .last k v => some (if active then { o with int := upd o.int k v } else o)
  | .userEnv v p =>
    some (if active && decide (o.int .userEnv = -1) then { o with int := upd o.int .userEnv v, str := upd o.str .userEnvList p } else o)
  | .penalty k v =>
    some (if active && decide (o.int k = -1) then { o with int := upd (upd o.int k v) .penaltyOn 1 } else o)
  | .subsystem n c => if active then (addSub n c o.subs).map fun l => { o with subs := l } else some o

def applyAll (active : Bool) (l : List Setting) (o : Opts) : Option Opts := l.foldlM (fun o s => apply active s o) o

/-! ### Values -/

/-- Checks and conversions not modelled. -/
structure Env where
  serv : Bytes → Option Nat
  pton : Bytes → Option Addr.XAddr
  ciphersValid : Bytes → Bool
  macValid : Bytes → Bool
  kexValid : Bytes → Bool
  keysValid : Bool → Bytes → Bool
  scaled : Bytes → Option Int
  level : Option Bytes → Option Int
  facility : Option Bytes → Option Int
  digest : Bytes → Option Int
  ipqos : Bytes → Option Int
  interval : Bytes → Bool
  mask : Bytes → Option Int
  /-- auth2_methods_valid -/
  methods : Bytes → Bool
  /-- derelativise_path of a path other than "none", and tilde_expand_filename -/
  path : Bytes → Bytes
  tilde : Bytes → Bytes
  /-- the arguments of ListenAddress -/
  listen : List Bytes → Option Bytes
  /-- sscanf "%d:%d:%d" -/
  triple : Bytes → List Int
  /-- what happens to be in a variable that was not set -/
  junk : Int

def flagTable : List (Bytes × Int) := [(b!"yes", 1), (b!"no", 0)]
def rhostsTable : List (Bytes × Int) := [(b!"yes", 1), (b!"no", 0), (b!"shosts-only", 2)]
def familyTable : List (Bytes × Int) := [(b!"inet", 2), (b!"inet6", 10), (b!"any", 0)]
def rootTable : List (Bytes × Int) :=
  [(b!"without-password", 2), (b!"prohibit-password", 2), (b!"forced-commands-only", 1), (b!"yes", 3), (b!"no", 0)]
def compressionTable : List (Bytes × Int) := [(b!"yes", 2), (b!"delayed", 2), (b!"no", 0)]
def gatewayTable : List (Bytes × Int) := [(b!"clientspecified", 2), (b!"yes", 1), (b!"no", 0)]
def forwardTable : List (Bytes × Int) := [(b!"yes", 3), (b!"all", 3), (b!"no", 0), (b!"remote", 1), (b!"local", 2)]
/-- servconf.c:762-771; compared with strcmp -/
def tunTable : List (Bytes × Int) := [(b!"no", 0), (b!"point-to-point", 1), (b!"ethernet", 2), (b!"yes", 3)]

def timeValue (a : Bytes) : Option Int := if Misc.Time.convtime a = -1 then none else some (Misc.Time.convtime a)

/-- servconf.c:803-818 `derelativise_path` -/
def pathOf (E : Env) (a : Bytes) : Bytes := if same a b!"none" then b!"none" else E.path a

/-- servconf.c:1604-1620: PubkeyAuthOptions -/
def pubkeyOptions : List Bytes → Option Nat
  | [] => some 0
  | a :: r =>
    if same a b!"none" then pubkeyOptions r
    else if same a b!"touch-required" then (pubkeyOptions r).map fun v => v ||| 1
    else if same a b!"verify-required" then (pubkeyOptions r).map fun v => v ||| 4
    else none

/-- servconf.c:2408-2447: an entry of PermitOpen or PermitListen, as it is stored -/
def permitItem (E : Env) (listen : Bool) (a : Bytes) : Option Bytes :=
  if listen && !a.contains 58 then if Permit.permitopenPort E.serv a < 0 then none else some (b!"*:" ++ a)
  else match Permit.hpdelim a with
    | some (_, some (_, p)) => if Permit.permitopenPort E.serv p < 0 then none else some a
    | _ => none

/-- servconf.c:2397-2450: "any" and "none" come first -/
def permitItems (E : Env) (listen : Bool) : Bool → List Bytes → Option (List Bytes)
  | _, [] => some []
  | start, a :: r =>
    if a = b!"any" ∨ a = b!"none" then if start then (permitItems E listen false r).map (a :: ·) else none
    else (permitItem E listen a).bind fun x => (permitItems E listen false r).map (x :: ·)

/-- servconf.c:2572-2601: AuthenticationMethods; "any" stands alone -/
def methodItems (E : Env) (l : List Bytes) : Option (List Bytes) :=
  if l = [] then none
  else if l = [b!"any"] then some l
  else if l.all fun a => a ≠ b!"any" && E.methods a then some l
  else none

/-- servconf.c:2096-2176: one argument of PerSourcePenalties; `more`: others follow -/
def penaltyItem (more : Bool) (a : Bytes) : Option Setting :=
  if same a b!"no" ∨ same a b!"yes" then if more then none else some (.int .penaltyOn (if same a b!"yes" then 1 else 0))
  else if a.take 6 = b!"crash:" then (timeValue (a.drop 6)).map (.penalty .penaltyCrash)
  else if a.take 9 = b!"authfail:" then (timeValue (a.drop 9)).map (.penalty .penaltyAuthfail)
  else if a.take 7 = b!"noauth:" then (timeValue (a.drop 7)).map (.penalty .penaltyNoauth)
  else if a.take 15 = b!"grace-exceeded:" then (timeValue (a.drop 15)).map (.penalty .penaltyGrace)
  else if a.take 17 = b!"refuseconnection:" then (timeValue (a.drop 17)).map (.penalty .penaltyRefuse)
  else if a.take 4 = b!"max:" then (timeValue (a.drop 4)).map (.penalty .penaltyMax)
  else if a.take 4 = b!"min:" then (timeValue (a.drop 4)).map (.penalty .penaltyMin)
  else if a.take 13 = b!"max-sources4:" then (intValue (a.drop 13)).map (.penalty .maxSources4)
  else if a.take 13 = b!"max-sources6:" then (intValue (a.drop 13)).map (.penalty .maxSources6)
  else if a = b!"overflow:deny-all" then some (.penalty .overflow 1)
  else if a = b!"overflow:permissive" then some (.penalty .overflow 2)
  else if a = b!"overflow6:deny-all" then some (.penalty .overflow6 1)
  else if a = b!"overflow6:permissive" then some (.penalty .overflow6 2)
  else none

def penaltyItems : List Bytes → Option (List Setting)
  | [] => some []
  | a :: r => (penaltyItem (!r.isEmpty) a).bind fun x => (penaltyItems r).map (x :: ·)

/-- servconf.c:2045-2069: MaxStartups -/
def startupsValue (l : List Int) : Option (List Setting) :=
  match l with
  | [b, r, m] =>
    if m < b ∨ 100 < r ∨ r < 1 ∨ m ≤ 0 ∨ b ≤ 0 then none else some [.last .startupsBegin b, .last .startupsRate r, .last .startupsMax m]
  | [b] => if b ≤ 0 then none else some [.last .startupsBegin b, .last .startupsMax b]
  | _ => none

/-- servconf.c:2071-2094: PerSourceNetBlockSize.  Without a second number, the second variable is whatever it is. -/
def netblockValue (junk : Int) (l : List Int) : Option (List Setting) :=
  match l with
  | [a] => if a < 0 ∨ 32 < a then none else some [.last .sourceMask4 a, .last .sourceMask6 junk]
  | a :: b :: _ => if a < 0 ∨ 32 < a ∨ b < 0 ∨ 128 < b then none else some [.last .sourceMask4 a, .last .sourceMask6 b]
  | [] => none

/-! ### Keywords -/

/-- How the arguments of a keyword are read. -/
inductive Kind where
  | ignore
  | multi (k : Key) (t : List (Bytes × Int))
  | time (k : Key)
  | int (k : Key)
  | file (k : Key)
  | word (k : Key)
  | algos (k : Key) (check : Env → Bytes → Bool)
  | words (k : Key) (f : Env → List Bytes → Option (List Bytes))
  | adds (k : Key) (check : Env → Bytes → Bool)
  | addFile (k : Key)
  | command (k : Key)
  | absCommand (k : Key)
  | port | listen | hostKeyAgent | pubkeyOptions | userEnv | rekey | logFacility | logLevel | subsystem | maxStartups | netblock
  | sourceMax | exempt | penalties | principalsFile | tunnel | skProvider | ipqos | versionAddendum | mask | fingerprint
  | rdomain | unusedTimeout
  | match_ | incl

def flag (k : Key) : Kind := .multi k flagTable

def nonEmpty (_ : Env) (l : List Bytes) : Option (List Bytes) := if l ≠ [] && l.all (· ≠ []) then some l else none

/-- servconf.c:1809-1840, 2648-2678: lists in which "none" stands alone -/
def verboseItems (_ : Env) (l : List Bytes) : Option (List Bytes) := if l ≠ [] && l.all (· ≠ []) && noneAlone l then some l else none
def timeoutItems (E : Env) (l : List Bytes) : Option (List Bytes) :=
  if l ≠ [] && noneAlone l && l.all fun a => same a b!"none" || E.interval a then some l else none

/-- servconf.c:2248-2275 -/
def setEnvItems (_ : Env) (l : List Bytes) : Option (List Bytes) :=
  if l ≠ [] && l.all fun a => a ≠ [] && a.contains 61 then some (envNames [] l) else none

def keysFileItems (E : Env) (l : List Bytes) : Option (List Bytes) := (nonEmpty E l).map fun l => l.map E.tilde

def permitWords (listen : Bool) (E : Env) (l : List Bytes) : Option (List Bytes) :=
  if l = [] then none else permitItems E listen true l

def userPattern (E : Env) (a : Bytes) : Bool := a ≠ [] && matchUser none none none a (fun x => Addr.matchList E.pton x) ≠ -1

/-- servconf.c:595-760 `keywords`, with the `case` of each (1389-2711) and whether it may stand in a Match block. -/
def keywords : List (Bytes × Kind × Bool) := [
  (b!"usepam", flag .usePam, false), (b!"pamservicename", .word .pamService, true),
  (b!"pamauthenticationviakbdint", .ignore, false), (b!"port", .port, false), (b!"hostkey", .addFile .hostKeys, false),
  (b!"hostdsakey", .addFile .hostKeys, false), (b!"hostkeyagent", .hostKeyAgent, false), (b!"pidfile", .file .pidFile, false),
  (b!"modulifile", .file .moduliFile, false), (b!"serverkeybits", .ignore, false), (b!"logingracetime", .time .loginGrace, false),
  (b!"keyregenerationinterval", .ignore, false), (b!"permitrootlogin", .multi .permitRoot rootTable, true),
  (b!"syslogfacility", .logFacility, false), (b!"loglevel", .logLevel, true), (b!"logverbose", .words .logVerbose verboseItems, true),
  (b!"rhostsauthentication", .ignore, false), (b!"rhostsrsaauthentication", .ignore, true),
  (b!"hostbasedauthentication", flag .hostbasedAuth, true), (b!"hostbasedusesnamefrompacketonly", flag .hostbasedFromPacket, true),
  (b!"hostbasedacceptedalgorithms", .algos .hostbasedAlgos fun E => E.keysValid false, true),
  (b!"hostbasedacceptedkeytypes", .algos .hostbasedAlgos fun E => E.keysValid false, true),
  (b!"hostkeyalgorithms", .algos .hostKeyAlgos fun E => E.keysValid false, false), (b!"rsaauthentication", .ignore, true),
  (b!"pubkeyauthentication", flag .pubkeyAuth, true),
  (b!"pubkeyacceptedalgorithms", .algos .pubkeyAlgos fun E => E.keysValid false, true),
  (b!"pubkeyacceptedkeytypes", .algos .pubkeyAlgos fun E => E.keysValid false, true),
  (b!"pubkeyauthoptions", .pubkeyOptions, true), (b!"dsaauthentication", flag .pubkeyAuth, false),
  (b!"kerberosauthentication", .ignore, true), (b!"kerberosorlocalpasswd", .ignore, false),
  (b!"kerberosticketcleanup", .ignore, false), (b!"kerberosgetafstoken", .ignore, false), (b!"kerberostgtpassing", .ignore, false),
  (b!"afstokenpassing", .ignore, false), (b!"gssapiauthentication", .ignore, true), (b!"gssapicleanupcredentials", .ignore, false),
  (b!"gssapistrictacceptorcheck", .ignore, false), (b!"passwordauthentication", flag .passwordAuth, true),
  (b!"kbdinteractiveauthentication", flag .kbdintAuth, true), (b!"challengeresponseauthentication", flag .kbdintAuth, true),
  (b!"skeyauthentication", flag .kbdintAuth, true), (b!"checkmail", .ignore, false), (b!"listenaddress", .listen, false),
  (b!"addressfamily", .multi .addressFamily familyTable, false), (b!"printmotd", flag .printMotd, false),
  (b!"printlastlog", flag .printLastlog, false), (b!"ignorerhosts", .multi .ignoreRhosts rhostsTable, true),
  (b!"ignoreuserknownhosts", flag .ignoreKnownHosts, false), (b!"x11forwarding", flag .x11Forwarding, true),
  (b!"x11displayoffset", .int .x11Offset, true), (b!"x11uselocalhost", flag .x11Localhost, true),
  (b!"xauthlocation", .file .xauthLocation, false), (b!"strictmodes", flag .strictModes, false),
  (b!"permitemptypasswords", flag .emptyPasswd, true), (b!"permituserenvironment", .userEnv, false), (b!"uselogin", .ignore, false),
  (b!"compression", .multi .compression compressionTable, false), (b!"rekeylimit", .rekey, true),
  (b!"tcpkeepalive", flag .tcpKeepAlive, false), (b!"keepalive", flag .tcpKeepAlive, false),
  (b!"allowtcpforwarding", .multi .tcpForwarding forwardTable, true), (b!"allowagentforwarding", flag .agentForwarding, true),
  (b!"allowusers", .adds .allowUsers userPattern, true), (b!"denyusers", .adds .denyUsers userPattern, true),
  (b!"allowgroups", .adds .allowGroups fun _ a => a ≠ [], true), (b!"denygroups", .adds .denyGroups fun _ a => a ≠ [], true),
  (b!"ciphers", .algos .ciphers Env.ciphersValid, false), (b!"macs", .algos .macs Env.macValid, false), (b!"protocol", .ignore, false),
  (b!"gatewayports", .multi .gatewayPorts gatewayTable, true), (b!"subsystem", .subsystem, true),
  (b!"maxstartups", .maxStartups, false), (b!"persourcemaxstartups", .sourceMax, false),
  (b!"persourcenetblocksize", .netblock, false), (b!"persourcepenalties", .penalties, false),
  (b!"persourcepenaltyexemptlist", .exempt, false), (b!"maxauthtries", .int .maxAuthTries, true),
  (b!"maxsessions", .int .maxSessions, true), (b!"banner", .file .banner, true), (b!"usedns", flag .useDns, false),
  (b!"verifyreversemapping", .ignore, false), (b!"reversemappingcheck", .ignore, false),
  (b!"clientaliveinterval", .time .aliveInterval, true), (b!"clientalivecountmax", .int .aliveCountMax, true),
  (b!"authorizedkeysfile", .words .authKeysFiles keysFileItems, true), (b!"authorizedkeysfile2", .ignore, true),
  (b!"useprivilegeseparation", .ignore, false), (b!"acceptenv", .adds .acceptEnv fun _ a => a ≠ [] && !a.contains 61, true),
  (b!"setenv", .words .setEnv setEnvItems, true), (b!"permittunnel", .tunnel, true), (b!"permittty", flag .permitTty, true),
  (b!"permituserrc", flag .permitUserRc, true), (b!"match", .match_, true), (b!"permitopen", .words .permitOpen (permitWords false), true),
  (b!"permitlisten", .words .permitListen (permitWords true), true), (b!"forcecommand", .command .forceCommand, true),
  (b!"chrootdirectory", .word .chroot, true), (b!"hostcertificate", .addFile .hostCerts, false),
  (b!"revokedkeys", .file .revokedKeys, true), (b!"trustedusercakeys", .file .trustedCAs, true),
  (b!"authorizedprincipalsfile", .principalsFile, true), (b!"kexalgorithms", .algos .kexAlgos Env.kexValid, false),
  (b!"include", .incl, true), (b!"ipqos", .ipqos, true), (b!"authorizedkeyscommand", .absCommand .keysCommand, true),
  (b!"authorizedkeyscommanduser", .word .keysCommandUser, true),
  (b!"authorizedprincipalscommand", .absCommand .principalsCommand, true),
  (b!"authorizedprincipalscommanduser", .word .principalsCommandUser, true), (b!"versionaddendum", .versionAddendum, false),
  (b!"authenticationmethods", .words .authMethods methodItems, true), (b!"streamlocalbindmask", .mask, true),
  (b!"streamlocalbindunlink", flag .bindUnlink, true), (b!"allowstreamlocalforwarding", .multi .streamForwarding forwardTable, true),
  (b!"fingerprinthash", .fingerprint, false), (b!"disableforwarding", flag .disableForwarding, true),
  (b!"exposeauthinfo", flag .exposeAuthInfo, true), (b!"rdomain", .rdomain, true),
  (b!"casignaturealgorithms", .algos .caAlgos fun E => E.keysValid true, true), (b!"securitykeyprovider", .skProvider, false),
  (b!"requiredrsasize", .int .requiredRSASize, true), (b!"channeltimeout", .words .channelTimeouts timeoutItems, true),
  (b!"unusedconnectiontimeout", .unusedTimeout, true), (b!"sshdsessionpath", .file .sessionPath, false),
  (b!"sshdauthpath", .file .authPath, false), (b!"refuseconnection", flag .refuseConnection, true)]

/-- servconf.c:786-801 `parse_token` -/
def kindOf (kw : Bytes) : Option (Kind × Bool) := (keywords.find? fun x => x.1 = kw).map (·.2)

/-- servconf.c:1388-2711: what a line sets.  `str` is what follows the keyword, `args` its words. -/
def settings (E : Env) (k : Kind) (str : Bytes) (args : List Bytes) : Option (List Setting) :=
  match k with
  | .ignore => some []
  | .multi k t => (arg1 args).bind fun (a, r) => (multistate t a).bind fun v => cut [.int k v] r
  | .time k => (arg1 args).bind fun (a, r) => (timeValue a).bind fun v => cut [.int k v] r
  | .int k => (arg1 args).bind fun (a, r) => (intValue a).bind fun v => cut [.int k v] r
  | .file k => (arg1 args).bind fun (a, r) => cut [.str k (pathOf E a)] r
  | .word k => (arg1 args).bind fun (a, r) => cut [.str k a] r
  | .algos k check => (arg1 args).bind fun (a, r) => if algoOk (check E) a then cut [.str k a] r else none
  | .words k f => (f E args).map fun l => [.list k l]
  | .adds k check => if args ≠ [] && args.all (check E) then some [.add k args none] else none
  | .addFile k => (arg1 args).bind fun (a, r) => cut [.add k [pathOf E a] none] r
  | .command k => some [.str k (str.dropWhile isWs)]
  | .absCommand k =>
    if (str.dropWhile isWs).head? = some 47 ∨ same (str.dropWhile isWs) b!"none" then some [.str k (str.dropWhile isWs)] else none
  | .port => (arg1 args).bind fun (a, r) => if 0 < Permit.a2port E.serv a then cut [.add .ports [a] (some 256)] r else none
  | .listen => (E.listen args).map fun a => [.add .listenAddrs [a] none]
  | .hostKeyAgent =>
    (arg1 args).bind fun (a, r) => cut [.str .hostKeyAgent (if a = b!"SSH_AUTH_SOCK" then a else pathOf E a)] r
  | .pubkeyOptions => (pubkeyOptions args).map fun v => [.int .pubkeyOptions (Int.ofNat v)]
  | .userEnv =>
    (arg1 args).bind fun (a, r) =>
      cut [.userEnv (if a = b!"no" then 0 else 1) (if a = b!"yes" ∨ a = b!"no" then none else some a)] r
  | .rekey =>
    (arg1 args).bind fun (a, r) =>
      (if a = b!"default" then some 0 else (E.scaled a).bind fun v => if v ≠ 0 ∧ v < 16 then none else some v).bind fun v =>
        match r with
        | [] => some [.int .rekeyLimit v]
        | b :: r' =>
          if b = b!"none" then cut [.int .rekeyLimit v] r'
          else if b = [] then none
          else (timeValue b).bind fun t => cut [.int .rekeyLimit v, .int .rekeyInterval t] r'
  | .logFacility => (E.facility args.head?).bind fun v => cut [.int .logFacility v] (args.drop 1)
  | .logLevel => (E.level args.head?).bind fun v => cut [.int .logLevel v] (args.drop 1)
  | .subsystem => (arg1 args).map fun (a, r) => [.subsystem a r]
  | .maxStartups => (arg1 args).bind fun (a, r) => (startupsValue (E.triple a)).bind fun l => cut l r
  | .netblock => (arg1 args).bind fun (a, r) => (netblockValue E.junk (E.triple a)).bind fun l => cut l r
  | .sourceMax =>
    (arg1 args).bind fun (a, r) => (if a = b!"none" then some 2147483647 else intValue a).bind fun v => cut [.int .sourceMax v] r
  | .exempt =>
    (arg1 args).bind fun (a, r) => if Addr.matchList E.pton none a ≠ 0 then none else cut [.str .penaltyExempt a] r
  | .penalties => if args = [] then none else penaltyItems args
  | .principalsFile => (arg1 args).bind fun (a, r) => cut [.str .principalsFile (E.tilde a)] r
  | .tunnel => (arg1 args).bind fun (a, r) => (tunTable.find? fun x => x.1 = a).bind fun v => cut [.int .permitTun v.2] r
  | .skProvider => (arg1 args).bind fun (a, r) => cut [.str .skProvider (if same a b!"internal" then a else pathOf E a)] r
  | .ipqos =>
    (arg1 args).bind fun (a, r) => (E.ipqos a).bind fun v =>
      match r with
      | [] => some [.last .qosInteractive v, .last .qosBulk v]
      | b :: r' => (E.ipqos b).bind fun w => cut [.last .qosInteractive v, .last .qosBulk w] r'
  | .versionAddendum =>
    if (str.dropWhile isWs).contains 13 then none
    else some [.str .versionAddendum (if same (str.dropWhile isWs) b!"none" then [] else str.dropWhile isWs)]
  | .mask => (arg1 args).bind fun (a, r) => (E.mask a).bind fun v => cut [.last .bindMask v] r
  | .fingerprint => (arg1 args).bind fun (a, r) => (E.digest a).bind fun v => cut [.last .fingerprintHash v] r
  | .rdomain => none
  | .unusedTimeout =>
    match args with
    | [] => none
    | a :: r =>
      if same a b!"none" then cut [.last .unusedTimeout 0] r
      else if a = [] then none
      else (timeValue a).bind fun v => cut [.int .unusedTimeout v] r
  | .match_ => none
  | .incl => none
where
  /-- servconf.c:2712-2717: nothing is left over -/
  cut (s : List Setting) : List Bytes → Option (List Setting)
    | [] => some s
    | _ => none

/-! ### Lines -/

/-- servconf.c:1347-1361: after the keyword has been found -/
def rawKeyword (w : Bytes) (rest : Option Bytes) : Raw :=
  if w = [] ∨ w.head? = some 35 then .blank
  else match rest with
    | none => .bad
    | some r => if r = [] then .bad else .line (lower w) r

/-- servconf.c:1340-1361 -/
def rawLine (line : Bytes) : Raw :=
  if line = [] then .blank
  else match Misc.Delim.strdelim true (stripTail line) with
    | none => .blank
    | some (w, rest) =>
      if w = [] then match rest with
        | none => .blank
        | some r => match Misc.Delim.strdelim true r with
          | none => .blank
          | some (w2, rest2) => rawKeyword w2 rest2
      else rawKeyword w rest

/-- getline(3): lines with their newline -/
def rawLines : Bytes → List Bytes
  | [] => []
  | c :: s => if c = 10 then [10] :: rawLines s else
    match rawLines s with
    | [] => [[c]]
    | l :: r => (c :: l) :: r

/-- servconf.c:2796-2801: blanks in front are dropped, and what follows a NUL -/
def trimLine (l : Bytes) : Bytes := (l.dropWhile fun c => c == 32 || c == 9 || c == 13).takeWhile (· ≠ 0)

/-- servconf.c:2776-2810 `load_server_config`, and the lines of the result (3034) -/
def loadConfig (raw : Bytes) : List Bytes := Text.split 10 ((rawLines raw).map trimLine).flatten

/-! ### Match -/

/-- `struct connection_info`, servconf.h:260-270 -/
structure Conn where
  user : Option Bytes := none
  host : Option Bytes := none
  address : Option Bytes := none
  laddress : Option Bytes := none
  lport : Int := -1
  rdomain : Option Bytes := none
  userInvalid : Bool := false
  test : Bool := false

/-- What else a configuration is read for. -/
structure World where
  release : Bytes
  /-- getpwnam and ga_init: the names of a user's groups -/
  groups : Bytes → Option (List Bytes)
  /-- the contents of the files an Include stands for; `none`: glob fails or a file cannot be read -/
  glob : Bytes → Option (List Bytes)

inductive Crit where
  | user | group | host | address | localAddress | localPort | rdomain | version
  deriving DecidableEq, Repr

def critNames : List (Bytes × Crit) := [(b!"user", .user), (b!"group", .group), (b!"host", .host), (b!"address", .address),
  (b!"localaddress", .localAddress), (b!"localport", .localPort), (b!"rdomain", .rdomain), (b!"version", .version)]

/-- servconf.c:1094-1105: `name=argument` -/
def eqForm (a : Bytes) : Option (Bytes × Bytes) :=
  if (a.dropWhile (· ≠ 61)) = [] then none
  else if (critNames.any fun x => same (a.takeWhile (· ≠ 61)) x.1) then
    some (a.takeWhile (· ≠ 61), (a.dropWhile (· ≠ 61)).drop 1)
  else none

/-- servconf.c:1106-1118, 1239-1242: a criterion, its argument, and what follows -/
def takeCrit (a : Bytes) (r : List Bytes) : Option (Crit × Bytes × List Bytes) :=
  match eqForm a with
  | some (name, arg) => critOf name arg r
  | none => match r with
    | [] => none
    | arg :: r' => critOf a arg r'
where
  critOf (name arg : Bytes) (r : List Bytes) : Option (Crit × Bytes × List Bytes) :=
    if arg = [] ∨ arg.head? = some 35 then none
    else (critNames.find? fun x => same name x.1).map fun x => (x.2, arg, r)

/-- servconf.c:1119-1122 and others: a text of the connection.  `some none`: the criterion fails, as it is not known;
`none`: fatal. -/
def known (ci : Option Conn) (f : Conn → Option Bytes) : Option (Option Bytes) :=
  match ci with
  | none => some none
  | some c => match f c with
    | some x => some (some x)
    | none => if c.test then some none else none

/-- servconf.c:996-1022 `match_cfg_line_group` -/
def inGroup (W : World) (user pats : Bytes) : Bool :=
  match W.groups user with
  | none => false
  | some g => if g = [] then false else Access.gaMatchPatternList g pats

/-- servconf.c:1149-1172, 1173-1198: an address -/
def addrHolds (E : Env) (known : Option (Option Bytes)) (a : Bytes) : Option Bool :=
  match known with
  | none => none
  | some none => if Addr.matchList E.pton none a ≠ 0 then none else some false
  | some (some x) => if Addr.matchList E.pton (some x) a = -2 then none else some (decide (Addr.matchList E.pton (some x) a = 1))

/-- servconf.c:1119-1238: whether a criterion holds; `none`: the line is refused, or fatal -/
def critHolds (E : Env) (W : World) (ci : Option Conn) (c : Crit) (a : Bytes) : Option Bool :=
  match c with
  | .user => (known ci Conn.user).map fun x => x.any fun u => decide (matchUsergroup u a = 1)
  | .group => (known ci Conn.user).map fun x => x.any fun u => inGroup W u a
  | .host => (known ci Conn.host).map fun x => x.any fun h => decide (matchHostname h a = 1)
  | .address => addrHolds E (known ci Conn.address) a
  | .localAddress => addrHolds E (known ci Conn.laddress) a
  | .localPort =>
    if Permit.a2port E.serv a = -1 then none
    else match ci with
      | none => some false
      | some c =>
        if c.test && decide (c.lport = -1) then some false
        else if c.lport = 0 then none
        else some (decide (Permit.a2port E.serv a = c.lport))
  | .rdomain => (known ci Conn.rdomain).map fun x => x.any fun d => decide (matchPatternList d a false = 1)
  | .version => some (decide (matchPatternList W.release a false = 1))

/-- servconf.c:1067-1082: what follows "all" -/
def afterAll : List Bytes → Option (List Bytes)
  | [] => some []
  | b :: r => if b = [] then some r else if b.head? = some 35 then some [] else none

/-- servconf.c:1056-1250: the loop.  `n` counts the criteria, `so` is the result so far; returns the arguments left. -/
def matchLoop (E : Env) (W : World) (ci : Option Conn) : Nat → Nat → Bool → List Bytes → Option (Bool × List Bytes)
  | 0, _, _, _ => none
  | _ + 1, n, so, [] => if n = 0 then none else some (so, [])
  | fuel + 1, n, so, a :: r =>
    if a.head? = some 35 then if n = 0 then none else some (so, [])
    else if same a b!"all" then if n = 0 then (afterAll r).map fun r' => (true, r') else none
    else if same a b!"invalid-user" then matchLoop E W ci fuel (n + 1) (so && ci.any Conn.userInvalid) r
    else match takeCrit a r with
      | none => none
      | some (c, x, r') => match critHolds E W ci c x with
        | none => none
        | some b => matchLoop E W ci fuel (n + 1) (so && b) r'

/-- servconf.c:1036-1258 `match_cfg_line` -/
def matchLine (E : Env) (W : World) (ci : Option Conn) (args : List Bytes) : Option (Bool × List Bytes) :=
  matchLoop E W ci (args.length + 1) 0 true args

/-! ### Files -/

structure St where
  o : Opts := {}
  active : Bool := true

/-- `inc_flags`: nothing, SSHCFG_MATCH_ONLY, SSHCFG_NEVERMATCH -/
inductive Mode where
  | plain | matchOnly | never
  deriving DecidableEq, Repr

/-- servconf.c:2329-2331, 2367-2369: how an included file is read -/
def Mode.inner (m : Mode) (active : Bool) : Mode := if m = .matchOnly then .matchOnly else if active then .plain else .never

/-- servconf.c:2316-2376: the files of one argument -/
def includeFiles (inc : Mode → List Bytes → St → Option St) (m : Mode) (act : Bool) : List Bytes → St → Option St
  | [], s => some s
  | f :: fs, s =>
    match inc (m.inner act) (loadConfig f) s with
    | none => none
    | some t => includeFiles inc m act fs { t with active := act }

/-- servconf.c:2291-2383: an Include line.  What the files hold is remembered from the first reading (2318-2340). -/
def includeArgs (inc : Mode → List Bytes → St → Option St) (W : World) (m : Mode) : List Bytes → St → Option St
  | [], s => some s
  | a :: r, s =>
    if a = [] then none
    else match W.glob a with
      | none => none
      | some fs =>
        match includeFiles inc m s.active fs s with
        | none => none
        | some t => includeArgs inc W m r t

/-- servconf.c:2385-2399: how a Match line is read -/
def seen (m : Mode) (ci : Option Conn) : Option Conn := if m = .never then none else ci

def afterMatch (m : Mode) : Mode := if m = .matchOnly then .plain else m

/-- servconf.c:1315-2760 `process_server_config_line_depth`; `none`: fatal -/
def step (inc : Mode → List Bytes → St → Option St) (E : Env) (W : World) (ci : Option Conn) (x : St × Mode) (line : Bytes) :
    Option (St × Mode) :=
  match rawLine line with
  | .blank => some x
  | .bad => none
  | .line kw str =>
    match Misc.Argv.argvSplit str true with
    | none => none
    | some args =>
      if x.1.active = false ∧ (kindOf kw).any (·.2) = false then if ci.isNone then none else some x
      else match (kindOf kw).map Prod.fst with
        | none => none
        | some .match_ =>
          match matchLine E W (seen x.2 ci) args with
          | some (b, []) => some ({ x.1 with active := b && decide (x.2 ≠ .never) }, afterMatch x.2)
          | _ => none
        | some .incl => if args = [] then none else (includeArgs inc W x.2 args x.1).map fun s => (s, x.2)
        | some k => (settings E k str args).bind fun l => (applyAll x.1.active l x.1.o).map fun o => ({ x.1 with o := o }, x.2)

/-- servconf.c:3017-3044 `parse_server_config_depth`; there may be 17 - depth = `n` more levels -/
def readLines (E : Env) (W : World) (ci : Option Conn) : Nat → Mode → List Bytes → St → Option St
  | 0, _, _, _ => none
  | n + 1, m, lines, s => (lines.foldlM (step (readLines E W ci n) E W ci) (s, m)).map (·.1)

/-- servconf.c:3046-3056 `parse_server_config` -/
def readConfig (E : Env) (W : World) (ci : Option Conn) (raw : Bytes) (o : Opts) : Option Opts :=
  (readLines E W ci 17 (if ci.isSome then .matchOnly else .plain) (loadConfig raw) ⟨o, ci.isNone⟩).map St.o

/-- sshd.c:1443-1452: an option of the command line; servconf.c:2286, 2386: not Match or Include -/
def cmdLine (E : Env) (o : Opts) (line : Bytes) : Option Opts :=
  match rawLine line with
  | .blank => some o
  | .bad => none
  | .line kw str =>
    match Misc.Argv.argvSplit str true, (kindOf kw).map Prod.fst with
    | some args, some k => (settings E k str args).bind fun l => applyAll true l o
    | _, _ => none

/-! ### Defaults, and the second reading -/

def noneStr (v : Option Bytes) : Option Bytes := if v.any fun x => same x b!"none" then none else v

/-- servconf.c:524-536: "none" clears these -/
def clearable : List Key := [.pidFile, .xauthLocation, .banner, .trustedCAs, .revokedKeys, .skProvider, .principalsFile, .forceCommand,
  .chroot, .routingDomain, .hostKeyAgent, .penaltyExempt]

/-- servconf.c:295-544 `fill_default_server_options`, with the defaults `D`.  (Host keys "none" are left as they are.) -/
def fill (D o : Opts) : Opts where
  int k := if o.int k ≠ -1 then o.int k
    else if k = .overflow6 then (if o.int .overflow ≠ -1 then o.int .overflow else D.int .overflow) else D.int k
  str k := if k ∈ clearable then noneStr ((o.str k).or (D.str k)) else (o.str k).or (D.str k)
  list k :=
    if (o.list k) = [] then D.list k
    else if k = .channelTimeouts ∧ (o.list k).map (same · b!"none") = [true] then []
    else if k = .authMethods ∧ (o.list k).map (same · b!"any") = [true] then []
    else o.list k
  subs := o.subs

/-- servconf.c:2915-2950: numbers copied by `copy_set_server_options` -/
def copiedInts : List Key := [.passwordAuth, .pubkeyAuth, .pubkeyOptions, .hostbasedAuth, .hostbasedFromPacket, .kbdintAuth, .permitRoot,
  .emptyPasswd, .ignoreRhosts, .tcpForwarding, .streamForwarding, .agentForwarding, .disableForwarding, .exposeAuthInfo,
  .permitTun, .gatewayPorts, .bindUnlink, .x11Offset, .x11Forwarding, .x11Localhost, .permitTty, .permitUserRc, .maxSessions,
  .maxAuthTries, .aliveCountMax, .aliveInterval, .qosInteractive, .qosBulk, .rekeyLimit, .rekeyInterval, .logLevel,
  .requiredRSASize, .unusedTimeout, .refuseConnection, .bindMask]

/-- servconf.h:289-303, and servconf.c:2997-3006 -/
def copiedStrs : List Key := [.banner, .trustedCAs, .revokedKeys, .keysCommand, .keysCommandUser, .principalsFile, .principalsCommand,
  .principalsCommandUser, .hostbasedAlgos, .pubkeyAlgos, .caAlgos, .routingDomain, .userEnvList, .pamService, .forceCommand,
  .chroot]

/-- servconf.h:304-315 -/
def copiedLists : List Key := [.authKeysFiles, .allowUsers, .denyUsers, .allowGroups, .denyGroups, .acceptEnv, .setEnv, .authMethods,
  .permitOpen, .permitListen, .channelTimeouts, .logVerbose]

/-- servconf.h:316-318, servconf.c:2973-2984: the names are copied with their number, then the commands and the arguments;
but by then `dst->num_subsystems` is the new number, and that many of the old ones are freed.  `none`: some of them
are beyond the end of the array. -/
def copySubs (dst src : List Sub) : Option (List Sub) :=
  if src = [] then some dst
  else if dst.length < src.length then none
  else some src

/-- servconf.c:2859-2898 `servconf_merge_subsystems`, which is called after the lists have been copied -/
def mergeSubs (dst : List Sub) : List Sub → List Sub
  | [] => dst
  | x :: r =>
    if dst.any fun y => y.name = x.name then
      mergeSubs (dst.map fun y => if y.name = x.name then x else y) r
    else mergeSubs (dst ++ [x]) r

/-- servconf.c:2907-3010 `copy_set_server_options`, after authentication -/
def overlay (dst src : Opts) : Option Opts :=
  (copySubs dst.subs src.subs).map fun subs =>
    { int := fun k => if k ∈ copiedInts ∧ src.int k ≠ -1 then src.int k else dst.int k
      str := fun k => if k = .forceCommand ∨ k = .chroot then noneStr ((src.str k).or (dst.str k))
        else if k ∈ copiedStrs then (src.str k).or (dst.str k) else dst.str k
      list := fun k => if k ∈ copiedLists ∧ src.list k ≠ [] then src.list k else dst.list k
      subs := mergeSubs subs src.subs }

/-- How it ends. -/
inductive Res where
  /-- sshd does not go on -/
  | refused
  /-- memory beyond an array is read and freed -/
  | fault
  | ok (o : Opts)

/-- The options for a connection: sshd-session.c:973-982, 1043-1045 (first reading and defaults), auth.c:480, and servconf.c:2812-2822
`parse_server_match_config` -/
def serve (E : Env) (W : World) (D : Opts) (cmd : List Bytes) (raw : Bytes) (ci : Conn) : Res :=
  match cmd.foldlM (cmdLine E) {} with
  | none => .refused
  | some o0 => match readConfig E W none raw o0 with
    | none => .refused
    | some o1 => match readConfig E W (some ci) raw {} with
      | none => .refused
      | some o2 => match overlay (fill D o1) o2 with
        | none => .fault
        | some o => .ok o

end Verif.SrvConf
