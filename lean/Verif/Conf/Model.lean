/-
The client's configuration (readconf.c): lines, blocks, included files.

The checks of argument syntax that do not matter to what is claimed here (algorithm names, forwarding
specifications and so on) are parameters.  A line that is refused only makes the reader give up at the end of the
file (readconf.c:2610-2612); here it does so at once.  Built without GSSAPI, with PKCS#11 and zlib.
-/
import Verif.Misc.Delim
import Verif.Misc.Argv
import Verif.Misc.Time
import Verif.Misc.Expand
import Verif.Match.Model
import Verif.Permit.Model

namespace Verif.Conf
open Verif Match Text Num

/-- The options (readconf.h:34-185).  Numbers, strings and lists are kept apart by the functions of `Opts`. -/
inductive Key where
  | forwardAgent | agentSock | forwardX11 | forwardX11Trusted | forwardX11Timeout | exitOnForwardFailure | xauthLocation
  | gatewayPorts | passwordAuth | kbdintAuth | kbdintDevices | pubkeyAuth | hostbasedAuth | identityFile
  | identitiesOnly | certificateFile | addKeysToAgent | addKeysLifespan | identityAgent | hostname | hostKeyAlias
  | proxyCommand | jumpHost | jumpUser | jumpPort | jumpExtra | port | ciphers | macs | remoteForward | localForward
  | permitRemoteOpen | user | tag | escapeChar | globalKnownHosts | userKnownHosts | connectionAttempts | batchMode
  | checkHostIP | strictHostKey | compression | tcpKeepAlive | passwordPrompts | logFacility | logLevel | logVerbose
  | preferredAuths | hostKeyAlgorithms | caSignatureAlgorithms | bindAddress | bindInterface | clearForwardings
  | enableKeysign | verifyHostKeyDNS | noHostAuthLocalhost | rekeyLimit | rekeyInterval | connectTimeout | addressFamily
  | aliveInterval | aliveCountMax | sendEnv | setEnv | controlPath | controlMaster | controlPersist
  | controlPersistTimeout | hashKnownHosts | tunnel | tunLocal | tunRemote | localCommand | permitLocalCommand
  | remoteCommand | visualHostKey | kexAlgorithms | qosInteractive | qosBulk | requestTTY | sessionType | stdinNull
  | forkAfterAuth | proxyUseFdpass | canonicalDomains | canonicalizeFallback | canonicalize | canonicalizeMaxDots
  | permittedCnames | bindMask | bindUnlink | revokedHostKeys | fingerprintHash | updateHostkeys | hostbasedAlgos
  | pubkeyAlgos | ignoreUnknown | skProvider | knownHostsCommand | requiredRSASize | escapeCommandline | obscureTiming
  | channelTimeout | versionAddendum | pkcs11Provider
  deriving DecidableEq, Repr

/-- `Options`: -1, NULL and the empty list are "not set" (readconf.c:2645-2768 `initialize_options`).  A file of a list
carries whether a user configuration named it. -/
structure Opts where
  int : Key → Int := fun _ => -1
  str : Key → Option Bytes := fun _ => none
  list : Key → List Bytes := fun _ => []
  files : Key → List (Bytes × Bool) := fun _ => []

/-- What a line wants to set. -/
inductive Setting where
  /-- a number -/
  | int (k : Key) (v : Int)
  /-- two numbers, of which the first decides whether they have been set -/
  | pair (k k2 : Key) (v v2 : Int)
  | str (k : Key) (v : Bytes)
  | list (k : Key) (l : List Bytes)
  /-- a list with room for `max` -/
  | array (k : Key) (l : List Bytes) (max : Nat)
  /-- one more for a list -/
  | addFile (k : Key) (f : Bytes) (user : Bool) (max : Nat)
  | addForward (k : Key) (f : Bytes)
  | env (l : List Bytes)
  | facility (v : Int)
  | mask (v : Int)
  | proxyCommand (c : Bytes)
  | noJump
  | jump (host : Bytes) (user : Option Bytes) (port : Int) (extra : Option Bytes)
  deriving DecidableEq, Repr

def upd (f : Key → α) (k : Key) (v : α) : Key → α := fun x => if x = k then v else f x

def setInt (active : Bool) (k : Key) (v : Int) (o : Opts) : Opts :=
  if active && decide (o.int k = -1) then { o with int := upd o.int k v } else o

def setStr (active : Bool) (k : Key) (v : Bytes) (o : Opts) : Opts :=
  if active && decide (o.str k = none) then { o with str := upd o.str k (some v) } else o

def setList (active : Bool) (k : Key) (l : List Bytes) (o : Opts) : Opts :=
  if active && decide (o.list k = []) then { o with list := upd o.list k l } else o

/-- readconf.c:936-963 `rm_env`, 1930-1957: one argument of SendEnv -/
def envArg (l : List Bytes) (a : Bytes) : List Bytes :=
  if a.head? = some 45 then l.filter (fun x => !matchPattern x (a.drop 1)) else l ++ [a]

/-- Set it, if it is not set and the block is active; readconf.c:1232, 1402-1413, 1449, 1476-1485, 1676, 1706-1707,
1763-1769, 2202, and 3376, 3410-3425 for ProxyJump.  `none`: too many. -/
def apply (active : Bool) (s : Setting) (o : Opts) : Option Opts :=
  match s with
  | .int k v => some (setInt active k v o)
  | .pair k k2 v v2 =>
    some (if active && decide (o.int k = -1) then { o with int := upd (upd o.int k v) k2 v2 } else o)
  | .str k v => some (setStr active k v o)
  | .list k l => some (setList active k l o)
  | .array k l max => if active && decide (o.list k = []) && decide (max < l.length) then none else some (setList active k l o)
  | .addFile k f u max =>
    if active then
      if max ≤ (o.files k).length then none
      else some (if (f, u) ∈ o.files k then o else { o with files := upd o.files k (o.files k ++ [(f, u)]) })
    else some o
  | .addForward k f =>
    some (if active then if f ∈ o.list k then o else { o with list := upd o.list k (o.list k ++ [f]) } else o)
  | .env l => some (if active then { o with list := upd o.list .sendEnv (l.foldl envArg (o.list .sendEnv)) } else o)
  | .facility v => some (setInt true .logFacility v o)
  | .mask v => some { o with int := upd o.int .bindMask v }
  | .proxyCommand c => some (if o.str .jumpHost = none then setStr active .proxyCommand c o else o)
  | .noJump =>
    some (if active && decide (o.str .proxyCommand = none) && decide (o.str .jumpHost = none) then
      { o with str := upd o.str .jumpHost (some b!"none"), int := upd o.int .jumpPort 0 } else o)
  | .jump h u p e =>
    some (if active && decide (o.str .proxyCommand = none) && decide (o.str .jumpHost = none) then
      { o with
        str := upd (upd (upd (upd o.str .jumpUser u) .jumpHost (some h)) .proxyCommand (some b!"none")) .jumpExtra
          (match e with | some x => some x | none => o.str .jumpExtra)
        int := upd o.int .jumpPort p } else o)

def applyAll (active : Bool) (l : List Setting) (o : Opts) : Option Opts := l.foldlM (fun o s => apply active s o) o

/-! ### Values -/

/-- Checks and conversions not modelled. -/
structure Env where
  /-- getservbyname -/
  serv : Bytes → Option Nat
  ciphersValid : Bytes → Bool
  macValid : Bytes → Bool
  kexValid : Bytes → Bool
  /-- sshkey_names_valid2, with `ca_only` -/
  keysValid : Bool → Bytes → Bool
  /-- scan_scaled -/
  scaled : Bytes → Option Int
  /-- log_level_number, log_facility_number -/
  level : Option Bytes → Option Int
  facility : Option Bytes → Option Int
  /-- ssh_digest_alg_by_name -/
  digest : Bytes → Option Int
  /-- parse_ipqos -/
  ipqos : Option Bytes → Option Int
  /-- a2tun -/
  tun : Bytes → Option (Int × Int)
  /-- parse_forward, with `dynamicfwd` and `remotefwd`; a normal form of what was asked -/
  forward : Bool → Bool → Bytes → Option Bytes
  /-- readconf.c:1793-1809: a host and port of PermitRemoteOpen -/
  openSpec : Bytes → Bool
  /-- readconf.c:2388-2403: the check of `parse_agent_path` -/
  agentPath : Bytes → Bool
  /-- valid_domain, parse_pattern_interval -/
  domain : Bytes → Bool
  interval : Bytes → Bool
  /-- parse_ssh_uri and parse_user_host_port: host, user and port -/
  hop : Bytes → Option (Bytes × Option Bytes × Int)
  /-- strtol in base 8 of StreamLocalBindMask, with its range check -/
  mask : Bytes → Option Int

def lower (s : Bytes) : Bytes := s.map toLower

/-- strcasecmp with a text in lower case -/
def same (s t : Bytes) : Bool := decide (lower s = t)

/-- `multistate_ptr` tables, readconf.c:1004-1099 -/
def flagTable : List (Bytes × Int) := [(b!"true", 1), (b!"false", 0), (b!"yes", 1), (b!"no", 0)]
def yesNoAsk : List (Bytes × Int) := flagTable ++ [(b!"ask", 2)]
def strictTable : List (Bytes × Int) :=
  [(b!"true", 2), (b!"false", 0), (b!"yes", 2), (b!"no", 0), (b!"ask", 3), (b!"off", 0), (b!"accept-new", 1)]
def yesNoAskConfirm : List (Bytes × Int) := yesNoAsk ++ [(b!"confirm", 3)]
def familyTable : List (Bytes × Int) := [(b!"inet", 2), (b!"inet6", 10), (b!"any", 0)]
def masterTable : List (Bytes × Int) :=
  [(b!"true", 1), (b!"yes", 1), (b!"false", 0), (b!"no", 0), (b!"auto", 2), (b!"ask", 3), (b!"autoask", 4)]
def tunnelTable : List (Bytes × Int) :=
  [(b!"ethernet", 2), (b!"point-to-point", 1), (b!"true", 1), (b!"yes", 1), (b!"false", 0), (b!"no", 0)]
def ttyTable : List (Bytes × Int) := [(b!"true", 2), (b!"yes", 2), (b!"false", 1), (b!"no", 1), (b!"force", 3), (b!"auto", 0)]
def sessionTable : List (Bytes × Int) := [(b!"none", 0), (b!"subsystem", 1), (b!"default", 2)]
def canonTable : List (Bytes × Int) := [(b!"true", 1), (b!"false", 0), (b!"yes", 1), (b!"no", 0), (b!"always", 2)]
def pubkeyTable : List (Bytes × Int) :=
  [(b!"true", 3), (b!"false", 0), (b!"yes", 3), (b!"no", 0), (b!"unbound", 1), (b!"host-bound", 2)]
def compressionTable : List (Bytes × Int) := [(b!"yes", 2), (b!"no", 0)]

/-- readconf.c:1103-1118 `parse_multistate_value` -/
def multistate (t : List (Bytes × Int)) (a : Bytes) : Option Int := (t.find? fun x => same a x.1).map (·.2)

/-- A first argument that is there and not empty. -/
def arg1 : List Bytes → Option (Bytes × List Bytes)
  | [] => none
  | a :: r => if a = [] then none else some (a, r)

/-- readconf.c:1216-1231: "none" is -1 -/
def timeValue (a : Bytes) : Option Int :=
  if a = b!"none" then some (-1) else if Misc.Time.convtime a = -1 then none else some (Misc.Time.convtime a)

/-- misc.c:2462-2471 `atoi_err` -/
def intValue (a : Bytes) : Option Int := strtonum a 0 2147483647

/-- readconf.c:1887-1904: the escape character -/
def escapeValue (a : Bytes) : Option Int :=
  if a = b!"none" then some (-2)
  else match a with
    | [c] => some c.toNat
    | [94, c] => if 64 ≤ c.toNat ∧ c.toNat < 128 then some (c.toNat % 32) else none
    | _ => none

/-- readconf.c:1998-2011: ControlPersist -/
def persistValue (a : Bytes) : Option (Int × Int) :=
  if a = b!"no" ∨ a = b!"false" then some (0, 0)
  else if a = b!"yes" ∨ a = b!"true" then some (1, 0)
  else if 0 ≤ Misc.Time.convtime a then some (1, Misc.Time.convtime a)
  else none

/-- readconf.c:2350-2374: AddKeysToAgent -/
def addKeysValue (a : Bytes) (b : Option Bytes) : Option (Int × Int) :=
  match multistate yesNoAskConfirm a, b with
  | some 3, some t => if Misc.Time.convtime t = -1 then none else some (3, Misc.Time.convtime t)
  | some v, none => some (v, 0)
  | none, none => if Misc.Time.convtime a = -1 then none else some (1, Misc.Time.convtime a)
  | _, some _ => none

/-- readconf.c:2424-2443: one argument of ObscureKeystrokeTiming -/
def obscureValue (a : Bytes) : Option Int :=
  if a = b!"yes" ∨ a = b!"true" then some 20
  else if a = b!"no" ∨ a = b!"false" then some 0
  else if a.take 9 = b!"interval:" then
    match intValue (a.drop 9) with
    | some v => if 0 < v ∧ v ≤ 1000 then some v else none
    | none => none
  else none

/-- "none" stands alone, if at all (readconf.c:1463-1472 and others). -/
def noneAlone (l : List Bytes) : Bool := l.length ≤ 1 || l.all fun a => !same a b!"none"

/-- readconf.c:1959-1985, misc.c:2937-2952: SetEnv without repeated names -/
def envNames : List Bytes → List Bytes → List Bytes
  | acc, [] => acc
  | acc, a :: r =>
    if (acc.map fun x => x.takeWhile (· ≠ 61)).contains (a.takeWhile (· ≠ 61)) then envNames acc r else envNames (acc ++ [a]) r

def isWs (c : UInt8) : Bool := Misc.Delim.isWs c

/-- Without white space at the end (`rtrim`). -/
def rtrim (s : Bytes) : Bytes := (s.reverse.dropWhile isWs).reverse

/-- readconf.c:3369-3432 `parse_jump`.  The hosts before the last comma are cut from the text with its comment. -/
def jumpValue (E : Env) (s : Bytes) : Option Setting :=
  if same s b!"none" then some .noJump
  else if (split 44 (rtrim (s.takeWhile (· ≠ 35)))).all fun h => (E.hop h).isSome then
    match E.hop ((split 44 (rtrim (s.takeWhile (· ≠ 35)))).getLast?.getD []) with
    | none => none
    | some (h, u, p) => some (.jump h u p (match splitLast 44 s with
      | none => none
      | some (x, _) => if x = [] then none else some x))
  else none

/-! ### Keywords -/

/-- How the arguments of a keyword are read. -/
inductive Kind where
  | ignore
  | multi (k : Key) (t : List (Bytes × Int))
  | time (k : Key)
  | int (k : Key)
  | string (k : Key)
  | command (k : Key)
  | array (k : Key)
  | algos (k : Key) (check : Env → Bytes → Bool)
  | file (k : Key)
  | forward (k : Key) (remote dyn : Bool)
  | forwardAgent | rekey | proxyCommand | proxyJump | port | logLevel | logFacility | logVerbose | permitRemoteOpen
  | escape | sendEnv | setEnv | persist | tunDevice | ipqos | canonicalDomains | cnames | mask | fingerprint | addKeys
  | identityAgent | obscure | channelTimeout | versionAddendum
  | host | match_ | incl

def flag (k : Key) : Kind := .multi k flagTable

/-- readconf.c:192-337 `keywords`, with the `case` of each (1202-2530) -/
def keywords : List (Bytes × Kind) := [
  (b!"protocol", .ignore), (b!"cipher", .ignore), (b!"fallbacktorsh", .ignore), (b!"globalknownhostsfile2", .ignore),
  (b!"rhostsauthentication", .ignore), (b!"userknownhostsfile2", .ignore), (b!"useroaming", .ignore), (b!"usersh", .ignore),
  (b!"useprivilegedport", .ignore), (b!"afstokenpassing", .ignore), (b!"kerberosauthentication", .ignore),
  (b!"kerberostgtpassing", .ignore), (b!"rsaauthentication", .ignore), (b!"rhostsrsaauthentication", .ignore),
  (b!"compressionlevel", .ignore), (b!"gssapiauthentication", .ignore), (b!"gssapidelegatecredentials", .ignore),
  (b!"pkcs11provider", .string .pkcs11Provider), (b!"smartcarddevice", .string .pkcs11Provider),
  (b!"forwardagent", .forwardAgent), (b!"forwardx11", flag .forwardX11), (b!"forwardx11trusted", flag .forwardX11Trusted),
  (b!"forwardx11timeout", .time .forwardX11Timeout), (b!"exitonforwardfailure", flag .exitOnForwardFailure),
  (b!"xauthlocation", .string .xauthLocation), (b!"gatewayports", flag .gatewayPorts),
  (b!"passwordauthentication", flag .passwordAuth), (b!"kbdinteractiveauthentication", flag .kbdintAuth),
  (b!"kbdinteractivedevices", .string .kbdintDevices), (b!"challengeresponseauthentication", flag .kbdintAuth),
  (b!"skeyauthentication", flag .kbdintAuth), (b!"tisauthentication", flag .kbdintAuth),
  (b!"pubkeyauthentication", .multi .pubkeyAuth pubkeyTable), (b!"dsaauthentication", .multi .pubkeyAuth pubkeyTable),
  (b!"hostbasedauthentication", flag .hostbasedAuth), (b!"identityfile", .file .identityFile),
  (b!"identityfile2", .file .identityFile), (b!"identitiesonly", flag .identitiesOnly),
  (b!"certificatefile", .file .certificateFile), (b!"addkeystoagent", .addKeys), (b!"identityagent", .identityAgent),
  (b!"hostname", .string .hostname), (b!"hostkeyalias", .string .hostKeyAlias), (b!"proxycommand", .proxyCommand),
  (b!"port", .port), (b!"ciphers", .algos .ciphers Env.ciphersValid), (b!"macs", .algos .macs Env.macValid),
  (b!"remoteforward", .forward .remoteForward true false), (b!"localforward", .forward .localForward false false),
  (b!"permitremoteopen", .permitRemoteOpen), (b!"user", .string .user), (b!"host", .host), (b!"match", .match_),
  (b!"tag", .string .tag), (b!"escapechar", .escape), (b!"globalknownhostsfile", .array .globalKnownHosts),
  (b!"userknownhostsfile", .array .userKnownHosts), (b!"connectionattempts", .int .connectionAttempts),
  (b!"batchmode", flag .batchMode), (b!"checkhostip", flag .checkHostIP),
  (b!"stricthostkeychecking", .multi .strictHostKey strictTable), (b!"compression", .multi .compression compressionTable),
  (b!"tcpkeepalive", flag .tcpKeepAlive), (b!"keepalive", flag .tcpKeepAlive),
  (b!"numberofpasswordprompts", .int .passwordPrompts), (b!"syslogfacility", .logFacility), (b!"loglevel", .logLevel),
  (b!"logverbose", .logVerbose), (b!"dynamicforward", .forward .localForward false true),
  (b!"preferredauthentications", .string .preferredAuths),
  (b!"hostkeyalgorithms", .algos .hostKeyAlgorithms fun E => E.keysValid false),
  (b!"casignaturealgorithms", .algos .caSignatureAlgorithms fun E => E.keysValid true),
  (b!"bindaddress", .string .bindAddress), (b!"bindinterface", .string .bindInterface),
  (b!"clearallforwardings", flag .clearForwardings), (b!"enablesshkeysign", flag .enableKeysign),
  (b!"verifyhostkeydns", .multi .verifyHostKeyDNS yesNoAsk),
  (b!"nohostauthenticationforlocalhost", flag .noHostAuthLocalhost), (b!"rekeylimit", .rekey),
  (b!"connecttimeout", .time .connectTimeout), (b!"addressfamily", .multi .addressFamily familyTable),
  (b!"serveraliveinterval", .time .aliveInterval), (b!"serveralivecountmax", .int .aliveCountMax),
  (b!"sendenv", .sendEnv), (b!"setenv", .setEnv), (b!"controlpath", .string .controlPath),
  (b!"controlmaster", .multi .controlMaster masterTable), (b!"controlpersist", .persist),
  (b!"hashknownhosts", flag .hashKnownHosts), (b!"include", .incl), (b!"tunnel", .multi .tunnel tunnelTable),
  (b!"tunneldevice", .tunDevice), (b!"localcommand", .command .localCommand),
  (b!"permitlocalcommand", flag .permitLocalCommand), (b!"remotecommand", .command .remoteCommand),
  (b!"visualhostkey", flag .visualHostKey), (b!"kexalgorithms", .algos .kexAlgorithms Env.kexValid), (b!"ipqos", .ipqos),
  (b!"requesttty", .multi .requestTTY ttyTable), (b!"sessiontype", .multi .sessionType sessionTable),
  (b!"stdinnull", flag .stdinNull), (b!"forkafterauthentication", flag .forkAfterAuth),
  (b!"proxyusefdpass", flag .proxyUseFdpass), (b!"canonicaldomains", .canonicalDomains),
  (b!"canonicalizefallbacklocal", flag .canonicalizeFallback), (b!"canonicalizehostname", .multi .canonicalize canonTable),
  (b!"canonicalizemaxdots", .int .canonicalizeMaxDots), (b!"canonicalizepermittedcnames", .cnames),
  (b!"streamlocalbindmask", .mask), (b!"streamlocalbindunlink", flag .bindUnlink),
  (b!"revokedhostkeys", .string .revokedHostKeys), (b!"fingerprinthash", .fingerprint),
  (b!"updatehostkeys", .multi .updateHostkeys yesNoAsk),
  (b!"hostbasedacceptedalgorithms", .algos .hostbasedAlgos fun E => E.keysValid false),
  (b!"hostbasedkeytypes", .algos .hostbasedAlgos fun E => E.keysValid false),
  (b!"pubkeyacceptedalgorithms", .algos .pubkeyAlgos fun E => E.keysValid false),
  (b!"pubkeyacceptedkeytypes", .algos .pubkeyAlgos fun E => E.keysValid false), (b!"ignoreunknown", .string .ignoreUnknown),
  (b!"proxyjump", .proxyJump), (b!"securitykeyprovider", .string .skProvider),
  (b!"knownhostscommand", .command .knownHostsCommand), (b!"requiredrsasize", .int .requiredRSASize),
  (b!"enableescapecommandline", flag .escapeCommandline), (b!"obscurekeystroketiming", .obscure),
  (b!"channeltimeout", .channelTimeout), (b!"versionaddendum", .versionAddendum)]

/-- readconf.c:968-983 `parse_token`; `ignored` is IgnoreUnknown. -/
def kindOf (ignored : Option Bytes) (kw : Bytes) : Option Kind :=
  match keywords.find? fun x => x.1 = kw with
  | some x => some x.2
  | none => match ignored with
    | some p => if matchPatternList kw p true = 1 then some .ignore else none
    | none => none

/-- No arguments are left over. -/
def only (s : List Setting) : List Bytes → Option (List Setting)
  | [] => some s
  | _ => none

/-- readconf.c:1604-1606 and others: a list of algorithms, which may begin with `+`, `-` or `^` -/
def algoOk (check : Bytes → Bool) (a : Bytes) : Bool :=
  a.head? = some 45 || check (if a.head? = some 43 || a.head? = some 94 then a.drop 1 else a)

/-- readconf.c:1725-1761: what is given to `parse_forward`, in a buffer of 256 bytes; and whether it is dynamic. -/
def forwardArg (remote dyn : Bool) (a : Bytes) (r : List Bytes) : Option (Bytes × Bool × List Bytes) :=
  if dyn then some (a.take 255, true, r)
  else match r with
    | b :: r' => if b = [] then if remote then some (a.take 255, true, r') else none else some ((a ++ [58] ++ b).take 255, false, r')
    | [] => if remote then some (a.take 255, true, []) else none

/-- readconf.c:1202-2530: what a line sets.  `str` is what follows the keyword, `args` its words. -/
def settings (E : Env) (user : Bool) (k : Kind) (str : Bytes) (args : List Bytes) : Option (List Setting) :=
  match k with
  | .ignore => some []
  | .multi k t => (arg1 args).bind fun (a, r) => (multistate t a).bind fun v => only [.int k v] r
  | .time k => (arg1 args).bind fun (a, r) => (timeValue a).bind fun v => only [.int k v] r
  | .int k => (arg1 args).bind fun (a, r) => (intValue a).bind fun v => only [.int k v] r
  | .string k => (arg1 args).bind fun (a, r) => only [.str k a] r
  | .command k => some [.str k (str.dropWhile fun c => isWs c || c == 61)]
  | .array k => if args.all (· ≠ []) && noneAlone args then some [.array k args 32] else none
  | .algos k check => (arg1 args).bind fun (a, r) => if algoOk (check E) a then only [.str k a] r else none
  | .file k => (arg1 args).bind fun (a, r) => only [.addFile k a user 100] r
  | .forward k remote dyn =>
    (arg1 args).bind fun (a, r) => (forwardArg remote dyn a r).bind fun (x, d, r) =>
      (E.forward d remote x).bind fun f => only [.addForward k f] r
  | .forwardAgent =>
    (arg1 args).bind fun (a, r) =>
      match multistate flagTable a with
      | some v => only [.int .forwardAgent v] r
      | none => if E.agentPath a then only [.int .forwardAgent 1, .str .agentSock a] r else none
  | .rekey =>
    (arg1 args).bind fun (a, r) =>
      (if a = b!"default" then some 0 else (E.scaled a).bind fun v => if v ≠ 0 ∧ v < 16 then none else some v).bind fun v =>
        match r with
        | [] => some [.int .rekeyLimit v]
        | b :: r' =>
          if b = b!"none" then only [.int .rekeyLimit v] r'
          else if b = [] then none
          else (timeValue b).bind fun t => only [.int .rekeyLimit v, .int .rekeyInterval t] r'
  | .proxyCommand => some [.proxyCommand (str.dropWhile fun c => isWs c || c == 61)]
  | .proxyJump => (jumpValue E (str.dropWhile fun c => isWs c || c == 61)).map fun s => [s]
  | .port => (arg1 args).bind fun (a, r) => if 0 < Permit.a2port E.serv a then only [.int .port (Permit.a2port E.serv a)] r else none
  | .logLevel => (E.level args.head?).bind fun v => only [.int .logLevel v] (args.drop 1)
  | .logFacility => (E.facility args.head?).bind fun v => only [.facility v] (args.drop 1)
  | .logVerbose => if args.all (· ≠ []) && noneAlone args then some [.list .logVerbose (args.take 1)] else none
  | .permitRemoteOpen =>
    if args ≠ [] && (args.length ≤ 1 || args.all fun a => !same a b!"none" && !same a b!"any")
      && args.all fun a => same a b!"none" || same a b!"any" || E.openSpec a then some [.list .permitRemoteOpen args] else none
  | .escape => (arg1 args).bind fun (a, r) => (escapeValue a).bind fun v => only [.int .escapeChar v] r
  | .sendEnv => if args ≠ [] && args.all fun a => a ≠ [] && !a.contains 61 then some [.env args] else none
  | .setEnv => if args ≠ [] && args.all fun a => a.contains 61 then some [.list .setEnv (envNames [] args)] else none
  | .persist => (arg1 args).bind fun (a, r) => (persistValue a).bind fun v => only [.pair .controlPersist .controlPersistTimeout v.1 v.2] r
  | .tunDevice => (arg1 args).bind fun (a, r) => (E.tun a).bind fun v => only [.pair .tunLocal .tunRemote v.1 v.2] r
  | .ipqos =>
    (E.ipqos args.head?).bind fun v =>
      match args.drop 1 with
      | [] => some [.pair .qosInteractive .qosBulk v v]
      | b :: r => (E.ipqos (some b)).bind fun w => only [.pair .qosInteractive .qosBulk v w] r
  | .canonicalDomains =>
    if args ≠ [] && noneAlone args && args.all E.domain then some [.list .canonicalDomains args] else none
  | .cnames =>
    if args ≠ [] && noneAlone args && args.all fun a => same a b!"none" || a = b!"*" || (a.dropWhile (· ≠ 58)).length > 1 then
      some [.list .permittedCnames (args.map lower)] else none
  | .mask => (arg1 args).bind fun (a, r) => (E.mask a).bind fun v => only [.mask v] r
  | .fingerprint => (arg1 args).bind fun (a, r) => (E.digest a).bind fun v => only [.int .fingerprintHash v] r
  | .addKeys =>
    (arg1 args).bind fun (a, r) => (addKeysValue a r.head?).bind fun v => only [.pair .addKeysToAgent .addKeysLifespan v.1 v.2] (r.drop 1)
  | .identityAgent => (arg1 args).bind fun (a, r) => if E.agentPath a then only [.str .identityAgent a] r else none
  | .obscure =>
    match args with
    | [a] => (obscureValue a).map fun v => [.int .obscureTiming v]
    | _ => none
  | .channelTimeout =>
    if args ≠ [] && noneAlone args && args.all fun a => same a b!"none" || E.interval a then some [.list .channelTimeout args] else none
  | .versionAddendum =>
    if (str.dropWhile isWs).contains 13 then none
    else some [.str .versionAddendum (if same (str.dropWhile isWs) b!"none" then [] else str.dropWhile isWs)]
  | .host => none
  | .match_ => none
  | .incl => none

/-! ### Lines -/

/-- readconf.c:1176-1183: white space and form feeds at the end, but for the first byte -/
def stripTail (s : Bytes) : Bytes := s.take 1 ++ ((s.drop 1).reverse.dropWhile fun c => isWs c || c == 12).reverse

/-- A line: nothing in it; a fault; or a keyword and what follows it. -/
inductive Raw where
  | blank
  | bad
  | line (keyword str : Bytes)
  deriving DecidableEq, Repr

/-- readconf.c:1193-1207: after the keyword has been found -/
def rawKeyword (w : Bytes) (rest : Option Bytes) : Raw :=
  if w = [] ∨ w.head? = some 10 ∨ w.head? = some 35 then .blank
  else match rest with
    | none => .bad
    | some r => if r.dropWhile isWs = [] then .bad else .line (lower w) (r.dropWhile isWs)

/-- readconf.c:1176-1207: a line is cut at a NUL.  An unclosed quote in front of the first blank makes it a blank line. -/
def rawLine (line : Bytes) : Raw :=
  match Misc.Delim.strdelim true (stripTail (line.takeWhile (· ≠ 0))) with
  | none => .blank
  | some (w, rest) =>
    if w = [] then match rest with
      | none => .blank
      | some r => match Misc.Delim.strdelim true r with
        | none => .blank
        | some (w2, rest2) => rawKeyword w2 rest2
    else rawKeyword w rest

/-! ### Blocks -/

/-- readconf.c:1827-1862: whether the block of a Host line is active. -/
def hostLine (never : Bool) (host : Bytes) : Bool → List Bytes → Option Bool
  | act, [] => some act
  | act, a :: r =>
    if a = [] then none
    else if never then some act
    else if a.head? = some 33 then if matchPattern host (a.drop 1) then some false else hostLine never host act r
    else hostLine never host (act || matchPattern host a) r

/-- What else a configuration is read for. -/
structure World where
  host : Bytes
  original : Bytes
  command : Option Bytes
  localUser : Bytes
  final : Bool
  release : Bytes
  /-- whether a list of networks is well formed, and whether an interface is in it -/
  netValid : Bytes → Bool
  localNet : Bytes → Bool
  /-- percent expansion for `Match exec`, given host, user, port, HostKeyAlias and jump host; `none`: fatal -/
  expand : Bytes → Bytes → Int → Option Bytes → Option Bytes → Bytes → Option Bytes
  /-- the command succeeds; `none`: fatal -/
  run : Bytes → Option Bool
  /-- the files an Include stands for, given the same and whether this is the user's; `none`: a fault -/
  glob : Bytes → Bytes → Int → Option Bytes → Option Bytes → Bool → Bytes → Option (List Bytes)
  /-- the lines of a file; `some none`: it is not there; `none`: it cannot be used -/
  file : Bytes → Option (Option (List Bytes))

/-- readconf.c:733-741: the host's name as far as it is known; `none`: fatal -/
def hostNow (W : World) (o : Opts) : Option Bytes :=
  match o.str .hostname with
  | none => if W.final then none else some W.host
  | some h => if W.final then some h else
    match Misc.Expand.percentExpand [(b!"h", W.host)] h with
    | .ok s => some s
    | _ => none

def userNow (W : World) (o : Opts) : Bytes := (o.str .user).getD W.localUser

/-- readconf.c:865-873: SessionType, as `Match sessiontype` sees it -/
def sessionNow (W : World) (o : Opts) : Bytes :=
  if o.int .sessionType = 1 then b!"subsystem"
  else if o.int .sessionType = 0 then b!"none"
  else if (W.command.getD []) ≠ [] then b!"exec"
  else b!"shell"

/-- readconf.c:847-850: "the empty text matches the empty pattern" -/
def textMatch (s p : Bytes) : Bool := if s = [] then decide (p = []) else decide (matchPatternList s p false = 1)

/-- The criteria of a Match line. -/
inductive Crit where
  | host | originalHost | user | localUser | localNetwork | version | tagged | command | sessionType | exec
  deriving DecidableEq, Repr

def critNames : List (Bytes × Crit) := [(b!"host", .host), (b!"originalhost", .originalHost), (b!"user", .user),
  (b!"localuser", .localUser), (b!"localnetwork", .localNetwork), (b!"version", .version), (b!"tagged", .tagged),
  (b!"command", .command), (b!"sessiontype", .sessionType), (b!"exec", .exec)]

/-- readconf.c:790-802: the text in front of `=` and what follows, for the names that may be written so -/
def eqForm (a : Bytes) : Option (Bytes × Bytes) :=
  if (a.dropWhile (· ≠ 61)) = [] then none
  else if (critNames.any fun x => x.2 ≠ .sessionType && same (a.takeWhile (· ≠ 61)) x.1) then
    some (a.takeWhile (· ≠ 61), (a.dropWhile (· ≠ 61)).drop 1)
  else none

/-- readconf.c:822-892: whether a criterion holds; `none`: the line is refused, or fatal.  `so` is whether all before it
did, and a command is run only then.  The commands run are returned too. -/
def critHolds (W : World) (o : Opts) (host : Bytes) (so : Bool) (c : Crit) (a : Bytes) : Option (Bool × List Bytes) :=
  match c with
  | .host => some (decide (matchHostname host a = 1), [])
  | .originalHost => some (decide (matchHostname W.original a = 1), [])
  | .user => some (decide (matchPatternList (userNow W o) a false = 1), [])
  | .localUser => some (decide (matchPatternList W.localUser a false = 1), [])
  | .localNetwork => if W.netValid a then some (W.localNet a, []) else none
  | .version => some (decide (matchPatternList W.release a false = 1), [])
  | .tagged => some (textMatch ((o.str .tag).getD []) a, [])
  | .command => some (textMatch (W.command.getD []) a, [])
  | .sessionType => some (decide (matchPatternList (sessionNow W o) a false = 1), [])
  | .exec =>
    match W.expand host (userNow W o) (o.int .port) (o.str .hostKeyAlias) (o.str .jumpHost) a with
    | none => none
    | some cmd => if so then (W.run cmd).map fun b => (b, [cmd]) else some (true, [])

/-- readconf.c:805-821: a criterion and its argument -/
def critOf (attrib arg : Bytes) : Option (Crit × Bytes) :=
  match critNames.find? fun x => same attrib x.1 with
  | none => none
  | some x =>
    if arg.head? = some 35 then none
    else if arg = [] ∧ x.2 ≠ .tagged ∧ x.2 ≠ .command then none
    else some (x.2, arg)

/-- A criterion that may be negated; one that is skipped leaves the result alone. -/
def note (so neg : Bool) (c : Crit) (r : Bool) : Bool := if c = .exec ∧ !so then so else so && (r != neg)

/-- readconf.c:755-756: whether it is negated, and the rest -/
def negOf (a : Bytes) : Bool := decide (a.head? = some 33)
def attrOf (a : Bytes) : Bytes := if negOf a then a.drop 1 else a

/-- readconf.c:790-821: a criterion with its argument, which is the next one unless it is written with `=` -/
def takeCrit (a : Bytes) (r : List Bytes) : Option (Crit × Bytes × List Bytes) :=
  match eqForm a with
  | some (name, arg) => (critOf name arg).map fun c => (c.1, c.2, r)
  | none => match r with
    | [] => none
    | arg :: r' => (critOf a arg).map fun c => (c.1, c.2, r')

/-- readconf.c:758-772: what follows "all"; `n` criteria came before it. -/
def afterAll (n : Nat) (r : List Bytes) : Option (List Bytes) :=
  if 1 < n then none
  else match r with
    | [] => some []
    | b :: r' => if b = [] then some r' else if b.head? = some 35 then some [] else none

/-- readconf.c:744-922: the loop over the criteria.  `n` counts them, `so` is the result so far.  Returns whether the
block is active, the commands run, and the arguments left. -/
def matchLoop (W : World) (o : Opts) (host : Bytes) : Nat → Nat → Bool → List Bytes → List Bytes → Option (Bool × List Bytes × List Bytes)
  | 0, _, _, _, _ => none
  | _ + 1, n, so, ran, [] => if n = 0 then none else some (so, ran, [])
  | fuel + 1, n, so, ran, a :: r =>
    if a.head? = some 35 then if n = 0 then none else some (so, ran, [])
    else if same (attrOf a) b!"all" then (afterAll n r).map fun r' => (so && !negOf a, ran, r')
    else if same (attrOf a) b!"canonical" ∨ same (attrOf a) b!"final" then
      matchLoop W o host fuel (n + 1) (so && (W.final != negOf a)) ran r
    else match takeCrit (attrOf a) r with
      | none => none
      | some (c, x, r') => match critHolds W o host so c x with
        | none => none
        | some (b, cmds) => matchLoop W o host fuel (n + 1) (note so (negOf a) c b) (ran ++ cmds) r'

/-- readconf.c:711-933 `match_cfg_line` -/
def matchLine (W : World) (o : Opts) (args : List Bytes) : Option (Bool × List Bytes × List Bytes) :=
  match hostNow W o with
  | none => none
  | some host => matchLoop W o host (args.length + 1) 0 true [] args

/-! ### Files -/

/-- The options, whether the block is active, and the commands run so far. -/
structure St where
  o : Opts := {}
  active : Bool := true
  ran : List Bytes := []

/-- readconf.c:2120-2151: the files of one Include argument -/
def includeFiles (inc : Bool → List Bytes → St → Option St) (W : World) (never act : Bool) : List Bytes → St → Option St
  | [], s => some s
  | f :: fs, s =>
    match W.file f with
    | none => none
    | some none => includeFiles inc W never act fs s
    | some (some lines) =>
      match inc (never || !act) lines s with
      | none => none
      | some t => includeFiles inc W never act fs { t with active := act }

/-- readconf.c:2074-2156: an Include line -/
def includeArgs (inc : Bool → List Bytes → St → Option St) (W : World) (never user : Bool) : List Bytes → St → Option St
  | [], s => some s
  | a :: r, s =>
    if a = [] then none
    else match hostNow W s.o with
      | none => none
      | some h =>
        match W.glob h (userNow W s.o) (s.o.int .port) (s.o.str .hostKeyAlias) (s.o.str .jumpHost) user a with
        | none => none
        | some fs =>
          match includeFiles inc W never s.active fs s with
          | none => none
          | some t => includeArgs inc W never user r t

/-- readconf.c:1134-2543 `process_config_line_depth`.  `none`: the line is refused, or fatal.  `never` is
`SSHCONF_NEVERMATCH`; `user` is `SSHCONF_USERCONF`. -/
def step (inc : Bool → List Bytes → St → Option St) (E : Env) (W : World) (never user : Bool) (s : St) (line : Bytes) : Option St :=
  match rawLine line with
  | .blank => some s
  | .bad => none
  | .line kw str =>
    match kindOf (s.o.str .ignoreUnknown) kw, Misc.Argv.argvSplit str true with
    | some .host, some args => (hostLine never W.host false args).map fun a => { s with active := a }
    | some .match_, some args =>
      match matchLine W s.o args with
      | some (a, ran, []) => some { s with active := a && !never, ran := s.ran ++ ran }
      | _ => none
    | some .incl, some args => includeArgs inc W never user args s
    | some k, some args => (settings E user k str args).bind fun l => (applyAll s.active l s.o).map fun o => { s with o := o }
    | _, _ => none

/-- readconf.c:2562-2615 `read_config_file_depth`; there may be 17 - depth = `n` more levels. -/
def readLines (E : Env) (W : World) (user : Bool) : Nat → Bool → List Bytes → St → Option St
  | 0, _, _, _ => none
  | n + 1, never, lines, s => lines.foldlM (fun s l => step (readLines E W user n) E W never user s l) s

/-- readconf.c:2550-2559 `read_config_file`: begins active, whatever the file before it ended with. -/
def readFile (E : Env) (W : World) (user : Bool) (lines : List Bytes) (s : St) : Option St :=
  readLines E W user 17 false lines { s with active := true }

/-- readconf.c:1163-1166: an option of the command line is always active; blocks and Include are refused (1822, 1867, 2069).
ssh.c:1084-1088 -/
def cmdLine (E : Env) (s : St) (line : Bytes) : Option St :=
  match rawLine line with
  | .blank => some s
  | .bad => none
  | .line kw str =>
    match kindOf (s.o.str .ignoreUnknown) kw, Misc.Argv.argvSplit str true with
    | some k, some args => (settings E true k str args).bind fun l => (applyAll true l s.o).map fun o => { s with o := o }
    | _, _ => none

/-- ssh.c:1084-1088, 561-592 `process_config_files`: command line, the user's file, the system's -/
def readAll (E : Env) (W : World) (cmd user sys : List Bytes) : Option Opts :=
  match cmd.foldlM (cmdLine E) {} with
  | none => none
  | some s => match readFile E W true user s with
    | none => none
    | some t => (readFile E W false sys t).map St.o

end Verif.Conf
