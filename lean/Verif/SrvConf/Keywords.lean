/- The server's configuration: what the keywords of sshd_config(5) set. -/
import Verif.SrvConf.Props

namespace Verif.SrvConf
open Verif Match
open _root_.Verif.Conf (lower same intValue multistate isWs)
open _root_.Verif.Num (strtonum)

/-! ### What sshd_config(5) says -/

/-- The keywords, in the order of the manual -/
def manual : List Bytes := [
  b!"acceptenv", b!"addressfamily", b!"allowagentforwarding", b!"allowgroups", b!"allowstreamlocalforwarding",
  b!"allowtcpforwarding", b!"allowusers", b!"authenticationmethods", b!"authorizedkeyscommand",
  b!"authorizedkeyscommanduser", b!"authorizedkeysfile", b!"authorizedprincipalscommand",
  b!"authorizedprincipalscommanduser", b!"authorizedprincipalsfile", b!"banner", b!"casignaturealgorithms",
  b!"channeltimeout", b!"chrootdirectory", b!"ciphers", b!"clientalivecountmax", b!"clientaliveinterval",
  b!"compression", b!"denygroups", b!"denyusers", b!"disableforwarding", b!"exposeauthinfo", b!"fingerprinthash",
  b!"forcecommand", b!"gatewayports", b!"gssapiauthentication", b!"gssapicleanupcredentials",
  b!"gssapistrictacceptorcheck", b!"hostbasedacceptedalgorithms", b!"hostbasedauthentication",
  b!"hostbasedusesnamefrompacketonly", b!"hostcertificate", b!"hostkey", b!"hostkeyagent", b!"hostkeyalgorithms",
  b!"ignorerhosts", b!"ignoreuserknownhosts", b!"include", b!"ipqos", b!"kbdinteractiveauthentication",
  b!"kerberosauthentication", b!"kerberosgetafstoken", b!"kerberosorlocalpasswd", b!"kerberosticketcleanup",
  b!"kexalgorithms", b!"listenaddress", b!"logingracetime", b!"loglevel", b!"logverbose", b!"macs", b!"match",
  b!"maxauthtries", b!"maxsessions", b!"maxstartups", b!"modulifile", b!"pamservicename", b!"passwordauthentication",
  b!"permitemptypasswords", b!"permitlisten", b!"permitopen", b!"permitrootlogin", b!"permittty", b!"permittunnel",
  b!"permituserenvironment", b!"permituserrc", b!"persourcemaxstartups", b!"persourcenetblocksize",
  b!"persourcepenalties", b!"persourcepenaltyexemptlist", b!"pidfile", b!"port", b!"printlastlog", b!"printmotd",
  b!"pubkeyacceptedalgorithms", b!"pubkeyauthoptions", b!"pubkeyauthentication", b!"refuseconnection",
  b!"rekeylimit", b!"requiredrsasize", b!"revokedkeys", b!"rdomain", b!"securitykeyprovider", b!"setenv",
  b!"sshdauthpath", b!"sshdsessionpath", b!"streamlocalbindmask", b!"streamlocalbindunlink", b!"strictmodes",
  b!"subsystem", b!"syslogfacility", b!"tcpkeepalive", b!"trustedusercakeys", b!"unusedconnectiontimeout",
  b!"usedns", b!"usepam", b!"versionaddendum", b!"x11displayoffset", b!"x11forwarding", b!"x11uselocalhost",
  b!"xauthlocation"]

/-- "Available keywords are ..." (sshd_config.5:1281-1346) -/
def manualMatch : List Bytes := [
  b!"acceptenv", b!"allowagentforwarding", b!"allowgroups", b!"allowstreamlocalforwarding", b!"allowtcpforwarding",
  b!"allowusers", b!"authenticationmethods", b!"authorizedkeyscommand", b!"authorizedkeyscommanduser",
  b!"authorizedkeysfile", b!"authorizedprincipalscommand", b!"authorizedprincipalscommanduser",
  b!"authorizedprincipalsfile", b!"banner", b!"casignaturealgorithms", b!"channeltimeout", b!"chrootdirectory",
  b!"clientalivecountmax", b!"clientaliveinterval", b!"denygroups", b!"denyusers", b!"disableforwarding",
  b!"exposeauthinfo", b!"forcecommand", b!"gatewayports", b!"gssapiauthentication", b!"hostbasedacceptedalgorithms",
  b!"hostbasedauthentication", b!"hostbasedusesnamefrompacketonly", b!"ignorerhosts", b!"include", b!"ipqos",
  b!"kbdinteractiveauthentication", b!"kerberosauthentication", b!"loglevel", b!"maxauthtries", b!"maxsessions",
  b!"pamservicename", b!"passwordauthentication", b!"permitemptypasswords", b!"permitlisten", b!"permitopen",
  b!"permitrootlogin", b!"permittty", b!"permittunnel", b!"permituserrc", b!"pubkeyacceptedalgorithms",
  b!"pubkeyauthentication", b!"pubkeyauthoptions", b!"refuseconnection", b!"rekeylimit", b!"revokedkeys",
  b!"rdomain", b!"setenv", b!"streamlocalbindmask", b!"streamlocalbindunlink", b!"trustedusercakeys",
  b!"unusedconnectiontimeout", b!"x11displayoffset", b!"x11forwarding", b!"x11uselocalhost"]

/-- Keywords that may stand in a Match block too, though the manual does not say so. -/
def alsoMatch : List Bytes := [b!"match", b!"subsystem", b!"logverbose", b!"requiredrsasize"]

def yesNo : List (Bytes × Int) := [(b!"yes", 1), (b!"no", 0)]

/-- Keywords with a choice of words, and their numbers in servconf.h and compat headers -/
def choices : List (Bytes × Key × List (Bytes × Int)) := [
  (b!"addressfamily", .addressFamily, [(b!"any", 0), (b!"inet", 2), (b!"inet6", 10)]),
  (b!"allowagentforwarding", .agentForwarding, yesNo),
  (b!"allowstreamlocalforwarding", .streamForwarding, [(b!"yes", 3), (b!"all", 3), (b!"no", 0), (b!"local", 2), (b!"remote", 1)]),
  (b!"allowtcpforwarding", .tcpForwarding, [(b!"yes", 3), (b!"all", 3), (b!"no", 0), (b!"local", 2), (b!"remote", 1)]),
  (b!"compression", .compression, [(b!"yes", 2), (b!"delayed", 2), (b!"no", 0)]),
  (b!"disableforwarding", .disableForwarding, yesNo), (b!"exposeauthinfo", .exposeAuthInfo, yesNo),
  (b!"gatewayports", .gatewayPorts, [(b!"no", 0), (b!"yes", 1), (b!"clientspecified", 2)]),
  (b!"hostbasedauthentication", .hostbasedAuth, yesNo), (b!"hostbasedusesnamefrompacketonly", .hostbasedFromPacket, yesNo),
  (b!"ignorerhosts", .ignoreRhosts, [(b!"yes", 1), (b!"no", 0), (b!"shosts-only", 2)]),
  (b!"ignoreuserknownhosts", .ignoreKnownHosts, yesNo), (b!"kbdinteractiveauthentication", .kbdintAuth, yesNo),
  (b!"passwordauthentication", .passwordAuth, yesNo), (b!"permitemptypasswords", .emptyPasswd, yesNo),
  (b!"permitrootlogin", .permitRoot,
    [(b!"yes", 3), (b!"prohibit-password", 2), (b!"without-password", 2), (b!"forced-commands-only", 1), (b!"no", 0)]),
  (b!"permittty", .permitTty, yesNo), (b!"permituserrc", .permitUserRc, yesNo), (b!"printlastlog", .printLastlog, yesNo),
  (b!"printmotd", .printMotd, yesNo), (b!"pubkeyauthentication", .pubkeyAuth, yesNo), (b!"refuseconnection", .refuseConnection, yesNo),
  (b!"streamlocalbindunlink", .bindUnlink, yesNo), (b!"strictmodes", .strictModes, yesNo), (b!"tcpkeepalive", .tcpKeepAlive, yesNo),
  (b!"usedns", .useDns, yesNo), (b!"usepam", .usePam, yesNo), (b!"x11forwarding", .x11Forwarding, yesNo),
  (b!"x11uselocalhost", .x11Localhost, yesNo)]

/-- Keywords with a number -/
def counts : List (Bytes × Key) := [(b!"clientalivecountmax", .aliveCountMax), (b!"maxauthtries", .maxAuthTries),
  (b!"maxsessions", .maxSessions), (b!"requiredrsasize", .requiredRSASize), (b!"x11displayoffset", .x11Offset)]

/-- Keywords with a time -/
def times : List (Bytes × Key) := [(b!"clientaliveinterval", .aliveInterval), (b!"logingracetime", .loginGrace)]

/-- Keywords with a file -/
def files : List (Bytes × Key) := [(b!"banner", .banner), (b!"modulifile", .moduliFile), (b!"pidfile", .pidFile),
  (b!"revokedkeys", .revokedKeys), (b!"sshdauthpath", .authPath), (b!"sshdsessionpath", .sessionPath),
  (b!"trustedusercakeys", .trustedCAs), (b!"xauthlocation", .xauthLocation)]

/-- Keywords with a word -/
def wordsOf : List (Bytes × Key) := [(b!"authorizedkeyscommanduser", .keysCommandUser),
  (b!"authorizedprincipalscommanduser", .principalsCommandUser), (b!"chrootdirectory", .chroot), (b!"pamservicename", .pamService)]

/-- Keywords with names that are collected -/
def namesOf : List (Bytes × Key) := [(b!"acceptenv", .acceptEnv), (b!"allowgroups", .allowGroups), (b!"allowusers", .allowUsers),
  (b!"denygroups", .denyGroups), (b!"denyusers", .denyUsers)]

/-! ### Proofs -/

def Kind.multi? : Kind → Option (Key × List (Bytes × Int))
  | .multi k t => some (k, t)
  | _ => none
def Kind.int? : Kind → Option Key
  | .int k => some k
  | _ => none
def Kind.time? : Kind → Option Key
  | .time k => some k
  | _ => none
def Kind.file? : Kind → Option Key
  | .file k => some k
  | _ => none
def Kind.word? : Kind → Option Key
  | .word k => some k
  | _ => none
def Kind.adds? : Kind → Option Key
  | .adds k _ => some k
  | _ => none

theorem kind_of {f : Kind → Option α} {kw : Bytes} {x : α} (h : (kindOf kw).bind (fun y => f y.1) = some x) :
    ∃ k b, kindOf kw = some (k, b) ∧ f k = some x := by
  rw [Option.bind_eq_some_iff] at h
  obtain ⟨y, h1, h2⟩ := h
  exact ⟨y.1, y.2, h1, h2⟩

theorem mayMatch_iff (kw : Bytes) : MayMatch kw ↔ (kindOf kw).any (·.2) = true := by
  constructor
  · rintro ⟨k, h⟩; simp [h]
  · intro h
    cases hk : kindOf kw with
    | none => rw [hk] at h; cases h
    | some x => rw [hk] at h; exact ⟨x.1, by rw [hk]; simp only [Option.any_some] at h; rw [← h]⟩

theorem manual_match : ∀ kw ∈ manual, (kindOf kw).any (·.2) = decide (kw ∈ manualMatch ++ alsoMatch) := by decide +kernel

/-- C77: every keyword of the manual is known, and those that may stand in a Match block are those the manual lists, and four
others. -/
theorem C77_manual : ∀ kw ∈ manual, (kindOf kw).isSome ∧ (MayMatch kw ↔ kw ∈ manualMatch ++ alsoMatch) := by
  intro kw h
  have h1 : ∀ kw ∈ manual, (kindOf kw).isSome = true := by decide +kernel
  refine ⟨h1 kw h, ?_⟩
  rw [mayMatch_iff, manual_match kw h]
  simp

theorem choices_ok : ∀ x ∈ choices, ∃ t, ((kindOf x.1).bind fun y => y.1.multi?) = some (x.2.1, t) ∧
    ∀ w ∈ x.2.2, multistate t w.1 = some w.2 ∧ lower w.1 = w.1 ∧ w.1 ≠ [] := by
  simp only [choices, List.forall_mem_cons, List.not_mem_nil, false_implies, implies_true, and_true]
  and_intros <;> exact ⟨_, rfl, by decide +kernel⟩

theorem multistate_lower {t : List (Bytes × Int)} {v w : Bytes} (h : lower v = lower w) : multistate t v = multistate t w := by
  simp only [multistate, same, h]

theorem said_of {E : Env} {line kw str : Bytes} {args : List Bytes} {k : Kind} {b : Bool} (hl : Line line kw str args)
    (hk : kindOf kw = some (k, b)) : said E line = (settings E k str args).getD [] := by
  simp [said, hl.1, hl.2, hk]

/-- C77: a keyword with a choice of words sets its option to what the word stands for, in any case. -/
theorem C77_choice {E : Env} {line str v w : Bytes} {n : Int} (x : Bytes × Key × List (Bytes × Int)) (hx : x ∈ choices)
    (hl : Line line x.1 str [v]) (hw : (w, n) ∈ x.2.2) (hv : lower v = w) : said E line = [.int x.2.1 n] := by
  obtain ⟨t, h1, h2⟩ := choices_ok x hx
  obtain ⟨k, b, hk, hk'⟩ := kind_of h1
  cases k with
  | multi k' t' =>
    cases hk'
    obtain ⟨e1, e2, e3⟩ := h2 _ hw
    have hne : v ≠ [] := by rintro rfl; exact e3 hv.symm
    rw [said_of hl hk]
    simp [settings, Conf.arg1, hne, settings.cut, multistate_lower (show lower v = lower w by rw [hv, e2]), e1]
  | _ => cases hk'

theorem counts_ok : ∀ x ∈ counts, ((kindOf x.1).bind fun y => y.1.int?) = some x.2 := by decide +kernel
theorem times_ok : ∀ x ∈ times, ((kindOf x.1).bind fun y => y.1.time?) = some x.2 := by decide +kernel
theorem files_ok : ∀ x ∈ files, ((kindOf x.1).bind fun y => y.1.file?) = some x.2 := by decide +kernel
theorem words_ok : ∀ x ∈ wordsOf, ((kindOf x.1).bind fun y => y.1.word?) = some x.2 := by decide +kernel
theorem names_ok : ∀ x ∈ namesOf, ((kindOf x.1).bind fun y => y.1.adds?) = some x.2 := by decide +kernel

/-- C77: a keyword with a number -/
theorem C77_count {E : Env} {line str v : Bytes} {n : Int} (x : Bytes × Key) (hx : x ∈ counts) (hl : Line line x.1 str [v]) (hv : v ≠ [])
    (hn : strtonum v 0 2147483647 = some n) : said E line = [.int x.2 n] := by
  obtain ⟨k, b, hk, hk'⟩ := kind_of (counts_ok x hx)
  cases k with
  | int k' => cases hk'; rw [said_of hl hk]; simp [settings, Conf.arg1, hv, settings.cut, intValue, hn]
  | _ => cases hk'

/-- C77: a keyword with a time -/
theorem C77_time {E : Env} {line str v : Bytes} (x : Bytes × Key) (hx : x ∈ times) (hl : Line line x.1 str [v]) (hv : v ≠ [])
    (hn : Misc.Time.convtime v ≠ -1) : said E line = [.int x.2 (Misc.Time.convtime v)] := by
  obtain ⟨k, b, hk, hk'⟩ := kind_of (times_ok x hx)
  cases k with
  | time k' => cases hk'; rw [said_of hl hk]; simp [settings, Conf.arg1, hv, settings.cut, timeValue, hn]
  | _ => cases hk'

/-- C77: a keyword with a file; "none" in any case is none -/
theorem C77_file {E : Env} {line str v : Bytes} (x : Bytes × Key) (hx : x ∈ files) (hl : Line line x.1 str [v]) (hv : v ≠ []) :
    said E line = [.str x.2 (if lower v = b!"none" then b!"none" else E.path v)] := by
  obtain ⟨k, b, hk, hk'⟩ := kind_of (files_ok x hx)
  cases k with
  | file k' =>
    cases hk'
    rw [said_of hl hk]
    by_cases h : lower v = b!"none" <;> simp [settings, Conf.arg1, hv, settings.cut, pathOf, same, h]
  | _ => cases hk'

/-- C77: a keyword with a word -/
theorem C77_word {E : Env} {line str v : Bytes} (x : Bytes × Key) (hx : x ∈ wordsOf) (hl : Line line x.1 str [v]) (hv : v ≠ []) :
    said E line = [.str x.2 v] := by
  obtain ⟨k, b, hk, hk'⟩ := kind_of (words_ok x hx)
  cases k with
  | word k' => cases hk'; rw [said_of hl hk]; simp [settings, Conf.arg1, hv, settings.cut]
  | _ => cases hk'

/-- C77: a keyword with names, if the line is accepted, adds all of them. -/
theorem C77_names {E : Env} {line str : Bytes} {args : List Bytes} (x : Bytes × Key) (hx : x ∈ namesOf) (hl : Line line x.1 str args) {k : Kind}
    {s : List Setting} (h1 : Says x.1 k) (h2 : settings E k str args = some s) : s = [.add x.2 args none] ∧ args ≠ [] := by
  obtain ⟨k', b, hk, hk'⟩ := kind_of (names_ok x hx)
  obtain ⟨b', h3, _⟩ := h1
  rw [hk] at h3
  cases h3
  cases k with
  | adds k'' c =>
    cases hk'
    simp only [settings] at h2
    split at h2
    · rename_i h4
      cases h2
      simp only [ne_eq, Bool.and_eq_true, decide_eq_true_eq] at h4
      exact ⟨rfl, by simpa using h4.1⟩
    · cases h2
  | _ => cases hk'

/-- C77: ForceCommand takes the rest of the line as it is. -/
theorem C77_command {E : Env} {line str : Bytes} {args : List Bytes} (hl : Line line b!"forcecommand" str args) :
    said E line = [.str .forceCommand (str.dropWhile isWs)] := by
  have : kindOf b!"forcecommand" = some (.command .forceCommand, true) := by rfl
  rw [said_of hl this]
  rfl

/-! ### Cases -/

example : Line b!"PermitRootLogin  No # never" b!"permitrootlogin" b!"No # never" [b!"No"] := ⟨by rfl, by rfl⟩
example : Line b!"MaxAuthTries=3" b!"maxauthtries" b!"3" [b!"3"] ∧ strtonum b!"3" 0 2147483647 = some 3 := ⟨⟨by rfl, by rfl⟩, by rfl⟩
example : Line b!"LoginGraceTime 2m" b!"logingracetime" b!"2m" [b!"2m"] ∧ Misc.Time.convtime b!"2m" = 120 := ⟨⟨by rfl, by rfl⟩, by rfl⟩
example : Line b!"AllowUsers a b@h" b!"allowusers" b!"a b@h" [b!"a", b!"b@h"] := ⟨by rfl, by rfl⟩
example : Line b!"ForceCommand /bin/echo \"a  b\"" b!"forcecommand" b!"/bin/echo \"a  b\"" [b!"/bin/echo", b!"a  b"] := ⟨by rfl, by rfl⟩

end Verif.SrvConf
