/- The client's configuration: what the keywords of ssh_config(5) set. -/
import Verif.Conf.Spec

namespace Verif.Conf
open Verif Match Num

/-! ### What ssh_config(5) says -/

def yesNo : List (Bytes × Int) := [(b!"yes", 1), (b!"no", 0)]

/-- Keywords with a choice of words, and their numbers in readconf.h, misc.h and <sys/socket.h> -/
def choices : List (Bytes × Key × List (Bytes × Int)) := [
  (b!"addressfamily", .addressFamily, [(b!"any", 0), (b!"inet", 2), (b!"inet6", 10)]), (b!"batchmode", .batchMode, yesNo),
  (b!"canonicalizefallbacklocal", .canonicalizeFallback, yesNo),
  (b!"canonicalizehostname", .canonicalize, [(b!"no", 0), (b!"yes", 1), (b!"always", 2)]), (b!"checkhostip", .checkHostIP, yesNo),
  (b!"clearallforwardings", .clearForwardings, yesNo), (b!"compression", .compression, [(b!"yes", 2), (b!"no", 0)]),
  (b!"controlmaster", .controlMaster, [(b!"no", 0), (b!"yes", 1), (b!"auto", 2), (b!"ask", 3), (b!"autoask", 4)]),
  (b!"enableescapecommandline", .escapeCommandline, yesNo), (b!"enablesshkeysign", .enableKeysign, yesNo),
  (b!"exitonforwardfailure", .exitOnForwardFailure, yesNo), (b!"forkafterauthentication", .forkAfterAuth, yesNo),
  (b!"forwardx11", .forwardX11, yesNo), (b!"forwardx11trusted", .forwardX11Trusted, yesNo), (b!"gatewayports", .gatewayPorts, yesNo),
  (b!"hashknownhosts", .hashKnownHosts, yesNo), (b!"hostbasedauthentication", .hostbasedAuth, yesNo),
  (b!"identitiesonly", .identitiesOnly, yesNo), (b!"kbdinteractiveauthentication", .kbdintAuth, yesNo),
  (b!"nohostauthenticationforlocalhost", .noHostAuthLocalhost, yesNo), (b!"passwordauthentication", .passwordAuth, yesNo),
  (b!"permitlocalcommand", .permitLocalCommand, yesNo), (b!"proxyusefdpass", .proxyUseFdpass, yesNo),
  (b!"pubkeyauthentication", .pubkeyAuth, [(b!"no", 0), (b!"unbound", 1), (b!"host-bound", 2), (b!"yes", 3)]),
  (b!"requesttty", .requestTTY, [(b!"auto", 0), (b!"no", 1), (b!"yes", 2), (b!"force", 3)]),
  (b!"sessiontype", .sessionType, [(b!"none", 0), (b!"subsystem", 1), (b!"default", 2)]), (b!"stdinnull", .stdinNull, yesNo),
  (b!"streamlocalbindunlink", .bindUnlink, yesNo),
  (b!"stricthostkeychecking", .strictHostKey, [(b!"no", 0), (b!"off", 0), (b!"accept-new", 1), (b!"yes", 2), (b!"ask", 3)]),
  (b!"tcpkeepalive", .tcpKeepAlive, yesNo),
  (b!"tunnel", .tunnel, [(b!"no", 0), (b!"yes", 1), (b!"point-to-point", 1), (b!"ethernet", 2)]),
  (b!"updatehostkeys", .updateHostkeys, [(b!"no", 0), (b!"yes", 1), (b!"ask", 2)]),
  (b!"verifyhostkeydns", .verifyHostKeyDNS, [(b!"no", 0), (b!"yes", 1), (b!"ask", 2)]), (b!"visualhostkey", .visualHostKey, yesNo)]

/-- Keywords with a number -/
def counts : List (Bytes × Key) := [(b!"canonicalizemaxdots", .canonicalizeMaxDots), (b!"connectionattempts", .connectionAttempts),
  (b!"numberofpasswordprompts", .passwordPrompts), (b!"requiredrsasize", .requiredRSASize), (b!"serveralivecountmax", .aliveCountMax)]

/-- Keywords with a time -/
def times : List (Bytes × Key) := [(b!"connecttimeout", .connectTimeout), (b!"forwardx11timeout", .forwardX11Timeout),
  (b!"serveraliveinterval", .aliveInterval)]

/-- Keywords with a word -/
def wordsOf : List (Bytes × Key) := [(b!"bindaddress", .bindAddress), (b!"bindinterface", .bindInterface), (b!"controlpath", .controlPath),
  (b!"hostkeyalias", .hostKeyAlias), (b!"hostname", .hostname), (b!"ignoreunknown", .ignoreUnknown),
  (b!"kbdinteractivedevices", .kbdintDevices), (b!"pkcs11provider", .pkcs11Provider), (b!"preferredauthentications", .preferredAuths),
  (b!"revokedhostkeys", .revokedHostKeys), (b!"securitykeyprovider", .skProvider), (b!"tag", .tag), (b!"user", .user),
  (b!"xauthlocation", .xauthLocation)]

/-- Keywords with a command, which is the rest of the line -/
def commands : List (Bytes × Key) := [(b!"knownhostscommand", .knownHostsCommand), (b!"localcommand", .localCommand),
  (b!"remotecommand", .remoteCommand)]

/-- Keywords with a file, of which there may be several -/
def keyFiles : List (Bytes × Key) := [(b!"certificatefile", .certificateFile), (b!"identityfile", .identityFile)]

/-- Keywords with files, all in one line -/
def hostFiles : List (Bytes × Key) := [(b!"globalknownhostsfile", .globalKnownHosts), (b!"userknownhostsfile", .userKnownHosts)]

/-- What a line with this keyword says. -/
def sets (E : Env) (ignored : Option Bytes) (user : Bool) (kw str : Bytes) (args : List Bytes) : Option (List Setting) :=
  (kindOf ignored kw).bind fun k => settings E user k str args

/-! ### Proofs -/

def Kind.multi? : Kind → Option (Key × List (Bytes × Int))
  | .multi k t => some (k, t)
  | _ => none
def Kind.int? : Kind → Option Key
  | .int k => some k
  | _ => none
def Kind.time? : Kind → Option Key
  | .time k => some k
  | _ => none
def Kind.word? : Kind → Option Key
  | .string k => some k
  | _ => none
def Kind.command? : Kind → Option Key
  | .command k => some k
  | _ => none
def Kind.file? : Kind → Option Key
  | .file k => some k
  | _ => none
def Kind.array? : Kind → Option Key
  | .array k => some k
  | _ => none

theorem kind_of {f : Kind → Option α} {kw : Bytes} {x : α} (h : (kindOf none kw).bind f = some x) (ign : Option Bytes) :
    ∃ k, kindOf ign kw = some k ∧ f k = some x := by
  rw [Option.bind_eq_some_iff] at h
  obtain ⟨k, h1, h2⟩ := h
  refine ⟨k, ?_, h2⟩
  simp only [kindOf] at h1 ⊢
  split at h1
  · exact h1
  · cases h1

theorem choices_ok : ∀ x ∈ choices, ∃ t, (kindOf none x.1).bind Kind.multi? = some (x.2.1, t) ∧
    ∀ w ∈ x.2.2, multistate t w.1 = some w.2 ∧ lower w.1 = w.1 ∧ w.1 ≠ [] := by
  simp only [choices, List.forall_mem_cons, List.not_mem_nil, false_implies, implies_true, and_true]
  and_intros <;> exact ⟨_, rfl, by decide +kernel⟩

theorem counts_ok : ∀ x ∈ counts, (kindOf none x.1).bind Kind.int? = some x.2 := by decide +kernel
theorem times_ok : ∀ x ∈ times, (kindOf none x.1).bind Kind.time? = some x.2 := by decide +kernel
theorem words_ok : ∀ x ∈ wordsOf, (kindOf none x.1).bind Kind.word? = some x.2 := by decide +kernel
theorem commands_ok : ∀ x ∈ commands, (kindOf none x.1).bind Kind.command? = some x.2 := by decide +kernel
theorem keyFiles_ok : ∀ x ∈ keyFiles, (kindOf none x.1).bind Kind.file? = some x.2 := by decide +kernel
theorem hostFiles_ok : ∀ x ∈ hostFiles, (kindOf none x.1).bind Kind.array? = some x.2 := by decide +kernel

theorem multistate_lower {t : List (Bytes × Int)} {v w : Bytes} (h : lower v = lower w) : multistate t v = multistate t w := by
  simp only [multistate, same, h]

/-- C45: a keyword with a choice of words sets its option to what the word stands for, in any case. -/
theorem C45_choice {E : Env} {ign : Option Bytes} {user : Bool} {str v w : Bytes} {n : Int} (x : Bytes × Key × List (Bytes × Int))
    (hx : x ∈ choices) (hw : (w, n) ∈ x.2.2) (hv : lower v = w) : sets E ign user x.1 str [v] = some [.int x.2.1 n] := by
  obtain ⟨t, h1, h2⟩ := choices_ok x hx
  obtain ⟨k, hk, hk'⟩ := kind_of h1 ign
  cases k with
  | multi k' t' =>
    cases hk'
    obtain ⟨e1, e2, e3⟩ := h2 _ hw
    have hne : v ≠ [] := by rintro rfl; exact e3 hv.symm
    simp [sets, hk, settings, arg1, hne, only, multistate_lower (show lower v = lower w by rw [hv, e2]), e1]
  | _ => cases hk'

/-- C45: a keyword with a number -/
theorem C45_count {E : Env} {ign : Option Bytes} {user : Bool} {str v : Bytes} {n : Int} (x : Bytes × Key) (hx : x ∈ counts) (hv : v ≠ [])
    (hn : strtonum v 0 2147483647 = some n) : sets E ign user x.1 str [v] = some [.int x.2 n] := by
  obtain ⟨k, hk, hk'⟩ := kind_of (counts_ok x hx) ign
  cases k with
  | int k' => cases hk'; simp [sets, hk, settings, arg1, hv, only, intValue, hn]
  | _ => cases hk'

/-- C45: a keyword with a time -/
theorem C45_time {E : Env} {ign : Option Bytes} {user : Bool} {str v : Bytes} (x : Bytes × Key) (hx : x ∈ times) (hv : v ≠ [])
    (h0 : v ≠ b!"none") (hn : Misc.Time.convtime v ≠ -1) :
    sets E ign user x.1 str [v] = some [.int x.2 (Misc.Time.convtime v)] := by
  obtain ⟨k, hk, hk'⟩ := kind_of (times_ok x hx) ign
  cases k with
  | time k' => cases hk'; simp [sets, hk, settings, arg1, hv, only, timeValue, hn, h0]
  | _ => cases hk'

/-- C45: a keyword with a word -/
theorem C45_word {E : Env} {ign : Option Bytes} {user : Bool} {str v : Bytes} (x : Bytes × Key) (hx : x ∈ wordsOf) (hv : v ≠ []) :
    sets E ign user x.1 str [v] = some [.str x.2 v] := by
  obtain ⟨k, hk, hk'⟩ := kind_of (words_ok x hx) ign
  cases k with
  | string k' => cases hk'; simp [sets, hk, settings, arg1, hv, only]
  | _ => cases hk'

/-- C45: a keyword with a command: the rest of the line as it is, after blanks and signs -/
theorem C45_command {E : Env} {ign : Option Bytes} {user : Bool} {str : Bytes} {args : List Bytes} (x : Bytes × Key) (hx : x ∈ commands) :
    sets E ign user x.1 str args = some [.str x.2 (str.dropWhile fun c => isWs c || c == 61)] := by
  obtain ⟨k, hk, hk'⟩ := kind_of (commands_ok x hx) ign
  cases k with
  | command k' => cases hk'; simp [sets, hk, settings]
  | _ => cases hk'

/-- C45: IdentityFile and CertificateFile add a file, which is the user's if the line is. -/
theorem C45_file {E : Env} {ign : Option Bytes} {user : Bool} {str v : Bytes} (x : Bytes × Key) (hx : x ∈ keyFiles) (hv : v ≠ []) :
    sets E ign user x.1 str [v] = some [.addFile x.2 v user 100] := by
  obtain ⟨k, hk, hk'⟩ := kind_of (keyFiles_ok x hx) ign
  cases k with
  | file k' => cases hk'; simp [sets, hk, settings, arg1, hv, only]
  | _ => cases hk'

/-- C45: UserKnownHostsFile and GlobalKnownHostsFile give all files at once; "none" stands alone. -/
theorem C45_hosts {E : Env} {ign : Option Bytes} {user : Bool} {str : Bytes} {args : List Bytes} (x : Bytes × Key) (hx : x ∈ hostFiles)
    {l : List Setting} (h : sets E ign user x.1 str args = some l) :
    l = [.array x.2 args 32] ∧ (∀ a ∈ args, a ≠ []) := by
  obtain ⟨k, hk, hk'⟩ := kind_of (hostFiles_ok x hx) ign
  cases k with
  | array k' =>
    cases hk'
    simp only [sets, hk, Option.bind_some, settings] at h
    split at h
    · rename_i h1
      cases h
      simp only [Bool.and_eq_true, List.all_eq_true, decide_eq_true_eq, ne_eq] at h1
      exact ⟨rfl, h1.1⟩
    · cases h
  | _ => cases hk'

/-! ### Cases -/

example : (b!"stricthostkeychecking", Key.strictHostKey, [(b!"no", 0), (b!"off", 0), (b!"accept-new", 1), (b!"yes", 2), (b!"ask", 3)]) ∈ choices ∧
    lower b!"Accept-NEW" = b!"accept-new" := by decide +kernel
example : strtonum b!"12" 0 2147483647 = some 12 ∧ Misc.Time.convtime b!"1h" = 3600 := ⟨by rfl, by rfl⟩

end Verif.Conf
