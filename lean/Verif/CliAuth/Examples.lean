/-
Concrete runs of the client, and what does not hold.
-/
import Verif.CliAuth.Order
import Verif.CliAuth.Detail
import Verif.PubKey.Examples

namespace Verif.CliAuth
open Verif Wire Text
open _root_.Verif.PubKey (Key Kind Curve Pub toBlob toy edKey caKey skKey certBlob fromBlob)

/-- The certificate that goes with `edKey`. -/
def theCert : Key := (certBlob.bind (fromBlob toy)).getD ⟨edKey, none⟩

def plainKey : Key := ⟨edKey, none⟩
def otherKey : Key := ⟨caKey, none⟩
def touchKey : Key := ⟨skKey, none⟩

def accepts : Bytes := b!"ssh-ed25519-cert-v01@openssh.com,ssh-ed25519,sk-ecdsa-sha2-nistp256@openssh.com"

def conf : Conf where
  user := b!"ann"
  localUser := b!"an"
  host := b!"h"
  hostAlias := none
  preferred := none
  hostbased := false
  pubkey := 3
  kbdint := true
  password := true
  batch := false
  prompts := 3
  accepted := accepts
  hostAccepted := accepts
  identitiesOnly := false
  skProvider := true
  minRsa := 1024
  devices := []
  idFiles := [(b!"k", some (plainKey, false)), (b!"l", none)]
  certFiles := []
  hostKeys := []
  sessionId := b!"id"
  hostKey := some otherKey
  oldId := false
  bugSig := false
  bug74 := false
  extInfoS := true

def aSig : Bytes := str b!"ssh-ed25519" ++ str b!"sig"

def world : World where
  keys := toy
  agent := some [(otherKey, b!"agent's")]
  present := fun _ _ => true
  load := fun _ f p => if f = b!"k" then (if p = b!"pass" then .ok plainKey else .wrongPass) else .error
  agentSign := fun _ _ _ _ => .ok aSig
  keySign := fun _ _ _ _ _ => .ok aSig
  hostSign := fun _ _ _ => some b!"host's"
  localName := some b!"here"

def accept : Msg := ⟨6, 3, str b!"ssh-userauth"⟩
def fail (l : Bytes) : Msg := ⟨51, 4, str l ++ [0]⟩
def partly (l : Bytes) : Msg := ⟨51, 4, str l ++ [1]⟩
def okKey (k : Key) : Msg := ⟨60, 5, str (sshKeyName k) ++ str ((toBlob k false).getD [])⟩
def success : Msg := ⟨52, 6, []⟩

def start (C : Conf) (answers : List (Option Bytes)) : St := init C ⟨0, none, false⟩ answers

theorem reach_run {C : Conf} {W : World} {s : St} (h : Reach C W s) (l : List Msg) : Reach C W (run C W s l) := by
  induction l generalizing s with
  | nil => exact h
  | cons m l ih => exact ih (.step m h)

/-! A key of the agent is refused, the key of the file is good, with a passphrase. -/

def keyRun : St := run conf world (start conf [some b!"no", some b!"pass"])
  [accept, fail b!"publickey,password", fail b!"publickey,password", okKey plainKey, success]

/-- `C106_first`, `C107_listed`, `C107_offered`, `C108_sent`: the hypotheses can be met. -/
example : keyRun.status = .success ∧ offers conf keyRun.out = 2 ∧ keyRun.keys.length = 3 ∧ keyRun.method = .publickey := by
  decide +kernel

/-- `C107_once`: no more than the three keys. -/
example : total conf world = 3 := rfl

/-- The data that is signed. -/
def signedFor : Bytes :=
  str b!"id" ++ [50] ++ str b!"ann" ++ str b!"ssh-connection" ++ str b!"publickey" ++ [1] ++ str b!"ssh-ed25519" ++
    str ((toBlob plainKey false).getD [])

/-- The passphrase is asked for until it is right, the data is signed, and what was signed is sent with the signature. -/
example : keyRun.out.drop 4 = [
    .load b!"k" [],
    .prompt b!"Enter passphrase for key 'k': " false, .load b!"k" b!"no",
    .prompt b!"Enter passphrase for key 'k': " false, .load b!"k" b!"pass",
    .sign (.file b!"k" plainKey) signedFor b!"ssh-ed25519",
    .packet 50 (str b!"ann" ++ str b!"ssh-connection" ++ str b!"publickey" ++ [1] ++ str b!"ssh-ed25519" ++
      str ((toBlob plainKey false).getD []) ++ str aSig)] := by
  decide +kernel

/-- `C108_agrees`: the data is as it should be. -/
example : Signed conf false plainKey b!"ssh-ed25519" signedFor :=
  ⟨(toBlob plainKey false).getD [], rfl, .inl ⟨by simp, rfl⟩⟩

/-- The server's key is in it if the server knows the extension. -/
example : signedData conf { start conf [] with hasHostbound := true } plainKey b!"ssh-ed25519" =
    some (str b!"id" ++ [50] ++ str b!"ann" ++ str b!"ssh-connection" ++ str b!"publickey-hostbound-v00@openssh.com" ++ [1] ++
      str b!"ssh-ed25519" ++ str ((toBlob plainKey false).getD []) ++ str ((toBlob otherKey false).getD [])) := rfl

/-! Passwords and prompts. -/

def pwRun (n : Nat) : St := run conf world (start conf [some b!"a", some b!"b", some b!"c", some b!"d"])
  (accept :: List.replicate n (fail b!"password"))

/-- `C106_attempts`: three passwords, and then the end. -/
example : (pwRun 3).status = .running ∧ passwords conf (pwRun 3).out = 3 ∧ (pwRun 4).status = .ended ∧
    passwords conf (pwRun 4).out = 3 := by
  decide +kernel

/-- `C106_progress`, `C106_gives_up`, `C106_given_up`: the hypotheses can be met. -/
example : (pwRun 2).status = .running ∧ (pwRun 2).started = true ∧ Named b!"password" b!"password" ∧
    (pwRun 4).off = [.password] := by
  refine ⟨by decide +kernel, by decide +kernel, ⟨.inl rfl, by decide⟩, by decide +kernel⟩

def change : Msg := ⟨60, 5, str b!"Too old." ++ str []⟩

/-- A new password: the two do not agree at first. -/
example : ((run conf world (start conf [some b!"a", some b!"o", some b!"x", some b!"y", some b!"n", some b!"n"])
    [accept, fail b!"password", change]).out.drop 4) = [
    .shown b!"Too old.",
    .prompt b!"Enter ann@h's old password: " false,
    .prompt b!"Enter ann@h's new password: " false, .prompt b!"Retype ann@h's new password: " false,
    .prompt b!"Enter ann@h's new password: " false, .prompt b!"Retype ann@h's new password: " false,
    request conf b!"password" ([1] ++ str b!"o" ++ str b!"n")] := by
  decide +kernel

def questions : Msg := ⟨60, 5, str [] ++ str b!"Hello" ++ str [] ++ be 4 2 ++ str b!"One?" ++ [0] ++ str b!"Two?" ++ [1]⟩

/-- `C106_preferences`: the defaults, and a list of the user's. -/
example : preferredList conf = b!"publickey,keyboard-interactive,password" ∧
    preferredList { conf with preferred := some b!"password,publickey" } = b!"password,publickey" := by
  decide +kernel

def asking : St := run conf world (start conf [some b!"a", none]) [accept, fail b!"keyboard-interactive"]

/-- `C109_questions`: the hypotheses can be met; they are not with anything after the questions. -/
example : asking.slot = .infoReq ∧ asking.status = .running ∧ (step conf world asking questions).status = .running ∧
    (step conf world asking ⟨60, 5, questions.payload ++ [0]⟩).status ≠ .running := by
  decide +kernel

/-- Two questions, two answers; who asks is in the prompts. -/
example : ((run conf world (start conf [some b!"a", none])
    [accept, fail b!"keyboard-interactive", questions]).out.drop 3) = [
    .shown b!"Hello", .prompt b!"(ann@h) One?" false, .prompt b!"(ann@h) Two?" true,
    .packet 61 (be 4 2 ++ str b!"a" ++ str [])] := by
  decide +kernel

/-- `C109_unexpected`: success before the service has been accepted, or questions that were not asked for. -/
example : (run conf world (start conf []) [success]).status = .ended ∧
    (run conf world (start conf []) [accept, questions]).status = .ended := by
  decide +kernel

/-- `C107_once`: with partial success the keys are offered again. -/
example : offers conf (run conf world (start conf [])
    [accept, fail b!"publickey", fail b!"publickey", partly b!"publickey", fail b!"publickey"]).out = 4 := by
  decide +kernel

/-! The host's keys. -/

def hostConf : Conf := { conf with hostbased := true, hostKeys := [none, some otherKey] }

/-- `C106_attempts`: one key, one request. -/
example : hostbaseds hostConf (run hostConf world (start hostConf []) [accept, fail b!"hostbased"]).out = 1 ∧
    (run hostConf world (start hostConf []) [accept, fail b!"hostbased", fail b!"hostbased"]).status = .ended := by
  decide +kernel

/-! ### What does not hold -/

/-- In batch mode the user is asked for the PIN of a security key. -/
def batchConf : Conf := { conf with batch := true, idFiles := [(b!"sk", some (touchKey, false))] }

def batchWorld : World := { world with
  agent := none
  load := fun _ _ _ => .ok touchKey
  keySign := fun _ _ _ _ pin => if pin = none then .wrongPin else .error }

theorem C106_batch_original_false : ¬ ∀ (C : Conf) (W : World) (s : St), Reach C W s → C.batch = true → ∀ a ∈ s.out, ¬ isPrompt a := by
  intro h
  have hr := reach_run (C := batchConf) (W := batchWorld) (.start ⟨0, none, false⟩ [some b!"1234"])
    [accept, fail b!"publickey", okKey touchKey]
  have hm : Act.prompt b!"Enter PIN for sk-ecdsa-sha2-nistp256@openssh.com key sk: " false ∈
      (run batchConf batchWorld (init batchConf ⟨0, none, false⟩ [some b!"1234"]) [accept, fail b!"publickey", okKey touchKey]).out := by
    decide +kernel
  exact h _ _ _ hr rfl _ hm trivial

/-- A certificate whose private key is known by the name of its file only. -/
def nameConf : Conf := { conf with idFiles := [(b!"k", none)], certFiles := [(b!"k-cert.pub", theCert, false)] }

/-- `C108_signs_partial`: the file holds another key, and that is what signs for the certificate. -/
def nameWorld : World := { world with agent := none, load := fun _ _ _ => .ok otherKey }

/-- What is signed for the certificate. -/
def certData : Bytes :=
  str b!"id" ++ [50] ++ str b!"ann" ++ str b!"ssh-connection" ++ str b!"publickey" ++ [1] ++
    str b!"ssh-ed25519-cert-v01@openssh.com" ++ str ((toBlob theCert false).getD [])

theorem C108_signs_original_false : ∃ (C : Conf) (W : World) (s : St) (k q : Key) (alg data f : Bytes), Reach C W s ∧
    Signed C s.hasHostbound k alg data ∧ Act.sign (.file f q) data alg ∈ s.out ∧ q.pub ≠ k.pub :=
  ⟨nameConf, nameWorld, run nameConf nameWorld (start nameConf []) [accept, fail b!"publickey", okKey theCert], theCert, otherKey,
    b!"ssh-ed25519-cert-v01@openssh.com", certData, b!"k", reach_run (.start _ _) _,
    ⟨(toBlob theCert false).getD [], by decide +kernel, .inl ⟨by decide +kernel, by decide +kernel⟩⟩,
    by decide +kernel, by decide +kernel⟩

/-- A signature by another algorithm, and the client dereferences a null pointer. -/
def crashWorld : World := { world with agent := none, load := fun _ _ _ => .ok plainKey, keySign := fun _ _ _ _ _ => .algUnsupported }

theorem C108_crash_original_false : ∃ (C : Conf) (W : World) (s : St), Reach C W s ∧ s.status = .crashed :=
  ⟨nameConf, crashWorld, run nameConf crashWorld (start nameConf []) [accept, fail b!"publickey", okKey theCert],
    reach_run (.start _ _) _, by decide +kernel⟩

end Verif.CliAuth
