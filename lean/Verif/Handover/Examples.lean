/-
Concrete cases for C140 and C141.
-/
import Verif.Handover.Props

namespace Verif.Handover.Examples
open Verif Verif.Handover
open _root_.Verif.KeyOpts (Opts)

/-- options with something of each kind -/
def opts : Opts :=
  ⟨true, false, true, false, true, true, 1700000000, false, some b!"root,ops", 3, some b!"date", [b!"A=b", b!"C="], [b!"host:22"], [], none, some b!"10.0.0.0/8",
    true, false⟩

example : Sound opts :=
  ⟨fun x h => (by injection h with h; subst h; decide), fun x h => (by injection h with h; subst h; decide), fun x h => (by cases h),
    fun x h => (by injection h with h; subst h; decide), by decide, by decide, by decide, by decide, by decide⟩
example : (serialise opts false).bind (fun s => deserialise (s ++ [7])) = some (opts, [7]) := by decide +kernel
example : ((serialise opts true).bind deserialise).map (fun x => (x.1.command, x.1.env, x.1.tun, x.1.portFwd)) = some (some b!"true", [], 3, true) := by
  decide +kernel
example : serialise opts true ≠ serialise opts false := by decide +kernel

/-- two ciphers and two MACs -/
def world : World where
  cipher n := if n = b!"aes128-ctr" then some ⟨0, 16, 16⟩ else if n = b!"aes128-gcm@openssh.com" then some ⟨16, 16, 12⟩ else none
  mac n := if n = b!"umac-64@openssh.com" then some ⟨16, true⟩ else if n = b!"hmac-sha1" then some ⟨20, false⟩ else none

def key16 : Bytes := [1, 2, 3, 4, 5, 6, 7, 8, 9, 10, 11, 12, 13, 14, 15, 16]
def key20 : Bytes := [1, 2, 3, 4, 5, 6, 7, 8, 9, 10, 11, 12, 13, 14, 15, 16, 17, 18, 19, 20]
def iv12 : Bytes := [0, 0, 0, 0, 0, 0, 0, 0, 0, 0, 0, 9]

def sending : Dir :=
  ⟨⟨b!"aes128-ctr", 1, 16, key16, [0, 0, 0, 0, 0, 0, 0, 0, 0, 0, 0, 0, 0, 0, 0, 0], some ⟨b!"hmac-sha1", 1, key20⟩, 2, b!"zlib@openssh.com"⟩,
    ⟨b!"aes128-ctr", key16, [0, 0, 0, 0, 0, 0, 0, 0, 0, 0, 0, 0, 0, 0, 0, 5]⟩, ⟨7, 40, 7, 640⟩, 1, false⟩
def receiving : Dir :=
  ⟨⟨b!"aes128-gcm@openssh.com", 1, 16, key16, [0, 0, 0, 0, 0, 0, 0, 0, 0, 0, 0, 0], none, 0, b!"none"⟩,
    ⟨b!"aes128-gcm@openssh.com", key16, iv12⟩, ⟨9, 50, 9, 800⟩, 1, false⟩

theorem sending_running : Running world sending where
  cipher := ⟨_, rfl, by decide, by decide, fun h => absurd rfl h, fun _ => ⟨_, _, rfl, rfl, rfl, by decide, rfl, by decide⟩⟩
  name := by decide
  enabled := by decide
  block := by decide
  ctx := ⟨rfl, rfl⟩
  comp := by decide
  count := by decide

theorem receiving_running : Running world receiving where
  cipher := ⟨⟨16, 16, 12⟩, rfl, by decide, by decide, fun _ => rfl, fun h => absurd h (by decide)⟩
  name := by decide
  enabled := by decide
  block := by decide
  ctx := ⟨rfl, rfl⟩
  comp := by decide
  count := by decide

def kex : Kex := ⟨16, b!"ssh-ed25519", 3, 0, 8, 1, [1], [2], b!"SSH-2.0-a", b!"SSH-2.0-b", [3, 1, 4], 0⟩
def st : St := ⟨kex, sending, receiving, 0, 0, [5, 5], [6], 0, false, false⟩

example : KexSound kex := ⟨by decide, by decide, by decide, by decide, by decide, by decide, by decide⟩

/-- the hypotheses of C141_continues are met, and what comes of it -/
example : (getState world st).isSome = true := by decide +kernel
def outcome (r : Res St) : Option (Bytes × Count × Bool × Bool × Bytes) :=
  match r with
  | .ok s => some (s.out.ctx.iv, s.out.count, s.out.compressing, s.inn.compressing, s.input)
  | _ => none
example : (getState world st).bind (fun b => outcome (apply world 100 [3, 1, 4] b)) = some (sending.ctx.iv, ⟨7, 0, 0, 640⟩, true, false, [5, 5]) := by
  decide +kernel

/-- another session id is refused -/
example : (getState world st).map (apply world 100 [3, 1, 5]) = some .refused := by decide +kernel
/-- and so are bytes that follow -/
example : (getState world st).map (fun b => setState world 100 (b ++ [0])) = some .refused := by decide +kernel

/-- C141: a process taken over can make the one that takes over divide by 0, or read past the end of a key: nothing checks the sizes that it sends. -/
theorem C141_safe_original_false :
    (∃ w now m, setState w now m = .undefined ∧
      ((kexFrom m).bind fun x => (keysFrom w x.2).bind fun y => (keysFrom w y.2).map fun z => z.1.block) = some 0) ∧
    ∃ w now m, setState w now m = .undefined ∧
      ((kexFrom m).bind fun x => (keysFrom w x.2).bind fun y => (keysFrom w y.2).map fun z => (z.1.block, z.1.mac)) =
        some (16, some ⟨b!"umac-64@openssh.com", 1, []⟩) := by
  constructor
  · exact ⟨world, 0, (getState world ⟨kex, sending, ⟨⟨b!"aes128-ctr", 1, 0, key16, key16, some ⟨b!"hmac-sha1", 1, key20⟩, 0, b!"none"⟩,
      ⟨b!"aes128-ctr", key16, key16⟩, ⟨0, 0, 0, 0⟩, 0, false⟩, 0, 0, [], [], 0, false, false⟩).getD [], by decide +kernel, by decide +kernel⟩
  · exact ⟨world, 0, (getState world ⟨kex, sending, ⟨⟨b!"aes128-ctr", 1, 16, key16, key16, some ⟨b!"umac-64@openssh.com", 1, []⟩, 0, b!"none"⟩,
      ⟨b!"aes128-ctr", key16, key16⟩, ⟨0, 0, 0, 0⟩, 0, false⟩, 0, 0, [], [], 0, false, false⟩).getD [], by decide +kernel, by decide +kernel⟩

end Verif.Handover.Examples
