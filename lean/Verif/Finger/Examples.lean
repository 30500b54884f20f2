/-
Concrete cases for C138 and C139.
-/
import Verif.Finger.Props
import Verif.Finger.Art

namespace Verif.Finger.Examples
open Verif Verif.Finger

/-- Huima's test vectors for Bubble Babble -/
example : bubble [] = some b!"xexax" := by decide +kernel
example : bubble b!"1234567890" = some b!"xesef-disof-gytuf-katof-movif-baxux" := by decide +kernel
example : bubble b!"Pineapple" = some b!"xigak-nyryk-humil-bosek-sonax" := by decide +kernel

example : hex b!"MD5" [0x0a, 0xff, 0x30] = some b!"MD5:0a:ff:30" := by decide +kernel
example : b64 b!"SHA256" [0, 1, 2, 3] = some b!"SHA256:AAECAw" := by decide +kernel
example : b64 b!"SHA256" [] = some b!"SHA256:" := by decide +kernel

/-- the hypotheses of C138_distinct can be met -/
example : fingerprint .default b!"SHA256" [0, 1, 2, 3] b!"RSA" 3072 = some b!"SHA256:AAECAw" ∧ (58 : UInt8) ∉ b!"SHA256" ∧ (61 : UInt8) ∉ b!"SHA256" := by
  decide +kernel

/-- C138: Bubble Babble does not show the algorithm -/
theorem C138_babble_algorithm : ∃ alg alg' d s, alg ≠ alg' ∧ fingerprint .bubblebabble alg d b!"RSA" 3072 = some s ∧
    fingerprint .bubblebabble alg' d b!"RSA" 3072 = some s :=
  ⟨b!"SHA256", b!"SHA512", [], b!"xexax", by decide, by decide +kernel, by decide +kernel⟩

/-- a picture, and what its borders say -/
def small : Bytes := [0xd5, 0x3c, 0x81, 0x07, 0xe4]

example : (randomart b!"SHA256" small b!"ED25519" 256).map (·.take 19) = some b!"+--[ED25519 256]--+" := by decide +kernel
example : (randomart b!"SHA256" small b!"ED25519-CERT" 256).map (·.take 19) = some b!"+-[ED25519-CERT]--+" := by decide +kernel
example : (randomart b!"SHA256" small b!"ED25519" 256).map (·.drop 200) = some b!"+----[SHA256]-----+" := by decide +kernel
example : (visits small).length = 20 ∧ (visits small).getLastD (8, 4) ≠ (8, 4) := by decide +kernel

/-- C139: the test that the title fits is off by one: a title of 17 letters is cut, and its bracket lost. No type and size of keys now in use
gives one. -/
theorem C139_title_cut : ∃ type size, (b!"[" ++ type ++ b!" " ++ Scp.dec size ++ b!"]").length = 17 ∧
    (randomart b!"SHA256" small type size).map (·.take 19) = some b!"+[RSA-CERT 100000-+" :=
  ⟨b!"RSA-CERT", 100000, by decide +kernel, by decide +kernel⟩

end Verif.Finger.Examples
