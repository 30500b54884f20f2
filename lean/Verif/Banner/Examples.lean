/-
Concrete cases for C88.
-/
import Verif.Banner.Props

namespace Verif.Banner
open Verif

-- a client reads past a greeting, a server does not
example : exchange false b!"hello\r\n\nSSH-2.0-dropbear_2022.83\r\nrest" = .ok b!"SSH-2.0-dropbear_2022.83" [] b!"rest" := by
  decide +kernel
example : exchange true b!"hello\r\nSSH-2.0-dropbear_2022.83\r\n" = .invalid := by decide +kernel
example : exchange true b!"SSH-1.99-OpenSSH_6.6\n" = .ok b!"SSH-1.99-OpenSSH_6.6" [.newOpenSSH, .curve25519Pad, .sigType] [] := by
  decide +kernel
example : exchange true b!"SSH-1.5-x\n" = .mismatch := by decide +kernel
example : exchange true b!"SSH-2.0-\n" = .invalid := by decide +kernel
example : exchange true b!"SSH-2.0-a\rb\n" = .invalid := by decide +kernel
example : exchange true b!"SSH-2.0-Probe-1\n" = .dropped := by decide +kernel
example : exchange false b!"SSH-2.0-Probe-1\n" = .ok b!"SSH-2.0-Probe-1" [.probe] [] := by decide +kernel
example : exchange true b!"SSH-2.0-x" = .ended := by decide +kernel
-- the form is not checked strictly
example : exchange true b!"SSH- +2. 007-x\n" = .ok b!"SSH- +2. 007-x" [] [] := by decide +kernel

-- the hypotheses of `C88_accept` can be met, with and without lines in front
example : exchange false ([(b!"hello", 1)].flatMap lineText ++ (identText b!"2" b!"0" b!"x" ++ (List.replicate 1 13 ++ 10 :: b!"r"))) =
    .ok (identText b!"2" b!"0" b!"x") [] b!"r" := by
  have h := C88_accept (server := false) (pre := [(b!"hello", 1)]) (k := 1) (a := b!"2") (b := b!"0") (sw := b!"x") (rest := b!"r")
    (by
      intro l hl
      rw [List.mem_singleton] at hl
      subst hl
      exact ⟨⟨by decide, by decide⟩, fun h => by
        have := (isIdent_iff _).mpr h
        revert this; decide⟩)
    (by decide) (fun h => by cases h) ⟨by decide, by decide⟩ ⟨by decide, by decide⟩ ⟨by decide, by decide⟩ (by decide) (by decide)
    (by decide)
  rw [h]
  decide +kernel

-- those of `C88_both`
example : Clean (ourVersion (some b!"Debian-5")) := ⟨by decide, by decide⟩
example : sent (some b!"Debian-5") = b!"SSH-2.0-OpenSSH_10.0 Debian-5\r\n" := by decide

-- those of `C88_kex`
example : kexProposal [.curve25519Pad] b!"sntrup761x25519-sha512,curve25519-sha256@libssh.org,ecdh-sha2-nistp256" =
    some b!"sntrup761x25519-sha512,ecdh-sha2-nistp256" := by decide +kernel
example : kexProposal [.oldDhGex] b!"diffie-hellman-group-exchange-sha256" = none := by decide +kernel

end Verif.Banner
