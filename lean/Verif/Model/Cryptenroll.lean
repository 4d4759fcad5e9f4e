import Verif.Model.Hook
/-!
# Automatic enrolment of the policy for the disk encryption

The service `auto-cryptenroll` of nix/modules/lanzaboote.nix, whose `ExecStart` has two commands: the second is started
only if the exit status of the first is 0.
-/
namespace Verif.Tool
open Verif

/-- The service (lanzaboote.nix 591-625): the installation hook, which with measured boot ends with
`systemd-pcrlock make-policy`, then `systemd-cryptenroll`, which replaces what the TPM has for unlocking the encrypted disk
by the policy. The result is the disk of which the policy was made that is enrolled, if one is enrolled. -/
def autoCryptenroll (makePolicy : Fs → Nat) (calls : List (Env × Cli)) (fs : Fs) : Option Fs :=
  let s := hook (some makePolicy) calls fs
  if s.1 = 0 then some s.2 else none

end Verif.Tool
