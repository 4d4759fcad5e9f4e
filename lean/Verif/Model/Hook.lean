import Verif.Model.Install
/-!
# The installation hook of the NixOS module

nix/modules/lanzaboote.nix 20-54. The script is made by `writeShellScriptBin`, so there is no `set -e` in it: each command
is run whatever became of the ones before, and the exit status of the script is that of its last command.
-/
namespace Verif.Tool
open Verif

/-- The calls of the installer, one for each boot partition (lanzaboote.nix 25-44, 48): the exit status of the latest
command, and the disk. Each call has its own surroundings, as time passes between them. -/
def installEach : List (Env × Cli) → Nat × Fs → Nat × Fs
  | [], s => s
  | (env, c) :: rest, s => installEach rest ((program env c s.2).1, (program env c s.2).2.fs)

/-- The script `lzbt` (lanzaboote.nix 46-54). With measured boot `systemd-pcrlock make-policy` is called at the end;
`policy` is the exit status of that. (The policy that it writes is not on the modelled disk.) -/
def hook (policy : Option (Fs → Nat)) (calls : List (Env × Cli)) (fs : Fs) : Nat × Fs :=
  let s := installEach calls (0, fs)
  match policy with
  | none => s
  | some makePolicy => (makePolicy s.2, s.2)

end Verif.Tool
