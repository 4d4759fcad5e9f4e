import Verif.Spec.Installer
import Verif.Spec.Spelling
/-!
# Specification: the advice about malformed generations

If a generation cannot be read, the installer collects no garbage, and tells the user which generations to
delete.
-/
namespace Verif.Tool
open Verif Generation

/-- The message that tells to delete the generations `ns`. -/
def adviceText (ns : List Nat) : Str :=
  "Garbage collection is disabled because you have malformed NixOS generations that do\nnot contain a readable bootspec document.\n\nRemove the malformed generations to re-enable garbage collection with\n`nix-env --delete-generations ".toList ++
    List.intercalate " ".toList (ns.map Spelling.decimal) ++ "`\n".toList

/-- With these numbers of the links, `p` is one of the `configurationLimit` newest links on the command
line; any link is if the limit is 0. -/
def Newest (cfg : Config) (num : Path → Nat) (p : Path) : Prop :=
  p ∈ cfg.links ∧
    (cfg.configurationLimit = 0 ∨ (cfg.links.map num).countP (num p < ·) < cfg.configurationLimit)

/-- The same command line after `nix-env --delete-generations ns`. -/
def Config.without (cfg : Config) (num : Path → Nat) (ns : List Nat) : Config :=
  { cfg with links := cfg.links.filter fun p => decide (num p ∉ ns) }

end Verif.Tool
