import Verif.Spec.Installer
/-!
# Specification: how many files there are

The boot partition is small. Files that nobody needs any more must not pile up on it.
-/
namespace Verif.Tool
open Verif Generation

/-- No more than `k` different paths have the property. -/
def AtMost (P : Path → Prop) (k : Nat) : Prop := ∀ ps : List Path, ps.Nodup → (∀ p ∈ ps, P p) → ps.length ≤ k

/-- Something is there, below the directory, at any depth. -/
def Below (fs : Fs) (dir p : Path) : Prop := dir <+: p ∧ p ≠ dir ∧ (fs.get p).isSome

/-- Something named `nixos-…` is there, below the directory, at any depth. -/
def NixosBelow (fs : Fs) (dir p : Path) : Prop :=
  ∃ q n, p = q ++ [n] ∧ dir <+: q ∧ lit "nixos-" <+: n ∧ (fs.get p).isSome

/-- At most `n` boot entries, `2 n` kernels and initrds, and `n` measurements are there. -/
structure FilesFor (n : Nat) (cfg : Config) (fs : Fs) : Prop where
  entries : AtMost (NixosBelow fs (linuxDir cfg.esp)) n
  kernels : AtMost (Below fs (nixosDir cfg.esp)) (2 * n)
  measurements : ∀ dir, cfg.pcrlockDirectory = some dir → AtMost (Below fs (lockDir dir)) n

end Verif.Tool
