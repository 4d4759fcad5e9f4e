import Verif.Spec.Installer
import Verif.Spec.History
import Verif.Spec.BootLoader
/-!
# Specification: a boot partition that has suffered
-/
namespace Verif.Tool
open Verif Generation

/-- Any number of boot entries, kernels and initrds have disappeared. Anything may have happened to the other files, among
them the boot loader, its configuration and the measurements. -/
def Lost (esp : Path) (fs fs' : Fs) : Prop :=
  ∀ p, (IsEntry esp p ∨ nixosDir esp <+: p) → fs'.get p = fs.get p ∨ fs'.get p = none

/-- Any number of files and directories have disappeared, a directory with all that was in it. -/
structure Gone (fs fs' : Fs) : Prop where
  kept : ∀ p, fs'.get p = fs.get p ∨ fs'.get p = none
  tree : fs'.Tree

/-- The machine can be booted: both boot loaders are there and signed, each generation has a boot entry that boots it, and
all are measured. -/
structure Working (world env : Env) (cfg : Config) (fs : Fs) : Prop where
  loaders : ∀ q, IsLoader cfg q → ∃ source data, env.store (loaderSource cfg) = some source ∧ fs.fileAt q = some data ∧
    (SignedBy env cfg.signer source data ∨ ValidSignature env cfg.signer data)
  generations : ∀ g, Considers env cfg g → ∃ p, IsEntry cfg.esp p ∧ Boots world cfg.esp fs g p
  measured : ∀ g, Considers env cfg g → ∀ dir, cfg.pcrlockDirectory = some dir → (fs.get (measurementFile dir g)).isSome

/-- Nothing has disappeared, but one of the files has another content. -/
def DamagedAt (p : Path) (fs fs' : Fs) : Prop :=
  (∃ d d', fs.fileAt p = some d ∧ fs'.fileAt p = some d' ∧ d ≠ d') ∧ ∀ q, q ≠ p → fs'.get q = fs.get q

/-- Any number of kernels and initrds have another content. -/
def Garbled (esp : Path) (fs fs' : Fs) : Prop :=
  ∀ p, fs'.get p = fs.get p ∨ nixosDir esp <+: p ∧ ∃ d d', fs.get p = some (.file d) ∧ fs'.get p = some (.file d')

/-- There is nothing at `p`, or a file with the hash `h`. -/
def Undamaged (env : Env) (f : Fs) (p : Path) (h : Bytes) : Prop := f.get p = none ∨ Present env f p h

end Verif.Tool
