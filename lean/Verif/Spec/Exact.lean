import Verif.Spec.MeasuredEntries
/-!
# Specification: what is on the boot partition after an update

It is determined by the generations that were to be installed, and not by what has happened to the partition before.
-/
namespace Verif.Tool
open Verif Generation StubName

/-- `p` is the place for the kernel or the initrd of the generation, and `d` its content. -/
def IsFileOf (world : Env) (esp : Path) (g : Gen) (p : Path) (d : Bytes) : Prop :=
  ∃ v, KernelVersion g.spec.kernel v ∧
    (world.store g.spec.kernel = some d ∧ p = caFile esp (lit "kernel-" ++ v) (world.sha.hash d) ∨
     InitrdOf world g.spec d ∧ p = caFile esp (lit "initrd-" ++ v) (world.sha.hash d))

/-- The generations have no secrets in their initrds, or always the same. -/
def SecretsStand (world env : Env) (cfg : Config) : Prop :=
  ∀ g, Considers env cfg g → ∀ d d', InitrdOf world g.spec d → InitrdOf world g.spec d' → d = d'

/-- On the disk are the generations that the run was to install, and nothing else. -/
structure Exactly (world env : Env) (cfg : Config) (key : Bytes) (f : Fs) : Prop where
  /-- In `EFI/nixos` there are the kernels and initrds, and nothing else. -/
  files : ∀ p, nixosDir cfg.esp <+: p → p ≠ nixosDir cfg.esp →
    ((f.get p).isSome ↔ ∃ g d, Considers env cfg g ∧ IsFileOf world cfg.esp g p d)
  /-- They have the right contents. -/
  contents : ∀ g p d, Considers env cfg g → IsFileOf world cfg.esp g p d →
    ∃ d', f.fileAt p = some d' ∧ (d' = d ∨ Collision world.sha d' d)
  /-- Each generation has one boot entry, which refers to its kernel and initrd and has its command line. -/
  entries : ∀ g, Considers env cfg g → ∃ n data kernel initrd v,
    (∀ n', IsNameOf world.uni world.sha g key n' ∧ (f.get (entryFile cfg.esp n')).isSome ↔ n' = n) ∧
    f.fileAt (entryFile cfg.esp n) = some data ∧ EntryFor world cfg.esp g data kernel initrd v
  /-- There are no other boot entries. -/
  only : ∀ q n, linuxDir cfg.esp <+: q → lit "nixos-" <+: n → (f.get (q ++ [n])).isSome →
    q = linuxDir cfg.esp ∧ ∃ g, Considers env cfg g ∧ IsNameOf world.uni world.sha g key n
  /-- There are the measurements of the generations, and no others. -/
  measurements : ∀ dir, cfg.pcrlockDirectory = some dir → ∀ p, lockDir dir <+: p → p ≠ lockDir dir →
    ((f.get p).isSome ↔ ∃ g, Considers env cfg g ∧ p = measurementFile dir g)
  /-- The configuration of the boot loader is the one that is configured. -/
  conf : ∃ d d', env.store cfg.loaderConfig = some d ∧ f.fileAt (confFile cfg) = some d' ∧
    (d' = d ∨ Collision env.sha d' d)

/-- The two disks differ in the counters of boot entries at most: there are the same kernels, initrds and measurements
on them, and each generation has one boot entry on either, with the same kernel, initrd and command line. (Files that
are the same by their SHA-256 are the same unless that has collided.) -/
structure SameInstalled (world env : Env) (cfg : Config) (key : Bytes) (f f' : Fs) : Prop where
  files : ∀ p, nixosDir cfg.esp <+: p → p ≠ nixosDir cfg.esp → f'.get p = f.get p ∨
    ∃ d d', f.get p = some (.file d) ∧ f'.get p = some (.file d') ∧ ∃ x, Collision world.sha d x ∨ Collision world.sha d' x
  entries : ∀ g, Considers env cfg g → ∃ n n' data data' kernel initrd v,
    (∀ m, IsNameOf world.uni world.sha g key m ∧ (f.get (entryFile cfg.esp m)).isSome ↔ m = n) ∧
    (∀ m, IsNameOf world.uni world.sha g key m ∧ (f'.get (entryFile cfg.esp m)).isSome ↔ m = n') ∧
    f.fileAt (entryFile cfg.esp n) = some data ∧ f'.fileAt (entryFile cfg.esp n') = some data' ∧
    EntryFor world cfg.esp g data kernel initrd v ∧ EntryFor world cfg.esp g data' kernel initrd v
  only : ∀ h ∈ [f, f'], ∀ q n, linuxDir cfg.esp <+: q → lit "nixos-" <+: n → (h.get (q ++ [n])).isSome →
    q = linuxDir cfg.esp ∧ ∃ g, Considers env cfg g ∧ IsNameOf world.uni world.sha g key n
  measurements : ∀ dir, cfg.pcrlockDirectory = some dir → ∀ p, lockDir dir <+: p → p ≠ lockDir dir →
    ((f.get p).isSome ↔ (f'.get p).isSome)
  conf : ∃ d d', f.fileAt (confFile cfg) = some d ∧ f'.fileAt (confFile cfg) = some d' ∧
    (d' = d ∨ ∃ x, Collision env.sha d x ∨ Collision env.sha d' x)

end Verif.Tool
