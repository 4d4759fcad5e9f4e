import Verif.Spec.Installer
/-!
# Specification: which part of the disk the installer depends on
-/
namespace Verif.Tool
open Verif

/-- Places whose contents can matter: what the installer owns, and the directories above. -/
inductive Matters (cfg : Config) : Path → Prop
  | owned {p : Path} (h : Owned cfg p) : Matters cfg p
  | nixos {p : Path} (h : p <+: nixosDir cfg.esp) : Matters cfg p
  | linux {p : Path} (h : p <+: linuxDir cfg.esp) : Matters cfg p
  | boot {p q : Path} (h : q = fallbackFile cfg ∨ q = systemdFile cfg ∨ q = confFile cfg)
      (hp : p <+: q.dropLast) : Matters cfg p
  | lock {p d : Path} (hd : cfg.pcrlockDirectory = some d) (hp : p <+: lockDir d) : Matters cfg p
  | bootloader {p d : Path} (hd : cfg.pcrlockDirectory = some d) (hp : p <+: (nextFile d).dropLast) :
      Matters cfg p

open Classical in
/-- The part of the disk that can matter, in the order in which directories list their entries: contents of
the places above, and names (only) of the other files in `EFI/Linux`. -/
noncomputable def Fs.view (cfg : Config) (f : Fs) : List (Path × Option Node) :=
  f.nodes.filterMap fun e =>
    if Matters cfg e.1 then some (e.1, some e.2)
    else if linuxDir cfg.esp <+: e.1 then some (e.1, none)
    else none

/-- On both disks the installer does the same: the result, the changes in their order and the numbers of
malformed generations are the same, and the disks agree again in the end. -/
structure DoesTheSame (env : Env) (cfg : Config) (f f' : Fs) : Prop where
  result : (run env cfg (start cfg f)).1 = (run env cfg (start cfg f')).1
  changes : (run env cfg (start cfg f)).2.log = (run env cfg (start cfg f')).2.log
  malformed : (run env cfg (start cfg f)).2.broken = (run env cfg (start cfg f')).2.broken
  after : (run env cfg (start cfg f)).2.fs.view cfg = (run env cfg (start cfg f')).2.fs.view cfg

end Verif.Tool
