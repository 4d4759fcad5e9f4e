import Verif.Spec.Installer
import Verif.Spec.EntryNames
/-!
# Specification: which files have which names
-/
namespace Verif.Spelling
open Verif

open Tool Generation in
/-- `p` is a place of a kernel, an initrd, a boot entry, the boot loader or its configuration, spelled as
above, and `d` the content that belongs there. -/
inductive Spelled (env : Env) (cfg : Config) (p : Path) (d : Bytes) : Prop
  | kernel {g : Gen} {v name : Str} (hg : Considers env cfg g) (hv : KernelVersion g.spec.kernel v)
      (hd : env.store g.spec.kernel = some d) (hn : ContentName (lit "kernel") v (env.sha.hash d) name)
      (e : p = cfg.esp ++ [lit "EFI", lit "nixos", name])
  | initrd {g : Gen} {v name : Str} (hg : Considers env cfg g) (hv : KernelVersion g.spec.kernel v)
      (hd : InitrdOf env g.spec d) (hn : ContentName (lit "initrd") v (env.sha.hash d) name)
      (e : p = cfg.esp ++ [lit "EFI", lit "nixos", name])
  | entry {g : Gen} {key kernel initrd image : Bytes} {v name : Str} (hg : Considers env cfg g)
      (hk : KeyOf env cfg.signer key) (hv : KernelVersion g.spec.kernel v)
      (hkd : env.store g.spec.kernel = some kernel) (hid : InitrdOf env g.spec initrd)
      (him : StubImage env cfg g v kernel initrd image) (hs : SignedBy env cfg.signer image d)
      (hn : EntryName g.version g.specialisationName
        (env.sha.hash (utf8 (document g.spec.toplevel key))) cfg.tries name)
      (e : p = cfg.esp ++ [lit "EFI", lit "Linux", name])
  | other (hp : p = fallbackFile cfg ∨ p = systemdFile cfg ∨ p = confFile cfg)

end Verif.Spelling
