import Verif.Spec.Ready
/-!
# What can make the installer panic
-/
namespace Verif.Tool
open Verif Generation

/-- Something is there that the installer does not expect. -/
inductive PanicCause (env : Env) (cfg : Config) (fs : Fs) : Prop
  /-- a considered generation has neither an initrd nor a script that makes one -/
  | initrd {g : Gen} (hg : Considers env cfg g) (h : g.spec.initrd = none) (h' : g.spec.initrdSecrets = none)
  /-- the stub to be installed is a PE file without sections or without optional header -/
  | stub {data : Bytes} {pe : Stub.PE} (hd : env.store cfg.lanzabooteStub = some data)
      (hp : env.parse data = some pe) (h : pe.sections = [] ∨ env.imageBase data = none)
  /-- a boot entry or boot loader on the ESP is damaged -/
  | damaged {p : Path} {name : Str} {data : Bytes} (hl : LookedUp cfg p name) (hd : fs.fileAt p = some data)
      (h : ¬ Legible env data name)
  /-- the boot loader to be installed is damaged -/
  | loader {data : Bytes} (hd : env.store (loaderSource cfg) = some data)
      (h : ¬ Legible env data (lit ".osrel"))

/-- What the installer is given is in order as far as it is there: generations have an initrd, the stub is a
proper PE file, the boot loader has a release. -/
structure ProperSources (env : Env) (cfg : Config) : Prop where
  initrd : ∀ g, Considers env cfg g → g.spec.initrd = none → g.spec.initrdSecrets = none → False
  stub : ∀ data pe, env.store cfg.lanzabooteStub = some data → env.parse data = some pe →
    pe.sections ≠ [] ∧ (env.imageBase data).isSome
  loader : ∀ data, env.store (loaderSource cfg) = some data → ∃ r, HasRelease env data r

end Verif.Tool
