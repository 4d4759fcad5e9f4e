import Verif.Spec.History
/-!
# A boot partition in order

What holds of the ESP after a successful run and a boot: the boot entries are complete and on the disk.
-/
namespace Verif.Tool
open Verif Generation StubName BootCounting

/-- The boot entries are files that refer to kernels and initrds that are there, and what has a boot entry
has been measured, if measurements are made. -/
structure InOrder (env : Env) (cfg : Config) (fs : Fs) : Prop where
  tree : fs.Tree
  consistent : Consistent env cfg.esp fs
  files : ∀ p, IsEntry cfg.esp p → fs.get p ≠ some .dir
  measured : ∀ dir g key n, cfg.pcrlockDirectory = some dir → Considers env cfg g →
    KeyOf env cfg.signer key → IsNameOf env.uni env.sha g key n →
    (fs.get (entryFile cfg.esp n)).isSome → (fs.get (measurementFile dir g)).isSome

/-- The boot entries, kernels and initrds have reached the disk. -/
def OnDisk (esp : Path) (fs : Fs) : Prop :=
  ∀ p, IsEntry esp p ∨ (∃ label hash, p = caFile esp label hash) → p ∉ fs.dirty

/-- Any number of renames of boot entries for boot counting, by the boot loader and user space. -/
inductive Counted (world : Env) (esp : Path) (fs : Fs) : Fs → Prop
  | nil : Counted world esp fs fs
  | count {f : Fs} {base : Str} {c c' : Counter} {data : Bytes} (h : Counted world esp fs f)
      (hb : NoCounter world.uni base) (he : IsEntry esp (entryFile esp (entryName base c)))
      (hc : CounterStep c c') (hf : f.fileAt (entryFile esp (entryName base c)) = some data)
      (hn : f.get (entryFile esp (entryName base c')) = none) :
      Counted world esp fs (f.apply (.rename (entryFile esp (entryName base c))
        (entryFile esp (entryName base c')) data))

end Verif.Tool
