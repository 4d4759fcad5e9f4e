import Verif.Spec.Partitions
/-!
# Specification: boot entries and their measurements

systemd-pcrlock predicts from the measurement of a boot entry what will be in the TPM after that entry was booted. A
measurement of another image does not help: after booting the entry, what is sealed to the prediction stays locked.
-/
namespace Verif.Tool
open Verif Generation StubName BootCounting

/-- The name of a measurement always stands for the same generation, signed with the same key: generation numbers
are not used again for something else. -/
def TagsStand (known : Gen → Bytes → Prop) : Prop :=
  ∀ g k g' k', known g k → known g' k' → g.versionTag = g'.versionTag → SameEntry g g' k k'

/-- Each boot entry on the ESP is measured, and its measurement is in `dir`. That `m` is a measurement of the boot
entry `data` is `shows data m`. -/
def EntriesMeasured (world : Env) (esp dir : Path) (known : Gen → Bytes → Prop) (shows : Bytes → Bytes → Prop)
    (fs : Fs) : Prop :=
  ∀ g key n data, known g key → IsNameOf world.uni world.sha g key n →
    fs.fileAt (entryFile esp n) = some data →
    ∃ m, fs.fileAt (measurementFile dir g) = some m ∧ shows data m

/-- The boot entries are files, refer to kernels and initrds that are there, and are measured. -/
structure Orderly (world : Env) (esp dir : Path) (known : Gen → Bytes → Prop) (shows : Bytes → Bytes → Prop)
    (f : Fs) : Prop where
  tree : f.Tree
  consistent : Consistent world esp f
  files : ∀ p, IsEntry esp p → f.get p ≠ some .dir
  measured : EntriesMeasured world esp dir known shows f

/-- A run of the installer in which the operating system does not fail, with the measurements in `dir`. -/
structure MeasuringRun (world : Env) (esp dir : Path) (known : Gen → Bytes → Prop) (shows : Bytes → Bytes → Prop)
    (env : Env) (cfg : Config) : Prop where
  proper : ProperRun world esp known env cfg
  reliable : Reliable env.os
  dir : cfg.pcrlockDirectory = some dir
  shows : ∀ data m, MeasuredAs (env, cfg) data m → shows data m

/-- Any number of: successful runs of the installer; runs that end otherwise, or are killed, before they collect
garbage; renames for boot counting. -/
inductive Updates (world : Env) (esp dir : Path) (known : Gen → Bytes → Prop) (shows : Bytes → Bytes → Prop)
    (fs : Fs) : Fs → Prop
  | nil : Updates world esp dir known shows fs fs
  | run {f : Fs} {env : Env} {cfg : Config} (h : Updates world esp dir known shows fs f)
      (hr : MeasuringRun world esp dir known shows env cfg) (hok : Succeeded env cfg f) :
      Updates world esp dir known shows fs (run env cfg (start cfg f)).2.fs
  | killed {f : Fs} {env : Env} {cfg : Config} {done : List Change} (h : Updates world esp dir known shows fs f)
      (hr : MeasuringRun world esp dir known shows env cfg) (hk : KilledAfter env cfg f done)
      (hn : .collecting ∉ done) : Updates world esp dir known shows fs (f.replay done)
  | count {f : Fs} {base : Str} {c c' : Counter} {data : Bytes} (h : Updates world esp dir known shows fs f)
      (hb : NoCounter world.uni base) (he : IsEntry esp (entryFile esp (entryName base c)))
      (hc : CounterStep c c') (hf : f.fileAt (entryFile esp (entryName base c)) = some data)
      (hn : f.get (entryFile esp (entryName base c')) = none) :
      Updates world esp dir known shows fs (f.apply (.rename (entryFile esp (entryName base c))
        (entryFile esp (entryName base c')) data))

end Verif.Tool
