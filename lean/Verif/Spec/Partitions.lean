import Verif.Spec.History
/-!
# Specification: several boot partitions

With `boot.lanzaboote.extraEfiSysMountPoints` the NixOS module calls the installer once for each boot partition, one
after the other, with the same directory for measurements (nix/modules/lanzaboote.nix 20-50).
-/
namespace Verif.Tool
open Verif Generation

/-- The disk after these runs, one after the other. -/
def runAll : List (Env × Config) → Fs → Fs
  | [], fs => fs
  | r :: rs, fs => runAll rs (run r.1 r.2 (start r.2 fs)).2.fs

/-- All of these runs succeed, and read all bootspecs or meet no fault. -/
def AllSucceed : List (Env × Config) → Fs → Prop
  | [], _ => True
  | r :: rs, fs => (run r.1 r.2 (start r.2 fs)).1 = .ok () ∧
      ((run r.1 r.2 (start r.2 fs)).2.broken = [] ∨ Faultless r.1) ∧
      AllSucceed rs (run r.1 r.2 (start r.2 fs)).2.fs

/-- `cfg'` is for another partition than `cfg`, mounted elsewhere, and has its directory for measurements elsewhere. -/
structure Elsewhere (cfg cfg' : Config) : Prop where
  esp : ¬ cfg.esp <+: cfg'.esp ∧ ¬ cfg'.esp <+: cfg.esp
  lock : ∀ p, cfg'.pcrlockDirectory = some p → ¬ cfg.esp <+: p ∧ ¬ p <+: cfg.esp

/-- The runs are for different partitions. -/
def DifferentPartitions (runs : List (Env × Config)) : Prop :=
  runs.Pairwise fun r r' => Elsewhere r.2 r'.2 ∧ Elsewhere r'.2 r.2

/-- All images that any of these runs would make for `g` have the same measurement. So it is if the inputs are the
same and objcopy, the script for secrets and systemd-pcrlock always do the same. -/
def OneMeasurement (runs : List (Env × Config)) (g : Gen) : Prop :=
  ∀ r ∈ runs, ∀ r' ∈ runs, ∀ image image' t t' m m', EntryImage r.1 r.2 g image → EntryImage r'.1 r'.2 g image' →
    r.1.lockPe t image = some m → r'.1.lockPe t' image' = some m' → m = m'

/-- There is a boot entry for `g` with this name and this content on the partition of this run. -/
structure EntryOn (r : Env × Config) (fs : Fs) (g : Gen) (data : Bytes) : Prop where
  ex : ∃ key n, KeyOf r.1 r.2.signer key ∧ StubName.IsNameOf r.1.uni r.1.sha g key n ∧
    fs.fileAt (entryFile r.2.esp n) = some data

/-- The measurement `m` is that of the image signed as `data`. -/
def MeasuredAs (r : Env × Config) (data m : Bytes) : Prop :=
  ∃ image t, SignedBy r.1 r.2.signer image data ∧ r.1.lockPe t image = some m

end Verif.Tool
