import Verif.Spec.BootLoader
import Verif.Spec.BootCounting
/-!
# When nothing stands in the way of the installer

Its sources are there, the programs it runs succeed on what it gives them, and there is room on the
file systems for what it writes.
-/
namespace Verif.Tool
open Verif Generation

/-! ### Sources -/

/-- Everything the installer reads is there. -/
structure Sources (env : Env) (cfg : Config) : Prop where
  /-- the links are links of generations; one of the selected generations has a bootspec -/
  links : ∃ links, cfg.considered env = some links ∧ ∃ l ∈ links, (env.bootJson l.path).isSome
  kernel : ∀ g, Considers env cfg g → (∃ v, KernelVersion g.spec.kernel v) ∧
    (env.store g.spec.kernel).isSome
  initrd : ∀ g, Considers env cfg g → ∃ p, g.spec.initrd = some p ∧ (env.store p).isSome
  /-- the stub is a PE image with at least one section -/
  stub : ∃ stub pe, env.store cfg.lanzabooteStub = some stub ∧ env.parse stub = some pe ∧
    pe.sections ≠ [] ∧ (env.imageBase stub).isSome
  key : ∃ key, KeyOf env cfg.signer key
  loader : ∃ d r, env.store (loaderSource cfg) = some d ∧ HasRelease env d r
  conf : (env.store cfg.loaderConfig).isSome

/-! ### Programs -/

/-- `image` is made for a considered generation, or is the boot loader. -/
def MadeHere (env : Env) (cfg : Config) (image : Bytes) : Prop :=
  (∃ g v kernel initrd, Considers env cfg g ∧ KernelVersion g.spec.kernel v ∧
    env.store g.spec.kernel = some kernel ∧ InitrdOf env g.spec initrd ∧
    StubImage env cfg g v kernel initrd image) ∨ env.store (loaderSource cfg) = some image

/-- The programs the installer runs succeed on what it gives them. -/
structure ToolsSucceed (env : Env) (cfg : Config) : Prop where
  secrets : ∀ g script p d, Considers env cfg g → g.spec.initrdSecrets = some script →
    g.spec.initrd = some p → env.store p = some d → ∀ t, (env.secrets t script d).isSome
  objcopy : ∀ g v kernel initrd stub added, Considers env cfg g → KernelVersion g.spec.kernel v →
    env.store g.spec.kernel = some kernel → InitrdOf env g.spec initrd →
    env.store cfg.lanzabooteStub = some stub →
    added.map (fun s => (s.name, s.content)) = entrySections env g v kernel initrd →
    ∀ t, (env.objcopy t stub added).isSome
  sbsign : ∀ pub priv image, cfg.signer = .local pub priv → MadeHere env cfg image →
    ∀ t, (env.sbsign t priv pub image).isSome
  pcrlock : ∀ p image, cfg.pcrlockDirectory = some p → MadeHere env cfg image →
    ∀ t, (env.lockPe t image).isSome

/-! ### Room -/

/-- The files the installer may write. -/
inductive Place (cfg : Config) : Path → Prop
  /-- kernels, initrds and their temporary files -/
  | nixos (n : Str) : Place cfg (cfg.esp ++ [lit "EFI", lit "nixos", n])
  /-- boot entries and their temporary files -/
  | linux (n : Str) (h : lit "nixos-" <+: n) : Place cfg (cfg.esp ++ [lit "EFI", lit "Linux", n])
  /-- the boot loader -/
  | loader {p : Path} (h : IsLoader cfg p) : Place cfg p
  /-- its temporary files -/
  | loaderTmp (d n : Str) (hd : d = lit "BOOT" ∨ d = lit "systemd") (hn : IsTmpName n) :
      Place cfg (cfg.esp ++ [lit "EFI", d, n])
  /-- its configuration, and the temporary file -/
  | conf (n : Str) (h : n = lit "loader.conf" ∨ IsTmpName n) : Place cfg (cfg.esp ++ [lit "loader", n])
  /-- measurements of generations -/
  | lock {p : Path} (hp : cfg.pcrlockDirectory = some p) (n : Str) : Place cfg (lockDir p ++ [n])
  /-- measurements of the boot loader -/
  | bootloader {p q : Path} (hp : cfg.pcrlockDirectory = some p)
      (h : q = nextFile p ∨ q = currentFile p) : Place cfg q

/-- Nothing prevents a file from being written at `p`: there is no directory, and what exists above it
is a directory. -/
structure RoomFor (fs : Fs) (p : Path) : Prop where
  not_dir : fs.get p ≠ some .dir
  above : ∀ q, q <+: p → q ≠ p → ∀ d, fs.get q ≠ some (.file d)

/-- The section `name` of `data` can be looked up: the sections up to the first of that name have proper
names, and that one is not empty and lies within its raw data and within the file. -/
def Legible (env : Env) (data : Bytes) (name : Str) : Prop :=
  ∀ pe pre s post, env.parse data = some pe → pe.sections = pre ++ s :: post →
    (∀ x ∈ pre, ∃ n, x.name = some n ∧ n ≠ name) →
    s.name.isSome ∧ (s.name = some name → 0 < s.virtualSize.toNat ∧
      s.virtualSize.toNat ≤ s.sizeOfRawData.toNat ∧
      s.pointerToRawData.toNat + s.virtualSize.toNat ≤ data.length)

/-- The installer looks up the section `name` of the file `p`. -/
inductive LookedUp (cfg : Config) : Path → Str → Prop
  | kernel {p : Path} (h : IsEntry cfg.esp p) : LookedUp cfg p (lit ".linux")
  | initrd {p : Path} (h : IsEntry cfg.esp p) : LookedUp cfg p (lit ".initrd")
  | release {p : Path} (h : IsLoader cfg p) : LookedUp cfg p (lit ".osrel")

/-- The file systems are in order: there is room for what the installer writes, and what it looks at is
not damaged. -/
structure Room (env : Env) (cfg : Config) (fs : Fs) : Prop where
  tree : fs.Tree
  esp : fs.get cfg.esp = some .dir
  room : ∀ p, Place cfg p → RoomFor fs p
  legible : ∀ p name, LookedUp cfg p name → ∀ data, fs.fileAt p = some data → Legible env data name

/-- The ESP and the directory for measurements are not inside each other. -/
def NotNested (cfg : Config) : Prop := ∀ p, cfg.pcrlockDirectory = some p →
  ¬ cfg.esp <+: p ∧ ¬ p <+: cfg.esp

/-- Nothing stands in the way. -/
structure Ready (env : Env) (cfg : Config) (fs : Fs) : Prop where
  os : Reliable env.os
  sources : Sources env cfg
  succeed : ToolsSucceed env cfg
  faithful : FaithfulTools env
  safe : SafeInput env cfg
  disjoint : NotNested cfg
  room : Room env cfg fs

/-! ### Earlier attempts -/

/-- A run with other inputs, in other surroundings, perhaps under faults, on the same ESP: the programs it
runs do what they should if they succeed, and its boot loader, if there is one, is a boot loader. -/
structure Attempt (env : Env) (cfg : Config) (env' : Env) (cfg' : Config) : Prop where
  esp : cfg'.esp = cfg.esp
  arch : cfg'.arch = cfg.arch
  pcrlock : cfg'.pcrlockDirectory = cfg.pcrlockDirectory
  parse : env'.parse = env.parse
  safe : SafeInput env' cfg'
  faithful : FaithfulTools env'
  loader : ∀ d, env'.store (loaderSource cfg') = some d → ∃ r, HasRelease env' d r

/-- Any number of runs that succeed, fail, panic or are killed at any moment, and renames for boot
counting. -/
inductive Attempts (env : Env) (cfg : Config) (fs : Fs) : Fs → Prop
  | nil : Attempts env cfg fs fs
  | run {f : Fs} {env' : Env} {cfg' : Config} {done : List Change} (h : Attempts env cfg fs f)
      (ha : Attempt env cfg env' cfg') (hk : KilledAfter env' cfg' f done) :
      Attempts env cfg fs (f.replay done)
  | count {f : Fs} {base : Str} {c c' : BootCounting.Counter} {data : Bytes} (h : Attempts env cfg fs f)
      (he : IsEntry cfg.esp (entryFile cfg.esp (BootCounting.entryName base c)))
      (hc : BootCounting.CounterStep c c')
      (hf : f.fileAt (entryFile cfg.esp (BootCounting.entryName base c)) = some data)
      (hn : f.get (entryFile cfg.esp (BootCounting.entryName base c')) = none) :
      Attempts env cfg fs (f.apply (.rename (entryFile cfg.esp (BootCounting.entryName base c))
        (entryFile cfg.esp (BootCounting.entryName base c')) data))

end Verif.Tool
