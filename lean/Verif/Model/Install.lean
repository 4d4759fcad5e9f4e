import Verif.Model.Gc
import Verif.Model.Tools
import Verif.Model.Version
import Verif.Model.StubName
/-!
# Model of `rust/tool/systemd/src/{install,esp,architecture,version,cli}.rs`

Log messages are left out except for the one that announces garbage collection.
-/
namespace Verif.Tool
open Verif Generation

/-! ## architecture.rs, esp.rs -/

/-- `enum Architecture` (shared/src/architecture.rs 8-11). -/
inductive Architecture where
  | x86 | aarch64
  deriving DecidableEq, Repr

/-- `efi_representation` (shared/src/architecture.rs 14-19). -/
def Architecture.efiRepresentation : Architecture → Str
  | .x86 => lit "x64"
  | .aarch64 => lit "aa64"

/-- `str::to_ascii_uppercase`. (std; used in architecture.rs 22.) -/
def toAsciiUppercase (s : Str) : Str :=
  s.map fun c => if 0x61 ≤ c.toNat ∧ c.toNat ≤ 0x7A then Char.ofNat (c.toNat - 0x20) else c

/-- `efi_fallback_filename` (shared/src/architecture.rs 21-23). -/
def Architecture.efiFallbackFilename (a : Architecture) : Str :=
  lit "BOOT" ++ toAsciiUppercase a.efiRepresentation ++ lit ".EFI"

/-- `systemd_filename` (systemd/src/architecture.rs 11-13). -/
def Architecture.systemdFilename (a : Architecture) : Str :=
  lit "systemd-boot" ++ a.efiRepresentation ++ lit ".efi"

/-- `from_nixos_system` (shared/src/architecture.rs 28-34). -/
def Architecture.fromNixosSystem (s : Str) : Option Architecture :=
  if s = lit "x86_64-linux" then some .x86
  else if s = lit "aarch64-linux" then some .aarch64
  else none

/-- `struct SystemdEspPaths` (esp.rs 9-20). -/
structure EspPaths where
  esp : Path
  efi : Path
  nixos : Path
  linux : Path
  efiFallbackDir : Path
  efiFallback : Path
  systemd : Path
  systemdBoot : Path
  loader : Path
  systemdBootLoaderConfig : Path
  deriving DecidableEq, Repr

/-- `SystemdEspPaths::new` (esp.rs 23-46). -/
def EspPaths.new (esp : Path) (a : Architecture) : EspPaths :=
  let efi := esp.join (lit "EFI")
  let efiNixos := efi.join (lit "nixos")
  let efiLinux := efi.join (lit "Linux")
  let efiSystemd := efi.join (lit "systemd")
  let efiFallbackDir := efi.join (lit "BOOT")
  let loader := esp.join (lit "loader")
  { esp := esp
    efi := efi
    nixos := efiNixos
    linux := efiLinux
    efiFallbackDir := efiFallbackDir
    efiFallback := efiFallbackDir.join a.efiFallbackFilename
    systemd := efiSystemd
    systemdBoot := efiSystemd.join a.systemdFilename
    loader := loader
    systemdBootLoaderConfig := loader.join (lit "loader.conf") }

/-- `SystemdEspPaths::iter` (esp.rs 56-70). -/
def EspPaths.iter (e : EspPaths) : List Path :=
  [e.esp, e.efi, e.nixos, e.linux, e.efiFallbackDir, e.efiFallback, e.systemd, e.systemdBoot,
   e.loader, e.systemdBootLoaderConfig]

/-! ## install.rs -/

/-- `struct InstallerBuilder` (install.rs 28-38), with the signer. -/
structure Config where
  lanzabooteStub : Path
  arch : Architecture
  systemd : Path
  loaderConfig : Path
  configurationLimit : Nat
  tries : Nat
  pcrlockDirectory : Option Path
  esp : Path
  links : List Path
  signer : Signer
  deriving DecidableEq, Repr

/-- `esp_paths` of the built installer (install.rs 68). -/
def Config.paths (cfg : Config) : EspPaths := EspPaths.new cfg.esp cfg.arch

/-- `pcrlock_paths` of the built installer (install.rs 71). -/
def Config.pcrlock (cfg : Config) : Option PcrlockPaths := cfg.pcrlockDirectory.map PcrlockPaths.new

/-- The file systemd-boot is installed from (install.rs 438-441). -/
def Config.systemdBootSource (cfg : Config) : Path :=
  (cfg.systemd.join (lit "lib/systemd/boot/efi")).join cfg.arch.systemdFilename

/-- `with_extension(".tmp")` (install.rs 580, 639). -/
def tmpOf (to : Path) : Path := to.withExtension (lit ".tmp")

/-- `install_signed` (install.rs 578-589). -/
def installSigned (env : Env) (signer : Signer) (src : Src) (to : Path) : M Unit := do
  ensureParentDir env.os (tmpOf to)
  signer.signAndCopy env src (tmpOf to)
  rename env.os (tmpOf to) to

/-- `atomic_copy` (install.rs 638-654). -/
def atomicCopy (env : Env) (src : Src) (to : Path) : M Unit := do
  let d ← readSrc env src
  createFile env.os (tmpOf to)
  writeFile env.os (tmpOf to) d
  fsync env.os (tmpOf to)
  rename env.os (tmpOf to) to

/-- `force_install` (install.rs 610-617). -/
def forceInstall (env : Env) (src : Src) (to : Path) : M Unit := do
  ensureParentDir env.os to
  atomicCopy env src to
  setPermissionBits env.os to 0o755

/-- The condition of `install` (install.rs 597). -/
def needsInstall (env : Env) (src : Src) (to : Path) : M Bool := do
  let there ← pathExists env.os to
  if !there then pure true
  else do
    let h ← hashSrc env src
    let h' ← hashFs env to
    pure (decide (h ≠ h'))

/-- `install` (install.rs 596-601). -/
def install (env : Env) (src : Src) (to : Path) : M Unit := do
  let needed ← needsInstall env src to
  if needed then forceInstall env src to else pure ()

/-- Name of a content-addressed file (install.rs 419-423). -/
def caName (label : Str) (hash : Bytes) : Str :=
  label ++ lit "-" ++ StubName.base32 hash ++ lit ".efi"

/-- `install_nixos_ca` (install.rs 417-427). -/
def installNixosCa (env : Env) (cfg : Config) (src : Src) (label : Str) : M Path := do
  let hash ← hashSrc env src
  let to := cfg.paths.nixos.join (caName label hash)
  extendRoots [to]
  install env src to
  pure to

/-- Text of a path (`Path::to_str`). (std; install.rs 621, pe.rs 204.) -/
def pathText (p : Path) : Str := '/' :: joinWith ['/'] p

/-- `assemble_kernel_cmdline` (install.rs 619-627). -/
def assembleKernelCmdline (init : Path) (params : List Str) : List Str :=
  (lit "init=" ++ pathText init) :: params

/-- The first field of `rsplit('-')` of the directory the kernel is in (install.rs 245-254). -/
def kernelVersion (kernel : Path) : Option Str :=
  match kernel.parent with
  | none => none
  | some d => match d.fileName with
    | none => none
    | some n => (splitOn '-' n).getLast?

/-- Entries of the directory that match the pattern (install.rs 381-391). -/
def matchingEntries (env : Env) (pfx : Str) (entries : List Path) : List Path :=
  entries.filter fun p => match p.getLast? with
    | some n => StubName.isMatch env.uni pfx n
    | none => false

/-- Read the path in a section of an installed stub (install.rs 396-403). -/
def sectionPath (env : Env) (cfg : Config) (stub : Bytes) (name : Str) : M Path := do
  let data ← ofRes (readSectionData env stub name)
  let data ← ofOption data
  ofRes (resolveEfiPath cfg.esp data)

/-- `read_installed_generation` (install.rs 379-411). -/
def readInstalledGeneration (env : Env) (cfg : Config) (pfx : Str) : M (Path × Path × Path) := do
  let entries ← readDir env.os cfg.paths.linux
  let stubTarget ← ofOption (matchingEntries env pfx entries).head?
  let stub ← readFs env.os stubTarget
  let kernelPath ← sectionPath env cfg stub (lit ".linux")
  let initrdPath ← sectionPath env cfg stub (lit ".initrd")
  let k ← pathExists env.os kernelPath
  if !k then RM.throw ()
  else do
    let i ← pathExists env.os initrdPath
    if !i then RM.throw ()
    else pure (stubTarget, kernelPath, initrdPath)

/-- The measurement part of `register_installed_generation` (install.rs 359-369). -/
def registerMeasurement (env : Env) (cfg : Config) (g : Gen) : M Bool :=
  match cfg.pcrlock with
  | none => pure true
  | some p => do
    let there ← pathExists env.os (p.lanzabooteMeasurement g.versionTag)
    if there then do
      extendRoots [p.lanzabooteMeasurement g.versionTag]
      pure true
    else pure false

/-- `register_installed_generation` (install.rs 336-371). -/
def registerInstalledGeneration (env : Env) (cfg : Config) (g : Gen) : M Bool := do
  let key ← cfg.signer.getPublicKey env
  let found ← RM.attempt (readInstalledGeneration env cfg (StubName.stubPrefix env.sha g key))
  match found with
  | none => pure false
  | some (stub, kernel, initrd) => do
    extendRoots [stub, kernel, initrd]
    registerMeasurement env cfg g

/-- The initrd to be installed (install.rs 264-285): a copy in the temporary directory with the
secrets appended, or the original. -/
def initrdLocation (env : Env) (b : BootSpec) : M Src :=
  match b.initrdSecrets with
  | some script => do
    let initrd ← ofOption b.initrd
    let d ← readSrc env (.store initrd)
    let d ← writeSecureFile env d
    let d ← appendInitrdSecrets env script d
    pure (.temp d)
  | none => do
    let initrd ← expectSome b.initrd
    pure (.store initrd)

/-- `StubParameters::new` with command line and os-release (install.rs 292-309, pe.rs 31-63). -/
def stubParameters (cfg : Config) (g : Gen) (initrd : Src) (kernelTarget initrdTarget : Path) :
    M StubParameters := do
  let k ← ofOption (espRelativeUefiPath cfg.esp kernelTarget)
  let i ← ofOption (espRelativeUefiPath cfg.esp initrdTarget)
  pure {
    lanzabooteStorePath := cfg.lanzabooteStub
    kernelCmdline := assembleKernelCmdline g.spec.init g.spec.kernelParams
    osReleaseContents := utf8 (OsRelease.display (osRelease g))
    kernelStorePath := g.spec.kernel
    initrdStorePath := initrd
    kernelPathAtEsp := k
    initrdPathAtEsp := i }

/-- The measurement of the new image (install.rs 313-319). -/
def measureImage (env : Env) (cfg : Config) (g : Gen) (image : Bytes) : M Unit :=
  match cfg.pcrlock with
  | none => pure ()
  | some p => do
    lockPe env (.temp image) (p.lanzabooteMeasurement g.versionTag)
    extendRoots [p.lanzabooteMeasurement g.versionTag]

/-- The part of `install_generation` after the check whether it is installed already
(install.rs 240-329). -/
def installNewGeneration (env : Env) (cfg : Config) (g : Gen) : M Unit := do
  guarded env.os  -- TempDir::new
  let version ← ofOption (kernelVersion g.spec.kernel)
  let kernelTarget ← installNixosCa env cfg (.store g.spec.kernel) (lit "kernel-" ++ version)
  let initrd ← initrdLocation env g.spec
  let initrdTarget ← installNixosCa env cfg initrd (lit "initrd-" ++ version)
  let parameters ← stubParameters cfg g initrd kernelTarget initrdTarget
  let image ← lanzabooteImage env parameters
  measureImage env cfg g image
  let key ← cfg.signer.getPublicKey env
  let stubTarget := cfg.paths.linux.join (StubName.stubName env.sha g key cfg.tries)
  extendRoots [stubTarget]
  installSigned env cfg.signer (.temp image) stubTarget

/-- `install_generation` (install.rs 232-330). -/
def installGeneration (env : Env) (cfg : Config) (g : Gen) : M Unit := do
  let installed ← registerInstalledGeneration env cfg g
  if installed then pure () else installNewGeneration env cfg g

/-- `Generation::from_link` (generation.rs 78-87). -/
def readGeneration (env : Env) (link : Link) : M (Option (Gen × List Gen)) := do
  let f ← faulty env.os
  if f then pure none
  else pure ((env.bootJson link.path).map (fromBootJson link))

/-- The `filter_map` over the links (install.rs 178-197). -/
def readGenerations (env : Env) : List Link → M (List (Gen × List Gen))
  | [] => pure []
  | link :: rest => do
    let g ← readGeneration env link
    match g with
    | some g => do
      let gs ← readGenerations env rest
      pure (g :: gs)
    | none => do
      RM.modify fun s => { s with broken := link.version :: s.broken }
      readGenerations env rest

/-- Install these one after the other (install.rs 206-216). -/
def installAll (env : Env) (cfg : Config) : List Gen → M Unit
  | [] => pure ()
  | g :: rest => do
    installGeneration env cfg g
    installAll env cfg rest

/-- `install_generations_from_links` (install.rs 177-225). -/
def installGenerationsFromLinks (env : Env) (cfg : Config) (links : List Link) : M Unit := do
  let gens ← readGenerations env links
  if gens.isEmpty then RM.throw ()
  else do
    installAll env cfg (gens.flatMap fun g => g.1 :: g.2)
    syncFs env.os cfg.esp

/-! ## version.rs -/

/-- The text of an `.osrel` section (version.rs 38-47). An empty section panics. -/
def osrelText (data : Bytes) : Res Unit Str :=
  match data.getLast? with
  | none => .panic
  | some 0 =>
    if 0 ∈ data.dropLast then .err ()
    else match utf8Decode data.dropLast with
      | some s => .ok s
      | none => .err ()
  | some 10 => match utf8Decode data with
      | some s => .ok s
      | none => .err ()
  | some _ => .err ()

/-- `from_systemd_boot_binary` (version.rs 31-57) on the contents of the file. -/
def versionOf (env : Env) (data : Bytes) : Res Unit Version.SystemdVersion :=
  match readSectionData env data (lit ".osrel") with
  | .panic => .panic
  | .err e => .err e
  | .ok none => .err ()
  | .ok (some sec) => match osrelText sec with
    | .panic => .panic
    | .err e => .err e
    | .ok text => match (OsRelease.fromStr text).get (lit "VERSION") with
      | none => .err ()
      | some v => match Version.fromStr v with
        | none => .err ()
        | some v => .ok v

/-- `match SystemdVersion::from_systemd_boot_binary(to)` (install.rs 691-694). -/
def installedVersion (env : Env) (p : Path) : M Version.SystemdVersion := do
  let d ← readFs env.os p
  ofRes (versionOf env d)

/-- `newer_systemd_boot` (install.rs 679-697). -/
def newerSystemdBoot (env : Env) (src : Path) (to : Path) : M Bool := do
  let there ← pathExists env.os to
  if !there then pure true
  else do
    let d ← readSrc env (.store src)
    let v ← ofRes (versionOf env d)
    let w ← RM.attempt (installedVersion env to)
    match w with
    | none => pure true
    | some w => pure (Version.gt v w)

/-- `a || b` with a fallible right side. (e.g. install.rs 406 and 597.) -/
def orM (a b : M Bool) : M Bool := do
  let x ← a
  if x then pure true else b

/-- `a && b` with a fallible right side. (e.g. cli.rs 122-124.) -/
def andM (a b : M Bool) : M Bool := do
  let x ← a
  if x then b else pure false

/-- Is the boot loader measured (install.rs 458-461)? -/
def measurementExists (env : Env) (cfg : Config) : M Bool :=
  match cfg.pcrlock with
  | none => pure true
  | some p => pathExists env.os (p.bootloaderMeasurement (lit "current"))

/-- Measure the next boot loader (install.rs 469-480). -/
def measureNext (env : Env) (cfg : Config) : M Unit :=
  match cfg.pcrlock with
  | none => pure ()
  | some p => lockPe env (.store cfg.systemdBootSource) (p.bootloaderMeasurement (lit "next"))

/-- Rename the measurement (install.rs 490-505). -/
def measurementDone (env : Env) (cfg : Config) : M Unit :=
  match cfg.pcrlock with
  | none => pure ()
  | some p => rename env.os (p.bootloaderMeasurement (lit "next"))
      (p.bootloaderMeasurement (lit "current"))

/-- Replace both boot loader binaries (install.rs 468-506). -/
def replaceSystemdBoot (env : Env) (cfg : Config) : M Unit := do
  measureNext env cfg
  installSigned env cfg.signer (.store cfg.systemdBootSource) cfg.paths.efiFallback
  installSigned env cfg.signer (.store cfg.systemdBootSource) cfg.paths.systemdBoot
  measurementDone env cfg

/-- `install_systemd_boot` (install.rs 437-519). -/
def installSystemdBoot (env : Env) (cfg : Config) : M Unit := do
  let newer ← orM (newerSystemdBoot env cfg.systemdBootSource cfg.paths.efiFallback)
    (newerSystemdBoot env cfg.systemdBootSource cfg.paths.systemdBoot)
  let signed ← andM (cfg.signer.verifyPath env cfg.paths.efiFallback)
    (cfg.signer.verifyPath env cfg.paths.systemdBoot)
  let measured ← measurementExists env cfg
  if newer || !signed || !measured then do
    replaceSystemdBoot env cfg
    install env (.store cfg.loaderConfig) cfg.paths.systemdBootLoaderConfig
  else install env (.store cfg.loaderConfig) cfg.paths.systemdBootLoaderConfig

/-- `file_name().starts_with("nixos-")` (install.rs 148-152). -/
def startsWithNixos (p : Path) : Bool :=
  match p.fileName with
  | some n => (lit "nixos-").isPrefixOf n
  | none => false

/-- Garbage collection of the measurements (install.rs 156-158). -/
def collectMeasurements (env : Env) (cfg : Config) : M Unit :=
  match cfg.pcrlock with
  | none => pure ()
  | some p => collectGarbage env.os p.lanzaboote

/-- Garbage collection (install.rs 137-170). -/
def collect (env : Env) (cfg : Config) : M Unit := do
  let s ← RM.get
  if s.broken = [] then do
    change .collecting
    collectGarbage env.os cfg.paths.nixos
    collectGarbageWithFilter env.os cfg.paths.linux startsWithNixos
    collectMeasurements env cfg
  else pure ()

/-- `collect::<Result<Vec<GenerationLink>>>` (install.rs 112-116). -/
def parseLinks (env : Env) : List Path → Option (List Link)
  | [] => some []
  | p :: rest => match Link.fromPath env.buildTime p with
    | none => none
    | some l => match parseLinks env rest with
      | none => none
      | some ls => some (l :: ls)

/-- The considered links (install.rs 112-133). -/
def Config.considered (env : Env) (cfg : Config) : Option (List Link) :=
  (parseLinks env cfg.links).map (selectLinks cfg.configurationLimit)

/-- `Installer::install` (install.rs 109-174). -/
def run (env : Env) (cfg : Config) : M Unit := do
  let links ← ofOption (cfg.considered env)
  installGenerationsFromLinks env cfg links
  installSystemdBoot env cfg
  collect env cfg

/-- `InstallerBuilder::build` (install.rs 66-90) on the file system `fs`. -/
def start (cfg : Config) (fs : Fs) : State where
  fs := fs
  log := []
  tick := 0
  roots := cfg.paths.iter ++ (match cfg.pcrlock with
    | none => []
    | some p => p.iter)
  broken := []

/-- `BTreeSet::insert` on the elements in ascending order (std; install.rs 192). -/
def insertSorted (n : Nat) : List Nat → List Nat
  | [] => [n]
  | m :: ms =>
    if n < m then n :: m :: ms
    else if n = m then m :: ms
    else m :: insertSorted n ms

/-- The elements of `broken_gens` as its iterator yields them (install.rs 94, 168, 192). The model keeps
the numbers in the order they were inserted, the last one first. -/
def brokenGens (broken : List Nat) : List Nat := broken.foldr insertSorted []

/-- The text of the warning (install.rs 161-168). -/
def warningText (ns : List Nat) : Str :=
  lit "Garbage collection is disabled because you have malformed NixOS generations that do\nnot contain a readable bootspec document.\n\nRemove the malformed generations to re-enable garbage collection with\n`nix-env --delete-generations " ++
    joinWith [' '] (ns.map toDec) ++ lit "`\n"

/-- What the installer warns of at the end (install.rs 137, 159-170). A run that fails never gets there:
with malformed generations nothing is collected, so nothing fails after the boot loader is installed. -/
def warned (env : Env) (cfg : Config) (fs : Fs) : Option Str :=
  match run env cfg (start cfg fs) with
  | (.ok (), s) => if s.broken = [] then none else some (warningText (brokenGens s.broken))
  | _ => none

/-! ## cli.rs -/

/-- `struct InstallCommand` (cli.rs 36-77) and the environment variable `LANZABOOTE_STUB`. -/
structure Cli where
  lanzabooteStub : Option Path
  system : Str
  systemd : Path
  loaderConfig : Path
  allowUnsigned : Bool
  publicKey : Option Path
  privateKey : Option Path
  configurationLimit : Nat
  tries : Nat
  pcrlockDirectory : Option Path
  esp : Path
  generations : List Path
  deriving DecidableEq, Repr

/-- `std::fs::exists(p).ok().is_none_or(|b| !b)`: the file is missing, or the answer cannot be
had. (cli.rs 123-124.) -/
def keyMissing (env : Env) (p : Path) : M Bool := do
  let f ← faulty env.os
  pure (f || (env.store p).isNone)

/-- The choice of the signer (cli.rs 121-133). -/
def chooseSigner (env : Env) (allowUnsigned : Bool) (pub priv : Path) : M Signer := do
  let unsigned ← andM (pure allowUnsigned) (andM (keyMissing env pub) (keyMissing env priv))
  pure (if unsigned then .empty else .local pub priv)

/-- The configuration built from the arguments (cli.rs 109-119). -/
def Cli.config (c : Cli) (stub : Path) (arch : Architecture) (signer : Signer) : Config where
  lanzabooteStub := stub
  arch := arch
  systemd := c.systemd
  loaderConfig := c.loaderConfig
  configurationLimit := c.configurationLimit
  tries := c.tries
  pcrlockDirectory := c.pcrlockDirectory
  esp := c.esp
  links := c.generations
  signer := signer

/-- `InstallerBuilder::build` then `install` (install.rs 66-90). -/
def buildAndRun (env : Env) (cfg : Config) : M Unit := do
  extendRoots (start cfg ⟨[], []⟩).roots
  run env cfg

/-- `cli::install` (cli.rs 102-134). -/
def cliInstall (env : Env) (c : Cli) : M Unit := do
  let stub ← ofOption c.lanzabooteStub
  let pub ← expectSome c.publicKey
  let priv ← expectSome c.privateKey
  let arch ← ofOption (Architecture.fromNixosSystem c.system)
  let signer ← chooseSigner env c.allowUnsigned pub priv
  buildAndRun env (c.config stub arch signer)

/-- The options `--configuration-limit` and `--bootcounting-initial-tries`, if they are given, with their defaults
(cli.rs 60-66). -/
def Cli.withOptions (c : Cli) (limit tries : Option Nat) : Cli :=
  { c with configurationLimit := limit.getD 1, tries := tries.getD 0 }

/-- The state when the program starts. (main.rs 12-14.) -/
def fresh (fs : Fs) : State where
  fs := fs
  log := []
  tick := 0
  roots := []
  broken := []

/-- The exit status of the process (cli.rs 87-90; 101 is what Rust's runtime answers after a panic). -/
def exitStatus : Res Unit Unit → Nat
  | .ok _ => 0
  | .err _ => 1
  | .panic => 101

/-- `Cli::call` (cli.rs 78-100): the exit status, and the state at the end. Setting up the logger is left out. -/
def program (env : Env) (c : Cli) (fs : Fs) : Nat × State :=
  (exitStatus (cliInstall env c (fresh fs)).1, (cliInstall env c (fresh fs)).2)

end Verif.Tool
