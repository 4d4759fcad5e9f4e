import Verif.Model.Install
/-!
# The installer on a machine where other processes are at work

Nothing in the installer keeps other processes from changing the same file systems while it runs: there is no
lock (install.rs 109-174, gc.rs 46-80). This is the program of `Model/Install` once more, with the others
getting a turn before every system call that looks at or changes a file. That it is the same program, if the
others do nothing, is proved in `Lemmas/Busy`.

Functions that do not touch the file systems written to are those of `Model/Tools` and `Model/Install`. Simplified: writes to an open
file go to its path, so the effect on an open file that another process renames or removes is not represented. The others are
asked with numbers that may be the same in two turns, if the installer only looks for a directory in between; to tell the
turns apart they can leave a file somewhere.
-/
namespace Verif.Tool
open Verif Generation

/-- Other processes: what they do to the disk before the installer's next step, asked with the number of its
operations and of its changes so far; and the entries they add to a directory while it is being walked. (Nothing
in install.rs 109-174 or gc.rs 46-80 prevents this.) -/
structure Others where
  act : Nat → Nat → Fs → Fs
  late : Nat → List Path

/-- No other processes. (The assumption of the other parts of the model of install.rs.) -/
def Others.none : Others where
  act := fun _ _ fs => fs
  late := fun _ => []

/-- The others' turn. (Before any system call of install.rs and gc.rs, e.g. install.rs 652.) -/
def disturb (o : Others) : M Unit := fun s =>
  (.ok (), { s with fs := o.act s.tick s.log.length s.fs })

namespace Busy

/-- `Path::exists`. (install.rs 363, 406, 461, 597 and 681.) -/
def pathExists (o : Others) (os : Os) (p : Path) : M Bool := do
  disturb o
  Tool.pathExists os p

/-- `fs::read` of a path on the written file systems. (install.rs 395, version.rs 32, utils.rs 74,
signature/mod.rs 60.) -/
def readFs (o : Others) (os : Os) (p : Path) : M Bytes := do
  disturb o
  Tool.readFs os p

/-- `fs::create_dir`. (by `create_dir_all`, install.rs 669.) -/
def mkdir (o : Others) (os : Os) (p : Path) : M Unit := do
  disturb o
  Tool.mkdir os p

/-- `File::create`. (install.rs 643, signature/mod.rs 50.) -/
def createFile (o : Others) (os : Os) (p : Path) : M Unit := do
  disturb o
  Tool.createFile os p

/-- Intermediate contents of a file that is being written. (of install.rs 645, signature/mod.rs 50.) -/
def writePartials (o : Others) (p : Path) : List Bytes → M Unit
  | [] => pure ()
  | d :: rest => do
    disturb o
    change (.write p d)
    writePartials o p rest

/-- Writing to an open file. (install.rs 645, signature/mod.rs 50.) -/
def writeFile (o : Others) (os : Os) (p : Path) (content : Bytes) : M Unit := do
  let t ← next
  writePartials o p (os.partials t)
  guarded os
  disturb o
  change (.write p content)

/-- `File::sync_all`. (install.rs 649.) -/
def fsync (o : Others) (os : Os) (p : Path) : M Unit := do
  disturb o
  Tool.fsync os p

/-- `fs::rename` of a file. (install.rs 497, 585 and 652.) -/
def rename (o : Others) (os : Os) (a b : Path) : M Unit := do
  disturb o
  Tool.rename os a b

/-- `fs::metadata` and `fs::set_permissions` (install.rs 657-664). -/
def setPermissionBits (o : Others) (os : Os) (p : Path) (mode : Nat) : M Unit := do
  disturb o
  guarded os
  let fs ← getFs
  require (fs.get p).isSome
  guarded os
  disturb o
  change (.chmod p mode)

/-- `File::open` and `syncfs` (install.rs 221-222). -/
def syncFs (o : Others) (os : Os) (p : Path) : M Unit := do
  disturb o
  guarded os
  let fs ← getFs
  require (fs.get p).isSome
  guarded os
  disturb o
  change (.syncfs p)

/-- `fs::remove_file`. (gc.rs 75.) -/
def removeFile (o : Others) (os : Os) (p : Path) : M Unit := do
  disturb o
  Tool.removeFile os p

/-- `fs::remove_dir`. (by `remove_dir_all`, gc.rs 71.) -/
def removeDir (o : Others) (os : Os) (p : Path) : M Unit := do
  disturb o
  Tool.removeDir os p

/-- Remove a file or an empty directory. (by `remove_dir_all`, gc.rs 71.) -/
def removeOne (o : Others) (os : Os) (p : Path) : M Unit := do
  disturb o
  let fs ← getFs
  if fs.get p = some .dir then removeDir o os p else removeFile o os p

/-- Remove the listed entries one after the other. (by `remove_dir_all`, gc.rs 71.) -/
def removeEach (o : Others) (os : Os) : List Path → M Unit
  | [] => pure ()
  | p :: rest => do
    removeOne o os p
    removeEach o os rest

/-- What a walk through `p` comes across: entries that are there when it begins, and entries that are added
meanwhile. (gc.rs 55-61 and 71.) -/
def walked (o : Others) (os : Os) (t : Nat) (fs : Fs) (p : Path) : List Path :=
  os.list t (fs.subtree p) ++ (o.late t).filter fun q => p.isPrefixOf q

/-- `fs::remove_dir_all`. (gc.rs 71.) -/
def removeDirAll (o : Others) (os : Os) (p : Path) : M Unit := do
  disturb o
  let t ← next
  let fs ← getFs
  removeEach o os ((walked o os t fs p).isort fun a b => decide (b.length ≤ a.length))

/-- Make the missing ones of these directories. (by `create_dir_all`, install.rs 669.) -/
def mkdirMissing (o : Others) (os : Os) : List Path → M Unit
  | [] => pure ()
  | p :: rest => do
    disturb o
    let fs ← getFs
    if fs.get p = some .dir then mkdirMissing o os rest
    else do
      mkdir o os p
      mkdirMissing o os rest

/-- `fs::create_dir_all`. (install.rs 669.) -/
def createDirAll (o : Others) (os : Os) (p : Path) : M Unit := mkdirMissing o os (ancestors p)

/-- `ensure_parent_dir` (install.rs 667-671). -/
def ensureParentDir (o : Others) (os : Os) (p : Path) : M Unit :=
  match p.parent with
  | some q => do
    let _ ← RM.attempt (createDirAll o os q)
    pure ()
  | none => pure ()

/-- Names listed by `fs::read_dir`, as paths. (install.rs 382.) -/
def readDir (o : Others) (os : Os) (p : Path) : M (List Path) := do
  disturb o
  Tool.readDir os p

/-! ## gc.rs -/

/-- Remove one unused entry (gc.rs 65-76). -/
def collectEntry (o : Others) (os : Os) (p : Path) : M Unit := do
  disturb o
  let fs ← getFs
  if fs.get p = some .dir then removeDirAll o os p
  else do
    let _ ← RM.attempt (removeFile o os p)
    pure ()

/-- The loop (gc.rs 64-77). -/
def collectEach (o : Others) (os : Os) : List Path → M Unit
  | [] => pure ()
  | p :: rest => do
    collectEntry o os p
    collectEach o os rest

/-- `collect_garbage_with_filter` (gc.rs 46-80). -/
def collectGarbageWithFilter (o : Others) (os : Os) (directory : Path) (predicate : Path → Bool) : M Unit := do
  disturb o
  let t ← next
  let s ← RM.get
  collectEach o os ((walked o os t s.fs directory).filter (isGarbage s.roots predicate))

/-- `collect_garbage` (gc.rs 37-39). -/
def collectGarbage (o : Others) (os : Os) (directory : Path) : M Unit :=
  collectGarbageWithFilter o os directory fun _ => true

/-! ## utils.rs, signature/{mod,local,empty}.rs, pcrlock.rs -/

/-- `file_hash` (utils.rs 73-77) of an installed file. -/
def hashFs (o : Others) (env : Env) (p : Path) : M Bytes := do
  let d ← readFs o env.os p
  pure (env.sha.hash d)

/-- A program or library function that writes `content` to `to` (std::fs; signature/mod.rs 50,
pcrlock.rs 48-65). -/
def writeOut (o : Others) (env : Env) (to : Path) (content : Bytes) : M Unit := do
  createFile o env.os to
  writeFile o env.os to content

/-- What sbsign does to its output file when it does not succeed (signature/local.rs 48-73). -/
def failedOutput (o : Others) (env : Env) (to : Path) : M Unit := do
  createFile o env.os to
  let t ← next
  writePartials o to (env.os.partials t)

/-- `fs::copy` (std; signature/empty.rs 22). -/
def copyFile (o : Others) (env : Env) (src : Src) (to : Path) : M Unit := do
  let d ← readSrc env src
  createFile o env.os to
  guarded env.os
  disturb o
  change (.chmod to (env.mode src))
  writeFile o env.os to d

/-- `sign_and_copy` (empty.rs 21-30, local.rs 48-73). -/
def signAndCopy (o : Others) (env : Env) (src : Src) (to : Path) : Signer → M Unit
  | .empty => copyFile o env src to
  | .local pub priv => do
    let d ← readSrc env src
    let t ← next
    match env.sbsign t priv pub d with
    | some signed => writeOut o env to signed
    | none => do
      failedOutput o env to
      RM.throw ()

/-- `verify_path` (empty.rs 48-50, local.rs 102-122). -/
def verifyPath (o : Others) (env : Env) (p : Path) (signer : Signer) : M Bool := do
  disturb o
  signer.verifyPath env p

/-- `lock_pe` (pcrlock.rs 48-65). -/
def lockPe (o : Others) (env : Env) (src : Src) (component : Path) : M Unit := do
  let d ← readSrc env src
  ensureParentDir o env.os component
  let t ← next
  match env.lockPe t d with
  | some m => writeOut o env component m
  | none => do
    failedOutput o env component
    RM.throw ()

/-! ## install.rs -/

/-- `install_signed` (install.rs 578-589). -/
def installSigned (o : Others) (env : Env) (signer : Signer) (src : Src) (to : Path) : M Unit := do
  ensureParentDir o env.os (tmpOf to)
  signAndCopy o env src (tmpOf to) signer
  rename o env.os (tmpOf to) to

/-- `atomic_copy` (install.rs 638-654). -/
def atomicCopy (o : Others) (env : Env) (src : Src) (to : Path) : M Unit := do
  let d ← readSrc env src
  createFile o env.os (tmpOf to)
  writeFile o env.os (tmpOf to) d
  fsync o env.os (tmpOf to)
  rename o env.os (tmpOf to) to

/-- `force_install` (install.rs 610-617). -/
def forceInstall (o : Others) (env : Env) (src : Src) (to : Path) : M Unit := do
  ensureParentDir o env.os to
  atomicCopy o env src to
  setPermissionBits o env.os to 0o755

/-- The condition of `install` (install.rs 597). -/
def needsInstall (o : Others) (env : Env) (src : Src) (to : Path) : M Bool := do
  let there ← pathExists o env.os to
  if !there then pure true
  else do
    let h ← hashSrc env src
    let h' ← hashFs o env to
    pure (decide (h ≠ h'))

/-- `install` (install.rs 596-601). -/
def install (o : Others) (env : Env) (src : Src) (to : Path) : M Unit := do
  let needed ← needsInstall o env src to
  if needed then forceInstall o env src to else pure ()

/-- `install_nixos_ca` (install.rs 417-427). -/
def installNixosCa (o : Others) (env : Env) (cfg : Config) (src : Src) (label : Str) : M Path := do
  let hash ← hashSrc env src
  let to := cfg.paths.nixos.join (caName label hash)
  extendRoots [to]
  install o env src to
  pure to

/-- `read_installed_generation` (install.rs 379-411). -/
def readInstalledGeneration (o : Others) (env : Env) (cfg : Config) (pfx : Str) : M (Path × Path × Path) := do
  let entries ← readDir o env.os cfg.paths.linux
  let stubTarget ← ofOption (matchingEntries env pfx entries).head?
  let stub ← readFs o env.os stubTarget
  let kernelPath ← sectionPath env cfg stub (lit ".linux")
  let initrdPath ← sectionPath env cfg stub (lit ".initrd")
  let k ← pathExists o env.os kernelPath
  if !k then RM.throw ()
  else do
    let i ← pathExists o env.os initrdPath
    if !i then RM.throw ()
    else pure (stubTarget, kernelPath, initrdPath)

/-- The measurement part of `register_installed_generation` (install.rs 359-369). -/
def registerMeasurement (o : Others) (env : Env) (cfg : Config) (g : Gen) : M Bool :=
  match cfg.pcrlock with
  | none => pure true
  | some p => do
    let there ← pathExists o env.os (p.lanzabooteMeasurement g.versionTag)
    if there then do
      extendRoots [p.lanzabooteMeasurement g.versionTag]
      pure true
    else pure false

/-- `register_installed_generation` (install.rs 336-371). -/
def registerInstalledGeneration (o : Others) (env : Env) (cfg : Config) (g : Gen) : M Bool := do
  let key ← cfg.signer.getPublicKey env
  let found ← RM.attempt (readInstalledGeneration o env cfg (StubName.stubPrefix env.sha g key))
  match found with
  | none => pure false
  | some (stub, kernel, initrd) => do
    extendRoots [stub, kernel, initrd]
    registerMeasurement o env cfg g

/-- The measurement of the new image (install.rs 313-319). -/
def measureImage (o : Others) (env : Env) (cfg : Config) (g : Gen) (image : Bytes) : M Unit :=
  match cfg.pcrlock with
  | none => pure ()
  | some p => do
    lockPe o env (.temp image) (p.lanzabooteMeasurement g.versionTag)
    extendRoots [p.lanzabooteMeasurement g.versionTag]

/-- The part of `install_generation` after the check whether it is installed already
(install.rs 240-329). -/
def installNewGeneration (o : Others) (env : Env) (cfg : Config) (g : Gen) : M Unit := do
  guarded env.os  -- TempDir::new
  let version ← ofOption (kernelVersion g.spec.kernel)
  let kernelTarget ← installNixosCa o env cfg (.store g.spec.kernel) (lit "kernel-" ++ version)
  let initrd ← initrdLocation env g.spec
  let initrdTarget ← installNixosCa o env cfg initrd (lit "initrd-" ++ version)
  let parameters ← stubParameters cfg g initrd kernelTarget initrdTarget
  let image ← lanzabooteImage env parameters
  measureImage o env cfg g image
  let key ← cfg.signer.getPublicKey env
  let stubTarget := cfg.paths.linux.join (StubName.stubName env.sha g key cfg.tries)
  extendRoots [stubTarget]
  installSigned o env cfg.signer (.temp image) stubTarget

/-- `install_generation` (install.rs 232-330). -/
def installGeneration (o : Others) (env : Env) (cfg : Config) (g : Gen) : M Unit := do
  let installed ← registerInstalledGeneration o env cfg g
  if installed then pure () else installNewGeneration o env cfg g

/-- Install these one after the other (install.rs 206-216). -/
def installAll (o : Others) (env : Env) (cfg : Config) : List Gen → M Unit
  | [] => pure ()
  | g :: rest => do
    installGeneration o env cfg g
    installAll o env cfg rest

/-- `install_generations_from_links` (install.rs 177-225). -/
def installGenerationsFromLinks (o : Others) (env : Env) (cfg : Config) (links : List Link) : M Unit := do
  let gens ← readGenerations env links
  if gens.isEmpty then RM.throw ()
  else do
    installAll o env cfg (gens.flatMap fun g => g.1 :: g.2)
    syncFs o env.os cfg.esp

/-- `match SystemdVersion::from_systemd_boot_binary(to)` (install.rs 691-694). -/
def installedVersion (o : Others) (env : Env) (p : Path) : M Version.SystemdVersion := do
  let d ← readFs o env.os p
  ofRes (versionOf env d)

/-- `newer_systemd_boot` (install.rs 679-697). -/
def newerSystemdBoot (o : Others) (env : Env) (src : Path) (to : Path) : M Bool := do
  let there ← pathExists o env.os to
  if !there then pure true
  else do
    let d ← readSrc env (.store src)
    let v ← ofRes (versionOf env d)
    let w ← RM.attempt (installedVersion o env to)
    match w with
    | none => pure true
    | some w => pure (Version.gt v w)

/-- Is the boot loader measured (install.rs 458-461)? -/
def measurementExists (o : Others) (env : Env) (cfg : Config) : M Bool :=
  match cfg.pcrlock with
  | none => pure true
  | some p => pathExists o env.os (p.bootloaderMeasurement (lit "current"))

/-- Measure the next boot loader (install.rs 469-480). -/
def measureNext (o : Others) (env : Env) (cfg : Config) : M Unit :=
  match cfg.pcrlock with
  | none => pure ()
  | some p => lockPe o env (.store cfg.systemdBootSource) (p.bootloaderMeasurement (lit "next"))

/-- Rename the measurement (install.rs 490-505). -/
def measurementDone (o : Others) (env : Env) (cfg : Config) : M Unit :=
  match cfg.pcrlock with
  | none => pure ()
  | some p => rename o env.os (p.bootloaderMeasurement (lit "next"))
      (p.bootloaderMeasurement (lit "current"))

/-- Replace both boot loader binaries (install.rs 468-506). -/
def replaceSystemdBoot (o : Others) (env : Env) (cfg : Config) : M Unit := do
  measureNext o env cfg
  installSigned o env cfg.signer (.store cfg.systemdBootSource) cfg.paths.efiFallback
  installSigned o env cfg.signer (.store cfg.systemdBootSource) cfg.paths.systemdBoot
  measurementDone o env cfg

/-- `install_systemd_boot` (install.rs 437-519). -/
def installSystemdBoot (o : Others) (env : Env) (cfg : Config) : M Unit := do
  let newer ← orM (newerSystemdBoot o env cfg.systemdBootSource cfg.paths.efiFallback)
    (newerSystemdBoot o env cfg.systemdBootSource cfg.paths.systemdBoot)
  let signed ← andM (verifyPath o env cfg.paths.efiFallback cfg.signer)
    (verifyPath o env cfg.paths.systemdBoot cfg.signer)
  let measured ← measurementExists o env cfg
  if newer || !signed || !measured then do
    replaceSystemdBoot o env cfg
    install o env (.store cfg.loaderConfig) cfg.paths.systemdBootLoaderConfig
  else install o env (.store cfg.loaderConfig) cfg.paths.systemdBootLoaderConfig

/-- Garbage collection of the measurements (install.rs 156-158). -/
def collectMeasurements (o : Others) (env : Env) (cfg : Config) : M Unit :=
  match cfg.pcrlock with
  | none => pure ()
  | some p => collectGarbage o env.os p.lanzaboote

/-- Garbage collection (install.rs 137-170). -/
def collect (o : Others) (env : Env) (cfg : Config) : M Unit := do
  let s ← RM.get
  if s.broken = [] then do
    change .collecting
    collectGarbage o env.os cfg.paths.nixos
    collectGarbageWithFilter o env.os cfg.paths.linux startsWithNixos
    collectMeasurements o env cfg
  else pure ()

/-- `Installer::install` (install.rs 109-174). -/
def run (o : Others) (env : Env) (cfg : Config) : M Unit := do
  let links ← ofOption (cfg.considered env)
  installGenerationsFromLinks o env cfg links
  installSystemdBoot o env cfg
  collect o env cfg

end Busy

end Verif.Tool
