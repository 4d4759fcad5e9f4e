import Verif.Model.Install
import Verif.Spec.Objcopy
/-!
# Model of the temporary directory: `rust/tool/shared/src/utils.rs`, and `pe.rs` and `install.rs` as far
as they use it

`Model/Tools` and `Model/Install` represent a temporary file by its content. Here the same functions use
named files in a temporary directory, and objcopy gets its command line. Everything else is taken over
from there (`lift`). Not modelled: what is left in the temporary directory when the installer is killed.
-/
namespace Verif.Tool
open Verif Generation

/-- A file in the temporary directory. (utils.rs 32-55.) -/
structure TempFile where
  path : Str
  content : Bytes
  deriving DecidableEq, Repr

/-- Who creates a file: the installer with this mode, objcopy, or the script that appends secrets.
(utils.rs 34-42, pe.rs 68-86 and 137-155.) -/
inductive Creator where
  | installer (mode : Nat) | objcopy | script
  deriving DecidableEq, Repr

/-- State of the installer with its temporary directory. (install.rs 240, signature/empty.rs 37-41,
signature/local.rs 75-100.) -/
structure TState where
  st : State
  files : List TempFile
  /-- number of random names drawn -/
  drawn : Nat
  /-- all files ever created in the directory -/
  created : List (Str × Creator)

/-- The temporary directory and the random number generator. (tempfile crate; install.rs 240, utils.rs
61-68.) -/
structure TempEnv where
  /-- path of the directory -/
  dir : Str
  /-- `tmpname` (utils.rs 60-68), for the n-th time -/
  names : Nat → Str

/-- functions with a `TempDir`, e.g. pe.rs 89-132. -/
abbrev T := RM TState Unit

/-- Something that does not touch the temporary directory. (e.g. install.rs 256-259.) -/
def lift {α : Type} (m : M α) : T α := fun t =>
  match m t.st with
  | (r, s) => (r, { t with st := s })

/-- The content of the file at this path. (std::fs; pe.rs 68-86, signature/local.rs 80 and 90.) -/
def contentAt : List TempFile → Str → Option Bytes
  | [], _ => none
  | f :: rest, p => if f.path = p then some f.content else contentAt rest p

/-- The file at this path: in the temporary directory or a source. (install.rs 283-288.) -/
def TState.src (t : TState) (p : Str) : Src :=
  match contentAt t.files p with
  | some d => .temp d
  | none => .store (components p)

/-- Set the content of the file at this path. (std::fs; utils.rs 44-56, pe.rs 68-86.) -/
def putFile (p : Str) (d : Bytes) : List TempFile → List TempFile
  | [] => [⟨p, d⟩]
  | f :: rest => if f.path = p then ⟨p, d⟩ :: rest else f :: putFile p d rest

/-- An operation on the file at this path. (install.rs 283-288, signature/local.rs 48-73.) -/
def withSrc {α : Type} (p : Str) (f : Src → M α) : T α := fun t => lift (f (t.src p)) t

/-- `tempdir.path().join(tmpname())` (utils.rs 48, pe.rs 125). -/
def tempPath (te : TempEnv) : T Str := fun t =>
  (.ok (te.dir ++ ['/'] ++ te.names t.drawn), { t with drawn := t.drawn + 1 })

/-- Create or truncate a file and write to it; the mode counts only if the file is new. (utils.rs
34-54.) -/
def createTemp (p : Str) (creator : Creator) (d : Bytes) : T Unit := fun t =>
  (.ok (), { t with
    files := putFile p d t.files
    created := if (contentAt t.files p).isSome then t.created else t.created ++ [(p, creator)] })

/-- `write_secure_file` and `create_secure_file` (utils.rs 36-57): mode 0600. -/
def writeSecureFileT (te : TempEnv) (env : Env) (content : Bytes) : T Str := do
  let path ← tempPath te
  lift (guarded env.os)
  createTemp path (.installer 0o600) content
  pure path

/-- `file_hash` (utils.rs 73-77). -/
def hashT (env : Env) (p : Str) : T Bytes := withSrc p (hashSrc env)

/-- `file_size` (pe.rs 234-243). -/
def fileSizeT (env : Env) (p : Str) : T UInt64 := withSrc p fun src => do
  guarded env.os
  let d ← ofOption (env.content src)
  pure (UInt64.ofNat d.length)

/-- A lower case hexadecimal digit. (for `{:#x}`, pe.rs 177.) -/
def hexDigit (n : Nat) : Char :=
  if n % 16 < 10 then Char.ofNat (0x30 + n % 16) else Char.ofNat (0x57 + n % 16)

/-- `format!("{:x}", n)`. (std; `{:#x}`, pe.rs 177.) -/
def toHex (n : Nat) : Str :=
  if n < 16 then [hexDigit n] else toHex (n / 16) ++ [hexDigit n]
termination_by n
decreasing_by omega

/-- `struct Section` (pe.rs 158-162). -/
structure SectionFile where
  name : Str
  filePath : Str
  offset : UInt64
  deriving DecidableEq, Repr

/-- `to_objcopy` (pe.rs 167-179). -/
def SectionFile.toObjcopy (s : SectionFile) : List Str :=
  [lit "--add-section", s.name ++ lit "=" ++ s.filePath,
   lit "--change-section-vma", s.name ++ lit "=" ++ (lit "0x" ++ toHex s.offset.toNat)]

/-- The sections an invocation of objcopy adds. (GNU objcopy; pe.rs 137-155.) -/
def addedSections (env : Env) (t : TState) (addresses : List (Str × Nat)) :
    List (Str × Str) → Option (List Added)
  | [] => some []
  | (name, file) :: rest =>
    match env.content (t.src file), addresses.find? (fun a => a.1 == name),
        addedSections env t addresses rest with
    | some d, some a, some l => some (⟨name, d, UInt64.ofNat a.2⟩ :: l)
    | _, _, _ => none

/-- objcopy, run with these arguments. (GNU objcopy; pe.rs 137-155.) -/
def runObjcopy (env : Env) (args : List Str) : T Unit :=
  match Objcopy.parse args with
  | some ⟨sections, addresses, [input, output]⟩ => do
    let stub ← withSrc input (readSrc env)
    lift (guarded env.os)
    let n ← lift next
    let t ← RM.get
    match addedSections env t addresses sections with
    | none => RM.throw ()
    | some added => match env.objcopy n stub added with
      | none => RM.throw ()
      | some image => createTemp output .objcopy image
  | _ => RM.throw ()

/-- `wrap_in_pe` (pe.rs 137-156). -/
def wrapInPeT (env : Env) (stub : Str) (sections : List SectionFile) (output : Str) : T Unit :=
  runObjcopy env (sections.flatMap SectionFile.toObjcopy ++ [stub, output])

/-- `StubParameters` (pe.rs 15-28) with the path of the initrd. -/
structure StubParametersT where
  lanzabooteStorePath : Path
  kernelCmdline : List Str
  osReleaseContents : Bytes
  kernelStorePath : Path
  initrdStorePath : Str
  kernelPathAtEsp : Str
  initrdPathAtEsp : Str

/-- `lanzaboote_image` (pe.rs 89-132). -/
def lanzabooteImageT (te : TempEnv) (env : Env) (p : StubParametersT) : T Str := do
  let cmdline ← writeSecureFileT te env (utf8 (joinWith [' '] p.kernelCmdline))
  let kernelPath ← writeSecureFileT te env (utf8 p.kernelPathAtEsp)
  let kernelHash ← hashT env (pathText p.kernelStorePath)
  let kernelHash ← writeSecureFileT te env kernelHash
  let initrdPath ← writeSecureFileT te env (utf8 p.initrdPathAtEsp)
  let initrdHash ← hashT env p.initrdStorePath
  let initrdHash ← writeSecureFileT te env initrdHash
  let osRelease ← writeSecureFileT te env p.osReleaseContents
  let stub ← withSrc (pathText p.lanzabooteStorePath) (readSrc env)
  let osReleaseOffs ← lift (ofRes (stubOffset env stub))
  let size0 ← fileSizeT env osRelease
  let kernelCmdlineOffs := osReleaseOffs + size0
  let size1 ← fileSizeT env cmdline
  let initrdPathOffs := kernelCmdlineOffs + size1
  let size2 ← fileSizeT env initrdPath
  let kernelPathOffs := initrdPathOffs + size2
  let size3 ← fileSizeT env kernelPath
  let initrdHashOffs := kernelPathOffs + size3
  let size4 ← fileSizeT env initrdHash
  let kernelHashOffs := initrdHashOffs + size4
  let imagePath ← tempPath te
  wrapInPeT env (pathText p.lanzabooteStorePath)
    [⟨lit ".osrel", osRelease, osReleaseOffs⟩,
     ⟨lit ".cmdline", cmdline, kernelCmdlineOffs⟩,
     ⟨lit ".initrd", initrdPath, initrdPathOffs⟩,
     ⟨lit ".linux", kernelPath, kernelPathOffs⟩,
     ⟨lit ".initrdh", initrdHash, initrdHashOffs⟩,
     ⟨lit ".linuxh", kernelHash, kernelHashOffs⟩] imagePath
  pure imagePath

/-- `append_initrd_secrets` (pe.rs 68-86): the script changes the file in place. -/
def appendInitrdSecretsT (env : Env) (script : Path) (initrd : Str) : T Unit := do
  lift (guarded env.os)
  let n ← lift next
  let t ← RM.get
  match env.content (t.src initrd) with
  | none => RM.throw ()
  | some d => match env.secrets n script d with
    | none => RM.throw ()
    | some d' => createTemp initrd .script d'

/-- The initrd to be installed (install.rs 264-285). -/
def initrdLocationT (te : TempEnv) (env : Env) (b : BootSpec) : T Str :=
  match b.initrdSecrets with
  | some script => do
    let initrd ← lift (ofOption b.initrd)
    let d ← withSrc (pathText initrd) (readSrc env)
    let p ← writeSecureFileT te env d
    appendInitrdSecretsT env script p
    pure p
  | none => do
    let initrd ← lift (expectSome b.initrd)
    pure (pathText initrd)

/-- `StubParameters::new` with command line and os-release (install.rs 292-309, pe.rs 31-63). -/
def stubParametersT (cfg : Config) (g : Gen) (initrd : Str) (kernelTarget initrdTarget : Path) :
    T StubParametersT := do
  let k ← lift (ofOption (espRelativeUefiPath cfg.esp kernelTarget))
  let i ← lift (ofOption (espRelativeUefiPath cfg.esp initrdTarget))
  pure {
    lanzabooteStorePath := cfg.lanzabooteStub
    kernelCmdline := assembleKernelCmdline g.spec.init g.spec.kernelParams
    osReleaseContents := utf8 (OsRelease.display (osRelease g))
    kernelStorePath := g.spec.kernel
    initrdStorePath := initrd
    kernelPathAtEsp := k
    initrdPathAtEsp := i }

/-- The measurement of the new image (install.rs 313-319). -/
def measureImageT (env : Env) (cfg : Config) (g : Gen) (image : Str) : T Unit :=
  match cfg.pcrlock with
  | none => pure ()
  | some p => do
    withSrc image fun src => lockPe env src (p.lanzabooteMeasurement g.versionTag)
    lift (extendRoots [p.lanzabooteMeasurement g.versionTag])

/-- The temporary directory is empty at first, and it is removed with everything in it when
`install_generation` returns or panics (`TempDir`, install.rs 240). -/
def withTempDir {α : Type} (m : T α) : T α := fun t =>
  match m { t with files := [] } with
  | (r, t') => (r, { t' with files := [] })

/-- What `install_generation` does with the temporary directory (install.rs 241-329). -/
def installInTempDir (te : TempEnv) (env : Env) (cfg : Config) (g : Gen) : T Unit := do
  let version ← lift (ofOption (kernelVersion g.spec.kernel))
  let kernelTarget ← withSrc (pathText g.spec.kernel) fun src =>
    installNixosCa env cfg src (lit "kernel-" ++ version)
  let initrd ← initrdLocationT te env g.spec
  let initrdTarget ← withSrc initrd fun src =>
    installNixosCa env cfg src (lit "initrd-" ++ version)
  let parameters ← stubParametersT cfg g initrd kernelTarget initrdTarget
  let image ← lanzabooteImageT te env parameters
  measureImageT env cfg g image
  let key ← lift (cfg.signer.getPublicKey env)
  let stubTarget := cfg.paths.linux.join (StubName.stubName env.sha g key cfg.tries)
  lift (extendRoots [stubTarget])
  withSrc image fun src => installSigned env cfg.signer src stubTarget

/-- The part of `install_generation` after the check whether it is installed already
(install.rs 240-329). -/
def installNewGenerationT (te : TempEnv) (env : Env) (cfg : Config) (g : Gen) : T Unit := do
  lift (guarded env.os)  -- TempDir::new
  withTempDir (installInTempDir te env cfg g)

/-- `install_generation` (install.rs 232-330). -/
def installGenerationT (te : TempEnv) (env : Env) (cfg : Config) (g : Gen) : T Unit := do
  let installed ← lift (registerInstalledGeneration env cfg g)
  if installed then pure () else installNewGenerationT te env cfg g

/-- Install these one after the other (install.rs 206-216). -/
def installAllT (te : TempEnv) (env : Env) (cfg : Config) : List Gen → T Unit
  | [] => pure ()
  | g :: rest => do
    installGenerationT te env cfg g
    installAllT te env cfg rest

/-- `install_generations_from_links` (install.rs 177-225). -/
def installGenerationsFromLinksT (te : TempEnv) (env : Env) (cfg : Config) (links : List Link) :
    T Unit := do
  let gens ← lift (readGenerations env links)
  if gens.isEmpty then RM.throw ()
  else do
    installAllT te env cfg (gens.flatMap fun g => g.1 :: g.2)
    lift (syncFs env.os cfg.esp)

/-- `Installer::install` (install.rs 109-174). -/
def runT (te : TempEnv) (env : Env) (cfg : Config) : T Unit := do
  let links ← lift (ofOption (cfg.considered env))
  installGenerationsFromLinksT te env cfg links
  lift (installSystemdBoot env cfg)
  lift (collect env cfg)

/-- `InstallerBuilder::build` (install.rs 66-90). -/
def startT (cfg : Config) (fs : Fs) : TState where
  st := start cfg fs
  files := []
  drawn := 0
  created := []

end Verif.Tool
