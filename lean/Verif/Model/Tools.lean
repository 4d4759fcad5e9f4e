import Verif.Model.Fs
import Verif.Model.Firmware
/-!
# What the installer reads and the programs it runs; PE images as the tool sees them

Model of `rust/tool/shared/src/{pe,utils}.rs`, `rust/tool/shared/src/signature/*.rs` and
`rust/tool/systemd/src/pcrlock.rs`.

The sources (Nix store, keys, the stub binary, systemd, loader configuration) do not change during a
run and are kept apart from the file systems written to. Files in the private temporary directory
are represented by their contents; their names, modes and deletion are the subject of `Model/TempDir`.
-/
namespace Verif.Tool
open Verif Generation

/-- A section to be added to the stub (`Section`, pe.rs 158-162). -/
structure Added where
  name : Str
  content : Bytes
  /-- the virtual address, including the image base -/
  vma : UInt64
  deriving DecidableEq, Repr

/-- A file to be installed: a source, or a file in the temporary directory with this content.
(install.rs 263-288.) -/
inductive Src where
  | store (p : Path)
  | temp (content : Bytes)
  deriving DecidableEq, Repr

/-- The outside world of a run. (programs and sources used in pe.rs 68-155, signature/local.rs 38-123,
pcrlock.rs 48-65.) -/
structure Env where
  os : Os
  sha : StubName.Sha
  /-- the non-ASCII digits of the `regex` crate -/
  uni : Char → Bool
  /-- regular files that are only read -/
  store : Path → Option Bytes
  /-- permission bits of a file to be installed -/
  mode : Src → Nat
  /-- modification times of a generation link and of what it leads to -/
  times : Path → Times
  /-- the bootspec document of the system behind a generation link, read or synthesised -/
  bootJson : Path → Option BootJson
  /-- goblin -/
  parse : Bytes → Option Stub.PE
  /-- goblin: image base in the optional header, if there is one -/
  imageBase : Bytes → Option UInt64
  /-- objcopy: adds sections -/
  objcopy : Nat → Bytes → List Added → Option Bytes
  /-- the script at this path, applied to an initrd -/
  secrets : Nat → Path → Bytes → Option Bytes
  /-- sbsign with private key and certificate -/
  sbsign : Nat → Path → Path → Bytes → Option Bytes
  /-- sbverify with certificate -/
  sbverify : Path → Bytes → Bool
  /-- systemd-pcrlock lock-pe -/
  lockPe : Nat → Bytes → Option Bytes

/-- `read_build_time(path).ok()`. (generation.rs 183-187 and 205.) -/
def Env.buildTime (env : Env) (p : Path) : Option Date := readBuildTime (env.times p)

/-- Content of a source. (std::fs; install.rs 267, utils.rs 74.) -/
def Env.content (env : Env) : Src → Option Bytes
  | .store p => env.store p
  | .temp d => some d

/-- `Option::context(..)?`. (anyhow; e.g. install.rs 250 and 254.) -/
def ofOption {α : Type} : Option α → M α
  | some a => pure a
  | none => RM.throw ()

/-- `Result` or panic as a value of the monad. (e.g. install.rs 398-404.) -/
def ofRes {α : Type} : Res Unit α → M α
  | .ok a => pure a
  | .err _ => RM.throw ()
  | .panic => RM.panic

/-- `Option::expect`. (core; install.rs 280, pe.rs 229.) -/
def expectSome {α : Type} : Option α → M α
  | some a => pure a
  | none => RM.panic

/-- `fs::read` of a source. (std::fs; install.rs 267, utils.rs 74.) -/
def readSrc (env : Env) (src : Src) : M Bytes := do
  guarded env.os
  ofOption (env.content src)

/-- `file_hash` (utils.rs 73-77) of a source. -/
def hashSrc (env : Env) (src : Src) : M Bytes := do
  let d ← readSrc env src
  pure (env.sha.hash d)

/-- `file_hash` (utils.rs 73-77) of an installed file. -/
def hashFs (env : Env) (p : Path) : M Bytes := do
  let d ← readFs env.os p
  pure (env.sha.hash d)

/-- `write_secure_file` (utils.rs 47-57): the path stands for the content. -/
def writeSecureFile (env : Env) (content : Bytes) : M Bytes := do
  guarded env.os
  pure content

/-! ## pe.rs -/

/-- `sections.iter().find(|s| s.name().unwrap() == section_name)` (pe.rs 251-254). -/
def findSection (name : Str) : List Stub.Section → Res Unit (Option Stub.Section)
  | [] => .ok none
  | s :: rest => match s.name with
    | none => .panic
    | some n => if n = name then .ok (some s) else findSection name rest

/-- `read_section_data` (pe.rs 248-261). -/
def readSectionData (env : Env) (data : Bytes) (name : Str) : Res Unit (Option Bytes) :=
  match env.parse data with
  | none => .ok none
  | some pe => match findSection name pe.sections with
    | .err e => .err e
    | .panic => .panic
    | .ok none => .ok none
    | .ok (some s) =>
      let start := s.pointerToRawData.toNat
      let stop := start + s.virtualSize.toNat
      if s.virtualSize.toNat ≤ s.sizeOfRawData.toNat then
        if stop ≤ data.length then .ok (some ((data.drop start).take (stop - start)))
        else .panic
      else .panic

/-- `stub_offset` and `image_base` (pe.rs 210-232) of the contents of the stub. Arithmetic wraps, as
in a release build. -/
def stubOffset (env : Env) (stub : Bytes) : Res Unit UInt64 :=
  match env.parse stub with
  | none => .err ()
  | some pe => match env.imageBase stub with
    | none => .panic
    | some base => match pe.sections.getLast? with
      | none => .panic
      | some s => .ok ((s.virtualSize + s.virtualAddress).toUInt64 + base)

/-- `struct StubParameters` (pe.rs 15-28). -/
structure StubParameters where
  lanzabooteStorePath : Path
  kernelCmdline : List Str
  osReleaseContents : Bytes
  kernelStorePath : Path
  initrdStorePath : Src
  kernelPathAtEsp : Str
  initrdPathAtEsp : Str
  deriving DecidableEq, Repr

/-- `file_size` (pe.rs 234-243) as `u64`. -/
def fileSize (env : Env) (content : Bytes) : M UInt64 := do
  guarded env.os
  pure (UInt64.ofNat content.length)

/-- The section list of `lanzaboote_image` (pe.rs 98-126), from the contents of the files and the
offset behind the stub. -/
def stubSections (offset : UInt64) (osRelease cmdline initrdPath kernelPath initrdHash
    kernelHash : Bytes) (sizes : List UInt64) : List Added :=
  let size := fun i => sizes.getD i 0
  let osReleaseOffs := offset
  let kernelCmdlineOffs := osReleaseOffs + size 0
  let initrdPathOffs := kernelCmdlineOffs + size 1
  let kernelPathOffs := initrdPathOffs + size 2
  let initrdHashOffs := kernelPathOffs + size 3
  let kernelHashOffs := initrdHashOffs + size 4
  [⟨lit ".osrel", osRelease, osReleaseOffs⟩,
   ⟨lit ".cmdline", cmdline, kernelCmdlineOffs⟩,
   ⟨lit ".initrd", initrdPath, initrdPathOffs⟩,
   ⟨lit ".linux", kernelPath, kernelPathOffs⟩,
   ⟨lit ".initrdh", initrdHash, initrdHashOffs⟩,
   ⟨lit ".linuxh", kernelHash, kernelHashOffs⟩]

/-- `wrap_in_pe` (pe.rs 137-156): runs objcopy on the stub. -/
def wrapInPe (env : Env) (stub : Bytes) (sections : List Added) : M Bytes := do
  guarded env.os
  let t ← next
  ofOption (env.objcopy t stub sections)

/-- `lanzaboote_image` (pe.rs 89-132); the returned path stands for the image. -/
def lanzabooteImage (env : Env) (p : StubParameters) : M Bytes := do
  let cmdline ← writeSecureFile env (utf8 (joinWith [' '] p.kernelCmdline))
  let kernelPath ← writeSecureFile env (utf8 p.kernelPathAtEsp)
  let kernelHash ← hashSrc env (.store p.kernelStorePath)
  let kernelHash ← writeSecureFile env kernelHash
  let initrdPath ← writeSecureFile env (utf8 p.initrdPathAtEsp)
  let initrdHash ← hashSrc env p.initrdStorePath
  let initrdHash ← writeSecureFile env initrdHash
  let osRelease ← writeSecureFile env p.osReleaseContents
  let stub ← readSrc env (.store p.lanzabooteStorePath)
  let offset ← ofRes (stubOffset env stub)
  let size0 ← fileSize env osRelease
  let size1 ← fileSize env cmdline
  let size2 ← fileSize env initrdPath
  let size3 ← fileSize env kernelPath
  let size4 ← fileSize env initrdHash
  let stub ← readSrc env (.store p.lanzabooteStorePath)
  wrapInPe env stub (stubSections offset osRelease cmdline initrdPath kernelPath initrdHash
    kernelHash [size0, size1, size2, size3, size4])

/-- `append_initrd_secrets` (pe.rs 68-86) on the copy of the initrd in the temporary directory. -/
def appendInitrdSecrets (env : Env) (script : Path) (initrd : Bytes) : M Bytes := do
  guarded env.os
  let t ← next
  ofOption (env.secrets t script initrd)

/-! ## signature/{mod,local,empty}.rs -/

/-- The two implementations of `Signer`: `EmptyKeyPair` and `LocalKeyPair` (public and private key
files). (signature/empty.rs 9-14, signature/local.rs 13-27.) -/
inductive Signer where
  | empty
  | local (publicKey privateKey : Path)
  deriving DecidableEq, Repr

/-- `get_public_key` (empty.rs 17-19, local.rs 39-46). -/
def Signer.getPublicKey (env : Env) : Signer → M Bytes
  | .empty => pure (utf8 (lit "unsigned"))
  | .local pub _ => readSrc env (.store pub)

/-- A program or library function that writes `content` to `to`: the file is created, has arbitrary
contents on the way, and in the end the complete content, unless something fails. (std::fs;
signature/mod.rs 50, pcrlock.rs 48-65.) -/
def writeOut (env : Env) (to : Path) (content : Bytes) : M Unit := do
  createFile env.os to
  writeFile env.os to content

/-- What sbsign does to its output file when it does not succeed: nothing, or create it and leave
something in it. (signature/local.rs 48-73.) -/
def failedOutput (env : Env) (to : Path) : M Unit := do
  createFile env.os to
  let t ← next
  writePartials to (env.os.partials t)

/-- `fs::copy` (std; signature/empty.rs 22): the new file gets the permission bits of the source before it
gets the contents. -/
def copyFile (env : Env) (src : Src) (to : Path) : M Unit := do
  let d ← readSrc env src
  createFile env.os to
  guarded env.os
  change (.chmod to (env.mode src))
  writeFile env.os to d

/-- `sign_and_copy` (empty.rs 21-30, local.rs 48-73). -/
def Signer.signAndCopy (env : Env) (src : Src) (to : Path) : Signer → M Unit
  | .empty => copyFile env src to
  | .local pub priv => do
    let d ← readSrc env src
    let t ← next
    match env.sbsign t priv pub d with
    | some signed => writeOut env to signed
    | none => do
      failedOutput env to
      RM.throw ()

/-- `verify_path` (empty.rs 48-50, local.rs 102-122): sbverify fails on a file that is missing. -/
def Signer.verifyPath (env : Env) (p : Path) : Signer → M Bool
  | .empty => pure true
  | .local pub _ => do
    guarded env.os
    let f ← faulty env.os
    let fs ← getFs
    match fs.fileAt p with
    | some d => pure (!f && env.sbverify pub d)
    | none => pure false

/-- sbsign with its output in a temporary directory (local.rs 48-73 as called from 78 and 88); the path
stands for the content. -/
def signTemp (env : Env) (src : Src) (pub priv : Path) : M Bytes := do
  let d ← readSrc env src
  let t ← next
  let signed ← ofOption (env.sbsign t priv pub d)
  writeSecureFile env signed

/-- `sign_store_path` (empty.rs 32-34, local.rs 75-81). -/
def Signer.signStorePath (env : Env) (p : Path) : Signer → M Bytes
  | .empty => readSrc env (.store p)
  | .local pub priv => do
    guarded env.os  -- tempdir
    let d ← signTemp env (.store p) pub priv
    readSrc env (.temp d)

/-- `build_and_sign_stub` (empty.rs 36-42, local.rs 83-91). -/
def Signer.buildAndSignStub (env : Env) (p : StubParameters) : Signer → M Bytes
  | .empty => do
    guarded env.os  -- tempdir
    let image ← lanzabooteImage env p
    readSrc env (.temp image)
  | .local pub priv => do
    guarded env.os  -- tempdir
    let image ← lanzabooteImage env p
    let d ← signTemp env (.temp image) pub priv
    readSrc env (.temp d)

/-- `verify` (empty.rs 44-46, local.rs 93-100). -/
def Signer.verify (env : Env) (d : Bytes) : Signer → M Bool
  | .empty => pure true
  | .local pub _ => do
    guarded env.os  -- tempdir
    let d ← writeSecureFile env d
    guarded env.os
    let f ← faulty env.os
    pure (!f && env.sbverify pub d)

/-- `Signer::sign_and_copy` (mod.rs 49-51) of an implementation that does not provide it; `sign` is what
its `sign_store_path` does. -/
def defaultSignAndCopy (env : Env) (sign : M Bytes) (to : Path) : M Unit := do
  let d ← sign
  writeOut env to d

/-- `Signer::verify_path` (mod.rs 59-61) of an implementation that does not provide it. -/
def defaultVerifyPath (env : Env) (verify : Bytes → M Bool) (p : Path) : M Bool := do
  let d ← RM.attempt (readFs env.os p)
  let d ← expectSome d
  verify d

/-! ## pcrlock.rs -/

/-- `struct PcrlockPaths` (pcrlock.rs 6-11). -/
structure PcrlockPaths where
  pcrlock : Path
  lanzaboote : Path
  bootloader : Path
  deriving DecidableEq, Repr

/-- `PcrlockPaths::new` (pcrlock.rs 14-21). -/
def PcrlockPaths.new (pcrlock : Path) : PcrlockPaths where
  pcrlock := pcrlock
  lanzaboote := pcrlock.join (lit "635-lanzaboote.pcrlock.d")
  bootloader := pcrlock.join (lit "630-bootloader.pcrlock.d")

/-- `bootloader_measurement` (pcrlock.rs 28-30). -/
def PcrlockPaths.bootloaderMeasurement (p : PcrlockPaths) (name : Str) : Path :=
  p.bootloader.join (name ++ lit ".pcrlock")

/-- `lanzaboote_measurement` (pcrlock.rs 33-35). -/
def PcrlockPaths.lanzabooteMeasurement (p : PcrlockPaths) (name : Str) : Path :=
  p.lanzaboote.join (name ++ lit ".pcrlock")

/-- `PcrlockPaths::iter` (pcrlock.rs 40-42). -/
def PcrlockPaths.iter (p : PcrlockPaths) : List Path := [p.pcrlock, p.lanzaboote]

/-- `lock_pe` (pcrlock.rs 48-65). systemd-pcrlock makes the directory of the component if it is
missing. -/
def lockPe (env : Env) (src : Src) (component : Path) : M Unit := do
  let d ← readSrc env src
  ensureParentDir env.os component
  let t ← next
  match env.lockPe t d with
  | some m => writeOut env component m
  | none => do
    failedOutput env component
    RM.throw ()

end Verif.Tool
