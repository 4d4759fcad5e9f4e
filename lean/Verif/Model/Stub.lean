import Verif.Model.EfiVars
import Verif.Model.LinuxLoader
/-!
# Model of `rust/uefi/stub/src/{common,thin,main}.rs`
-/
namespace Verif.Stub
open Verif Verif.Companion

/-! ## common.rs -/

/-- The SecureBoot variable (common.rs 56-57). -/
def secureBootVar : VarKey := { vendor := .global, name := lit "SecureBoot" }

/-- The interpretation of the variable (common.rs 60-78). -/
def decodeSecureBoot (r : Res Status Bytes) : Bool :=
  match r with
  | .ok [v] => if v = 0 then false else if v = 1 then true else true
  | .ok _ => true
  | .err st => if st = .notFound then false else true
  | .panic => true

/-- `get_secure_boot_status` (common.rs 52-79). -/
def getSecureBootStatus (env : Env) : M Bool := do
  let r ← result (getVariable env secureBootVar 1)
  pure (decodeSecureBoot r)

/-- `get_load_options` (common.rs 43-47). -/
def getLoadOptions (env : Env) : M (Option Bytes) := do
  let r ← result (openLoadedImage env)
  match r with
  | .ok l => pure l.options
  | _ => pure none

/-- `get_cmdline` (common.rs 20-37); `embedded` is `CStr16::as_bytes`, with terminating NUL. -/
def getCmdline (env : Env) (embedded : Str16) : M Bytes := do
  let sb ← getSecureBootStatus env
  if sb then pure (leBytes16 (embedded ++ [0]))
  else do
    let o ← getLoadOptions env
    match o with
    | none => pure (leBytes16 (embedded ++ [0]))
    | some passed =>
      if passed = leBytes16 (embedded ++ [0]) then pure passed
      else do
        let r ← result (measureBootLoader env passed (lit "Custom user provided kernel cmdline"))
        if r.isOk then pure passed
        else pure (leBytes16 (embedded ++ [0]))

/-- `status.to_result()`. (uefi crate; stub/src/common.rs 98.) -/
def statusToResult (st : Status) : M Unit :=
  if st = .success then pure () else RM.throw st

/-- `boot_linux_unchecked` (common.rs 85-99). -/
def bootLinuxUnchecked (env : Env) (kernel cmdline initrd : Bytes) : M Unit := do
  let img ← expect (Image.load env kernel)
  InitrdLoader.new env initrd
  let st ← Image.start env img cmdline
  InitrdLoader.uninstallAndDrop env initrd
  statusToResult st

/-! ## thin.rs -/

/-- `CString16::try_from(&str)`: fails for characters outside the basic multilingual plane and for
NUL. (uefi crate; thin.rs 28.) -/
def toCString16 (s : Str) : Option Str16 :=
  if s.all (fun c => decide (c.toNat < 0x10000) && decide (c.toNat ≠ 0))
  then some (s.map fun c => UInt16.ofNat c.toNat) else none

/-- `extract_string` (thin.rs 24-30). -/
def extractString (p : Parsed) (section_ : Str) : Res Status Str16 :=
  match p.sectionData section_ with
  | .panic => .panic
  | .err e => .err e
  | .ok none => .err .invalidParameter
  | .ok (some data) =>
    match utf8Decode data with
    | none => .err .invalidParameter
    | some s => match toCString16 s with
      | none => .err .invalidParameter
      | some c => .ok c

/-- `extract_hash` (thin.rs 33-41). -/
def extractHash (p : Parsed) (section_ : Str) : Res Status Bytes :=
  match p.sectionData section_ with
  | .panic => .panic
  | .err e => .err e
  | .ok none => .err .invalidParameter
  | .ok (some data) => if data.length = 32 then .ok data else .err .invalidParameter

/-- `UkiComponents` (thin.rs 12-21). -/
structure Components where
  kernel : Bytes
  initrd : Bytes
  cmdline : Str16
  deriving Repr, DecidableEq

/-- `check_hash` (thin.rs 88-95). -/
def checkHash (env : Env) (data expected : Bytes) : M Unit :=
  if env.sha.hash data = expected then pure () else RM.throw .securityViolation

/-- `boot::get_image_file_system(image_handle())`. (uefi crate; thin.rs 57, stub/src/main.rs 89.) -/
def getImageFileSystem (env : Env) : M (Option Fw) := do
  let t ← next
  pure (env.fs t)

/-- `Option::expect`. (core; thin.rs 57-67.) -/
def expectSome {α : Type} (o : Option α) : M α :=
  match o with
  | some a => pure a
  | none => RM.panic

/-- `UkiComponents::load_from_pe` (thin.rs 44-82). -/
def loadFromPe (env : Env) : M Components := do
  let p ← lift (parseOwnImage env)
  let kernelName ← lift (extractString p (lit ".linux"))
  let kernelHash ← lift (extractHash p (lit ".linuxh"))
  let initrdName ← lift (extractString p (lit ".initrd"))
  let initrdHash ← lift (extractHash p (lit ".initrdh"))
  let cmdline ← lift (extractString p (lit ".cmdline"))
  let fs ← getImageFileSystem env
  let _ ← expectSome fs
  let kernel? ← readFile env kernelName
  let kernel ← expectSome kernel?
  let initrd? ← readFile env initrdName
  let initrd ← expectSome initrd?
  let _ ← getSecureBootStatus env
  checkHash env kernel kernelHash
  checkHash env initrd initrdHash
  pure { kernel := kernel, initrd := initrd, cmdline := cmdline }

/-- `v.resize(v.len().next_multiple_of(4), 0)` (thin.rs 112, 119). -/
def padTo4 (b : Bytes) : Bytes := b ++ List.replicate ((4 - b.length % 4) % 4) 0

/-- The loop of `boot_linux` (thin.rs 113-120). -/
def appendInitrds (initrd : Bytes) : List Bytes → Bytes
  | [] => initrd
  | e :: rest => appendInitrds (padTo4 (initrd ++ e)) rest

/-- `boot_linux` (thin.rs 97-123). -/
def bootLinux (env : Env) (c : Components) (dynamic : List Bytes) : M Unit := do
  let cmdline ← getCmdline env c.cmdline
  bootLinuxUnchecked env c.kernel cmdline (appendInitrds (padTo4 c.initrd) dynamic)

/-! ## main.rs -/

/-- A result of the companion code; its error value is never looked at. (stub/src/main.rs 84-145.) -/
def liftCompanion {α : Type} (r : Res Companion.Status α) (dflt : α) : M α :=
  match r with
  | .ok a => pure a
  | .err _ => pure dflt
  | .panic => RM.panic

/-- The drop-in directory (main.rs 95-106). -/
def dropinDirectory (env : Env) (fw : Fw) : M (Option Str16) :=
  match env.imagePath with
  | none => pure none
  | some p => liftCompanion (getDefaultDropinDirectory fw p) none

/-- The discovery part of the companion block (main.rs 91-126). The volume may change between the three
searches. -/
def discoverCompanions (env : Env) : M (List Companion) := do
  let fw ← volumeNow env
  let dropin ← dropinDirectory env fw
  let fw ← volumeNow env
  let creds ← liftCompanion (discoverCredentials fw dropin) []
  match dropin with
  | none => pure creds
  | some dir => do
    let fw ← volumeNow env
    let exts ← liftCompanion (discoverSystemExtensions fw dir) []
    pure (creds ++ exts)

/-- `if is_tpm_available { let _ = measure_companion_initrds(..); }` (main.rs 128-132). -/
def measureCompanionsIf (env : Env) (tpm : Bool) (cs : List Companion) : M Unit :=
  if tpm then do
    let _ ← result (measureCompanions env cs)
    pure ()
  else pure ()

/-- The companion block (main.rs 84-145). -/
def companionBlock (env : Env) (tpm : Bool) : M (List Bytes) := do
  let fs ← getImageFileSystem env
  match fs with
  | none => pure []
  | some _ => do
    let cs ← discoverCompanions env
    measureCompanionsIf env tpm cs
    pure (cs.map fun c => c.cpio.buffer)

/-- `if is_tpm_available { let _ = measure_image(..); }` (main.rs 54-65). -/
def measureImageIf (env : Env) (tpm : Bool) (c : Components) : M Unit :=
  if tpm then do
    let _ ← result (measureImage env c.kernel c.initrd)
    pure ()
  else pure ()

/-- `main` (main.rs 42-148). `uefi::helpers::init` and the logo are left out. The result `ok ()`
stands for the returned status `SUCCESS`, `err st` for `st`. -/
def main (env : Env) : M Unit := do
  let tpm ← tpmAvailable env
  let _ ← expect (openLoadedImage env)
  let c ← expect (loadFromPe env)
  measureImageIf env tpm c
  let _ ← result (getLoaderFeatures env)
  let _ ← result (exportEfiVariables env)
  let dynamic ← companionBlock env tpm
  bootLinux env c dynamic

end Verif.Stub
