import Verif.Model.Measure
/-!
# Model of `rust/uefi/linux-bootloader/src/efivars.rs`
-/
namespace Verif.Stub
open Verif

/-- `disk_get_part_uuid` (efivars.rs 19-37) on the nodes of the device path. -/
def findPartUuid : List DpNode → Res Status Str
  | [] => .err .unsupported
  | n :: rest =>
    if n.hardDrive then match n.guid with
      | some g => .ok g
      | none => findPartUuid rest
    else findPartUuid rest

/-- `disk_get_part_uuid` (efivars.rs 19-37); `none` handle: `loaded_image.device()` missing is one
of the errors of `devicePath`. -/
def diskGetPartUuid (env : Env) : M Str := do
  let t ← next
  match env.devicePath t with
  | .ok nodes => lift (findPartUuid nodes)
  | .error e => RM.throw e

/-- `EfiLoaderFeatures::all()` (efivars.rs 46-63): bits 0 to 10. -/
def knownLoaderFeatures : Nat := 2 ^ 11 - 1

/-- `u64::from_le_bytes`. (efivars.rs 93.) -/
def fromLe (b : Bytes) : Nat := b.foldr (fun x acc => x.toNat + 256 * acc) 0

/-- `get_loader_features` (efivars.rs 71-95). -/
def getLoaderFeatures (env : Env) : M Nat := do
  let r ← result (getVariable env (loaderVar "LoaderFeatures") 8)
  match r with
  | .ok data =>
    if data.length ≠ 8 then RM.throw .badBufferSize
    else if fromLe data ≤ knownLoaderFeatures then pure (fromLe data)
    else RM.throw .incompatibleVersion
  | .err st => if st = .bufferTooSmall then RM.throw .badBufferSize else pure 0
  | .panic => RM.panic

/-- `variable_exists` (efivars.rs 131-141). -/
def variableExists (env : Env) (key : VarKey) : M Bool := do
  let r ← result (getVariable env key 1)
  match r with
  | .ok _ => pure true
  | .err st =>
    if st = .bufferTooSmall then pure true
    else if st = .notFound then pure false
    else RM.throw st
  | .panic => RM.panic

/-- `ensure_efi_variable` (efivars.rs 145-160). -/
def ensureVariable (env : Env) (key : VarKey) (attributes : Attributes) (fallback : M Bytes) :
    M Unit := do
  let r ← result (variableExists env key)
  if r = .ok true then pure ()
  else do
    let v ← fallback
    setVariable env key attributes v

/-- `{:02}` of an unsigned integer. (std; efivars.rs 219 and 236.) -/
def toDec2 (n : Nat) : Str := if n < 10 then '0' :: toDec n else toDec n

/-- The value of LoaderFirmwareInfo (efivars.rs 218-226). -/
def firmwareInfo (vendor : Str) (revision : UInt32) : Str :=
  vendor ++ lit " " ++ toDec (revision.toNat >>> 16) ++ lit "."
    ++ toDec2 (revision.toNat &&& 0xFFFFF)

/-- `STUB_NAME` (stub/src/main.rs 24, version from uefi/Cargo.toml). -/
def stubInfoName : Str := lit "lanzastub 1.1.0"

/-- `cstr16_to_bytes` (efivars.rs 125-127): with the terminating NUL. -/
def cstr16ToBytes (s : Companion.Str16) : Bytes := leBytes16 (s ++ [0])

/-- `u64::to_le_bytes`. (efivars.rs 262.) -/
def le64 (n : Nat) : Bytes := le32 (n % 2 ^ 32) ++ le32 (n / 2 ^ 32)

/-- The value of LoaderImageIdentifier (efivars.rs 199-216). -/
def imageIdentifier (env : Env) : M Bytes := do
  let t ← next
  match env.imagePath with
  | none => RM.throw .unsupported
  | some _ => match env.imagePathText t with
    | .ok s => pure (cstr16ToBytes s)
    | .error e => RM.throw e

/-- The value of LoaderDevicePartUUID (efivars.rs 188-197). -/
def partUuidBytes (env : Env) : M Bytes := do
  let g ← diskGetPartUuid env
  pure (utf16le g)

/-- `default_attributes` (efivars.rs 168-169). -/
def defaultAttributes : Attributes := bootserviceAccess ||| runtimeAccess

/-- `export_efi_variables` (efivars.rs 163-267). -/
def exportEfiVariables (env : Env) : M Unit := do
  let _ ← openLoadedImage env
  let _ ← result (ensureVariable env (loaderVar "LoaderDevicePartUUID") defaultAttributes
    (partUuidBytes env))
  let _ ← result (ensureVariable env (loaderVar "LoaderImageIdentifier") defaultAttributes
    (imageIdentifier env))
  let _ ← result (ensureVariable env (loaderVar "LoaderFirmwareInfo") defaultAttributes
    (pure (utf16le (firmwareInfo env.firmwareVendor env.firmwareRevision))))
  let _ ← result (ensureVariable env (loaderVar "LoaderFirmwareType") defaultAttributes
    (pure (utf16le (lit "UEFI " ++ env.uefiRevision))))
  let _ ← result (setVariable env (loaderVar "StubInfo") defaultAttributes (utf16le stubInfoName))
  let _ ← result (setVariable env (loaderVar "StubFeatures") defaultAttributes (le64 1))
  pure ()

end Verif.Stub
