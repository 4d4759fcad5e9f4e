import Verif.Model.PeLoader
/-!
# Model of `rust/uefi/linux-bootloader/src/linux_loader.rs`
-/
namespace Verif.Stub
open Verif

/-- `DEVICE_PATH_PROTOCOL` (linux_loader.rs 42-45). -/
def initrdDevicePathBytes : Bytes :=
  [0x04, 0x03, 0x14, 0x00, 0x27, 0xe4, 0x68, 0x55, 0xfc, 0x68, 0x3d, 0x4f, 0xac, 0x74, 0xca, 0x55,
   0x52, 0x31, 0xcc, 0x68, 0x7f, 0xff, 0x04, 0x00]

/-- `load_file`/`raw_load_file` (linux_loader.rs 66-105). `size` is the number behind the
`buffer_size` pointer (`none`: null pointer), `buffer` an address (0: null). Returns the status, the
new number behind the pointer and the memory. -/
def loadFile (initrd : Bytes) (mem : Nat → UInt8) (size : Option Nat) (buffer : Nat) :
    Status × Option Nat × (Nat → UInt8) :=
  match size with
  | none => (.invalidParameter, none, mem)
  | some n =>
    if buffer = 0 ∨ n < initrd.length then (.bufferTooSmall, some initrd.length, mem)
    else (.success, some n, writeMem mem buffer initrd)

/-- `boot::install_protocol_interface`. (uefi crate; linux_loader.rs 137 and 145.) -/
def installProtocol (env : Env) (p : Proto) : M Unit := do
  let t ← next
  match env.installFault t with
  | some st => RM.throw st
  | none => RM.modify fun w => { w with protos := w.protos ++ [p] }

/-- `boot::uninstall_protocol_interface`. (uefi crate; linux_loader.rs 165 and 173.) -/
def uninstallProtocol (env : Env) (p : Proto) : M Unit := do
  let t ← next
  match env.uninstallFault t with
  | some st => RM.throw st
  | none => RM.modify fun w => { w with protos := w.protos.erase p }

/-- `InitrdLoader::new` (linux_loader.rs 123-157). -/
def InitrdLoader.new (env : Env) (initrd : Bytes) : M Unit := do
  installProtocol env .initrdDevicePath
  installProtocol env (.loadFile2 initrd)

/-- `InitrdLoader::uninstall` (linux_loader.rs 159-183) followed by `Drop` (186-191): when one of the
protocols cannot be uninstalled the loader is dropped while still registered, and its assertion
fails. -/
def InitrdLoader.uninstallAndDrop (env : Env) (initrd : Bytes) : M Unit :=
  expect (do
    uninstallProtocol env .initrdDevicePath
    uninstallProtocol env (.loadFile2 initrd))

end Verif.Stub
