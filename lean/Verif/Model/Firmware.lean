import Verif.Model.Companion
import Verif.Model.Text
import Verif.Model.StubName
/-!
# The firmware the stub runs on

Everything the stub can do to the outside goes through a UEFI service.  `World` is the part of the
machine those services change, `Env` the part the stub cannot influence: fixed data and, for every
single call (numbered by `World.tick`), whether it fails and with which status.  All answers that
are not determined by the world are fields of `Env`, so a theorem for every `Env` is a theorem for
every firmware behaviour, including one that changes its mind between two calls.

Every call is recorded in `World.trace`, oldest first.
-/
namespace Verif.Stub
open Verif Verif.Companion

/-- `uefi::Status`; `other` stands for every code the code does not name. (uefi crate; named codes occur
in efivars.rs 74-91 and 133-140, linux_loader.rs 73-77, pe_loader.rs 88-155.) -/
inductive Status where
  | success | loadError | invalidParameter | unsupported | badBufferSize | bufferTooSmall
  | notFound | securityViolation | incompatibleVersion | other (code : Nat)
  deriving Repr, DecidableEq

/-- A variable is identified by vendor GUID and name. (efivars.rs 43-44, stub/src/common.rs 57.) -/
inductive Vendor where
  /-- `8be4df61-93ca-11d2-aa0d-00e098032b8c` (stub/src/common.rs 57) -/
  | global
  /-- `4a67b082-0a4c-41cf-b6c7-440b29bb8c4f` (linux-bootloader/src/efivars.rs 43-44) -/
  | loader
  | any (guid : Nat)
  deriving Repr, DecidableEq

/-- Name of a variable. (efivars.rs 128-132.) -/
structure VarKey where
  vendor : Vendor
  name : Str
  deriving Repr, DecidableEq

/-- Contents of the variable store. With which attributes a variable was set is recorded in the
trace, not here. (runtime services; used in efivars.rs 74, 133, 156, 246 and 258.) -/
abbrev Vars := VarKey → Option Bytes

/-- `VariableAttributes`: the bits of the UEFI specification. (efivars.rs 148 and 168-169, measure.rs
106.) -/
abbrev Attributes := UInt32

/-- `VariableAttributes::BOOTSERVICE_ACCESS`. (efivars.rs 169, measure.rs 106, 172 and 181.) -/
def bootserviceAccess : Attributes := 2
/-- `VariableAttributes::RUNTIME_ACCESS`. (efivars.rs 169, measure.rs 106, 172 and 181.) -/
def runtimeAccess : Attributes := 4

/-- How a variable was set: with which attributes, and the error if it failed. (efivars.rs 156,
measure.rs 103-108.) -/
structure Setting where
  attributes : Attributes
  result : Option Status
  deriving Repr, DecidableEq

/-- One section header as goblin presents it (`goblin::pe::section_table::SectionTable`); the numeric
fields are `u32`. `name` is the result of `SectionTable::name()`. (used in pe_loader.rs 94-134,
uefi_helpers.rs 92-120.) -/
structure Section where
  name : Option Str
  virtualAddress : UInt32
  virtualSize : UInt32
  pointerToRawData : UInt32
  sizeOfRawData : UInt32
  deriving Repr, DecidableEq

/-- The parts of `goblin::pe::PE` the code looks at. (used in pe_loader.rs 88-163, uefi_helpers.rs
66-105.) -/
structure PE where
  sections : List Section
  entry : UInt32
  /-- `header.optional_header.data_directories.get_base_relocation_table().is_some()` -/
  hasRelocations : Bool
  deriving Repr, DecidableEq

/-- Outcome of one attempt to measure (`tpm_log_event_ascii`). (tpm.rs 37-58.) -/
inductive Measured where
  /-- no usable TPM could be opened -/
  | noTpm
  /-- the event structure could not be built -/
  | notBuilt
  /-- the TPM answered with an error -/
  | rejected
  /-- the TPM extended the PCR -/
  | extended
  deriving Repr, DecidableEq

/-- What the started kernel finds. (pe_loader.rs 178-202.) -/
structure Started where
  /-- contents of the image memory -/
  image : Bytes
  /-- offset of the entry point in it -/
  entry : Nat
  /-- load options in the LoadedImage protocol -/
  options : Bytes
  /-- what the LoadFile2 protocol on the image handle serves -/
  initrd : Option Bytes
  deriving Repr, DecidableEq

/-- One observable interaction with the firmware. (runtime and boot services used in stub/src/main.rs
42-148.) -/
inductive Event where
  | probeTpm (usable : Bool)
  | readVar (key : VarKey) (result : Res Status Bytes)
  | writeVar (key : VarKey) (data : Bytes) (how : Setting)
  | readFile (name : Str16) (result : Option Bytes)
  | measure (pcr : Nat) (data : Bytes) (description : Str) (outcome : Measured)
  | start (s : Started)
  deriving Repr, DecidableEq

/-- Protocol instances on the stub's image handle that the stub installs. (linux_loader.rs 137-152.) -/
inductive Proto where
  | initrdDevicePath
  | loadFile2 (initrd : Bytes)
  deriving Repr, DecidableEq

/-- The LoadedImage protocol of the running image. Pointers to code and data of an image are its address
and size; load options are their bytes, `none` for a null pointer. (uefi_helpers.rs 53-64, pe_loader.rs
179-222, stub/src/common.rs 43-50.) -/
structure Loaded where
  base : Nat
  size : Nat
  options : Option Bytes
  deriving Repr, DecidableEq

/-- The state UEFI services act on. (changed by stub/src/main.rs 42-148 and all it calls.) -/
structure World where
  tick : Nat
  trace : List Event
  vars : Vars
  mem : Nat → UInt8
  /-- page allocations: address and number of pages -/
  pages : List (Nat × Nat)
  loaded : Loaded
  protos : List Proto

/-- What the kernel did before it returned. The safety contract of `Image::start` (pe_loader.rs
170-177) says that it frees nothing it has not allocated; it may change everything else the stub
looks at afterwards. -/
structure KernelEffect where
  status : Status
  mem : Nat → UInt8
  vars : Vars
  loaded : Loaded
  morePages : List (Nat × Nat)

/-- Device path node as far as `disk_get_part_uuid` looks (efivars.rs 22-33). -/
structure DpNode where
  /-- device type MEDIA and sub type MEDIA_HARD_DRIVE -/
  hardDrive : Bool
  /-- the text of the partition GUID, if it is a well-formed hard drive node with one -/
  guid : Option Str
  deriving Repr, DecidableEq

/-- Everything the stub cannot influence. Functions of a number are asked with the current tick.
(firmware services called in stub/src/main.rs 42-148 and below.) -/
structure Env where
  sha : StubName.Sha
  /-- the memory of the running stub; it does not change while the stub looks at it -/
  ownImage : Bytes
  /-- goblin with `parse_attribute_certificates = false` -/
  parseOwn : Bytes → Option PE
  /-- goblin with default options -/
  parseFile : Bytes → Option PE
  /-- the file path of the loaded image: absent, or its text if convertible -/
  imagePath : Option (Option Str16)
  /-- the volume the image was loaded from as it is at this time, `none` if it cannot be accessed then
  (`get_image_file_system` fails) -/
  fs : Nat → Option Fw
  /-- `open_capable_tpm2` succeeds -/
  tpmOpens : Nat → Bool
  /-- `PcrEventInputs::new_in_box` fails -/
  eventFault : Nat → Option Status
  /-- `hash_log_extend_event` fails -/
  extendFault : Nat → Option Status
  getFault : Nat → Option Status
  setFault : Nat → Option Status
  openLoadedImageFault : Nat → Option Status
  installFault : Nat → Option Status
  uninstallFault : Nat → Option Status
  /-- address of the allocated pages -/
  allocate : Nat → Nat → Except Status Nat
  freeFault : Nat → Option Status
  kernel : World → KernelEffect
  firmwareVendor : Str
  firmwareRevision : UInt32
  /-- `Display` of `uefi_revision()` -/
  uefiRevision : Str
  /-- the device path of the device the image was loaded from -/
  devicePath : Nat → Except Status (List DpNode)
  /-- `convert_device_path_to_text` of the image's file path, without the terminating NUL -/
  imagePathText : Nat → Except Status Str16

/-- The stub's functions. (stub/src/main.rs 42-148 and all it calls.) -/
abbrev M := RM World Status

/-- Number of this firmware call. (any call of a boot or runtime service, e.g. efivars.rs 133.) -/
def next : M Nat := fun w => (.ok w.tick, { w with tick := w.tick + 1 })

/-- Record an interaction. (e.g. tpm.rs 51-54, efivars.rs 156.) -/
def emit (e : Event) : M Unit := fun w => (.ok (), { w with trace := w.trace ++ [e] })

/-- `Result::unwrap`/`expect`: an error becomes a panic. (e.g. stub/src/main.rs 48-52,
stub/src/common.rs 91.) -/
def expect {α : Type} (m : M α) : M α := fun w =>
  match m w with
  | (.ok a, w') => (.ok a, w')
  | (.err _, w') => (.panic, w')
  | (.panic, w') => (.panic, w')

/-- The `Result` as a value (`match`, `.is_ok()`, `let _ =`); panics propagate. (e.g. measure.rs 75-82,
efivars.rs 186.) -/
def result {α : Type} (m : M α) : M (Res Status α) := fun w =>
  match m w with
  | (.ok a, w') => (.ok (.ok a), w')
  | (.err e, w') => (.ok (.err e), w')
  | (.panic, w') => (.panic, w')

/-- Raise an optional failure. (any call of a service that can fail, e.g. tpm.rs 11.) -/
def failIf (f : Option Status) : M Unit :=
  match f with
  | some st => RM.throw st
  | none => pure ()

/-- UEFI GetVariable with a buffer of `n` bytes. (UEFI specification; used in efivars.rs 74-78 and 133,
stub/src/common.rs 55.) -/
def lookup (vars : Vars) (key : VarKey) (n : Nat) : Res Status Bytes :=
  match vars key with
  | none => .err .notFound
  | some d => if d.length > n then .err .bufferTooSmall else .ok d

/-- `runtime::get_variable(name, vendor, &mut [0; n])`. (efivars.rs 74 and 133, stub/src/common.rs 55.)
-/
def getVariable (env : Env) (key : VarKey) (n : Nat) : M Bytes := do
  let t ← next
  let w ← RM.get
  let r : Res Status Bytes := match env.getFault t with
    | some st => .err st
    | none => lookup w.vars key n
  emit (.readVar key r)
  match r with
  | .ok d => pure d
  | .err st => RM.throw st
  | .panic => RM.panic

/-- UEFI SetVariable: no data deletes the variable. (UEFI specification; used in efivars.rs 156, 246 and
258.) -/
def store (vars : Vars) (key : VarKey) (data : Bytes) : Vars := fun k =>
  if k = key then (if data = [] then none else some data) else vars k

/-- `runtime::set_variable`. (efivars.rs 156, 246 and 258, measure.rs 103, 169 and 178.) -/
def setVariable (env : Env) (key : VarKey) (attributes : Attributes) (data : Bytes) : M Unit := do
  let t ← next
  emit (.writeVar key data { attributes := attributes, result := env.setFault t })
  match env.setFault t with
  | some st => RM.throw st
  | none => RM.modify fun w => { w with vars := store w.vars key data }

/-- `boot::open_protocol_exclusive::<LoadedImage>(image_handle())`. (efivars.rs 166, uefi_helpers.rs 55,
stub/src/common.rs 44.) -/
def openLoadedImage (env : Env) : M Loaded := do
  let t ← next
  failIf (env.openLoadedImageFault t)
  let w ← RM.get
  pure w.loaded

/-- The opened volume as it is now: the medium may be changed, or removed, between any two accesses.
(uefi crate; stub/src/thin.rs 62-67, stub/src/main.rs 95-126.) -/
def volumeNow (env : Env) : M Fw := do
  let t ← next
  pure ((env.fs t).getD Fw.gone)

/-- `FileSystem::read`. (stub/src/thin.rs 62-67.) -/
def readFile (env : Env) (name : Str16) : M (Option Bytes) := do
  let fw ← volumeNow env
  emit (.readFile name (fw.read name))
  pure (fw.read name)

/-- UTF-16 code units of a character. (std; used in efivars.rs 180.) -/
def utf16Char (c : Char) : List UInt16 :=
  if c.toNat < 0x10000 then [UInt16.ofNat c.toNat]
  else [UInt16.ofNat (0xD800 + (c.toNat - 0x10000) / 0x400),
        UInt16.ofNat (0xDC00 + (c.toNat - 0x10000) % 0x400)]

/-- `str::encode_utf16`. (std; efivars.rs 180, 224, 237 and 251, tpm.rs 47, measure.rs 97.) -/
def utf16 (s : Str) : List UInt16 := s.flatMap utf16Char

/-- `u16::to_le_bytes` of every unit. (std; efivars.rs 181.) -/
def leBytes16 (us : List UInt16) : Bytes :=
  us.flatMap fun u => [UInt8.ofNat (u.toNat % 256), UInt8.ofNat (u.toNat / 256)]

/-- `s.encode_utf16().flat_map(|c| c.to_le_bytes())`. (efivars.rs 180-181, tpm.rs 47-48, measure.rs
97-98.) -/
def utf16le (s : Str) : Bytes := leBytes16 (utf16 s)

end Verif.Stub
