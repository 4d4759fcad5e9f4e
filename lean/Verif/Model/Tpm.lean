import Verif.Model.Measure
import Verif.Spec.TpmLog
/-!
# Model of `rust/uefi/linux-bootloader/src/tpm.rs`, with the protocol of the TPM

`Model/Measure` takes from the firmware whether there is a usable TPM and whether a measurement succeeds.
Here the single steps are modelled: looking for the protocol, opening it exclusively, asking for its
capabilities, making the event, extending and logging, closing the protocol. The device itself follows the
TCG EFI protocol specification. `Props/Tpm` shows that this refines `Model/Measure`.
-/
namespace Verif.Tpm
open Verif Stub

/-- The TPM and the firmware; functions of a number are asked at this time. (tpm.rs 9-58.) -/
structure Device where
  /-- the handle with the protocol (tpm.rs 10) -/
  handle : Nat → Res Status Nat
  /-- opening fails although nobody has it open (tpm.rs 11) -/
  openFault : Nat → Option Status
  /-- the capability "TPM present" (tpm.rs 13-24) -/
  capability : Nat → Res Status Bool
  /-- the event cannot be made (tpm.rs 51-52) -/
  buildFault : Nat → Option Status
  /-- the TPM does not carry out the measurement (tpm.rs 54) -/
  extendFault : Nat → Option Status
  /-- the hash of the PCR bank -/
  hash : StubName.Sha
  /-- the Authenticode digest of a PE image -/
  imageDigest : Bytes → Bytes

/-- What the device and the firmware remember. (tpm.rs 9-58.) -/
structure State where
  /-- handles the stub has open -/
  held : List Nat
  pcrs : Nat → Bytes
  log : List Entry

/-- code that uses the TPM, tpm.rs 9-58. -/
abbrev T := RM State Status

/-- `PcrEventInputs` (uefi crate; tpm.rs 51). -/
structure Inputs where
  pcr : Nat
  type : Nat
  event : Bytes
  deriving DecidableEq, Repr

/-- `EFI_ACCESS_DENIED`. (UEFI specification; tpm.rs 11.) -/
def accessDenied : Status := .other 15

/-- `boot::open_protocol_exclusive`: not twice at the same time. (tpm.rs 11.) -/
def openExclusive (d : Device) (t h : Nat) : T Unit := fun s =>
  if h ∈ s.held then (.err accessDenied, s)
  else match d.openFault t with
    | some st => (.err st, s)
    | none => (.ok (), { s with held := h :: s.held })

/-- Dropping the `ScopedProtocol` closes it. (uefi crate; end of scope in tpm.rs 25, 32, 52, 54 and 55.) -/
def close (h : Nat) : T Unit := fun s => (.ok (), { s with held := s.held.erase h })

/-- `open_capable_tpm2` (tpm.rs 9-29). The protocol is dropped when the function fails after opening it. -/
def openCapable (d : Device) (t : Nat) : T Nat :=
  match d.handle t with
  | .err st => RM.throw st
  | .panic => RM.panic
  | .ok h => do
    openExclusive d t h
    match d.capability t with
    | .err st => do
      close h
      RM.throw st
    | .panic => RM.panic
    | .ok present =>
      if present then pure h
      else do
        close h
        RM.throw .unsupported

/-- `tpm_available` (tpm.rs 31-33). The protocol is dropped at once. -/
def available (d : Device) (t : Nat) : T Bool := fun s =>
  match openCapable d t s with
  | (.ok h, s') => (do close h; pure true : T Bool) s'
  | (.err _, s') => (.ok false, s')
  | (.panic, s') => (.panic, s')

/-- `PcrEventInputs::new_in_box` (tpm.rs 51-52). -/
def newEvent (d : Device) (t pcr type : Nat) (event : Bytes) : T Inputs :=
  match d.buildFault t with
  | some st => RM.throw st
  | none => pure { pcr := pcr, type := type, event := event }

/-- `HashLogExtendEvent` (tpm.rs 54): extend the PCR and append to the log. With flag 1 nothing is logged,
with flag 16 the data is measured as a PE image. -/
def hashLogExtend (d : Device) (t : Nat) (flags : Nat) (data : Bytes) (i : Inputs) : T Unit := fun s =>
  match d.extendFault t with
  | some st => (.err st, s)
  | none =>
    let digest := if flags.testBit 4 then d.imageDigest data else d.hash.hash data
    (.ok (), { s with
      pcrs := fun p => if p = i.pcr then d.hash.hash (s.pcrs p ++ digest) else s.pcrs p
      log := if flags.testBit 0 then s.log else s.log ++
        [{ pcr := i.pcr, type := i.type, digest := digest, event := i.event }] })

/-- `EventType::IPL` (uefi crate; tpm.rs 51). -/
def ipl : Nat := 0xD

/-- A computation that ends with the protocol being dropped, however it ends. (tpm.rs 45-55.) -/
def closing (h : Nat) (m : T Unit) : T Unit := fun s =>
  match m s with
  | (r, s') => (r, { s' with held := s'.held.erase h })

/-- `if let Ok(mut tpm2) = open_capable_tpm2() { .. }` (tpm.rs 45-55). -/
def whenCapable (d : Device) (t : Nat) (m : T Unit) : T Unit := fun s =>
  match openCapable d t s with
  | (.ok h, s') => closing h m s'
  | (.err _, s') => (.ok (), s')
  | (.panic, s') => (.panic, s')

/-- `tpm_log_event_ascii` (tpm.rs 37-58). -/
def logEvent (d : Device) (t pcr : Nat) (data : Bytes) (description : Str) : T Unit :=
  if pcr = u32Max then RM.throw .unsupported
  else whenCapable d t do
    let i ← newEvent d t pcr ipl (utf16le description)
    hashLogExtend d t 0 data i

/-- The stub's environment with this TPM: a usable one is one that can be opened and says that it is
present. (tpm.rs 9-58.) -/
def Device.env (d : Device) (base : Stub.Env) : Stub.Env :=
  { base with
    tpmOpens := fun t => (match d.handle t with | .ok _ => true | _ => false) &&
      (d.openFault t).isNone && (match d.capability t with | .ok b => b | _ => false)
    eventFault := d.buildFault
    extendFault := d.extendFault }

/-- What the device remembers after an event of the stub. (tpm.rs 37-58.) -/
def received (d : Device) (s : State) : Event → State
  | .measure pcr data description .extended =>
    { s with
      pcrs := fun p => if p = pcr then Stub.Spec.extend d.hash (s.pcrs p) data else s.pcrs p
      log := s.log ++ [{ pcr := pcr, type := evIpl, digest := d.hash.hash data, event := utf16le description }] }
  | _ => s

end Verif.Tpm
