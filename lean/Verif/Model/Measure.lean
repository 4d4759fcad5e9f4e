import Verif.Model.PeLoader
/-!
# Model of `rust/uefi/linux-bootloader/src/{unified_sections,tpm,measure}.rs`
-/
namespace Verif.Stub
open Verif Verif.Companion

/-- `UnifiedSection` (unified_sections.rs 11-25). -/
inductive Uni where
  | linux | osRel | cmdLine | initrd | ucode | splash | dtb | dtbAuto | hwids | uname | sbat
  | pcrSig | pcrPkey
  deriving Repr, DecidableEq

/-- The discriminant (unified_sections.rs 12-24); the derived `Ord` compares it. -/
def Uni.rank : Uni → Nat
  | .linux => 0 | .osRel => 1 | .cmdLine => 2 | .initrd => 3 | .ucode => 4 | .splash => 5
  | .dtb => 6 | .dtbAuto => 7 | .hwids => 8 | .uname => 9 | .sbat => 10 | .pcrSig => 11
  | .pcrPkey => 12

/-- `TryFrom<&str>` (unified_sections.rs 27-47). -/
def Uni.ofName (n : Str) : Option Uni :=
  if n = lit ".linux" then some .linux
  else if n = lit ".osrel" then some .osRel
  else if n = lit ".cmdline" then some .cmdLine
  else if n = lit ".initrd" then some .initrd
  else if n = lit ".ucode" then some .ucode
  else if n = lit ".splash" then some .splash
  else if n = lit ".dtb" then some .dtb
  else if n = lit ".dtbauto" then some .dtbAuto
  else if n = lit ".hwids" then some .hwids
  else if n = lit ".uname" then some .uname
  else if n = lit ".sbat" then some .sbat
  else if n = lit ".pcrsig" then some .pcrSig
  else if n = lit ".pcrpkey" then some .pcrPkey
  else none

/-- `should_be_measured` (unified_sections.rs 51-63). -/
def Uni.measured : Uni → Bool
  | .pcrSig => false
  | .dtbAuto => false
  | _ => true

/-- `name` (unified_sections.rs 66-82). -/
def Uni.name : Uni → Str
  | .linux => lit ".linux"
  | .osRel => lit ".osrel"
  | .cmdLine => lit ".cmdline"
  | .initrd => lit ".initrd"
  | .ucode => lit ".ucode"
  | .splash => lit ".splash"
  | .dtb => lit ".dtb"
  | .dtbAuto => lit ".dtbauto"
  | .hwids => lit ".hwids"
  | .uname => lit ".uname"
  | .sbat => lit ".sbat"
  | .pcrSig => lit ".pcrsig"
  | .pcrPkey => lit ".pcrpkey"

/-- `tpm_available` (tpm.rs 31-33). -/
def tpmAvailable (env : Env) : M Bool := do
  let t ← next
  emit (.probeTpm (env.tpmOpens t))
  pure (env.tpmOpens t)

/-- `tpm_log_event_ascii` (tpm.rs 37-58). -/
def tpmLogEvent (env : Env) (pcr : Nat) (data : Bytes) (description : Str) : M Unit := do
  if pcr = u32Max then RM.throw .unsupported
  else do
    let t ← next
    if env.tpmOpens t then do
      match env.eventFault t with
      | some st => do
        emit (.measure pcr data description .notBuilt)
        RM.throw st
      | none => do
        match env.extendFault t with
        | some st => do
          emit (.measure pcr data description .rejected)
          RM.throw st
        | none => emit (.measure pcr data description .extended)
    else emit (.measure pcr data description .noTpm)

/-- `TPM_PCR_INDEX_BOOT_LOADER` (measure.rs 16). -/
def pcrBootLoader : Nat := 4
/-- `TPM_PCR_INDEX_KERNEL_IMAGE` (measure.rs 28). -/
def pcrKernelImage : Nat := 11
/-- `TPM_PCR_INDEX_KERNEL_CONFIG` (measure.rs 30). -/
def pcrKernelConfig : Nat := 12
/-- `TPM_PCR_INDEX_SYSEXTS` (measure.rs 32). -/
def pcrSysexts : Nat := 13

/-- `measure_boot_loader` (measure.rs 35-37). -/
def measureBootLoader (env : Env) (data : Bytes) (description : Str) : M Unit :=
  tpmLogEvent env pcrBootLoader data description

/-- The sections to measure (measure.rs 48-56): known and measurable ones, sorted. -/
def sectionsToMeasure (names : List Str) : List Uni :=
  ((names.filterMap Uni.ofName).filter Uni.measured).isort fun a b => decide (a.rank ≤ b.rank)

/-- The data measured for a section (measure.rs 62-68). -/
def measuredData (u : Uni) (kernel initrd : Bytes) (sectionData : Option Bytes) : Option Bytes :=
  match u with
  | .linux => some kernel
  | .initrd => some initrd
  | _ => sectionData

/-- The two measurements of one section (measure.rs 70-90), the number of successful ones. -/
def measureNameAndData (env : Env) (u : Uni) : Option Bytes → M Nat
  | none => pure 0
  | some d => do
    let a ← result (tpmLogEvent env pcrKernelImage (utf8 (u.name ++ ['\x00'])) u.name)
    let b ← result (tpmLogEvent env pcrKernelImage d u.name)
    pure ((if a.isOk then 1 else 0) + (if b.isOk then 1 else 0))

/-- The loop (measure.rs 59-91); returns the number of successful measurements. -/
def measureSections (env : Env) (p : Parsed) (kernel initrd : Bytes) : List Uni → M Nat
  | [] => pure 0
  | u :: rest => do
    let sectionData ← lift (p.sectionData u.name)
    let here ← measureNameAndData env u (measuredData u kernel initrd sectionData)
    let more ← measureSections env p kernel initrd rest
    pure (here + more)

/-- A variable of the boot loader interface. (measure.rs 104-105, efivars.rs 43-44.) -/
def loaderVar (name : String) : VarKey := { vendor := .loader, name := lit name }

/-- `if c { runtime::set_variable(key, attributes, data)?; }`. (measure.rs 101-109, 168-175 and
177-184.) -/
def setVariableIf (env : Env) (c : Bool) (key : VarKey) (attributes : Attributes) (data : Bytes) :
    M Unit :=
  if c then setVariable env key attributes data else pure ()

/-- `measure_image` (measure.rs 39-112). -/
def measureImage (env : Env) (kernel initrd : Bytes) : M Nat := do
  let p ← lift (parseOwnImage env)
  let n ← measureSections env p kernel initrd (sectionsToMeasure p.sectionNames)
  setVariableIf env (decide (n > 0)) (loaderVar "StubPcrKernelImage")
    (bootserviceAccess ||| runtimeAccess) (utf16le (toDec pcrKernelImage))
  pure n

/-- `u32::to_le_bytes`. (measure.rs 173 and 182.) -/
def le32 (n : Nat) : Bytes :=
  [UInt8.ofNat (n % 256), UInt8.ofNat (n / 256 % 256), UInt8.ofNat (n / 65536 % 256),
   UInt8.ofNat (n / 16777216 % 256)]

/-- PCR and event description for a companion (measure.rs 125-165); `none`: not measured. -/
def companionPcr : Kind → Option (Nat × Str)
  | .pcrSignature => none
  | .pcrPublicKey => none
  | .credentials => some (pcrKernelConfig, lit "Credentials initrd")
  | .globalCredentials => some (pcrKernelConfig, lit "Global credentials initrd")
  | .systemExtension => some (pcrSysexts, lit "System extension initrd")

/-- The counters after one successful measurement: measurements, credential measurements, whether a
system extension was measured (measure.rs 137-138, 149-150, 161-162). -/
def companionCount : Kind → Nat × Nat × Bool
  | .systemExtension => (1, 0, true)
  | _ => (1, 1, false)

/-- One iteration of the loop (measure.rs 125-165). -/
def measureCompanion (env : Env) (c : Companion) : M (Nat × Nat × Bool) :=
  match companionPcr c.kind with
  | none => pure (0, 0, false)
  | some (pcr, description) => do
    let r ← result (tpmLogEvent env pcr c.cpio.buffer description)
    pure (if r.isOk then companionCount c.kind else (0, 0, false))

/-- The loop of `measure_companion_initrds` (measure.rs 124-166). -/
def measureCompanionLoop (env : Env) : List Companion → M (Nat × Nat × Bool)
  | [] => pure (0, 0, false)
  | c :: rest => do
    let here ← measureCompanion env c
    let more ← measureCompanionLoop env rest
    pure (here.1 + more.1, here.2.1 + more.2.1, here.2.2 || more.2.2)

/-- `measure_companion_initrds` (measure.rs 119-187). -/
def measureCompanions (env : Env) (cs : List Companion) : M Nat := do
  let r ← measureCompanionLoop env cs
  setVariableIf env (decide (r.2.1 > 0)) (loaderVar "StubPcrKernelParameters")
    (bootserviceAccess ||| runtimeAccess) (le32 pcrKernelConfig)
  setVariableIf env r.2.2 (loaderVar "StubPcrInitRDSysExts")
    (bootserviceAccess ||| runtimeAccess) (le32 pcrSysexts)
  pure r.1

end Verif.Stub
