import Verif.Spec.PeImage
import Verif.Model.Companion
/-!
# Measurements as the UKI specification and systemd-stub define them
-/
namespace Verif.Stub.Spec
open Verif Verif.Stub Verif.Companion

/-- The sections measured into PCR 11, in the order of the UKI specification. -/
def canonicalOrder : List Str :=
  [".linux", ".osrel", ".cmdline", ".initrd", ".ucode", ".splash", ".dtb", ".hwids", ".uname",
   ".sbat", ".pcrpkey"].map lit

/-- The sections the UKI specification knows. -/
def ukiNames : List Str :=
  [".linux", ".osrel", ".cmdline", ".initrd", ".ucode", ".splash", ".dtb", ".dtbauto", ".hwids",
   ".uname", ".sbat", ".pcrsig", ".pcrpkey"].map lit

/-- PCR and data of a measurement event, whatever came of it. -/
def measurement : Event → Option (Nat × Bytes)
  | .measure pcr data _ _ => some (pcr, data)
  | _ => none

/-- The measurements submitted in a trace, in order. -/
def measurements (t : List Event) : List (Nat × Bytes) := t.filterMap measurement

/-- The two measurements of a section: its name with a NUL, its contents. -/
def sectionMeasurements (name : Str) (contents : Bytes) : List (Nat × Bytes) :=
  [(11, utf8 (name ++ ['\x00'])), (11, contents)]

/-- The names in a section table. -/
def sectionNames (pe : PE) : List Str := pe.sections.filterMap (·.name)

/-- The PCR 11 measurements of an image: section after section in canonical order, each as often as
its name occurs in the section table. -/
def imageMeasurements (names : List Str) (contents : Str → Bytes) : List (Nat × Bytes) :=
  canonicalOrder.flatMap fun n =>
    (List.replicate (names.count n) (sectionMeasurements n (contents n))).flatten

/-- Where companion archives are measured: credentials to PCR 12, system extensions to PCR 13. -/
def companionMeasurement (c : Companion) : Option (Nat × Bytes) :=
  match c.kind with
  | .credentials => some (12, c.cpio.buffer)
  | .globalCredentials => some (12, c.cpio.buffer)
  | .systemExtension => some (13, c.cpio.buffer)
  | _ => none

/-- The measurement happened: the PCR was extended. -/
def Extended (pcr : Nat) (e : Event) : Prop := ∃ d s, e = .measure pcr d s .extended

/-- Some measurement to the PCR with an outcome satisfying `Ok` occurs in the trace. -/
def Happened (Ok : Measured → Prop) (pcr : Nat) (t : List Event) : Prop :=
  ∃ d s o, .measure pcr d s o ∈ t ∧ Ok o

/-- Whenever one of the three variables announcing used PCRs is written, the value written names the
PCR, and a measurement to this PCR has happened before. -/
structure TruthfulPcrVars (Ok : Measured → Prop) (t : List Event) : Prop where
  image : ∀ a b d r, t = a ++ .writeVar { vendor := .loader, name := lit "StubPcrKernelImage" } d r :: b →
    d = utf16le (lit "11") ∧ Happened Ok 11 a
  parameters : ∀ a b d r,
    t = a ++ .writeVar { vendor := .loader, name := lit "StubPcrKernelParameters" } d r :: b →
    d = [12, 0, 0, 0] ∧ Happened Ok 12 a
  extensions : ∀ a b d r,
    t = a ++ .writeVar { vendor := .loader, name := lit "StubPcrInitRDSysExts" } d r :: b →
    d = [13, 0, 0, 0] ∧ Happened Ok 13 a

/-- The variables of the boot loader interface that a stub sets: the vendor is always the boot loader
interface's, so no Secure Boot variable and no boot order is among them. -/
def stubVariables : List VarKey :=
  [{ vendor := .loader, name := lit "LoaderDevicePartUUID" },
   { vendor := .loader, name := lit "LoaderImageIdentifier" },
   { vendor := .loader, name := lit "LoaderFirmwareInfo" },
   { vendor := .loader, name := lit "LoaderFirmwareType" },
   { vendor := .loader, name := lit "StubInfo" },
   { vendor := .loader, name := lit "StubFeatures" },
   { vendor := .loader, name := lit "StubPcrKernelImage" },
   { vendor := .loader, name := lit "StubPcrKernelParameters" },
   { vendor := .loader, name := lit "StubPcrInitRDSysExts" }]

/-- `EFI_VARIABLE_NON_VOLATILE` (bit 0 of the attributes) is not set, so the variable is gone after a
reset, and `EFI_VARIABLE_BOOTSERVICE_ACCESS` and `EFI_VARIABLE_RUNTIME_ACCESS` (bits 1 and 2) are, so
the operating system can read it; no other bit is set. -/
def VolatileReadable (a : Attributes) : Prop :=
  a.toNat.testBit 0 = false ∧ a.toNat.testBit 1 = true ∧ a.toNat.testBit 2 = true ∧
    ∀ i, 3 ≤ i → a.toNat.testBit i = false

end Verif.Stub.Spec
