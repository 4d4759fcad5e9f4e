import Verif.Spec.Boot
import Verif.Spec.Spelling
/-!
# Specification: what the variables of the boot loader interface say

Texts are in UTF-16, two bytes for each code unit with the lower one first; this is the reader, written from
the Unicode standard (chapter 3.9).
-/
namespace Verif.Stub.Spec
open Verif Verif.Stub

/-- The code units. -/
def codeUnits : Bytes → Option (List Nat)
  | [] => some []
  | [_] => none
  | low :: high :: rest => (codeUnits rest).map ((low.toNat + 256 * high.toNat) :: ·)

/-- The characters, as numbers; a pair of surrogates is one character, other surrogates are errors. -/
def scalarValues : List Nat → Option (List Nat)
  | [] => some []
  | u :: rest =>
    if u < 0xD800 ∨ 0xE000 ≤ u then (scalarValues rest).map (u :: ·)
    else match rest with
      | [] => none
      | v :: rest =>
        if u < 0xDC00 ∧ 0xDC00 ≤ v ∧ v < 0xE000 then
          (scalarValues rest).map ((0x10000 + (u - 0xD800) * 0x400 + (v - 0xDC00)) :: ·)
        else none

/-- The bytes say this text. -/
def Utf16 (data : Bytes) (text : Str) : Prop :=
  (codeUnits data).bind scalarValues = some (text.map Char.toNat)

/-- A number with at least two decimal digits. -/
def twoDigits (n : Nat) : Str := if n < 10 then '0' :: Nat.toDigits 10 n else Nat.toDigits 10 n

/-- What the stub says in a variable. -/
inductive Says (env : Env) : String → Bytes → Prop
  /-- The partition the image was loaded from: the first GPT partition on the way to it. -/
  | partUuid {t : Nat} {nodes : List DpNode} {id : Str} {d : Bytes} (h : env.devicePath t = .ok nodes)
      (hid : (nodes.filter (·.hardDrive)).findSome? (·.guid) = some id) (hd : Utf16 d id) :
      Says env "LoaderDevicePartUUID" d
  /-- The path of the image, with terminating NUL. -/
  | identifier {t : Nat} {path : Companion.Str16} {d : Bytes} (h : env.imagePathText t = .ok path)
      (hd : d = optionsOf path) : Says env "LoaderImageIdentifier" d
  /-- The firmware's vendor and revision (as far as C22 goes: the mask of the lower half is too wide). -/
  | firmwareInfo {d : Bytes} (hd : Utf16 d (env.firmwareVendor ++ [' '] ++
      Nat.toDigits 10 (env.firmwareRevision.toNat / 2 ^ 16) ++ ['.'] ++
      twoDigits (env.firmwareRevision.toNat % 2 ^ 20))) : Says env "LoaderFirmwareInfo" d
  /-- The revision of UEFI. -/
  | firmwareType {d : Bytes} (hd : Utf16 d ("UEFI ".toList ++ env.uefiRevision)) :
      Says env "LoaderFirmwareType" d
  /-- Name and version of the stub. -/
  | stubInfo {d : Bytes} (hd : Utf16 d "lanzastub 1.1.0".toList) : Says env "StubInfo" d
  /-- A 64 bit number, lower bytes first: bit 0, "reports the boot partition". -/
  | stubFeatures : Says env "StubFeatures" [1, 0, 0, 0, 0, 0, 0, 0]
  /-- The number of a PCR as a text. -/
  | pcrImage {d : Bytes} (hd : Utf16 d "11".toList) : Says env "StubPcrKernelImage" d
  /-- Numbers of PCRs in four bytes, lower bytes first. -/
  | pcrParameters : Says env "StubPcrKernelParameters" [12, 0, 0, 0]
  | pcrSysexts : Says env "StubPcrInitRDSysExts" [13, 0, 0, 0]

end Verif.Stub.Spec
