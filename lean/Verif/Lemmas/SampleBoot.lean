import Verif.Model.Stub
/-!
# A concrete machine, to show that hypotheses can be met

A stub image of 75 bytes with six sections, a volume with kernel, initrd, a credential for all entries,
a credential and a system extension for this entry.
-/
namespace Verif.Stub.Sample
open Verif Verif.Companion Verif.Stub

/-- Stands in for SHA-256: the first 32 bytes, filled with zeros. -/
def sha : StubName.Sha where
  hash b := (b ++ List.replicate 32 0).take 32
  len b := by simp

def kernelFile : Bytes := [77, 90, 1, 2, 3, 4, 5, 6]
def initrdFile : Bytes := [7, 0, 7, 0, 7]

/-- The stub as it lies in memory. -/
def image : Bytes :=
  utf8 (lit "\\k") ++ sha.hash kernelFile ++ utf8 (lit "\\i") ++ sha.hash initrdFile ++
    utf8 (lit "quiet") ++ utf8 (lit "ID")

def sec (name : String) (at_ size : UInt32) : Section where
  name := some (lit name)
  virtualAddress := at_
  virtualSize := size
  pointerToRawData := at_
  sizeOfRawData := size

/-- Its header; the sections are not in canonical order. -/
def header : PE where
  sections := [sec ".osrel" 73 2, sec ".linux" 0 2, sec ".linuxh" 2 32, sec ".initrd" 34 2,
    sec ".initrdh" 36 32, sec ".cmdline" 68 5]
  entry := 0
  hasRelocations := true

/-- The header of the kernel: one section, half of it in the file. -/
def kernelHeader : PE where
  sections := [{ sec ".text" 4 6 with pointerToRawData := 2, sizeOfRawData := 3 }]
  entry := 5
  hasRelocations := false

def selfPath : Str16 := lit16 "\\s.efi"
def dropin : Str16 := lit16 "\\s.efi.extra"

/-- The volume. -/
def volume : Fw where
  readDir d :=
    if d = globalCredDir then some [some { name := lit16 "g.cred", regular := true }]
    else if d = dropin then some [some { name := lit16 "l.cred", regular := true },
      some { name := lit16 "x.raw", regular := true }, some { name := lit16 "d", regular := false }]
    else none
  metadataIsDir d := some (decide (d = globalCredDir ∨ d = dropin))
  tryExists d := some (decide (d = globalCredDir ∨ d = dropin))
  read f :=
    if f = lit16 "\\k" then some kernelFile
    else if f = lit16 "\\i" then some initrdFile
    else if f = lit16 "\\loader\\credentials\\g.cred" then some [1]
    else if f = lit16 "\\s.efi.extra\\l.cred" then some [2, 2]
    else if f = lit16 "\\s.efi.extra\\x.raw" then some [3, 3, 3]
    else none

/-- A machine on which nothing fails; the kernel returns with the given status. -/
def env (tpm : Bool) (status : Status) : Env where
  sha := sha
  ownImage := image
  parseOwn b := if b = image then some header else none
  parseFile b := if b = kernelFile then some kernelHeader else none
  imagePath := some (some selfPath)
  fs _ := some volume
  tpmOpens _ := tpm
  eventFault _ := none
  extendFault _ := none
  getFault _ := none
  setFault _ := none
  openLoadedImageFault _ := none
  installFault _ := none
  uninstallFault _ := none
  allocate _ _ := .ok 0x1000
  freeFault _ := none
  kernel w := {
    status := status
    mem := fun _ => 0xFF
    vars := w.vars
    loaded := { base := 0, size := 0, options := none }
    morePages := [(0x9000, 1)] }
  firmwareVendor := lit "EDK II"
  firmwareRevision := 0x00010000
  uefiRevision := lit "2.70"
  devicePath _ := .ok [{ hardDrive := true, guid := some (lit "0000-11") }]
  imagePathText _ := .ok selfPath

/-- The state in which the stub is started. -/
def start (secureBoot : Option Bytes) (options : Option Bytes) : World where
  tick := 0
  trace := []
  vars k := if k = secureBootVar then secureBoot else none
  mem _ := 0
  pages := [(0x4000, 2)]
  loaded := { base := 0x7000, size := 75, options := options }
  protos := []

/-- The record of the kernel start in a trace. -/
def started (t : List Event) : Option Started :=
  t.findSome? fun e => match e with
    | .start s => some s
    | _ => none

/-- The kernel the machine starts. -/
def kernelStart (tpm : Bool) (status : Status) (sb : Option Bytes) (options : Option Bytes) :
    Option Started := started (main (env tpm status) (start sb options)).2.trace

end Verif.Stub.Sample
