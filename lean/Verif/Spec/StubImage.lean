import Verif.Spec.Installer
import Verif.Spec.Boot
/-!
# Vocabulary for the layout of the stub image and for its way into memory
-/
namespace Verif.Tool
open Verif Generation

/-! ### Layout -/

/-- The sections lie one directly after the other from the address `start` on. -/
def Contiguous : Nat → List Added → Prop
  | _, [] => True
  | start, s :: rest => s.vma.toNat = start ∧ Contiguous (start + s.content.length) rest

/-- All bytes of the sections together. -/
def totalSize (added : List Added) : Nat := (added.map (·.content.length)).sum

/-- The last section of the PE file `stub` ends at the address `stop` when the image is at its base
address; addresses of sections are 32 bits, so this end is one. -/
def LastSectionEnds (env : Env) (stub : Bytes) (stop : Nat) : Prop :=
  ∃ pe base s, env.parse stub = some pe ∧ env.imageBase stub = some base ∧
    pe.sections.getLast? = some s ∧ s.virtualAddress.toNat + s.virtualSize.toNat < 2 ^ 32 ∧
    stop = base.toNat + (s.virtualAddress.toNat + s.virtualSize.toNat)

/-- The sections of a PE file are in the order of their addresses and do not overlap, as the PE format
demands. -/
def Ascending (pe : Stub.PE) : Prop :=
  pe.sections.Pairwise fun a b => a.virtualAddress.toNat + a.virtualSize.toNat ≤ b.virtualAddress.toNat

/-- The two address ranges have no byte in common. -/
def Disjoint (start len start' len' : Nat) : Prop :=
  ∀ a, ¬ ((start ≤ a ∧ a < start + len) ∧ (start' ≤ a ∧ a < start' + len'))

/-! ### From the ESP into memory -/

/-- `own` is the PE file `data` loaded into memory and `pe` what its headers say there: the headers are
those of the file, and the contents of the sections are at their addresses. -/
structure LoadedAs (env : Env) (data own : Bytes) (pe : Stub.PE) : Prop where
  headers : ∃ file, env.parse data = some file ∧ file.sections = pe.sections
  contents : ∀ s ∈ pe.sections, ∀ i < min s.virtualSize.toNat s.sizeOfRawData.toNat,
    own[s.virtualAddress.toNat + i]? = data[s.pointerToRawData.toNat + i]?
  within : ∀ s ∈ pe.sections, s.virtualAddress.toNat +
    min s.virtualSize.toNat s.sizeOfRawData.toNat ≤ own.length

/-- The text in 16 bit code units. -/
def text16 (s : Str) : Companion.Str16 := s.map fun c => UInt16.ofNat c.toNat

/-- The text can be given to the firmware: code points of 16 bits, and not NUL. -/
def FirmwareText (s : Str) : Prop := ∀ c ∈ s, 0 < c.toNat ∧ c.toNat < 0x10000

/-- The kernel's command line for `g`. -/
def commandLine (g : Generation.Gen) : Str :=
  joinWith [' '] ((lit "init=/" ++ joinWith ['/'] g.spec.init) :: g.spec.kernelParams)

/-- The path of the kernel and the command line of `g` can be given to the firmware. -/
structure FirmwareGen (g : Generation.Gen) : Prop where
  kernel : ∀ c ∈ g.spec.kernel, FirmwareText c
  cmdline : FirmwareText (commandLine g)
  short : (commandLine g).length < 2 ^ 31 - 1

/-- The firmware serves the file system `fs` below `esp` as the one the stub was loaded from: a file is
found under its path with backslashes. -/
def Serves (fw : Companion.Fw) (esp : Path) (fs : Fs) : Prop :=
  ∀ rel d, fs.fileAt (esp ++ rel) = some d → FirmwareText (uefiText rel) →
    fw.read (text16 (uefiText rel)) = some d

/-- The machine `m` boots the boot entry at `p` of the ESP: the firmware has loaded that file, and it
serves the ESP, whenever it is asked. It can give access to the loaded image, too. The stub uses the
hash function of the tool, SHA-256. -/
structure Booting (env : Env) (esp : Path) (fs : Fs) (p : Path) (m : Stub.Env) (pe : Stub.PE) : Prop where
  sha : m.sha = env.sha
  loaded : ∃ data, fs.fileAt p = some data ∧ LoadedAs env data m.ownImage pe
  parsed : m.parseOwn m.ownImage = some pe
  serves : ∀ t, ∃ fw, m.fs t = some fw ∧ Serves fw esp fs

/-- No file of the file system has by accident the hash of the kernel or an initrd of `g`. -/
def NoAccident (env : Env) (fs : Fs) (g : Generation.Gen) : Prop :=
  ∀ p d, fs.fileAt p = some d → ∀ d', env.store g.spec.kernel = some d' ∨ InitrdOf env g.spec d' →
    ¬ StubName.Collision env.sha d d'

/-- Secure Boot is on, or its state cannot be determined. -/
def SecureBootOn (m : Stub.Env) (w : Stub.World) : Prop :=
  (w.vars { vendor := .global, name := lit "SecureBoot" } ≠ none ∧
    w.vars { vendor := .global, name := lit "SecureBoot" } ≠ some [0]) ∧
  ∀ t, m.getFault t ≠ some .notFound

/-- The kernel start `s` is one of `g`: its kernel, loaded as the PE format says, with its initrd, possibly
followed by other archives. -/
def StartOf (env : Env) (m : Stub.Env) (g : Generation.Gen) (s : Stub.Started) : Prop :=
  ∃ kernel initrd kpe extras joined, env.store g.spec.kernel = some kernel ∧ InitrdOf env g.spec initrd ∧
    m.parseFile kernel = some kpe ∧ Stub.Spec.IsLoaded kpe kernel s.image s.entry ∧
    s.initrd = some joined ∧ Stub.Spec.Joined (initrd :: extras) joined

end Verif.Tool
