import Verif.Model.Firmware
/-!
# What it means for memory to hold a loaded PE image

Written from the PE format: every section is mapped at its virtual address, its bytes come from the
file, what the file does not provide is zero.
-/
namespace Verif.Stub.Spec
open Verif Verif.Stub

/-- The file provides the byte at image offset `off` through section `s`. -/
def Provides (s : Section) (off : Nat) : Prop :=
  s.virtualAddress.toNat ≤ off ∧
    off < s.virtualAddress.toNat + min s.virtualSize.toNat s.sizeOfRawData.toNat

/-- The byte `b` belongs at image offset `off`: it is the one the last section providing this offset
takes from the file, or zero if there is none. -/
def Placed (secs : List Section) (file : Bytes) (off : Nat) (b : UInt8) : Prop :=
  (∃ pre s post, secs = pre ++ s :: post ∧ Provides s off ∧ (∀ t ∈ post, ¬ Provides t off) ∧
      file[s.pointerToRawData.toNat + (off - s.virtualAddress.toNat)]? = some b) ∨
  ((∀ s ∈ secs, ¬ Provides s off) ∧ b = 0)

/-- `n` is the size of the image: the largest end of a section, 0 without sections. -/
def IsImageSize (secs : List Section) (n : Nat) : Prop :=
  (∀ s ∈ secs, s.virtualAddress.toNat + s.virtualSize.toNat ≤ n) ∧
  (n = 0 ∨ ∃ s ∈ secs, s.virtualAddress.toNat + s.virtualSize.toNat = n)

/-- `image` is the file `file` with header `pe` as it has to look in memory, started at `entry`. -/
structure IsLoaded (pe : PE) (file image : Bytes) (entry : Nat) : Prop where
  size : IsImageSize pe.sections image.length
  content : ∀ (off : Nat) (b : UInt8), image[off]? = some b → Placed pe.sections file off b
  entry_eq : entry = pe.entry.toNat
  entry_inside : entry < image.length
  noRelocations : pe.hasRelocations = false

/-- The file can be loaded: every section ends below 4 GiB in memory and has its bytes in the file, there
are no relocations to do, and the entry point is in a section or in front of one. -/
structure Loadable (pe : PE) (file : Bytes) : Prop where
  memory : ∀ s ∈ pe.sections, s.virtualAddress.toNat + s.virtualSize.toNat < 2 ^ 32
  inFile : ∀ s ∈ pe.sections,
    s.pointerToRawData.toNat + min s.virtualSize.toNat s.sizeOfRawData.toNat ≤ file.length
  noRelocations : pe.hasRelocations = false
  entry : ∃ s ∈ pe.sections, pe.entry.toNat < s.virtualAddress.toNat + s.virtualSize.toNat

/-- The contents of the first section called `name` in the image `data`: the bytes the file provided,
followed by zeros up to the virtual size. -/
def SectionContents (pe : PE) (data : Bytes) (name : Str) (contents : Bytes) : Prop :=
  ∃ pre s post, pe.sections = pre ++ s :: post ∧ s.name = some name ∧
    (∀ t ∈ pre, t.name ≠ some name) ∧
    contents.length = s.virtualSize.toNat ∧
    ∀ i < contents.length,
      contents[i]? =
        if i < s.sizeOfRawData.toNat then data[s.virtualAddress.toNat + i]? else some 0

end Verif.Stub.Spec
