import Verif.Model.Firmware
/-!
# Model of `rust/uefi/linux-bootloader/src/pe_loader.rs` and of the section access in
`uefi_helpers.rs`
-/
namespace Verif.Stub
open Verif

/-- `UEFI_PAGE_BITS` (pe_loader.rs 14). -/
def pageBits : Nat := 12
/-- `UEFI_PAGE_MASK` (pe_loader.rs 15). -/
def pageMask : Nat := 2 ^ pageBits - 1

/-- `bytes_to_pages` (pe_loader.rs 75-80), `usize` = 64 bits. -/
def bytesToPages (bytes : Nat) : Nat :=
  if bytes + pageMask ≤ usizeMax then (bytes + pageMask) >>> pageBits
  else 1 <<< (64 - pageBits)

/-- Store bytes in memory. (core; pe_loader.rs 113-133.) -/
def writeMem (mem : Nat → UInt8) (addr : Nat) (data : Bytes) : Nat → UInt8 := fun x =>
  if addr ≤ x ∧ x < addr + data.length then data.getD (x - addr) 0 else mem x

/-- Read bytes from memory. (core; uefi_helpers.rs 31-33, linux_loader.rs 80-83.) -/
def readMem (mem : Nat → UInt8) (addr len : Nat) : Bytes :=
  (List.range len).map fun i => mem (addr + i)

/-- `Image` (pe_loader.rs 69-72): the image slice and the entry point, as offset. -/
structure Image where
  base : Nat
  len : Nat
  entry : Nat
  deriving Repr, DecidableEq

/-- `checked_add` of every section's end, the largest of them (pe_loader.rs 94-105). -/
def imageLength : List Section → Res Status Nat
  | [] => .ok 0
  | s :: rest =>
    if s.virtualAddress.toNat + s.virtualSize.toNat ≤ u32Max then
      match imageLength rest with
      | .ok n => .ok (max (s.virtualAddress.toNat + s.virtualSize.toNat) n)
      | .err e => .err e
      | .panic => .panic
    else .err .loadError

/-- `&data[start..end]`: a range outside the slice panics. (core; pe_loader.rs 133, uefi_helpers.rs
117.) -/
def slice (data : Bytes) (start stop : Nat) : Res Status Bytes :=
  if start ≤ stop ∧ stop ≤ data.length then .ok ((data.drop start).take (stop - start)) else .panic

/-- `image[start..end].copy_from_slice(data)` for a slice of memory at `base` of `len` bytes: a
range outside the slice or different lengths panic. (core; pe_loader.rs 133.) -/
def copyInto (base len start stop : Nat) (data : Bytes) : M Unit :=
  if start ≤ stop ∧ stop ≤ len ∧ data.length = stop - start then
    RM.modify fun w => { w with mem := writeMem w.mem (base + start) data }
  else RM.panic

/-- One iteration of the section loop (pe_loader.rs 121-133). The two `checked_add` on `usize`
cannot fail: the summands are `u32`. -/
def loadSection (base len : Nat) (file : Bytes) (s : Section) : M Unit :=
  let copySize := min s.virtualSize.toNat s.sizeOfRawData.toNat
  let rawStart := s.pointerToRawData.toNat
  let rawEnd := rawStart + copySize
  let virtStart := s.virtualAddress.toNat
  let virtEnd := virtStart + copySize
  if rawEnd > usizeMax then RM.throw .loadError
  else if virtEnd > usizeMax then RM.throw .loadError
  else if virtEnd > len ∨ rawEnd > file.length then RM.throw .loadError
  else match slice file rawStart rawEnd with
    | .ok data => copyInto base len virtStart virtEnd data
    | .err e => RM.throw e
    | .panic => RM.panic

/-- The section loop (pe_loader.rs 120-134). -/
def loadSections (base len : Nat) (file : Bytes) : List Section → M Unit
  | [] => pure ()
  | s :: rest => do
    loadSection base len file s
    loadSections base len file rest

/-- `boot::allocate_pages(AnyPages, LOADER_CODE, n)`. (uefi crate; pe_loader.rs 107-111.) -/
def allocatePages (env : Env) (n : Nat) : M Nat := do
  let t ← next
  match env.allocate t n with
  | .ok base => do
    RM.modify fun w => { w with pages := w.pages ++ [(base, n)] }
    pure base
  | .error st => RM.throw st

/-- `Image::load` (pe_loader.rs 88-164). The instruction cache flush (148) has no effect in the
model; its address range is `icacheRange`. -/
def Image.load (env : Env) (file : Bytes) : M Image := do
  match env.parseFile file with
  | none => RM.throw .loadError
  | some pe => do
    let length ← match imageLength pe.sections with
      | .ok n => (pure n : M Nat)
      | .err e => RM.throw e
      | .panic => RM.panic
    let base ← allocatePages env (bytesToPages length)
    RM.modify fun w => { w with mem := writeMem w.mem base (List.replicate length 0) }
    loadSections base length file pe.sections
    if pe.hasRelocations then RM.throw .incompatibleVersion
    else if pe.entry.toNat ≥ length then RM.throw .loadError
    else pure { base := base, len := length, entry := pe.entry.toNat }

/-- The address range flushed by `make_instruction_cache_coherent` on aarch64 (pe_loader.rs 24-27):
`a & CACHE_LINE_SIZE.wrapping_neg()` and `((a + len - 1) | (CACHE_LINE_SIZE - 1)) + 1`. -/
def icacheRange (addr len : UInt64) : UInt64 × UInt64 :=
  (addr &&& (0 - 16), ((addr + len - 1) ||| 15) + 1)

/-- The record of a kernel start: what the kernel will see. (pe_loader.rs 178-202.) -/
def startedRecord (w : World) (img : Image) (options : Bytes) : Started where
  image := readMem w.mem img.base img.len
  entry := img.entry
  options := options
  initrd := (w.protos.filterMap fun p => match p with
    | .loadFile2 d => some d
    | .initrdDevicePath => none).getLast?

/-- `Image::start` (pe_loader.rs 178-225). Pointers restored by the final block are the ones read at
the beginning. `u32::try_from(load_options.len()).unwrap()` panics for 4 GiB of options. -/
def Image.start (env : Env) (img : Image) (options : Bytes) : M Status := do
  let ours ← expect (openLoadedImage env)
  if options.length > u32Max then RM.panic
  else do
    RM.modify fun w =>
      { w with loaded := { base := img.base, size := img.len, options := some options } }
    let w ← RM.get
    emit (.start (startedRecord w img options))
    let w ← RM.get
    let k := env.kernel w
    RM.modify fun w => { w with
      mem := k.mem, vars := k.vars, loaded := k.loaded, pages := w.pages ++ k.morePages }
    let t ← next
    match env.freeFault t with
    | some _ => RM.panic
    | none => do
      RM.modify fun w => { w with pages := w.pages.erase (img.base, bytesToPages img.len) }
      RM.modify fun w => { w with
        loaded := { base := ours.base, size := ours.size, options := ours.options } }
      pure k.status

/-! ## Sections of the running image (`uefi_helpers.rs`) -/

/-- `read_data_from_section_table` (uefi_helpers.rs 108-121): a section outside the image panics,
missing bytes are zero. -/
def readSection (data : Bytes) (s : Section) : Res Status Bytes :=
  let start := s.virtualAddress.toNat
  let stop := start + min s.virtualSize.toNat s.sizeOfRawData.toNat
  match slice data start stop with
  | .ok b => .ok (b ++ List.replicate (s.virtualSize.toNat - b.length) 0)
  | .err e => .err e
  | .panic => .panic

/-- `ParsedPe` (uefi_helpers.rs 66-69). -/
structure Parsed where
  data : Bytes
  pe : PE
  deriving Repr, DecidableEq

/-- `ParsedPe::from_pe_in_memory` (uefi_helpers.rs 75-90). -/
def parseOwnImage (env : Env) : Res Status Parsed :=
  match env.parseOwn env.ownImage with
  | some pe => .ok { data := env.ownImage, pe := pe }
  | none => .err .invalidParameter

/-- `ParsedPe::section_data` (uefi_helpers.rs 93-99). -/
def Parsed.sectionData (p : Parsed) (name : Str) : Res Status (Option Bytes) :=
  match p.pe.sections.find? (fun s => s.name == some name) with
  | none => .ok none
  | some s => match readSection p.data s with
    | .ok b => .ok (some b)
    | .err e => .err e
    | .panic => .panic

/-- `ParsedPe::sections` (uefi_helpers.rs 102-104). -/
def Parsed.sectionNames (p : Parsed) : List Str := p.pe.sections.filterMap (·.name)

/-- Use a pure result in the monad. (`?` on a pure `Result`, e.g. pe_loader.rs 89.) -/
def lift {α : Type} (r : Res Status α) : M α :=
  match r with
  | .ok a => pure a
  | .err e => RM.throw e
  | .panic => RM.panic

end Verif.Stub
