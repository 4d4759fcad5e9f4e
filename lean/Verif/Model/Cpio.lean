import Verif.Model.Basic
/-!
# Model of `rust/uefi/pio/src/writer.rs` and `linux-bootloader/src/cpio.rs`

`&str` arguments are their UTF-8 bytes (only `len`, concatenation and `split('/')` are used on
them).  `Vec::with_capacity` / allocation failure is not modelled; the `capacity` argument has no
observable effect, but all the overflow checks that guard it are.
-/
namespace Verif.Cpio
open Verif

/-- `CPIOError` (pio/src/errors.rs:4-19); `InsufficientBufferSize` and `IOError` are never
constructed by the writer. -/
inductive Err where
  | tooLargeFileSize (got : Nat)
  | maximumInodesReached
  | maximumArchiveReached
  deriving Repr, DecidableEq

/-- `MAGIC_NUMBER` (writer.rs:13) `b"070701"`. -/
def magic : Bytes := [0x30, 0x37, 0x30, 0x37, 0x30, 0x31]

/-- `TRAILER_NAME` (writer.rs:14) `"TRAILER!!!"`. -/
def trailerName : Bytes := [0x54, 0x52, 0x41, 0x49, 0x4C, 0x45, 0x52, 0x21, 0x21, 0x21]

/-- `struct Entry` (writer.rs:18-31). All numeric fields are `u32`. -/
structure Entry where
  name : Bytes
  ino : UInt32
  mode : UInt32
  uid : UInt32
  gid : UInt32
  nlink : UInt32
  mtime : UInt32
  fileSize : UInt32
  devMajor : UInt32
  devMinor : UInt32
  rdevMajor : UInt32
  rdevMinor : UInt32
  deriving Repr, DecidableEq

/-- `STATIC_HEADER_LEN` (writer.rs:33-35): 6 + 8*13. -/
def staticHeaderLen : Nat := 6 + (8 * 13)

/-- `compute_pad4` (writer.rs:39-47). -/
def computePad4 (len : Nat) : Option Bytes :=
  let overhang := len % 4
  if overhang ≠ 0 then some (List.replicate (4 - overhang) 0) else none

/-- `align::<4>` (writer.rs:50-59), with the 64-bit mask `!(A - 1)`. -/
def align4 (value : Nat) : Nat :=
  if value > usizeMax - (4 - 1) then usizeMax
  else (value + 4 - 1) &&& (usizeMax - (4 - 1))

/-- One lower-case hexadecimal digit of `n % 16`. (for `{:08x}`, pio/src/writer.rs 64.) -/
def hexDigit (n : Nat) : UInt8 :=
  if n % 16 < 10 then UInt8.ofNat (0x30 + n % 16) else UInt8.ofNat (0x61 + (n % 16 - 10))

/-- `write_cpio_word` (writer.rs:62-65): `format!("{:08x}", word)`; a `u32` never needs more than
8 digits. -/
def word (w : UInt32) : Bytes :=
  let n := w.toNat
  [hexDigit (n / 16 ^ 7), hexDigit (n / 16 ^ 6), hexDigit (n / 16 ^ 5), hexDigit (n / 16 ^ 4),
   hexDigit (n / 16 ^ 3), hexDigit (n / 16 ^ 2), hexDigit (n / 16), hexDigit n]

/-- `write_cpio_header` (writer.rs:67-101) into an empty cursor: the bytes written and the returned
size.  Panics if `name.len() + 1` does not fit a `u32` (the `expect`, writer.rs:82-84) or if the
final `assert!` fails. -/
def writeHeader (e : Entry) : Res Err (Bytes × Nat) :=
  if e.name.length + 1 > u32Max then .panic
  else
    let fixed := magic ++ word e.ino ++ word e.mode ++ word e.uid ++ word e.gid ++ word e.nlink
      ++ word e.mtime ++ word e.fileSize ++ word e.devMajor ++ word e.devMinor
      ++ word e.rdevMajor ++ word e.rdevMinor ++ word (UInt32.ofNat (e.name.length + 1)) ++ word 0
    let headerSize := staticHeaderLen + e.name.length + 1
    let out := fixed ++ e.name ++ [0]
    let (out, headerSize) := match computePad4 headerSize with
      | some pad => (out ++ pad, headerSize + pad.length)
      | none => (out, headerSize)
    if headerSize % 4 = 0 then .ok (out, headerSize) else .panic

/-- `write_cpio_contents` (writer.rs:103-119): bytes written after the header and total size. -/
def writeContents (headerSize : Nat) (contents : Bytes) : Res Err (Bytes × Nat) :=
  let total := headerSize + contents.length
  let (out, total) := match computePad4 contents.length with
    | some pad => (contents ++ pad, total + pad.length)
    | none => (contents, total)
  if headerSize % 4 = 0 then .ok (out, total) else .panic

/-- `write_cpio_entry` (writer.rs:121-129). -/
def writeEntry (e : Entry) (contents : Bytes) : Res Err (Bytes × Nat) := do
  let (h, hs) ← writeHeader e
  let (c, total) ← writeContents hs contents
  return (h ++ c, total)

/-- `struct Cpio` (writer.rs:136-140). -/
structure State where
  buffer : Bytes
  inodeCounter : UInt32
  deriving Repr, DecidableEq

/-- `Cpio::new` (writer.rs:161-167). -/
def new : State := ⟨[], 0⟩

/-- `&mut self` methods of `Cpio`, pio/src/writer.rs 160-346. -/
abbrev M := RM State Err

/-- The inner `.unwrap()`ed write and the `append` to the archive (writer.rs:241-272, 295-315).
`unwrap` turns an `Err` (there is none) into a panic. -/
def emit (r : Res Err (Bytes × Nat)) : M Nat := fun s =>
  match r with
  | .ok (bytes, n) => (.ok n, { s with buffer := s.buffer ++ bytes })
  | _ => (.panic, s)

/-- `Cpio::pack_one` (writer.rs:176-273). -/
def packOne (fname contents pfx : Bytes) (accessMode : UInt32) : M Nat := fun s =>
  if contents.length > u32Max then (.err (.tooLargeFileSize contents.length), s)
  else if s.inodeCounter = UInt32.ofNat u32Max then (.err .maximumInodesReached, s)
  else
    let currentLen := staticHeaderLen + 1
    if currentLen > usizeMax - pfx.length then (.err .maximumArchiveReached, s)
    else
      let currentLen := currentLen + pfx.length
      if currentLen > usizeMax - fname.length then (.err .maximumArchiveReached, s)
      else
        let currentLen := currentLen + fname.length
        if pfx.length + fname.length ≥ u32Max then (.err .maximumArchiveReached, s)
        else
          let currentLen := align4 currentLen
          if currentLen = usizeMax then (.err .maximumArchiveReached, s)
          else
            let alignedContentsLen := align4 contents.length
            if alignedContentsLen = usizeMax then (.err .maximumArchiveReached, s)
            else if currentLen > usizeMax - alignedContentsLen then
              (.err .maximumArchiveReached, s)
            else
              let currentLen := currentLen + alignedContentsLen
              if s.buffer.length > usizeMax - currentLen then (.err .maximumArchiveReached, s)
              else
                let s' := { s with inodeCounter := s.inodeCounter + 1 }
                emit (writeEntry
                  { name := if pfx ≠ [] then pfx ++ [0x2F] ++ fname else fname
                    ino := s'.inodeCounter
                    mode := accessMode ||| 0o100000
                    uid := 0, gid := 0, nlink := 1, mtime := 0
                    fileSize := UInt32.ofNat contents.length
                    devMajor := 0, devMinor := 0, rdevMajor := 0, rdevMinor := 0 }
                  contents) s'

/-- `Cpio::pack_dir` (writer.rs:274-316). -/
def packDir (path : Bytes) (accessMode : UInt32) : M Unit := fun s =>
  if s.inodeCounter = UInt32.ofNat u32Max then (.err .maximumInodesReached, s)
  else
    let currentLen := staticHeaderLen
    if currentLen > usizeMax - path.length then (.err .maximumArchiveReached, s)
    else
      let currentLen := currentLen + path.length
      let currentLen := align4 currentLen
      if s.buffer.length = usizeMax ∨ s.buffer.length > usizeMax - currentLen then
        (.err .maximumArchiveReached, s)
      else
        let s' := { s with inodeCounter := s.inodeCounter + 1 }
        match emit (writeHeader
            { name := path
              ino := s'.inodeCounter
              mode := accessMode ||| 0o040000
              uid := 0, gid := 0, nlink := 1, mtime := 0, fileSize := 0
              devMajor := 0, devMinor := 0, rdevMajor := 0, rdevMinor := 0 }) s' with
        | (.ok _, s'') => (.ok (), s'')
        | (.err e, s'') => (.err e, s'')
        | (.panic, s'') => (.panic, s'')

/-- Rust's `str::split('/')`: always yields at least one piece. (pio/src/writer.rs 325.) -/
def splitSlash : Bytes → List Bytes
  | [] => [[]]
  | b :: rest =>
    if b = 0x2F then [] :: splitSlash rest
    else match splitSlash rest with
      | [] => [[b]]
      | p :: ps => (b :: p) :: ps

/-- The loop over the proper prefixes (writer.rs:335-338); `ancestor` is the accumulated path. -/
def packAncestors : Bytes → List Bytes → M Bytes
  | ancestor, [] => pure ancestor
  | ancestor, c :: cs => do
    let ancestor := ancestor ++ [0x2F] ++ c
    packDir ancestor 0o555
    packAncestors ancestor cs

/-- `Cpio::pack_prefix` (writer.rs:318-341). `split` never yields zero parts, so the early return
(writer.rs:327-330) is dead code; it is kept as the empty match arm. -/
def packPrefix (path : Bytes) (dirMode : UInt32) : M Unit :=
  let components := splitSlash path
  match components.getLast? with
  | none => pure ()
  | some last => do
    let ancestor ← packAncestors [] components.dropLast
    packDir (ancestor ++ [0x2F] ++ last) dirMode

/-- `Cpio::pack_trailer` (writer.rs:343-345). -/
def packTrailer : M Nat := packOne trailerName [] [] 0

/-- The public packing operations, as data, for statements about arbitrary call sequences.
(pio/src/writer.rs 176, 274, 318 and 343.) -/
inductive Op where
  | one (fname contents pfx : Bytes) (mode : UInt32)
  | dir (path : Bytes) (mode : UInt32)
  | prefix (path : Bytes) (mode : UInt32)
  | trailer
  deriving Repr, DecidableEq

/-- One public call on the archive. (pio/src/writer.rs 176, 274, 318 and 343.) -/
def Op.run : Op → M Unit
  | .one f c p m => do let _ ← packOne f c p m; pure ()
  | .dir p m => packDir p m
  | .prefix p m => packPrefix p m
  | .trailer => do let _ ← packTrailer; pure ()

/-- A caller that issues the calls one after the other and carries on after errors. (the API of
pio/src/writer.rs; in the stub the caller is linux-bootloader/src/cpio.rs 57-68.) -/
def runAll : List Op → State → State
  | [], s => s
  | o :: os, s => runAll os (o.run s).2

end Verif.Cpio
