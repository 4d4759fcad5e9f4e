import Verif.Model.Basic
/-!
# Independent specification of the "newc" archive format

Follows cpio(5): a 110-byte ASCII header (magic `070701` and thirteen 8-digit hexadecimal numbers),
the NUL-terminated name, NUL padding so that header+name is a multiple of four, the file data, NUL
padding to a multiple of four.  Offsets are absolute from the start of the archive.  The reader
below does not use any definition of the writer model.
-/
namespace Verif.Newc
open Verif

/-- One archive member as a reader sees it. -/
structure Rec where
  ino : Nat
  mode : Nat
  uid : Nat
  gid : Nat
  nlink : Nat
  mtime : Nat
  devMajor : Nat
  devMinor : Nat
  rdevMajor : Nat
  rdevMinor : Nat
  check : Nat
  name : Bytes
  data : Bytes
  deriving Repr, DecidableEq

/-- Value of an ASCII hexadecimal digit (either case). -/
def hexVal (b : UInt8) : Option Nat :=
  if 0x30 ≤ b.toNat ∧ b.toNat ≤ 0x39 then some (b.toNat - 0x30)
  else if 0x61 ≤ b.toNat ∧ b.toNat ≤ 0x66 then some (b.toNat - 0x61 + 10)
  else if 0x41 ≤ b.toNat ∧ b.toNat ≤ 0x46 then some (b.toNat - 0x41 + 10)
  else none

/-- Big-endian hexadecimal number. -/
def hexNum (bs : Bytes) : Option Nat :=
  bs.foldl (fun acc b => match acc, hexVal b with
    | some n, some d => some (n * 16 + d)
    | _, _ => none) (some 0)

/-- `n` bytes from offset `o`, if they exist. -/
def slice (a : Bytes) (o n : Nat) : Option Bytes :=
  if o + n ≤ a.length then some ((a.drop o).take n) else none

/-- The `i`-th numeric header field of the member at offset `o`. -/
def field (a : Bytes) (o i : Nat) : Option Nat := do
  hexNum (← slice a (o + 6 + 8 * i) 8)

/-- Next multiple of four. -/
def up4 (n : Nat) : Nat := (n + 3) / 4 * 4

/-- ASCII `TRAILER!!!`. -/
def trailer : Bytes := "TRAILER!!!".toUTF8.data.toList

/-- ASCII `070701`. -/
def magic : Bytes := "070701".toUTF8.data.toList

/-- Read the member at offset `o`; also returns the offset of the next member. -/
def readAt (a : Bytes) (o : Nat) : Option (Rec × Nat) := do
  let m ← slice a o 6
  if m ≠ magic then none
  else
    let ino ← field a o 0
    let mode ← field a o 1
    let uid ← field a o 2
    let gid ← field a o 3
    let nlink ← field a o 4
    let mtime ← field a o 5
    let filesize ← field a o 6
    let devMajor ← field a o 7
    let devMinor ← field a o 8
    let rdevMajor ← field a o 9
    let rdevMinor ← field a o 10
    let namesize ← field a o 11
    let check ← field a o 12
    if namesize = 0 then none
    else
      let nameNul ← slice a (o + 110) namesize
      let dataOff := up4 (o + 110 + namesize)
      let data ← slice a dataOff filesize
      if nameNul.getLast? ≠ some 0 then none
      else
        let next := up4 (dataOff + filesize)
        -- the padding must exist and be NUL
        let pad1 ← slice a (o + 110 + namesize) (dataOff - (o + 110 + namesize))
        let pad2 ← slice a (dataOff + filesize) (next - (dataOff + filesize))
        if (pad1 ++ pad2).all (· == 0) then
          return ({ ino, mode, uid, gid, nlink, mtime, devMajor, devMinor, rdevMajor, rdevMinor,
                    check, name := nameNul.dropLast, data }, next)
        else none

/-- All members from offset `o` to the end of the archive, not stopping at a trailer. `none` if
the bytes are not a sequence of members.  `fuel` bounds the number of members. -/
def readFrom (a : Bytes) : Nat → Nat → Option (List Rec)
  | 0, o => if o = a.length then some [] else none
  | fuel + 1, o =>
    if o = a.length then some []
    else do
      let (r, next) ← readAt a o
      let rs ← readFrom a fuel next
      return r :: rs

/-- Every member is at least one byte long, so `a.length` steps are enough. -/
def readAll (a : Bytes) : Option (List Rec) := readFrom a a.length 0

/-- What extracting the archive yields: the members before the first trailer. -/
def extract (a : Bytes) : Option (List Rec) :=
  (readAll a).map (·.takeWhile (·.name ≠ trailer))

/-- POSIX file type bits. -/
def S_IFREG : Nat := 0o100000
def S_IFDIR : Nat := 0o040000

/-- A regular file or directory as the boot stub's archives are supposed to contain it: owned by
root, one link, no times or devices. -/
def member (ino mode : Nat) (name data : Bytes) : Rec :=
  { ino, mode, uid := 0, gid := 0, nlink := 1, mtime := 0, devMajor := 0, devMinor := 0,
    rdevMajor := 0, rdevMinor := 0, check := 0, name, data }

end Verif.Newc
