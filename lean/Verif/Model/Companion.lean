import Verif.Model.Cpio
/-!
# Model of `rust/uefi/linux-bootloader/src/cpio.rs` and `companions.rs`

The firmware's Simple File System protocol is a record of functions: its contents are arbitrary
and do not change during one search for files. Between the steps of the stub they may change, see
`volumeNow` in `Model/Firmware.lean`.
-/
namespace Verif.Companion
open Verif Verif.Cpio

/-- A UCS-2 string without the terminating NUL (`CStr16`, `uefi::fs::Path`). (used in companions.rs
15-61.) -/
abbrev Str16 := List UInt16

/-- `String::from(&CStr16)`: `Char16` excludes surrogates, so every unit is one scalar value. (uefi
crate; used in linux-bootloader/src/cpio.rs 23 and 59.) -/
def toUtf8 (s : Str16) : Bytes := s.flatMap fun u => String.utf8EncodeChar (Char.ofNat u.toNat)

/-- An ASCII literal (`cstr16!("...")`). (uefi crate; used in companions.rs 27, 54 and 94.) -/
def lit16 (s : String) : Str16 := s.toList.map fun c => UInt16.ofNat c.toNat

/-- The bytes of a Rust string literal. (e.g. companions.rs 110, 126 and 149.) -/
def litBytes (s : String) : Bytes := s.toList.flatMap String.utf8EncodeChar

/-- Directory entry as the firmware reports it. (uefi crate; used in companions.rs 21-30.) -/
structure DirEnt where
  name : Str16
  regular : Bool
  deriving Repr, DecidableEq

/-- `uefi::fs::FileSystem` on the volume the stub was loaded from. (used in companions.rs 15, 89 and
140, linux-bootloader/src/cpio.rs 46.) -/
structure Fw where
  /-- `read_dir`: `none` = the directory cannot be opened, inner `none` = reading an entry fails -/
  readDir : Str16 → Option (List (Option DirEnt))
  /-- `metadata(..).is_directory()`; `none` = error -/
  metadataIsDir : Str16 → Option Bool
  /-- `try_exists`; `none` = error -/
  tryExists : Str16 → Option Bool
  /-- `read` -/
  read : Str16 → Option Bytes

/-- A volume that cannot be accessed any more: every question is answered with an error. (uefi crate;
used in companions.rs 21, 56, 95 and 96, thin.rs 62-67.) -/
def Fw.gone : Fw :=
  { readDir := fun _ => none, metadataIsDir := fun _ => none, tryExists := fun _ => none, read := fun _ => none }

/-- Path separator `\`. (companions.rs 27.) -/
def sep16 : UInt16 := 0x5C

/-- `file.components().last()` (cpio.rs:59-64): the text after the last separator. -/
def baseName (p : Str16) : Str16 := (p.reverse.takeWhile (· != sep16)).reverse

/-- `PathBuf: Ord` is the lexicographic order on UCS-2 units; `files.sort()` (cpio.rs:55). -/
def sortPaths (files : List Str16) : List Str16 := files.isort (fun a b => decide (a ≤ b))

/-- The loop of `pack_cpio` (cpio.rs:58-67). A file that cannot be read panics (`expect`), so does
an empty path. -/
def packFileList (fw : Fw) (pfx : Bytes) (am : UInt32) : List Str16 → Cpio.M Unit
  | [] => pure ()
  | file :: rest =>
    if baseName file = [] then RM.panic
    else match fw.read file with
      | none => RM.panic
      | some contents => do
        let _ ← packOne (toUtf8 (baseName file)) contents pfx am
        packFileList fw pfx am rest

/-- `pack_cpio` (cpio.rs:45-71). -/
def packCpio (fw : Fw) (files : List Str16) (pfx : Bytes) (dm am : UInt32) : Res Cpio.Err State :=
  let files := sortPaths files
  let m : Cpio.M Unit := do
    packPrefix pfx dm
    packFileList fw pfx am files
    let _ ← packTrailer
  match m Cpio.new with
  | (.ok _, s) => .ok s
  | (.err e, _) => .err e
  | (.panic, _) => .panic

/-- `pack_cpio_literal` (cpio.rs:14-30). -/
def packCpioLiteral (contents : Bytes) (fname : Str16) (pfx : Bytes) (dm am : UInt32) :
    Res Cpio.Err State :=
  let m : Cpio.M Unit := do
    packPrefix pfx dm
    let _ ← packOne (toUtf8 fname) contents pfx am
    let _ ← packTrailer
  match m Cpio.new with
  | (.ok _, s) => .ok s
  | (.err e, _) => .err e
  | (.panic, _) => .panic

/-- UEFI status codes the companion code returns. (companions.rs 50, 97, 114, 127 and 150.) -/
inductive Status where
  | notFound | volumeCorrupted | loadError | deviceError
  deriving Repr, DecidableEq

/-- `find_files` (companions.rs:14-35): `read_dir(..).unwrap()` panics, a failing entry is an
error. Entries are taken in firmware order. -/
def findEntries (dir : Str16) (suffix : Str16) : List (Option DirEnt) → Res Status (List Str16)
  | [] => .ok []
  | none :: _ => .err .deviceError
  | some e :: rest => do
    let more ← findEntries dir suffix rest
    if e.regular && (e.name.all fun u => decide (u.toNat < 128)) && suffix.isSuffixOf e.name then
      return (dir ++ [sep16] ++ e.name) :: more
    else return more

/-- `find_files` (companions.rs:14-35). -/
def findFiles (fw : Fw) (dir : Str16) (suffix : Str16) : Res Status (List Str16) :=
  match fw.readDir dir with
  | none => .panic
  | some es => findEntries dir suffix es

/-- `get_default_dropin_directory` (companions.rs:39-64); the loaded image's file path converted to
text, `none` if that conversion fails. -/
def getDefaultDropinDirectory (fw : Fw) (imagePath : Option Str16) : Res Status (Option Str16) :=
  match imagePath with
  | none => .err .notFound
  | some p =>
    let target := p ++ lit16 ".extra"
    match fw.metadataIsDir target with
    | some true => .ok (some target)
    | _ => .ok none

/-- `CompanionInitrdType` (companions.rs:66-72). -/
inductive Kind where
  | credentials | globalCredentials | systemExtension | pcrSignature | pcrPublicKey
  deriving Repr, DecidableEq

/-- `CompanionInitrd` (companions.rs:76-79). -/
structure Companion where
  kind : Kind
  cpio : State
  deriving Repr, DecidableEq

/-- `.map_err(|_| Status::LOAD_ERROR)`. (companions.rs 114, 127 and 150.) -/
def mapLoadError (r : Res Cpio.Err State) : Res Status State :=
  match r with
  | .ok s => .ok s
  | .err _ => .err .loadError
  | .panic => .panic

/-- `\loader\credentials` (companions.rs:94). -/
def globalCredDir : Str16 := lit16 "\\loader\\credentials"

/-- The global part of `discover_credentials` (companions.rs:94-118). -/
def discoverGlobalCredentials (fw : Fw) : Res Status (List Companion) :=
  match fw.tryExists globalCredDir with
  | none => .panic
  | some false => .ok []
  | some true =>
    match fw.metadataIsDir globalCredDir with
    | none => .err .volumeCorrupted
    | some false => .ok []
    | some true => do
      let files ← findFiles fw globalCredDir (lit16 ".cred")
      if files.isEmpty then return []
      else do
        let cpio ← mapLoadError
          (packCpio fw files (litBytes ".extra/global_credentials") 0o500 0o400)
        return [⟨.globalCredentials, cpio⟩]

/-- `discover_credentials` (companions.rs:88-133). -/
def discoverCredentials (fw : Fw) (dropin : Option Str16) : Res Status (List Companion) := do
  let global ← discoverGlobalCredentials fw
  match dropin with
  | none => return global
  | some dir => do
    let files ← findFiles fw dir (lit16 ".cred")
    if files.isEmpty then return global
    else do
      let cpio ← mapLoadError (packCpio fw files (litBytes ".extra/credentials") 0o500 0o400)
      return global ++ [⟨.credentials, cpio⟩]

/-- `discover_system_extensions` (companions.rs:139-155). -/
def discoverSystemExtensions (fw : Fw) (dir : Str16) : Res Status (List Companion) := do
  let files ← findFiles fw dir (lit16 ".raw")
  if files.isEmpty then return []
  else do
    let cpio ← mapLoadError (packCpio fw files (litBytes ".extra/sysext") 0o555 0o444)
    return [⟨.systemExtension, cpio⟩]

end Verif.Companion
