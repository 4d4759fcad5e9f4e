import Verif.Model.Text
/-!
# Model of `std::path` as far as the tool uses it, and of the EFI path conversions

Paths are absolute and represented by their list of components, which is how Rust compares them.
Simplifications: paths that are not valid UTF-8 are not represented, and interior `//` or `/./` in a
path's spelling are dropped at once (Rust drops them on comparison but keeps the spelling).
-/
namespace Verif
open Verif

/-- An absolute path, as its components (std; e.g. install.rs 524). -/
abbrev Path := List Str

/-- `Path::components` of a string: empty components and `.` are dropped. (std; used by `join`,
install.rs 524.) -/
def components (s : Str) : List Str := (splitOn '/' s).filter fun c => c ≠ [] ∧ c ≠ ['.']

/-- `Path::join`: joining an absolute path replaces the base. (std; install.rs 321, 419 and 524, esp.rs
25-41.) -/
def Path.join (p : Path) (s : Str) : Path :=
  match s with
  | '/' :: _ => components s
  | _ => p ++ components s

/-- `Path::file_name`: the last component, unless it is `..`. (std; generation.rs 216, install.rs 150
and 248.) -/
def Path.fileName (p : Path) : Option Str :=
  match p.getLast? with
  | some n => if n = ['.', '.'] then none else some n
  | none => none

/-- `Path::parent`. (std; install.rs 247 and 668.) -/
def Path.parent (p : Path) : Option Path := if p = [] then none else some p.dropLast

/-- `Path::file_stem` of a file name: everything before the last dot, but a name whose only dot is
the first character is all stem. (std; by `with_extension`, install.rs 580 and 639.) -/
def fileStem (n : Str) : Str :=
  let before := (n.reverse.dropWhile (· ≠ '.')).drop 1
  if before = [] then n else before.reverse

/-- `Path::with_extension` for a non-empty extension: `stem.ext`. (std; install.rs 580 and 639.) -/
def Path.withExtension (p : Path) (ext : Str) : Path :=
  match p.fileName with
  | some n => p.dropLast ++ [fileStem n ++ ['.'] ++ ext]
  | none => p

/-- `Path::strip_prefix`. (std; pe.rs 193.) -/
def Path.stripPrefix (p base : Path) : Option Path :=
  if base.isPrefixOf p then some (p.drop base.length) else none

/-- `str::from_utf8`. (std; install.rs 524, version.rs 43, thin.rs 27.) -/
def utf8Decode (b : Bytes) : Option Str := b.toByteArray.utf8Decode?.map Array.toList

/-- `uefi_path` (shared/src/pe.rs 203-208): a relative path with backslashes. -/
def uefiPath (rel : Path) : Str := replaceChar '/' '\\' (joinWith ['/'] rel)

/-- `esp_relative_uefi_path` (shared/src/pe.rs 191-197). -/
def espRelativeUefiPath (esp path : Path) : Option Str :=
  match path.stripPrefix esp with
  | some rel => some ('\\' :: uefiPath rel)
  | none => none

/-- `resolve_efi_path` (systemd/src/install.rs 523-525). Slicing `efi_path[1..]` panics if the path
is empty. -/
def resolveEfiPath (esp : Path) (efiPath : Bytes) : Res Unit Path :=
  match efiPath with
  | [] => .panic
  | _ :: rest =>
    match utf8Decode rest with
    | some s => .ok (esp.join (replaceChar '\\' '/' s))
    | none => .err ()

end Verif
