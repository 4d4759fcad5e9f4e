import Verif.Model.Cpio
import Verif.Model.Path
import Verif.Model.Generation
import Verif.Model.OsRelease
import Verif.Model.Version
import Verif.Model.Gc
import Verif.Spec.Newc
/-!
# The unit tests of the project, run on the model

Not properties, but evidence that the model is a model of this code: each `#[test]` of the sources is
translated and comes out on the model as it does on the code. The comments name the tests.
-/
namespace Verif.Tests
open Verif

/-! ### uefi/pio/tests/read_write.rs -/

def isOk {ε α : Type} : Res ε α → Bool
  | .ok _ => true
  | _ => false

/-- `alignment` (40-53) and `write_read_basic` (80-93). -/
def alignment : Bool :=
  let r := Cpio.packOne (utf8 (lit "test.txt")) (List.replicate 10 0xAA) [] 0o000 Cpio.new
  let t := Cpio.packTrailer r.2
  isOk r.1 && isOk t.1 && t.2.buffer.length % 4 == 0

example : alignment = true := by decide +kernel

/-- `write_read_prefix` (56-76): the first record is `/a`, and the next can be read as well. -/
def writeReadPrefix : Bool :=
  let r := Cpio.packPrefix (utf8 (lit "a/b/c/d/e/f")) 0o600 Cpio.new
  isOk r.1 &&
    match Newc.readAt r.2.buffer 0 with
    | none => false
    | some (e, o) => e.name == utf8 (lit "/a") &&
        match Newc.readAt r.2.buffer o with
        | none => false
        | some (e, _) => e.name == utf8 (lit "/a/b")

example : writeReadPrefix = true := by decide +kernel

/-! ### tool/shared/src/pe.rs -/

/-- `convert_to_valid_uefi_path` and `convert_to_esp_relative_uefi_path_string` (pe.rs 264-285). -/
example :
    uefiPath [lit "lanzaboote", lit "is", lit "great.txt"] = lit "lanzaboote\\is\\great.txt" ∧
    espRelativeUefiPath [lit "esp"] [lit "esp", lit "lanzaboote", lit "is", lit "great.txt"] =
      some (lit "\\lanzaboote\\is\\great.txt") := by
  decide +kernel

/-! ### tool/shared/src/generation.rs -/

/-- `parse_version_correctly` (generation.rs 226-236). -/
example : Generation.parseVersion [lit "system-2-link"] = some 2 := by decide +kernel

/-! ### tool/shared/src/os_release.rs -/

/-- `parses_correctly_from_str` (os_release.rs 243-253). -/
example :
    let m := OsRelease.fromStr (lit "ID=systemd-boot\nVERSION=\"252.1\"\n")
    OsRelease.Map.get (lit "ID") m = some (lit "systemd-boot") ∧
      OsRelease.Map.get (lit "VERSION") m = some (lit "252.1") := by
  decide +kernel

/-- The text of `escaping_works` (os_release.rs 257-267). -/
def escapes : Str := lit "
            NO_QUOTES=systemd-boot
            DOUBLE_QUOTES=\"systemd-boot\"
            SINGLE_QUOTES='systemd-boot'
            UNESCAPED_DOLLAR=$1.2
            ESCAPED_DOLLAR=\\$1.2
            UNESCAPED_BACKTICK=`1.2
            ESCAPED_BACKTICK=\\`1.2
            UNESCAPED_QUOTE=\"\"1.2\"
            ESCAPED_QUOTE=\\\"1.2
        "

/-- `escaping_works` (os_release.rs 256-280). -/
def escapingWorks : Bool :=
  let m := OsRelease.fromStr escapes
  ([("NO_QUOTES", "systemd-boot"), ("DOUBLE_QUOTES", "systemd-boot"), ("SINGLE_QUOTES", "systemd-boot"),
    ("UNESCAPED_DOLLAR", "$1.2"), ("ESCAPED_DOLLAR", "$1.2"), ("UNESCAPED_BACKTICK", "`1.2"),
    ("ESCAPED_BACKTICK", "`1.2"), ("UNESCAPED_QUOTE", "1.2\""), ("ESCAPED_QUOTE", "\"1.2")]).all
    fun e => OsRelease.Map.get (lit e.1) m == some (lit e.2)

example : escapingWorks = true := by decide +kernel

/-! ### tool/systemd/src/version.rs -/

/-- `parse_version_correctly`, `compare_version_correctly` and `fail_to_parse_version`
(version.rs 104-127). -/
example :
    let v := fun (s : String) => Version.fromStr (lit s)
    let over := fun (a b : String) => (v a).any fun x => (v b).any fun y => Version.gt x y
    v "253" = some ⟨253, 0, 0⟩ ∧ v "252.4" = some ⟨252, 4, 0⟩ ∧ v "251.11" = some ⟨251, 11, 0⟩ ∧
    v "251-rc7" = some ⟨251, -1, 7⟩ ∧
    over "253" "252" = true ∧ over "253" "252.4" = true ∧ v "251.8" = v "251.8" ∧
    over "251-rc5" "251-rc4" = true ∧ over "251" "251-rc9" = true ∧
    v "" = none ∧ v "213;k;13" = none ∧ v "-1.3.123" = none := by
  decide +kernel

/-! ### tool/shared/src/gc.rs -/

open Tool

/-- A file system where nothing goes wrong and entries are listed as they are stored. -/
def calm : Os where
  fault := fun _ => false
  partials := fun _ => []
  list := fun _ l => l
  list_sub := by intro t l p h; exact h

def rootdir : Path := [lit "tmp", lit "root"]

/-- What is left of `nodes` below the directory `root` after `act`, with these roots. -/
def after (nodes : List (Path × Node)) (roots : List Path) (act : Tool.M Unit) : Option (List Path) :=
  let s : Tool.State :=
    { fs := { nodes := [([lit "tmp"], .dir), (rootdir, .dir)] ++ nodes, dirty := [] }
      log := [], tick := 0, roots := roots, broken := [] }
  match act s with
  | (.ok _, s) => some ((s.fs.nodes.map (·.1)).filter fun p => p ≠ [lit "tmp"] ∧ p ≠ rootdir)
  | _ => none

/-- `keep_used_file` (gc.rs 95-107). -/
example : after [(rootdir ++ [lit "root_file"], .file [])] [rootdir, rootdir ++ [lit "root_file"]]
    (collectGarbage calm rootdir) = some [rootdir ++ [lit "root_file"]] := by decide +kernel

/-- `delete_unused_file` (gc.rs 110-122). -/
example : after [(rootdir ++ [lit "unused_file"], .file [])] [rootdir]
    (collectGarbage calm rootdir) = some [] := by decide +kernel

/-- `delete_empty_unused_directory` (gc.rs 125-137). -/
example : after [(rootdir ++ [lit "unused_directory"], .dir)] [rootdir]
    (collectGarbage calm rootdir) = some [] := by decide +kernel

/-- `delete_unused_directory_with_unused_file_inside` (gc.rs 140-155). -/
example : after [(rootdir ++ [lit "unused_directory"], .dir),
      (rootdir ++ [lit "unused_directory", lit "unused_file_in_directory"], .file [])] [rootdir]
    (collectGarbage calm rootdir) = some [] := by decide +kernel

/-- `keep_used_directory_with_used_and_unused_file` (gc.rs 158-175). -/
example :
    let d := rootdir ++ [lit "used_directory"]
    let used := d ++ [lit "used_file_in_directory"]
    after [(d, .dir), (used, .file []), (d ++ [lit "unused_file_in_directory"], .file [])] [rootdir, d, used]
      (collectGarbage calm rootdir) = some [d, used] := by decide +kernel

/-- `only_delete_filtered_unused_files` (gc.rs 178-196). -/
example :
    after [(rootdir ++ [lit "unused_file"], .file []), (rootdir ++ [lit "prefix_unused_file"], .file [])] [rootdir]
      (collectGarbageWithFilter calm rootdir fun p =>
        match Path.fileName p with
        | some n => List.isPrefixOf (lit "prefix_") n
        | none => false) = some [rootdir ++ [lit "unused_file"]] := by decide +kernel

end Verif.Tests
