import Verif.Lemmas.SampleInstall
import Verif.Model.Install
/-!
# The integration tests of the installer, run on the model

The tests of `tool/systemd/tests/integration` call the program on a temporary ESP, with real tools. Here the model of
the program is called in the same way, with the toy tools of `Lemmas/SampleInstall`; what the tests assert comes out.
As in the tests, all images are copies of the same stub. The arguments are those of `common.rs` 166-215.
-/
namespace Verif.Tests.Integration
open Verif Verif.Tool Verif.Generation Verif.Tool.Sample

def esp : Path := [lit "esp"]
def systemd : Path := [lit "systemd"]

/-- `setup_toplevel` (common.rs 118-153). -/
def toplevel (n : String) : Path := [lit "tmp", lit "toplevel-" ++ lit n]

def fakeStore (top : Path) : Path := top ++ [lit "eeeeeeeeeeeeeeeeeeeeeeeeeeeeeeee-6.1.1"]

/-- The path as text. -/
def toplevelText (top : Path) : Bytes := utf8 ('/' :: joinWith ['/'] top)

/-- The document written by `setup_generation_link_from_toplevel` (common.rs 47-116). -/
def document (top : Path) (version : Nat) : BootJson :=
  let spec : BootSpec :=
    { label := lit "LanzaOS"
      kernel := fakeStore top ++ [lit "kernel"]
      kernelParams := [lit "amd_iommu=on", lit "loglevel=4"]
      init := [lit "init-v" ++ toDec version]
      initrd := some (fakeStore top ++ [lit "initrd"])
      initrdSecrets := none
      toplevel := toplevelText top
      sortKey := some (lit "lanzaboote") }
  ⟨spec, [(lit "rescue", { spec with sortKey := some (lit "lanzaboote2") })]⟩

def link (version : Nat) : Path := [lit "profiles", lit "system-" ++ toDec version ++ lit "-link"]

/-- The world of the tests: the generations given, by number and toplevel. -/
def world (gens : List (Nat × Path)) : Env :=
  { bare fun _ => false with
    store := fun p =>
      if p = [lit "linuxx64.efi.stub"] then some Sample.stub
      else if p = systemd ++ [lit "lib", lit "systemd", lit "boot", lit "efi", lit "systemd-bootx64.efi"]
        then some Sample.loader
      else if p = [lit "loader.conf"] then some (utf8 (lit "timeout 0\\nconsole-mode 1\\n"))
      else if p = [lit "db.pem"] then some [80, 75]
      else if p = [lit "db.key"] then some [83, 75]
      else if gens.any fun g => decide (p = fakeStore g.2 ++ [lit "kernel"] ∨ p = fakeStore g.2 ++ [lit "initrd"])
        then some Sample.stub
      else none
    times := fun _ => ⟨some 0, some 0⟩
    bootJson := fun p => (gens.find? fun g => decide (p = link g.1)).map fun g => document g.2 g.1
    objcopy := fun _ => Sample.objcopy
    sbsign := fun _ _ _ => Sample.sbsign
    sbverify := fun _ d => d.getLast? = some 83 }

/-- `lanzaboote_install` (common.rs 166-215). -/
def install (limit : Nat) (gens : List (Nat × Path)) (fs : Fs) : Nat × Tool.State :=
  program (world gens)
    { lanzabooteStub := some [lit "linuxx64.efi.stub"], system := lit "x86_64-linux", systemd := systemd
      loaderConfig := [lit "loader.conf"], allowUnsigned := false, publicKey := some [lit "db.pem"]
      privateKey := some [lit "db.key"], configurationLimit := limit, tries := 0, pcrlockDirectory := none
      esp := esp, generations := gens.map fun g => link g.1 } fs

/-- An empty ESP. -/
def empty : Fs := { nodes := [(esp, .dir)], dirty := [] }

/-- `count_files` (common.rs 256-258). -/
def count (fs : Fs) (dir : Path) : Nat :=
  (fs.nodes.filter fun e => decide (e.1.length = dir.length + 1 ∧ e.1.take dir.length = dir)).length

def stubs (fs : Fs) : Nat := count fs (esp ++ [lit "EFI", lit "Linux"])
def kernelsAndInitrds (fs : Fs) : Nat := count fs (esp ++ [lit "EFI", lit "nixos"])

/-- `verify_signature` (common.rs 241-254). -/
def verifies (fs : Fs) (p : Path) : Bool :=
  match fs.fileAt p with
  | some d => d.getLast? == some 83
  | none => false

/-- `remove_signature` (common.rs 228-238). -/
def unsign (p : Path) (fs : Fs) : Fs :=
  match fs.fileAt p with
  | some d => fs.put p (.file d.dropLast)
  | none => fs

/-- `image_path` (common.rs 260-285). -/
def imagePath (version : Nat) (top : Path) : Path :=
  let text := fun (b : Bytes) => lit "[" ++ joinWith (lit ",") (b.map fun x => toDec x.toNat) ++ lit "]"
  let inputs := lit "[[\"toplevel\"," ++ text (toplevelText top) ++ lit "],[\"public_key\"," ++ text [80, 75] ++ lit "]]"
  esp ++ [lit "EFI", lit "Linux", lit "nixos-generation-" ++ toDec version ++ lit "-" ++
    StubName.base32 (Sample.sha.hash (utf8 inputs)) ++ lit ".efi"]

def systemdBoot : Path := esp ++ [lit "EFI", lit "systemd", lit "systemd-bootx64.efi"]
def fallback : Path := esp ++ [lit "EFI", lit "BOOT", lit "BOOTX64.EFI"]

def touches (p : Path) : Change → Bool
  | .create q | .write q _ | .unlink q | .rmdir q | .mkdir q | .chmod q _ | .fsync q => q == p
  | .rename a b _ => a == p || b == p
  | _ => false

/-! ### systemd_boot.rs -/

/-- The three tests begin with the same installation; it succeeds. -/
def first : Nat × Tool.State := install 0 [(1, toplevel "a")] empty

/-- `keep_systemd_boot_binaries` (systemd_boot.rs 11-46). -/
def keepBinaries : Bool :=
  let r := install 0 [(1, toplevel "a")] first.2.fs
  first.1 == 0 && (first.2.fs.fileAt systemdBoot).isSome && (first.2.fs.fileAt fallback).isSome &&
    r.1 == 0 && !(r.2.log.any fun c => touches systemdBoot c || touches fallback c)

/-- `overwrite_malformed_systemd_boot_binaries` (systemd_boot.rs 49-84). -/
def overwriteMalformed : Bool :=
  let r := install 0 [(1, toplevel "a")] ((first.2.fs.put systemdBoot (.file [])).put fallback (.file []))
  r.1 == 0 && r.2.fs.fileAt systemdBoot != some [] && r.2.fs.fileAt fallback != some []

/-- `overwrite_unsigned_systemd_boot_binaries` (systemd_boot.rs 87-113). -/
def overwriteUnsigned : Bool :=
  let fs := unsign systemdBoot (unsign fallback first.2.fs)
  let r := install 0 [(1, toplevel "a")] fs
  !verifies fs systemdBoot && !verifies fs fallback &&
    r.1 == 0 && verifies r.2.fs systemdBoot && verifies r.2.fs fallback

example : keepBinaries = true := by decide +kernel
example : overwriteMalformed = true := by decide +kernel
example : overwriteUnsigned = true := by decide +kernel

/-! ### install.rs -/

/-- `do_not_install_duplicates` (install.rs 13-35). -/
def noDuplicates : Bool :=
  let r := install 0 [(1, toplevel "a"), (2, toplevel "a")] empty
  r.1 == 0 && stubs r.2.fs == 4 && kernelsAndInitrds r.2.fs == 2

/-- `do_not_overwrite_images` (install.rs 38-66). -/
def doNotOverwrite : Bool :=
  let gens := [(1, toplevel "a"), (2, toplevel "a")]
  let image1 := imagePath 1 (toplevel "a")
  let image2 := imagePath 2 (toplevel "a")
  let r := install 0 gens empty
  let fs := unsign image1 r.2.fs
  let r2 := install 0 gens fs
  r.1 == 0 && verifies r.2.fs image1 && !verifies fs image1 && verifies fs image2 &&
    r2.1 == 0 && (r2.2.fs.fileAt image1).isSome && !verifies r2.2.fs image1 && verifies r2.2.fs image2

/-- `detect_generation_number_reuse` (install.rs 69-96). -/
def detectReuse : Bool :=
  let image1 := imagePath 1 (toplevel "a")
  let image2 := imagePath 1 (toplevel "b")
  let r2 := install 0 [(1, toplevel "b")] first.2.fs
  first.1 == 0 && (first.2.fs.get image1).isSome && (first.2.fs.get image2).isNone &&
    r2.1 == 0 && (r2.2.fs.get image1).isNone && (r2.2.fs.get image2).isSome

/-- `content_addressing_works` (install.rs 99-123). -/
def contentAddressing : Bool :=
  let r := install 1 [(1, toplevel "a")] empty
  r.1 == 0 && r.2.fs.fileAt (esp ++ [lit "EFI", lit "nixos", lit "kernel-6.1.1-" ++
    StubName.base32 (Sample.sha.hash Sample.stub) ++ lit ".efi"]) == some Sample.stub

example : noDuplicates = true := by decide +kernel
example : doNotOverwrite = true := by decide +kernel
example : detectReuse = true := by decide +kernel
example : contentAddressing = true := by decide +kernel

/-! ### gc.rs -/

def three : List (Nat × Path) := [(1, toplevel "a"), (2, toplevel "b"), (3, toplevel "c")]

/-- The three tests begin with the same installation. -/
def firstOfThree : Nat × Tool.State := install 0 three empty

/-- `keep_only_configured_number_of_generations` (gc.rs 10-48). -/
def keepConfigured : Bool :=
  let r := install 2 three firstOfThree.2.fs
  firstOfThree.1 == 0 && stubs firstOfThree.2.fs == 6 && kernelsAndInitrds firstOfThree.2.fs == 2 &&
    r.1 == 0 && stubs r.2.fs == 4 && kernelsAndInitrds r.2.fs == 2

/-- `delete_garbage_kernel` (gc.rs 51-89). -/
def deleteGarbage : Bool :=
  let fs := firstOfThree.2.fs.put (esp ++ [lit "EFI", lit "nixos", lit "kernel-garbage.efi"])
    (.file (utf8 (lit "garbage")))
  let r := install 2 three fs
  kernelsAndInitrds fs == 3 && r.1 == 0 && stubs r.2.fs == 4 && kernelsAndInitrds r.2.fs == 2

/-- `keep_unrelated_files_on_esp` (gc.rs 92-124). -/
def keepUnrelated : Bool :=
  let conf := esp ++ [lit "loader", lit "loader.conf"]
  let uki := esp ++ [lit "EFI", lit "Linux", lit "ubuntu.efi"]
  let os := esp ++ [lit "EFI", lit "windows"]
  let firmware := esp ++ [lit "dell"]
  let fs := (((firstOfThree.2.fs.put conf (.file [])).put uki (.file [])).put os .dir).put firmware .dir
  let r := install 2 three fs
  r.1 == 0 && [conf, uki, os, firmware].all fun p => (r.2.fs.get p).isSome

example : keepConfigured = true := by decide +kernel
example : deleteGarbage = true := by decide +kernel
example : keepUnrelated = true := by decide +kernel

/-! ### os_release.rs -/

/-- `generate_expected_os_release` (os_release.rs 10-38). -/
def expectedOsRelease : Bool :=
  match first.2.fs.fileAt (imagePath 1 (toplevel "a")) with
  | none => false
  | some d => first.1 == 0 && section_ d (lit ".osrel") == some (utf8 (lit
      "ID=lanzaboote\nPRETTY_NAME=LanzaOS (Generation 1, 1970-01-01)\nVERSION_ID=Generation 1, 1970-01-01\n"))

example : expectedOsRelease = true := by decide +kernel

end Verif.Tests.Integration
