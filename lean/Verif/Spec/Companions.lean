import Verif.Model.Companion
import Verif.Spec.CpioMembers
/-!
# Which companion files belong to an image, and how they reach the kernel

Written from the documentation: credentials for all images are `*.cred` in `\loader\credentials`,
credentials and system extensions of one image are `*.cred` and `*.raw` in the directory named like the
image with `.extra` appended. They appear to the kernel below `.extra/`.
Only data types come from the model.
-/
namespace Verif.Companion.Spec
open Verif Verif.Companion Verif.Cpio

/-- A directory entry that is a companion file: a regular file with a plain ASCII name ending in the
suffix. -/
def isCompanion (suffix : Str16) (e : DirEnt) : Bool :=
  e.regular && e.name.all (fun u => decide (u.toNat < 128)) && suffix.isSuffixOf e.name

/-- The companion files in the directory, with their contents, ascending by name. -/
structure Offers (fw : Fw) (dir suffix : Str16) (files : List (Str16 × Bytes)) : Prop where
  /-- exactly the companion files of the listing, none twice and none left out -/
  listed : ∃ es, fw.readDir dir = some es ∧ none ∉ es ∧
    (files.map Prod.fst).Perm (((es.filterMap id).filter (isCompanion suffix)).map (·.name))
  ascending : (files.map Prod.fst).Pairwise (· ≤ ·)
  contents : ∀ f ∈ files, fw.read (dir ++ lit16 "\\" ++ f.1) = some f.2

/-- The archive members for these files: two directories and the files in them, owned by root and
readable as said by the modes. -/
def archiveMembers (place : String) (dirMode fileMode : Nat) (files : List (Str16 × Bytes)) : List Member :=
  ⟨Newc.S_IFDIR ||| 0o555, ascii "/.extra", []⟩ ::
  ⟨Newc.S_IFDIR ||| dirMode, ascii "/.extra/" ++ ascii place, []⟩ ::
  files.map fun f => ⟨Newc.S_IFREG ||| fileMode,
    ascii ".extra/" ++ ascii place ++ ascii "/" ++ f.1.map (fun u => UInt8.ofNat u.toNat), f.2⟩
where
  /-- The bytes of an ASCII text. -/
  ascii (s : String) : Bytes := s.toList.map fun c => UInt8.ofNat c.toNat

/-- The companion initrds for one directory and one suffix: none if there is no such file, otherwise one
archive that unpacks to the files. -/
inductive FoundIn (fw : Fw) (dir suffix : Str16) (kind : Kind) (place : String) (dirMode fileMode : Nat) :
    List Companion → Prop
  | nothing (h : Offers fw dir suffix []) : FoundIn fw dir suffix kind place dirMode fileMode []
  | archive {files : List (Str16 × Bytes)} {c : Companion} (h : Offers fw dir suffix files)
      (hne : files ≠ []) (hkind : c.kind = kind)
      (hunpack : Newc.extract c.cpio.buffer = some (numbered (archiveMembers place dirMode fileMode files))) :
      FoundIn fw dir suffix kind place dirMode fileMode [c]

/-- The directory with credentials for all images. -/
def globalDir : Str16 := lit16 "\\loader\\credentials"

/-- The credentials for all images. -/
def GlobalCredentials (fw : Fw) : List Companion → Prop :=
  FoundIn fw globalDir (lit16 ".cred") .globalCredentials "global_credentials" 0o500 0o400

/-- The credentials of the image at `image`. -/
def ImageCredentials (fw : Fw) (image : Str16) : List Companion → Prop :=
  FoundIn fw (image ++ lit16 ".extra") (lit16 ".cred") .credentials "credentials" 0o500 0o400

/-- The system extensions of the image at `image`. -/
def ImageExtensions (fw : Fw) (image : Str16) : List Companion → Prop :=
  FoundIn fw (image ++ lit16 ".extra") (lit16 ".raw") .systemExtension "sysext" 0o555 0o444

/-- The directory with credentials for all images exists. -/
def HasGlobal (fw : Fw) : Prop :=
  fw.tryExists globalDir = some true ∧ fw.metadataIsDir globalDir = some true

/-- The image at `image` has a directory of its own. -/
def HasOwn (fw : Fw) (imagePath : Option (Option Str16)) (image : Str16) : Prop :=
  imagePath = some (some image) ∧ fw.metadataIsDir (image ++ lit16 ".extra") = some true

/-- All companions of an image, in the order in which they have to be handed over. -/
structure All (fw : Fw) (imagePath : Option (Option Str16)) (cs : List Companion) : Prop where
  ex : ∃ g c x, cs = g ++ c ++ x ∧
    (HasGlobal fw → GlobalCredentials fw g) ∧ (¬ HasGlobal fw → g = []) ∧
    (∀ image, HasOwn fw imagePath image → ImageCredentials fw image c ∧ ImageExtensions fw image x) ∧
    ((∀ image, ¬ HasOwn fw imagePath image) → c = [] ∧ x = [])

/-- Some companions of an image and nothing else, in the order in which they have to be handed over, each
kind complete or missing, on a volume that is at times as `seen` says. -/
structure Only (seen : Fw → Prop) (imagePath : Option (Option Str16)) (cs : List Companion) : Prop where
  ex : ∃ g c x, cs = g ++ c ++ x ∧
    (g = [] ∨ ∃ fw, seen fw ∧ HasGlobal fw ∧ GlobalCredentials fw g) ∧
    (c = [] ∨ ∃ fw fw' image, seen fw ∧ HasOwn fw imagePath image ∧ seen fw' ∧ ImageCredentials fw' image c) ∧
    (x = [] ∨ ∃ fw fw' image, seen fw ∧ HasOwn fw imagePath image ∧ seen fw' ∧ ImageExtensions fw' image x)

/-- File names never contain the separator. -/
def ProperNames (fw : Fw) : Prop :=
  ∀ dir es e, fw.readDir dir = some es → some e ∈ es → sep16 ∉ e.name

/-- The directory can be listed without errors, and its files can be read and fit an archive. -/
structure OrderlyDir (fw : Fw) (dir : Str16) : Prop where
  ex : ∃ es, fw.readDir dir = some es ∧ none ∉ es ∧ es.length < 2 ^ 24 ∧
    ∀ e, some e ∈ es → e.regular = true → e.name.length < 2 ^ 29 ∧
      ∃ c, fw.read (dir ++ lit16 "\\" ++ e.name) = some c ∧ c.length < 2 ^ 32

/-- The volume answers all questions about companions of the image. -/
structure Orderly (fw : Fw) (imagePath : Option (Option Str16)) : Prop where
  exists_ : ∃ b, fw.tryExists globalDir = some b
  isDir : fw.tryExists globalDir = some true → ∃ b, fw.metadataIsDir globalDir = some b
  global : HasGlobal fw → OrderlyDir fw globalDir
  own : ∀ image, HasOwn fw imagePath image → OrderlyDir fw (image ++ lit16 ".extra")

end Verif.Companion.Spec
