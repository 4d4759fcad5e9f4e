import Verif.Spec.StubImage
import Verif.Spec.Companions
/-!
# Companion files on the ESP

Where the files of `Spec/Companions` are on a boot partition that the installer manages.
-/
namespace Verif.Tool
open Verif

/-- The path of the boot entry `name` as the firmware writes it, `\EFI\Linux\name`. -/
def entryText (name : Str) : Companion.Str16 := text16 (uefiText [lit "EFI", lit "Linux", name])

/-- The directory with the credentials and system extensions of the boot entry `name`. -/
def ownDir (esp : Path) (name : Str) : Path := esp ++ [lit "EFI", lit "Linux", name ++ lit ".extra"]

/-- The directory with the credentials for all images. -/
def credentialsDir (esp : Path) : Path := esp ++ [lit "loader", lit "credentials"]

/-- The firmware takes nothing for a directory that is none. -/
def ShowsDirs (fw : Companion.Fw) (esp : Path) (fs : Fs) : Prop :=
  ∀ rel, fw.metadataIsDir (text16 (uefiText rel)) = some true → fs.get (esp ++ rel) = some .dir

end Verif.Tool
