import Verif.Spec.Installer
import Verif.Spec.Version
import Verif.Spec.OsRelease
/-!
# Vocabulary for the boot loader

The release of a systemd-boot binary, and when the installed boot loader is as it should be. Written
from the documentation of systemd-boot: the section `.osrel` of the binary is an os-release file whose
`VERSION` is the release.
-/
namespace Verif.Tool
open Verif Version.Spec OsRelease.Spec

/-- `data` is systemd-boot of release `r`: its section `.osrel` holds well-formed os-release lines,
possibly followed by a NUL, in which the last assignment to `VERSION` is `r`. -/
structure HasRelease (env : Env) (data : Bytes) (r : Release) : Prop where
  fits : Fits r
  ex : ∃ (lines : List Line) (sec : Bytes), (∀ l ∈ lines, Line.Ok l) ∧
    lastValue (lit "VERSION") (lines.flatMap Line.assigns) = some (written r) ∧
    FileSection env data (lit ".osrel") sec ∧
    (sec = utf8 (lines.flatMap Line.render) ∨
      sec = utf8 (lines.flatMap Line.render) ++ [0] ∧ 0 ∉ utf8 (lines.flatMap Line.render))

/-- The signature of `data` is valid. Without keys there is nothing to check. -/
def ValidSignature (env : Env) : Signer → Bytes → Prop
  | .empty, _ => True
  | .local pub _, data => env.sbverify pub data = true

/-- The two places of the boot loader. -/
def IsLoader (cfg : Config) (q : Path) : Prop := q = fallbackFile cfg ∨ q = systemdFile cfg

/-- Both installed binaries are validly signed and at least as new as the available one; with measured
boot, there is a current measurement. -/
structure LoaderFine (env : Env) (cfg : Config) (fs : Fs) : Prop where
  installed : ∃ source r, env.store (loaderSource cfg) = some source ∧ HasRelease env source r ∧
    ∀ q, IsLoader cfg q → ∃ data r', fs.fileAt q = some data ∧ HasRelease env data r' ∧
      ¬ Older r' r ∧ ValidSignature env cfg.signer data
  measured : ∀ p, cfg.pcrlockDirectory = some p → (fs.fileAt (currentFile p)).isSome

/-- The change writes to `q`, moves something there or away, or removes it. -/
def Touches : Change → Path → Prop
  | .mkdir p, q => p = q
  | .create p, q => p = q
  | .write p _, q => p = q
  | .chmod p _, q => p = q
  | .rename a b _, q => a = q ∨ b = q
  | .unlink p, q => p = q
  | .rmdir p, q => p = q
  | .fsync _, _ => False
  | .syncfs _, _ => False
  | .collecting, _ => False

end Verif.Tool
