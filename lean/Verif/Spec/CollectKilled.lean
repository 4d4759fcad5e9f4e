import Verif.Spec.SystemdBoot
/-!
# The default entry of the boot menu
-/
namespace Verif.Menu
open Verif Tool

/-- A boot entry with this name has no tries left. -/
def OutOfTries (n : Str) : Prop := lit "+0.efi" <:+ n ∨ lit "+0-" <:+: n

/-- systemd-boot shows the file `n` of `EFI/Linux` as the item `i`. -/
structure ShownAs (env : Env) (esp : Path) (fs : Fs) (n : Str) (i : Item) : Prop where
  ex : ∃ data, fs.fileAt (entryFile esp n) = some data ∧ Shows env data i
  id : i.id = n
  exhausted : i.exhausted = true ↔ OutOfTries n

/-- The boot entry `n` is above all others in the menu: it is started if nothing else is chosen. -/
structure IsDefault (env : Env) (esp : Path) (fs : Fs) (n : Str) : Prop where
  entry : IsEntry esp (entryFile esp n)
  top : ∃ i, ShownAs env esp fs n i ∧ ∀ n' i', IsEntry esp (entryFile esp n') → n' ≠ n →
    ShownAs env esp fs n' i' → menuCmp i i' = .lt

end Verif.Menu
