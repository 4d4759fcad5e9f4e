import Verif.Spec.Fallback
/-!
# Specification: switching back

`nixos-rebuild switch --rollback` and `/nix/var/nix/profiles/system-<n>-link/bin/switch-to-configuration boot` make an
older generation the current one, while newer ones remain. They run the installation hook then, as the boot loader has
to start that generation from now on.
-/
namespace Verif.Menu
open Verif Tool StubName Generation

/-- If nothing is chosen in the menu, systemd-boot starts an entry with a name of `g`. -/
def StartsByItself (world : Env) (esp : Path) (fs : Fs) (items : List Item) (g : Gen) (key : Bytes) : Prop :=
  ∃ i n, items.head? = some i ∧ ShowsFile world esp fs n i ∧ IsNameOf world.uni world.sha g key n

/-- `g` is what the user expects to be started if all considered generations work: each other one should be below in the
menu. (With equal sort keys that is the main system of the newest generation.) -/
def Newest (env : Env) (cfg : Config) (g : Gen) : Prop :=
  Considers env cfg g ∧ ∀ g', Considers env cfg g' → g' ≠ g → Precedes g g'

end Verif.Menu
