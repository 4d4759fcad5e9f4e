import Verif.Spec.Installer
/-!
# Specification: boot entries that are made from the stub the installer is given
-/
namespace Verif.Tool
open Verif Generation

/-- The boot entry is made from the stub that this run is given: it is the signed image of that stub for a considered
generation. -/
def MadeToday (env : Env) (cfg : Config) (data : Bytes) : Prop :=
  ∃ g v kernel initrd image, Considers env cfg g ∧ StubImage env cfg g v kernel initrd image ∧
    SignedBy env cfg.signer image data

/-- The same configuration, with another stub and another number of tries for new boot entries. -/
def Config.withStub (cfg : Config) (stub : Path) (tries : Nat) : Config := { cfg with lanzabooteStub := stub, tries := tries }

end Verif.Tool
