import Verif.Spec.Installer
/-!
# Specification: a signing key that cannot be used
-/
namespace Verif.Tool
open Verif Generation

/-- The signer does not sign anything, whenever it is asked to: the private key cannot be read, or does not match the
certificate, or the signing program does not work. -/
def CannotSign (env : Env) (cfg : Config) : Prop := ∀ image d, ¬ SignedBy env cfg.signer image d

end Verif.Tool
