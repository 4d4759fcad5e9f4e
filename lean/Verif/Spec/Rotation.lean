import Verif.Spec.History
import Verif.Spec.BootLoader
/-!
# Changes of the signing key

`accepts key data`: a machine on which the certificate `key` is enrolled accepts the image `data`. What is
signed for the certificate is accepted, and what passes the verification against the certificate.
-/
namespace Verif.Tool
open Verif Generation

/-- The signing tools of the run and the firmware agree. -/
structure AcceptsSigned (accepts : Bytes → Bytes → Prop) (env : Env) (cfg : Config) : Prop where
  signing : ∀ key d out, KeyOf env cfg.signer key → SignedBy env cfg.signer d out → accepts key out
  verifying : ∀ key d, KeyOf env cfg.signer key → ValidSignature env cfg.signer d → accepts key d

/-- An entry that is named for a certificate is accepted by machines with that certificate. -/
def NamedForKey (accepts : Bytes → Bytes → Prop) (env : Env) (esp : Path) (known : Gen → Bytes → Prop)
    (fs : Fs) : Prop :=
  ∀ g key n data, known g key → StubName.IsNameOf env.uni env.sha g key n →
    fs.fileAt (entryFile esp n) = some data → accepts key data

end Verif.Tool
