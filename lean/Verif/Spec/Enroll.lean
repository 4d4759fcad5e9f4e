import Verif.Model.Enroll
import Verif.Spec.Rotation
/-!
# Specification: the machine can be booted when its keys are enrolled

At the next boot systemd-boot enrols the keys if it finds the files for that (`secure-boot-enroll force`), and from then
on the firmware starts only what is signed with them.
-/
namespace Verif.Tool
open Verif Generation

/-- The keys will be enrolled at the next boot. -/
def WillEnroll (esp : Path) (fs : Fs) : Prop :=
  ∀ n, n = lit "PK.auth" ∨ n = lit "KEK.auth" ∨ n = lit "db.auth" →
    ∃ d, fs.fileAt (esp ++ [lit "loader", lit "keys", lit "auto", n]) = some d

/-- A machine on which the certificate `key` is enrolled can be booted: it accepts both boot loaders and all boot
entries, and there is a boot entry for each generation. -/
structure BootsWithKey (accepts : Bytes → Bytes → Prop) (world env : Env) (cfg : Config) (key : Bytes) (fs : Fs) :
    Prop where
  loaders : ∀ q, IsLoader cfg q → ∃ data, fs.fileAt q = some data ∧ accepts key data
  entries : ∀ p, IsEntry cfg.esp p → (fs.get p).isSome → ∃ data, fs.fileAt p = some data ∧ accepts key data
  generations : ∀ g, Considers env cfg g → ∃ p, IsEntry cfg.esp p ∧ Boots world cfg.esp fs g p

end Verif.Tool
