import Verif.Spec.Pcr
/-!
# Specification: how many measurements were made
-/
namespace Verif.Stub.Spec
open Verif Verif.Stub

/-- The number of measurements the TPM has carried out. -/
def carriedOut (t : List Event) : Nat := t.countP fun e => match e with
  | .measure _ _ _ .extended => true
  | _ => false

/-- The number of measurements that were skipped because there is no TPM. -/
def skipped (t : List Event) : Nat := t.countP fun e => match e with
  | .measure _ _ _ .noTpm => true
  | _ => false

end Verif.Stub.Spec
