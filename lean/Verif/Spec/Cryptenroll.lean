import Verif.Model.Cryptenroll
import Verif.Spec.Hook
/-!
# Specification: a policy for all generations
-/
namespace Verif.Tool
open Verif Generation

/-- The policy made of the measurements on this disk covers the generation: there is a measurement of its boot entry. -/
def CoveredBy (fs : Fs) (dir : Path) (g : Gen) : Prop := (fs.get (measurementFile dir g)).isSome

end Verif.Tool
