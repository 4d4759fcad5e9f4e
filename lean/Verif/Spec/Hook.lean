import Verif.Model.Hook
import Verif.Spec.Program
import Verif.Spec.History
/-!
# Vocabulary for the installation hook
-/
namespace Verif.Tool
open Verif Generation

/-- The disk when the last of these calls has ended. -/
def diskAfter (calls : List (Env × Cli)) (fs : Fs) : Fs := calls.foldl (fun f call => (program call.1 call.2 f).2.fs) fs

/-- The call is for another partition than the one mounted at `esp`, and its directory for measurements is not there. -/
structure NotAt (esp : Path) (c : Cli) : Prop where
  mounted : ¬ esp <+: c.esp ∧ ¬ c.esp <+: esp
  lock : ∀ p, c.pcrlockDirectory = some p → ¬ esp <+: p ∧ ¬ p <+: esp

/-- The call is a proper one: the tools work, the generations that the command line asks for are among the known ones. -/
def ProperCall (world : Env) (known : Gen → Bytes → Prop) (call : Env × Cli) : Prop :=
  ∀ cfg, AsTold call.1 call.2 cfg → ProperRun world call.2.esp known call.1 cfg

end Verif.Tool
