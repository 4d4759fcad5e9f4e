import Verif.Model.Stub
/-!
# Specification: the memory the stub gets from the firmware
-/
namespace Verif.Stub.Spec
open Verif Verif.Stub

/-- When asked for `n` pages, the firmware gave those at `base` (at some time). -/
def Given (env : Env) (base n : Nat) : Prop := ∃ t, env.allocate t n = .ok base

/-- The address is in the `n` pages of 4 KiB that begin at `base`. -/
def InPages (base n a : Nat) : Prop := base ≤ a ∧ a < base + n * 4096

/-- The kernel does not change the byte at this address before it returns. -/
def KernelLeaves (env : Env) (a : Nat) : Prop := ∀ w, (env.kernel w).mem a = w.mem a

end Verif.Stub.Spec
