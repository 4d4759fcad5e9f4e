import Verif.Spec.Installer
import Verif.Spec.Busy
/-!
# The order in which directories are listed
-/
namespace Verif.Tool
open Verif Generation

/-- The same machine, on which directories are listed in another order: `list t l` is the order in which the entries
`l` of a directory are returned when they are asked for at the time `t`. -/
def Env.listing (env : Env) (list : Nat → List Path → List Path) (sub : ∀ t l p, p ∈ list t l → p ∈ l) : Env :=
  { env with os := { env.os with list := list, list_sub := sub } }

/-- No entry of a directory is left out or returned twice. -/
def ListsAll (list : Nat → List Path → List Path) : Prop := ∀ t l, (list t l).Perm l

/-- There are no two boot entries for the same generation. -/
def NoTwoEntries (env : Env) (cfg : Config) (fs : Fs) : Prop :=
  ∀ g key n n', Considers env cfg g → KeyOf env cfg.signer key →
    StubName.IsNameOf env.uni env.sha g key n → StubName.IsNameOf env.uni env.sha g key n' →
    (fs.get (entryFile cfg.esp n)).isSome → (fs.get (entryFile cfg.esp n')).isSome → n = n'

end Verif.Tool
