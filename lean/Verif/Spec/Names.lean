import Verif.Model.StubName
import Verif.Spec.EntryNames
/-!
# Specification: what identifies a boot entry
-/
namespace Verif.StubName
open Verif Generation

/-- An explicit SHA-256 collision. -/
def Collision (sha : Sha) (x y : Bytes) : Prop := x ≠ y ∧ sha.hash x = sha.hash y

/-- The document that is hashed into a stub's name. -/
def hashed (g : Gen) (key : Bytes) : Bytes := utf8 (Spelling.document g.spec.toplevel key)

/-- Same boot entry: version, specialisation, toplevel and signing key agree. -/
def SameEntry (g g' : Gen) (k k' : Bytes) : Prop :=
  g.version = g'.version ∧ g.specialisationName = g'.specialisationName ∧
    g.spec.toplevel = g'.spec.toplevel ∧ k = k'

/-- `n` is a name, with or without a boot counter, of the boot entry of `g` that is signed with `key`. -/
def IsNameOf (uni : Char → Bool) (sha : Sha) (g : Gen) (key : Bytes) (n : Str) : Prop :=
  Spelling.AnyEntryName (Spelling.Digit uni) g.version g.specialisationName (sha.hash (hashed g key)) n

end Verif.StubName
