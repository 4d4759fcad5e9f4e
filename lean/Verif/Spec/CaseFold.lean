import Verif.Spec.Installer
/-!
# Specification: names on a file system that ignores case

The ESP is a FAT file system, which takes `KERNEL` and `kernel` for the same name.
-/
namespace Verif.Tool
open Verif StubName Generation

/-- `fold` is how the file system compares names: names are the same if they are equal after `fold`. Of
the ASCII characters only the two cases of a letter are the same. Nothing is assumed about other
characters; in particular some of them may be the same as an ASCII character. -/
structure IgnoresCase (fold : Char → Char) : Prop where
  ascii : ∀ c d : Char, c.toNat < 128 → d.toNat < 128 → (fold c = fold d ↔ c.toLower = d.toLower)

/-- The two paths are the same place for a file system that compares names by `fold`. -/
def SamePlace (fold : Char → Char) (p q : Path) : Prop := p.map (·.map fold) = q.map (·.map fold)

/-- The generations are the same version of the same system and have the same specialisation name but
for the case. -/
def Twins (fold : Char → Char) (g g' : Gen) : Prop :=
  g.version = g'.version ∧ g.spec.toplevel = g'.spec.toplevel ∧
    g.specialisationName.map (·.map fold) = g'.specialisationName.map (·.map fold)

/-- The two files do not get in each other's way. -/
def Compatible (env : Env) (cfg : Config) (fold : Char → Char) (p p' : Path) (d d' : Bytes) : Prop :=
  p = p' ∨ d = d' ∨ Collision env.sha d d' ∨
    ∃ g g' key, Considers env cfg g ∧ Considers env cfg g' ∧ KeyOf env cfg.signer key ∧
      p = entryFile cfg.esp (stubName env.sha g key cfg.tries) ∧
      p' = entryFile cfg.esp (stubName env.sha g' key cfg.tries) ∧
      (Twins fold g g' ∨ Collision env.sha (hashed g key) (hashed g' key))

end Verif.Tool
