import Verif.Spec.Boot
import Verif.Spec.Companions
/-!
# Specification: which part of the volume a boot depends on
-/
namespace Verif.Stub.Spec
open Verif Verif.Stub Verif.Companion Verif.Companion.Spec

/-- Both volumes offer the same companion files with this suffix in the directory, in whatever order and
among whatever other files, or cannot be listed alike. -/
inductive SameFiles (fw fw' : Fw) (dir suffix : Str16) : Prop
  | unreadable (h : fw.readDir dir = none) (h' : fw'.readDir dir = none)
  | listed {es es' : List (Option DirEnt)} (h : fw.readDir dir = some es) (h' : fw'.readDir dir = some es')
      (failing : none ∈ es ↔ none ∈ es')
      (names : (((es.filterMap id).filter (isCompanion suffix)).map (·.name)).Perm
        (((es'.filterMap id).filter (isCompanion suffix)).map (·.name)))
      (contents : ∀ e ∈ es.filterMap id, isCompanion suffix e = true →
        fw.read (dir ++ lit16 "\\" ++ e.name) = fw'.read (dir ++ lit16 "\\" ++ e.name))

/-- The volumes agree on the companions of the image at `imagePath`. -/
structure SameCompanions (imagePath : Option (Option Str16)) (fw fw' : Fw) : Prop where
  globalExists : fw.tryExists globalDir = fw'.tryExists globalDir
  globalIsDir : fw.metadataIsDir globalDir = fw'.metadataIsDir globalDir
  global : fw.metadataIsDir globalDir = some true → SameFiles fw fw' globalDir (lit16 ".cred")
  ownIsDir : ∀ p, imagePath = some (some p) →
    fw.metadataIsDir (p ++ lit16 ".extra") = fw'.metadataIsDir (p ++ lit16 ".extra")
  credentials : ∀ p, imagePath = some (some p) → SameFiles fw fw' (p ++ lit16 ".extra") (lit16 ".cred")
  extensions : ∀ p, imagePath = some (some p) → SameFiles fw fw' (p ++ lit16 ".extra") (lit16 ".raw")

/-- The volumes agree on the kernel and the initrd the image names. -/
def SameNamed (pe : PE) (own : Bytes) (fw fw' : Fw) : Prop := ∀ name,
  TextSection pe own (lit ".linux") name ∨ TextSection pe own (lit ".initrd") name → fw.read name = fw'.read name

/-- At all times both volumes can be accessed or none, and then they agree on all this. -/
structure SameVolumes (env : Env) (fs fs' : Nat → Option Fw) : Prop where
  there : ∀ t, (fs t).isSome = (fs' t).isSome
  companions : ∀ t fw fw', fs t = some fw → fs' t = some fw' → SameCompanions env.imagePath fw fw'
  named : ∀ pe, env.parseOwn env.ownImage = some pe → ∀ t fw fw', fs t = some fw → fs' t = some fw' →
    SameNamed pe env.ownImage fw fw'

/-- The volume with one file replaced, added (`some`) or not readable any more (`none`). -/
def withFile (p : Str16) (data : Option Bytes) (fw : Fw) : Fw :=
  { fw with read := fun q => if q = p then data else fw.read q }

end Verif.Stub.Spec
