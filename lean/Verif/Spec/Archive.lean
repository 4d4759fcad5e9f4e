import Verif.Model.Companion
import Verif.Model.Text
import Verif.Spec.CpioMembers
/-!
# Specification: the archive member for a file on the volume

Only data types come from the model.
-/
namespace Verif.Companion.Spec
open Verif Verif.Companion Verif.Cpio

/-- The name of the file at `path`: what follows the last backslash. -/
def LastComponent (path name : Str16) : Prop :=
  0x5C ∉ name ∧ (path = name ∨ ∃ dir, path = dir ++ [0x5C] ++ name)

/-- The bytes are the text in UTF-8. (A text of 16 bit units without surrogates; the firmware library has no
others.) -/
def InUtf8 (name : Str16) (b : Bytes) : Prop :=
  ∀ text : Str, text.map Char.toNat = name.map UInt16.toNat → b = utf8 text

/-- The member for the file at `path`, packed under a prefix with these access bits. -/
structure MemberFor (fw : Fw) (pfx : Bytes) (bits : Nat) (path : Str16) (m : Member) : Prop where
  name : ∃ n b, LastComponent path n ∧ n ≠ [] ∧ InUtf8 n b ∧ m.name = pfx ++ [0x2F] ++ b
  contents : fw.read path = some m.data
  mode : m.mode = bits ||| Newc.S_IFREG

end Verif.Companion.Spec
