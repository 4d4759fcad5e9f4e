import Verif.Model.Tools
/-!
# Permission bits

How the changes of a run move permission bits. The contents of files do not depend on them, so they are
kept beside the file system (`Model/Fs`): a file that is created gets bits that depend on the umask and are
not known here (`none`), renaming takes a file's bits along, `chmod` sets them.
-/
namespace Verif.Tool
open Verif

/-- Permission bits of the files, `none` where they are whatever the umask gives. -/
abbrev Modes := Path → Option Nat

/-- The bits after one change. -/
def modeStep (m : Modes) : Change → Modes
  | .create p => fun q => if q = p then none else m q
  | .rename a b _ => fun q => if q = b then m a else m q
  | .chmod p x => fun q => if q = p then some x else m q
  | _ => m

/-- The bits after these changes. -/
def modesAfter (m : Modes) (l : List Change) : Modes := l.foldl modeStep m

/-- The file was put into place by one of these changes. -/
def PutInPlace (l : List Change) (p : Path) : Prop := ∃ a d, Change.rename a p d ∈ l

instance (l : List Change) (p : Path) : Decidable (PutInPlace l p) :=
  decidable_of_iff (l.any fun c => match c with | .rename _ b _ => decide (b = p) | _ => false) (by
    unfold PutInPlace
    rw [List.any_eq_true]
    constructor
    · rintro ⟨c, hc, h⟩
      cases c <;> simp at h
      subst h
      exact ⟨_, _, hc⟩
    · rintro ⟨a, d, h⟩
      exact ⟨_, h, by simp⟩)

/-- Permission bits of a boot entry or boot loader made from this file: whatever the umask gives if it is signed,
because then it is a new file; those of the original if it is copied. -/
def programMode (env : Env) (signer : Signer) (src : Src) : Option Nat :=
  match signer with
  | .empty => some (env.mode src)
  | .local _ _ => none

end Verif.Tool
