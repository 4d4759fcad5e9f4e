import Verif.Model.Text
/-!
# Specification: boot counting (UAPI Boot Loader Specification)

A boot entry's file name is a base name, optionally a counter (`+LEFT` or `+LEFT-DONE`), and
`.efi`.  The boot loader renames the entry when it tries it; user space removes the counter when
the boot was good and sets the tries left to zero when it was bad.
-/
namespace Verif.BootCounting
open Verif

inductive Counter
  | none
  | left (n : Nat)
  | leftDone (n d : Nat)
  deriving DecidableEq, Repr

def Counter.text : Counter → Str
  | .none => []
  | .left n => ['+'] ++ toDec n
  | .leftDone n d => ['+'] ++ toDec n ++ ['-'] ++ toDec d

def entryName (base : Str) (c : Counter) : Str := base ++ c.text ++ ['.', 'e', 'f', 'i']

/-- What may happen to the counter of an entry. A blessed entry stays as it is. -/
inductive CounterStep : Counter → Counter → Prop
  | try_first {n} : CounterStep (.left (n + 1)) (.leftDone n 1)
  | try_again {n d} : CounterStep (.leftDone (n + 1) d) (.leftDone n (d + 1))
  | bless_left {n} : CounterStep (.left n) .none
  | bless {n d} : CounterStep (.leftDone n d) .none
  | bad_left {n} : CounterStep (.left n) (.leftDone 0 0)
  | bad {n d} : CounterStep (.leftDone n d) (.leftDone 0 d)

/-- One rename of a boot entry. -/
def Rename (name name' : Str) : Prop :=
  ∃ base c c', name = entryName base c ∧ CounterStep c c' ∧ name' = entryName base c'

/-- Any number of renames. -/
inductive Renames : Str → Str → Prop
  | refl {n} : Renames n n
  | step {n n' n''} : Renames n n' → Rename n' n'' → Renames n n''

end Verif.BootCounting
