import Verif.Model.Text
/-!
# The command line of objcopy

From objcopy(1): `objcopy [options] infile outfile`; `--add-section sectionname=filename` adds a new
section named `sectionname` with the contents of the file `filename`; `--change-section-vma
sectionpattern=val` sets the address of the section to `val`.
-/
namespace Verif.Objcopy
open Verif

/-- Value of a hexadecimal digit. -/
def hexVal (c : Char) : Option Nat :=
  if '0' ≤ c ∧ c ≤ '9' then some (c.toNat - '0'.toNat)
  else if 'a' ≤ c ∧ c ≤ 'f' then some (c.toNat - 'a'.toNat + 10)
  else if 'A' ≤ c ∧ c ≤ 'F' then some (c.toNat - 'A'.toNat + 10)
  else none

/-- Value of hexadecimal digits after `acc`. -/
def hexFrom (acc : Nat) : Str → Option Nat
  | [] => some acc
  | c :: cs => match hexVal c with
    | some d => hexFrom (acc * 16 + d) cs
    | none => none

/-- A number written `0x...`. -/
def number : Str → Option Nat
  | '0' :: 'x' :: c :: cs => hexFrom 0 (c :: cs)
  | _ => none

/-- What an invocation asks for. -/
structure Invocation where
  /-- sections to be added and the files with their contents -/
  sections : List (Str × Str) := []
  /-- addresses of sections -/
  addresses : List (Str × Nat) := []
  files : List Str := []
  deriving DecidableEq, Repr

/-- The meaning of the arguments. -/
def parse : List Str → Option Invocation
  | [] => some {}
  | [f] => some { files := [f] }
  | a :: b :: rest =>
    if a = lit "--add-section" then
      match splitOnce ['='] b, parse rest with
      | some (name, file), some i => some { i with sections := (name, file) :: i.sections }
      | _, _ => none
    else if a = lit "--change-section-vma" then
      match splitOnce ['='] b with
      | some (name, val) => match number val, parse rest with
        | some v, some i => some { i with addresses := (name, v) :: i.addresses }
        | _, _ => none
      | none => none
    else match parse (b :: rest) with
      | some i => some { i with files := a :: i.files }
      | none => none

end Verif.Objcopy
